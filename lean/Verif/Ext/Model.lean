import Verif.Dg.Model

/-!
Extruded meshes, seen through their quadrature points, and the weak form of `VerticalVelocitySolver`
(thetis/utility3d.py).  One quadrature rule serves all forms: the forms below use rules of different degree for
the same products, which this model takes to give the same sums.
-/

namespace Verif.Ext

open Verif.Dg

/-- Parts of the boundary of an extruded mesh: `ds_surf`, `ds_bottom` and `ds_v`. -/
inductive Face
  | surf | bottom | side
deriving DecidableEq

/-- An extruded mesh.  `hor` separates the horizontal interior facets (`dS_h`, between the layers) from the vertical
ones (`dS_v`).  On `dS_h` the plus side is the lower cell.  The marker has a meaning on the sides only. -/
structure Mesh3 where
  m : Mesh 3
  hor : m.S → Bool
  face : m.B → Face

variable (e : Mesh3)

/-- `∫ f dS_h`. -/
def Mesh3.dSh (f : e.m.S → ℝ) : ℝ := e.m.dS fun s => if e.hor s then f s else 0

/-- `∫ f dS_v`. -/
def Mesh3.dSv (f : e.m.S → ℝ) : ℝ := e.m.dS fun s => if e.hor s then 0 else f s

/-- `∫ f ds_surf`. -/
def Mesh3.dsurf (f : e.m.B → ℝ) : ℝ := ∑ b, e.m.wB b * if e.face b = .surf then f b else 0

/-- `∫ f ds_bottom`. -/
def Mesh3.dbottom (f : e.m.B → ℝ) : ℝ := ∑ b, e.m.wB b * if e.face b = .bottom then f b else 0

/-- `for bnd_marker in self.boundary_markers: f += ... ds_v(bnd_marker)`; equation.py:29. -/
def Mesh3.sideLoop (f : ℕ → e.m.B → ℝ) : ℝ := e.m.bndLoop fun k b => if e.face b = .side then f k b else 0

variable {e}

/-- `dot(uv, normal)` with the first two components, utility3d.py:116 and tracer_eq.py:179-180. -/
def normalH (uv : Vc e.m) (b : e.m.B) : ℝ := (uv 0 (.bnd b)).v * e.m.nb b 0 + (uv 1 (.bnd b)).v * e.m.nb b 1

/-- `uv_star[0]*jump(test, n[0]) + uv_star[1]*jump(test, n[1]) + uv_star[2]*jump(test, n[2])` with
`uv_star = avg(uv)`, utility3d.py:96-103. -/
noncomputable def facetDiv (uv : Vc e.m) (test : Sc e.m) (s : e.m.S) : ℝ :=
  avg (uv 0) s * jumpN test s 0 + avg (uv 1) s * jumpN test s 1 + avg (uv 2) s * jumpN test s 2

/-- The bilinear form of `VerticalVelocitySolver`, utility3d.py:91-93; `w` is the third component of the
solution, `test` that of the test function. -/
noncomputable def wLeft (w test : Sc e.m) : ℝ :=
  e.dsurf (fun b => (w (.bnd b)).v * (test (.bnd b)).v * e.m.nb b 2) +
    e.dSh (fun s => avg w s * jumpN test s 2) -
    e.m.dx fun x => (test (.cell x)).g 2 * (w (.cell x)).v

/-- Its right-hand side, utility3d.py:95-116.  `bfs k` says whether `boundary_funcs` has the key `k`. -/
noncomputable def wRight (bfs : ℕ → Bool) (uv : Vc e.m) (test : Sc e.m) : ℝ :=
  let lV := e.dSv fun s => facetDiv uv test s
  let lH := e.dSh fun s => facetDiv uv test s
  let lSurf := e.dsurf fun b => ((uv 0 (.bnd b)).v * e.m.nb b 0 + (uv 1 (.bnd b)).v * e.m.nb b 1 +
    (uv 2 (.bnd b)).v * e.m.nb b 2) * (test (.bnd b)).v
  let lVol := e.m.dx fun x => ∑ i, (uv i (.cell x)).v * (test (.cell x)).g i
  let l := lVol - lV - lH - lSurf
  l + e.sideLoop fun k b => if bfs k then -(normalH uv b * (test (.bnd b)).v) else 0

end Verif.Ext
