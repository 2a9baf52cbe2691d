import Mathlib.Analysis.SpecialFunctions.Trigonometric.Inverse
import Mathlib.Analysis.Real.Sqrt
import Mathlib.Algebra.BigOperators.Fin
import Mathlib.Data.Fintype.BigOperators

/-!
Model of the mesh measures of `thetis/utility.py` (element size, minimum angle, cell widths, anisotropic cell
size, beta plane) and of the time step estimates of `thetis/solver.py` and `thetis/solver2d.py`.

Simplifications: exact arithmetic, linear systems solved exactly, straight triangles (three coordinate nodes per
cell), `acos` and `sqrt` of numbers outside their domain are `none` where it matters.
-/

namespace Verif.Geo

/-- A mesh of straight triangles. -/
structure Mesh where
  V : Type
  T : Type
  [fv : Fintype V]
  [ft : Fintype T]
  x : V → ℝ
  y : V → ℝ
  vert : T → Fin 3 → V

attribute [instance] Mesh.fv Mesh.ft

variable {M : Mesh}

/-- `CellVolume(mesh)`. -/
noncomputable def Mesh.area (M : Mesh) (t : M.T) : ℝ :=
  |(M.x (M.vert t 1) - M.x (M.vert t 0)) * (M.y (M.vert t 2) - M.y (M.vert t 0))
    - (M.x (M.vert t 2) - M.x (M.vert t 0)) * (M.y (M.vert t 1) - M.y (M.vert t 0))| / 2

/-- `inner(test, tri) * dx` for continuous piecewise linear functions given by vertex values: the integrals of
products of two hat functions over a triangle are a twelfth of the area, a sixth for the same function. -/
noncomputable def mass (M : Mesh) (h test : M.V → ℝ) : ℝ :=
  ∑ t, M.area t / 12 * (∑ i, h (M.vert t i) * test (M.vert t i)
    + (∑ i, h (M.vert t i)) * ∑ i, test (M.vert t i))

/-- `inner(test, s) * dx` for a cellwise constant `s`. -/
noncomputable def load (M : Mesh) (s : M.T → ℝ) (test : M.V → ℝ) : ℝ :=
  ∑ t, M.area t / 3 * s t * ∑ i, test (M.vert t i)

/-- `get_horizontal_elem_size_2d`, utility.py:622-640: `h` is the projection of `sqrt(CellVolume)`. -/
def IsElemSize (M : Mesh) (h : M.V → ℝ) : Prop := ∀ test, mass M h test = load M (fun t => √(M.area t)) test

/-! ### Minimum angle -/

/-- The search for the shortest edge, utility.py:685-693. -/
noncomputable def minIndex (e : Fin 3 → ℝ) : Fin 3 :=
  let i : Fin 3 := if e 1 < e 0 then 1 else 0
  if e 2 < e i then 2 else i

/-- The numerator, utility.py:695-705. -/
noncomputable def angleNum (e : Fin 3 → ℝ) : ℝ := ∑ j, if j = minIndex e then -(e j * e j) else e j * e j

/-- The denominator, utility.py:696-705. -/
noncomputable def angleDen (e : Fin 3 → ℝ) : ℝ := 2 * ∏ j, if j = minIndex e then 1 else e j

/-- `minimum_angle_kernel`, utility.py:682-708 (the outer loop repeats the same computation). `none` is NaN. -/
noncomputable def minAngle (e : Fin 3 → ℝ) : Option ℝ :=
  let c := angleNum e / angleDen e
  if -1 ≤ c ∧ c ≤ 1 then some (Real.arccos c) else none

/-! ### Cell widths -/

/-- `cell_width_kernel` in one direction, utility.py:730-735, for three nodes: index `2*i+2` modulo 6 is the next
node. `w0` is the initial value. -/
noncomputable def widthLoop (w0 : ℝ) (c : Fin 3 → ℝ) : ℝ :=
  (List.finRange 3).foldl (fun w i => max w |c i - c (i + 1)|) w0

/-- The wetting and drying parameter before it is capped, solver2d.py:279: `dot(widths, abs(grad(h)))` in a cell. -/
noncomputable def wdAlpha (wx wy gx gy : ℝ) : ℝ := wx * |gx| + wy * |gy|

/-- The cap, solver2d.py:280-283. -/
noncomputable def cap (lo hi : Option ℝ) (a : ℝ) : ℝ :=
  let a := match hi with | some h => min h a | none => a
  match lo with | some l => max l a | none => a

/-- Interpolation of a cellwise constant field to the vertices, solver2d.py:285-287: each cell in turn writes its value to its
vertices; the last one stays. -/
noncomputable def interpP1 (M : Mesh) (order : List M.T) (a : M.T → ℝ) (v : M.V) : Option ℝ :=
  open Classical in order.foldl (fun acc t => if ∃ i, M.vert t i = v then some (a t) else acc) none

/-! ### Anisotropic cell size -/

/-- `anisotropic_cell_size`, utility.py:756-767, for the Jacobian `[[a, b], [c, d]]`; `eps` is the machine epsilon
added to the discriminant. `none` is NaN. -/
noncomputable def anisoSize (eps a b c d : ℝ) : Option ℝ :=
  let j00 := a * a + c * c
  let j01 := a * b + c * d
  let j10 := b * a + d * c
  let j11 := b * b + d * d
  let I1 := j00 + j11
  let D := (j00 - j11) ^ 2 + 4 * j01 * j10
  let D := D + eps
  let r := (I1 - √D) / 2
  if 0 ≤ r then some √r else none

/-! ### Beta plane -/

/-- `omega` and `r`, utility.py:778-779. -/
noncomputable def omega : ℝ := 7.2921150e-5

/-- Earth radius, utility.py:779. -/
noncomputable def radius : ℝ := 6371e3

/-- `beta_plane_coriolis_params`, utility.py:770-789. -/
noncomputable def betaParams (latitude : ℝ) : ℝ × ℝ :=
  let alpha := 2 * Real.pi * latitude / 360
  (2 * omega * Real.sin alpha, 2 * omega * Real.cos alpha / radius)

/-- `beta_plane_coriolis_function`, utility.py:792-804, at a point. -/
noncomputable def betaPlane (latitude yOffset y : ℝ) : ℝ :=
  let p := betaParams latitude
  p.1 + p.2 * (y - yOffset)

/-! ### Time step estimates -/

/-- Options that enter the time step, options.py:587-590; `leapfrog` is `timestepper_type == 'LeapFrog'`, solver.py:291. -/
structure Opts where
  p : ℕ
  family : String
  leapfrog : Bool

/-- `compute_dx_factor`, solver.py:164-178. -/
noncomputable def dxFactor (o : Opts) : ℝ :=
  let p : ℝ := if o.family = "rt-dg" ∨ o.family = "bdm-dg" then o.p + 1 else o.p
  let lr := p ^ 2 / 3 + 7 / 6 * p + 1
  (1 / 2) * (1 / 4) / lr

/-- `compute_dz_factor`, solver.py:180-191. -/
noncomputable def dzFactor (o : Opts) : ℝ :=
  let lr : ℝ := 1 / max (o.p : ℝ) 1
  (1 / 2) * (1 / 4) / lr

/-- `comm.allreduce(·, op=MPI.MIN)` of what each process computes; it fails if a process fails. -/
noncomputable def allMin (l : List (Option ℝ)) : Option ℝ := do
  let l ← l.mapM id
  l.min?

/-- `compute_dt_h_advection`, solver.py:232-252; `ranks` are the values of `h_elem_size_2d.dat.data` of each process.
The minimum of an empty array fails. -/
noncomputable def dtH (o : Opts) (ranks : List (List ℝ)) (u : ℝ) : Option ℝ :=
  allMin (ranks.map fun l => l.min?.map fun m => m * dxFactor o / u)

/-- `compute_dt_v_advection`, solver.py:254-274; `ranks` are the values of `v_elem_size_2d.dat.data`. -/
noncomputable def dtV (o : Opts) (ranks : List (List ℝ)) (w : ℝ) : Option ℝ :=
  allMin (ranks.map fun l => l.min?.map fun m => m * dzFactor o / w)

/-- `compute_dt_diffusion`, solver.py:276-296. -/
noncomputable def dtDiff (o : Opts) (ranks : List (List ℝ)) (nu : ℝ) : Option ℝ :=
  let factor : ℝ := if o.family = "bdm-dg" then 1.8 else 2
  let factor := if o.leapfrog then factor * 0.6 else factor
  allMin (ranks.map fun l => l.min?.map fun m => (m * (factor * dxFactor o)) ^ 2 / nu)

/-- `v_elem_size_2d` of a column of layers (top to bottom): the height of the top element, utility3d.py:743-745. -/
def topHeight (column : List ℝ) : Option ℝ := column.head?

/-- `set_time_step` of the 3D solver with automatic time step in the mode set by `create_timestepper`, solver.py:351-362,
383-392 and 398 (`dt_mode` is `'3d'`, solver.py:846): the 3D limits, fitted to the export interval. `none` if a limit
is missing or for a division by zero. -/
noncomputable def setTimeStep3 (o : Opts) (cfl expT : ℝ) (hs vs : List (List ℝ)) (u w nu : ℝ) : Option ℝ := do
  let a ← dtH o hs u
  let b ← dtV o vs w
  let c ← dtDiff o hs nu
  let dt := cfl * min (min a b) c
  let m := ⌈expT / dt⌉
  if m = 0 then none else some (expT / m)

/-- A quadrature rule of a triangle: weights (sum to one) and barycentric coordinates. -/
structure Rule where
  Q : Type
  [fq : Fintype Q]
  w : Q → ℝ
  b : Q → Fin 3 → ℝ

attribute [instance] Rule.fq

/-- A piecewise linear function at a quadrature point. -/
noncomputable def at_ (R : Rule) (f : M.V → ℝ) (t : M.T) (q : R.Q) : ℝ := ∑ i, R.b q i * f (M.vert t i)

/-- The bathymetry with a minimum, solver2d.py:166-168 and solver.py:210-212. -/
noncomputable def bathPos (bath : M.V → ℝ) (v : M.V) : ℝ := if bath v < 0.05 then 0.05 else bath v

/-- `compute_time_step`, solver2d.py:150-177 (`compute_dt_2d`, solver.py:194-226, solves the same equation): `s` is the
projection of element size over wave speed for a continuous piecewise linear bathymetry. -/
def IsMaxStep (M : Mesh) (R : Rule) (g uScale : ℝ) (csize bath s : M.V → ℝ) : Prop :=
  ∀ test, mass M s test =
    ∑ t, M.area t * ∑ q, R.w q * (at_ R test t q * (at_ R csize t q / (√(g * at_ R (bathPos bath) t q) + uScale)))

/-- `set_time_step` of the 2D solver with automatic time step, solver2d.py:237-241; `s` are the values of
`compute_time_step` of each process. -/
noncomputable def setTimeStep2 (cfl alpha : ℝ) (s : List (List ℝ)) : Option ℝ :=
  allMin (s.map fun l => l.min?.map fun m => cfl * alpha * m)

end Verif.Geo
