import Mathlib.Analysis.Real.Sqrt
import Mathlib.Data.Fintype.BigOperators
import Mathlib.Algebra.BigOperators.Fin
import Mathlib.Algebra.BigOperators.Group.List.Basic

/-!
The setting of the weak forms: a mesh seen through its quadrature points, UFL expressions as values with
first derivatives at these points, and the UFL operators used by the terms.

A form integral is the quadrature sum that firedrake assembles.  Functions are given by their value and
gradient at each point of each cell and at both sides of each facet; products and square roots
follow the rules of differentiation that UFL applies.  What is left out: how values at the points come from
degrees of freedom.  Where a theorem needs the divergence theorem it has the hypothesis that the
quadrature is exact for one particular product of functions.
-/

namespace Verif.Dg

/-- Value and gradient of an expression at a point. -/
@[ext] structure Jet (d : ℕ) where
  v : ℝ
  g : Fin d → ℝ

namespace Jet

variable {d : ℕ}

/-- A constant: the gradient is zero. -/
def const (x : ℝ) : Jet d := ⟨x, fun _ => 0⟩

instance : Zero (Jet d) := ⟨const 0⟩
instance : One (Jet d) := ⟨const 1⟩
instance : Add (Jet d) := ⟨fun a b => ⟨a.v + b.v, fun i => a.g i + b.g i⟩⟩
instance : Neg (Jet d) := ⟨fun a => ⟨-a.v, fun i => -a.g i⟩⟩
instance : Sub (Jet d) := ⟨fun a b => ⟨a.v - b.v, fun i => a.g i - b.g i⟩⟩
/-- The product rule. -/
instance : Mul (Jet d) := ⟨fun a b => ⟨a.v * b.v, fun i => a.g i * b.v + a.v * b.g i⟩⟩

/-- The square root and its derivative. -/
noncomputable def sqrt (a : Jet d) : Jet d := ⟨Real.sqrt a.v, fun i => a.g i / (2 * Real.sqrt a.v)⟩

end Jet

/-- A mesh with quadrature rules.  `C`, `S`, `B` are the quadrature points of cells, interior facets and
boundary facets with weights (which include the size of the cell or facet), `np`, `nm` the outward
normals of the two sides of an interior facet, `nb` the outward normal at the boundary and `marker` the
boundary id.  `markers` is the list of equation.py:29.  `vol` and `area` are UFL's CellVolume and
FacetArea. -/
structure Mesh (d : ℕ) where
  C : Type
  S : Type
  B : Type
  [finC : Fintype C]
  [finS : Fintype S]
  [finB : Fintype B]
  wC : C → ℝ
  wS : S → ℝ
  wB : B → ℝ
  np : S → Fin d → ℝ
  nm : S → Fin d → ℝ
  nb : B → Fin d → ℝ
  marker : B → ℕ
  markers : List ℕ
  volP : S → ℝ
  volM : S → ℝ
  volB : B → ℝ
  areaS : S → ℝ
  areaB : B → ℝ
  wC_nonneg : ∀ c, 0 ≤ wC c
  wS_nonneg : ∀ s, 0 ≤ wS s
  wB_nonneg : ∀ b, 0 ≤ wB b
  markers_nodup : markers.Nodup
  marker_mem : ∀ b, marker b ∈ markers

attribute [instance] Mesh.finC Mesh.finS Mesh.finB

variable {d : ℕ}

/-- Where an expression can be evaluated. -/
inductive Pt (m : Mesh d) where
  | cell (c : m.C)
  | plus (s : m.S)
  | minus (s : m.S)
  | bnd (b : m.B)

/-- A scalar UFL expression. -/
abbrev Sc (m : Mesh d) := Pt m → Jet d

/-- A vector valued UFL expression. -/
abbrev Vc (m : Mesh d) := Fin d → Sc m

/-- The constant expression. -/
def cst (m : Mesh d) (x : ℝ) : Sc m := fun _ => Jet.const x

/-- `∫ f dx`. -/
def Mesh.dx (m : Mesh d) (f : m.C → ℝ) : ℝ := ∑ c, m.wC c * f c

/-- `∫ f dS`, over the interior facets. -/
def Mesh.dS (m : Mesh d) (f : m.S → ℝ) : ℝ := ∑ s, m.wS s * f s

/-- `∫ f ds(k)`, over the boundary facets with id `k`. -/
def Mesh.ds (m : Mesh d) (k : ℕ) (f : m.B → ℝ) : ℝ := ∑ b, if m.marker b = k then m.wB b * f b else 0

/-- The loop `for bnd_marker in self.boundary_markers`, summing one integral for each. -/
def Mesh.bndLoop (m : Mesh d) (f : ℕ → m.B → ℝ) : ℝ := (m.markers.map fun k => m.ds k (f k)).sum

/-- `avg(f)` at an interior facet. -/
noncomputable def avg {m : Mesh d} (f : Sc m) (s : m.S) : ℝ :=
  (1 / 2) * ((f (.plus s)).v + (f (.minus s)).v)

/-- `jump(f)` without a normal: plus minus minus. -/
def jump {m : Mesh d} (f : Sc m) (s : m.S) : ℝ := (f (.plus s)).v - (f (.minus s)).v

/-- `jump(f, n)` of a scalar, component `i`: the sum of both sides times their normals. -/
def jumpN {m : Mesh d} (f : Sc m) (s : m.S) (i : Fin d) : ℝ :=
  (f (.plus s)).v * m.np s i + (f (.minus s)).v * m.nm s i

/-- `jump(f, n)` of a vector. -/
def jumpV {m : Mesh d} (f : Vc m) (s : m.S) : ℝ :=
  (∑ i, (f i (.plus s)).v * m.np s i) + ∑ i, (f i (.minus s)).v * m.nm s i

/-- `div(f)` at a point. -/
def div {m : Mesh d} (f : Vc m) (x : Pt m) : ℝ := ∑ i, (f i x).g i

/-- `dot(f, n)` at the boundary. -/
def normalAt {m : Mesh d} (f : Vc m) (b : m.B) : ℝ := ∑ i, (f i (.bnd b)).v * m.nb b i

/-- `sign(x)`; the value at zero is `z`, which the theorems leave open. -/
noncomputable def sgn (z x : ℝ) : ℝ := if 0 < x then 1 else if x < 0 then -1 else z

/-- The quadrature rules satisfy the divergence theorem for the vector field `f`. -/
def DivExact (m : Mesh d) (f : Vc m) : Prop :=
  m.dx (fun c => div f (.cell c)) = m.dS (fun s => jumpV f s) + ∑ b, m.wB b * normalAt f b

/-- The two sides of an interior facet have opposite normals. -/
def Mesh.Flat (m : Mesh d) : Prop := ∀ s i, m.nm s i = -m.np s i

/-- The normals have length one. -/
def Mesh.UnitNormals (m : Mesh d) : Prop :=
  (∀ s, ∑ i, m.np s i ^ 2 = 1) ∧ (∀ s, ∑ i, m.nm s i ^ 2 = 1) ∧ ∀ b, ∑ i, m.nb b i ^ 2 = 1

/-! ### Water depth -/

/-- `DepthExpression`, utility.py:968-973; bathymetry and alpha are expressions. -/
structure Depth (m : Mesh d) where
  bathymetry : Sc m
  nonlinear : Bool
  wetdry : Bool
  alpha : Sc m

/-- `wd_bathymetry_displacement`, utility.py:975-985, at a point. -/
noncomputable def Depth.displacement {m : Mesh d} (D : Depth m) (x : Pt m) (eta : Jet d) : Jet d :=
  if D.wetdry then
    let h := D.bathymetry x + eta
    Jet.const (1 / 2) * (Jet.sqrt (h * h + D.alpha x * D.alpha x) - h)
  else 0

/-- `get_total_depth`, utility.py:987-996, at a point. -/
noncomputable def Depth.total {m : Mesh d} (D : Depth m) (x : Pt m) (eta : Jet d) : Jet d :=
  if D.nonlinear then D.bathymetry x + eta + D.displacement x eta else D.bathymetry x

end Verif.Dg
