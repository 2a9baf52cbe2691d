import Verif.Dg.Model

/-!
Model of `thetis/diagnostics.py` and of `form2indicator` (utility.py:1109-1156) in the setting of `Verif.Dg`.

Simplifications: the linear systems are solved exactly; function spaces are sets of expressions; the cell volume is the sum
of the quadrature weights of the cell; the quadrature rules are those of the mesh for every form.
-/

namespace Verif.Diag

open Verif.Dg

variable {m : Mesh 2}

/-- `∫ f ds` over the whole boundary. -/
def dsAll (m : Mesh 2) (f : m.B → ℝ) : ℝ := ∑ b, m.wB b * f b

/-- UFL's `perp`. -/
def perp (uv : Vc m) : Vc m := ![-uv 1, uv 0]

/-- Right-hand side of the vorticity system, diagnostics.py:63-65. -/
noncomputable def vortRhs (uv : Vc m) (test : Sc m) : ℝ :=
  -m.dx (fun c => ∑ i, (perp uv i (.cell c)).v * (test (.cell c)).g i)
    + dsAll m (fun b => ∑ i, (perp uv i (.bnd b)).v * ((test (.bnd b)).v * m.nb b i))
    + m.dS fun s => ∑ i, avg (perp uv i) s * jumpN test s i

/-- `VorticityCalculator2D.solve`, diagnostics.py:61-78. -/
def IsVorticity (V : Set (Sc m)) (uv : Vc m) (om : Sc m) : Prop :=
  om ∈ V ∧ ∀ test ∈ V, m.dx (fun c => (om (.cell c)).v * (test (.cell c)).v) = vortRhs uv test

/-- `GradientRecoverer2D.solve`, diagnostics.py:95-100. -/
def IsGradient (V : Set (Vc m)) (f : Sc m) (g : Vc m) : Prop :=
  g ∈ V ∧ ∀ t ∈ V, m.dx (fun c => ∑ i, (g i (.cell c)).v * (t i (.cell c)).v) =
    m.dx fun c => ∑ i, (f (.cell c)).g i * (t i (.cell c)).v

/-- A tensor valued expression. -/
abbrev Tc (m : Mesh 2) := Fin 2 → Vc m

/-- `a` of the Hessian system, diagnostics.py:160-164: `tau_ij n_j` is `dot(tau, n)`. -/
noncomputable def hessLhs (g : Vc m) (H : Tc m) (phi : Vc m) (tau : Tc m) : ℝ :=
  m.dx (fun c => ∑ i, ∑ j, (tau i j (.cell c)).v * (H i j (.cell c)).v)
    + m.dx (fun c => ∑ i, div (tau i) (.cell c) * (g i (.cell c)).v)
    + m.dx (fun c => ∑ i, (phi i (.cell c)).v * (g i (.cell c)).v)
    - dsAll m (fun b => ∑ i, (g i (.bnd b)).v * normalAt (tau i) b)
    - m.dS fun s => ∑ i, avg (g i) s * jumpV (tau i) s

/-- `L` of the Hessian system, diagnostics.py:165-167. -/
noncomputable def hessRhs (f : Sc m) (phi : Vc m) : ℝ :=
  dsAll m (fun b => (f (.bnd b)).v * normalAt phi b)
    + m.dS (fun s => avg f s * jumpV phi s)
    - m.dx fun c => (f (.cell c)).v * div phi (.cell c)

/-- `HessianRecoverer2D.solve`, diagnostics.py:152-206. -/
def IsHessian (V : Set (Vc m)) (S : Set (Tc m)) (f : Sc m) (g : Vc m) (H : Tc m) : Prop :=
  g ∈ V ∧ H ∈ S ∧ ∀ phi ∈ V, ∀ tau ∈ S, hessLhs g H phi tau = hessRhs f phi

/-! ### Kinetic energy -/

/-- `ke_expr`, diagnostics.py:235-236, for a velocity of two or three components. -/
noncomputable def keExpr {n : ℕ} (horizontal : Bool) (rho : ℝ) (u : Fin (n + 2) → ℝ) : ℝ :=
  0.5 * rho * if horizontal then u 0 * u 0 + u 1 * u 1 else ∑ i, u i * u i

/-- `KineticEnergyCalculator.solve` with interpolation, diagnostics.py:240 and 248: the value at each node of `ke`. -/
noncomputable def keInterp {N : Type} {n : ℕ} (horizontal : Bool) (rho : N → ℝ) (u : N → Fin (n + 2) → ℝ) (x : N) : ℝ :=
  keExpr horizontal (rho x) (u x)

/-- With `project=True`, diagnostics.py:237-238 and 244-245: `rho` and `u` at the quadrature points. -/
def IsKeProj {n : ℕ} (K : Set (Sc m)) (horizontal : Bool) (rho : m.C → ℝ) (u : m.C → Fin (n + 2) → ℝ) (ke : Sc m) : Prop :=
  ke ∈ K ∧ ∀ t ∈ K, m.dx (fun c => (ke (.cell c)).v * (t (.cell c)).v) =
    m.dx fun c => keExpr horizontal (rho c) (u c) * (t (.cell c)).v

/-! ### Error indicators -/

/-- The cells of the mesh: to which of them the quadrature points belong. -/
structure Cells (m : Mesh 2) where
  K : Type
  [fK : Fintype K]
  [dK : DecidableEq K]
  ofC : m.C → K
  ofP : m.S → K
  ofM : m.S → K
  ofB : m.B → K

attribute [instance] Cells.fK Cells.dK

/-- One integral of a form: its subdomain and integrand. -/
structure Integral (P : Type) where
  on : P → Bool
  f : P → ℝ

/-- A 0-form, by type of integral. -/
structure ZeroForm (m : Mesh 2) where
  cell : List (Integral m.C)
  int : List (Integral m.S)
  ext : List (Integral m.B)

/-- The weight at a point of one integral. -/
def Integral.at_ {P : Type} (i : Integral P) (x : P) : ℝ := if i.on x then i.f x else 0

/-- `CellVolume`. -/
def Cells.vol (T : Cells m) (k : T.K) : ℝ := ∑ c, if T.ofC c = k then m.wC c else 0

/-- `rhs` for a P0 test function, utility.py:1133-1143. -/
def indRhs (T : Cells m) (F : ZeroForm m) (test : T.K → ℝ) : ℝ :=
  (F.ext.map fun i => ∑ b, m.wB b * (T.vol (T.ofB b) * test (T.ofB b) * i.at_ b)).sum
    + (F.int.map fun i => (m.dS fun s => T.vol (T.ofP s) * test (T.ofP s) * i.at_ s)
      + m.dS fun s => T.vol (T.ofM s) * test (T.ofM s) * i.at_ s).sum
    + (F.cell.map fun i => m.dx fun c => T.vol (T.ofC c) * test (T.ofC c) * i.at_ c).sum

/-- `form2indicator`, utility.py:1109-1156. -/
def IsIndicator (T : Cells m) (F : ZeroForm m) (eta : T.K → ℝ) : Prop :=
  ∀ test, m.dx (fun c => eta (T.ofC c) * test (T.ofC c)) = indRhs T F test

/-- Exceptions of the constructors. -/
inductive Err | valueError | nameError | notImplemented
deriving DecidableEq

/-- Checks of `ShallowWaterDualWeightedResidual2D` and `TracerDualWeightedResidual2D`, diagnostics.py:281-287, 316-318
and 346-348. `func` in the message of the last check is not defined. -/
def dwrInit (stepper : String) (dim : ℕ) (sameMesh : Bool) : Except Err Unit :=
  if ¬(stepper = "SteadyState" ∨ stepper = "CrankNicolson") then .error .notImplemented
  else if dim ≠ 2 then .error .valueError
  else if !sameMesh then .error .nameError
  else .ok ()

end Verif.Diag
