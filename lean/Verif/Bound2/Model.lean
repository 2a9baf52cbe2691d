import Verif.Tracer2.Model
import Verif.Limiter.Model

/-!
Model of one step of a two-dimensional tracer in piecewise linear discontinuous elements with forward Euler and the slope
limiter: `Verif.Tracer2.advection`, `Verif.Limiter.apply` and the order of
coupled_timeintegrator_2d.py:100-105.
-/

namespace Verif.Bound2

open Verif.Dg

variable {m : Mesh 2}

/-- The cells of a mesh: to which cell each quadrature point, and each side of a facet, belongs. -/
structure Cells (m : Mesh 2) where
  K : Type
  [dec : DecidableEq K]
  ofC : m.C → K
  ofP : m.S → K
  ofM : m.S → K
  ofB : m.B → K

attribute [instance] Cells.dec

/-- The cell of a point. -/
def Cells.at (k : Cells m) : Pt m → k.K
  | .cell x => k.ofC x
  | .plus s => k.ofP s
  | .minus s => k.ofM s
  | .bnd b => k.ofB b

/-- The tracer space `Q_2d`, solver2d.py:347-348: functions given by values at the local nodes `ι` of each cell.
`basis x i` is the basis function of node `i` of the cell of `x`. -/
structure Space (m : Mesh 2) (ι : Type) where
  cells : Cells m
  basis : Pt m → ι → Jet 2

/-- The function with nodal values `q`. -/
def Space.field {ι : Type} [Fintype ι] (S : Space m ι) (q : S.cells.K → ι → ℝ) : Sc m := fun x =>
  ⟨∑ i, q (S.cells.at x) i * (S.basis x i).v, fun j => ∑ i, q (S.cells.at x) i * (S.basis x i).g j⟩

/-- `ForwardEuler.advance`, timeintegrator.py:159-165 with the forms of lines 138-142, for a tracer equation without
diffusivity and source (tracer_eq_2d.py:480-483): the mass form (equation.py:99-105) of the change is `dt` times the
advection term for the old tracer, for every test function.  That the linear solver finds this solution is part of the
trusted base. -/
def Euler {ι : Type} [Fintype ι] (S : Space m ι) (T : Tracer2.Term m) (F : Tracer2.Flow m)
    (bc : ℕ → Option (Tracer2.BFuncs m)) (dt : ℝ) (q q' : S.cells.K → ι → ℝ) : Prop :=
  ∀ phi : S.cells.K → ι → ℝ,
    m.dx (fun x => (S.field q' (.cell x)).v * (S.field phi (.cell x)).v) =
      m.dx (fun x => (S.field q (.cell x)).v * (S.field phi (.cell x)).v) +
        dt * Tracer2.advection T F bc (S.field q) (S.field phi)

/-- One step of a tracer, coupled_timeintegrator_2d.py:100-105: the tracer equation is advanced, then the limiter is
applied if `use_limiter_for_tracers` is set. -/
def Step {ι V : Type} [Fintype ι] (S : Space m ι) (T : Tracer2.Term m) (F : Tracer2.Flow m)
    (bc : ℕ → Option (Tracer2.BFuncs m)) (dt : ℝ) (useLimiter : Bool) (L : Limiter.Mesh S.cells.K V ι) (order : List ι)
    (q q' : S.cells.K → ι → ℝ) : Prop :=
  ∃ q1, Euler S T F bc dt q q1 ∧ q' = if useLimiter then Limiter.apply true L L order q1 else q1

/-- The limiter stays switched on if the option is set and `polynomial_degree` is positive, solver2d.py:536-539 and
1034. -/
def limiterOn (useLimiter : Bool) (polynomialDegree : ℕ) : Bool := useLimiter && decide (0 < polynomialDegree)

end Verif.Bound2
