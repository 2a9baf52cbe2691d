import Verif.Contract.Model

/-!
Model of one step of the explicit time integrators in weak form: `ERKGeneric` (rungekutta.py:762-867), `ERKGenericShuOsher`
(rungekutta.py:870-952, behind the option `SSPRK33` of solver2d.py:664), `ForwardEuler` (timeintegrator.py:115-165, option
`ForwardEuler` of solver2d.py:665) and `SSPRK22ALE` (timeintegrator.py:609-770) on a mesh that does not move.

As in `Contract/Model.lean` a form is the number it takes for one test function, and a step is a relation: the solvers for the mass matrix are
taken to solve their system.  Fields and boundary conditions are the same in all stages of a step.  Rounding and solver
tolerances are left out.
-/

namespace Verif.Explicit

open Finset Verif.Contract

variable {V : Type*} [AddCommGroup V] [Module ℝ V]

/-- `k` solves the system for the tendency of `u`, rungekutta.py:793-794 and 813, rungekutta.py:900-904 and 921: the right-hand
side `l_rk` has the time step in it. -/
def Tendency (E : Eqn V) (dt : ℝ) (H : Submodule ℝ V) (u k : V) : Prop :=
  k ∈ H ∧ ∀ w ∈ H, E.mass k w = dt * E.res u u w

/-- The solution of stage `i` of `ERKGeneric`, rungekutta.py:802 and 836-838. -/
def stage (T : RK.Tableau) (old : V) (k : ℕ → V) (i : ℕ) : V := old + ∑ j ∈ range i, T.a i j • k j

/-- One step of `ERKGeneric`, rungekutta.py:841-867, with `advance` of rungekutta.py:429-435. -/
def ButcherStep (E : Eqn V) (T : RK.Tableau) (dt : ℝ) (H : Submodule ℝ V) (old new : V) : Prop :=
  ∃ k : ℕ → V, (∀ i < T.n, Tendency E dt H (stage T old k i) (k i)) ∧ new = old + ∑ j ∈ range T.n, T.b j • k j

/-- One step of `ERKGenericShuOsher`, rungekutta.py:911-913 and 930-952: `s i` is `stage_sol[i]`, and `s n` is the solution. -/
def ShuOsherStep (E : Eqn V) (C : RK.ShuOsher) (n : ℕ) (dt : ℝ) (H : Submodule ℝ V) (old new : V) : Prop :=
  ∃ s k : ℕ → V, s 0 = old ∧ (∀ i < n, Tendency E dt H (s i) (k i) ∧
    s (i + 1) = C.β (i + 1) i • k i + ∑ j ∈ range (i + 1), C.α (i + 1) j • s j) ∧ new = s n

/-- One step of `SSPRK33`: the coefficients are those of `butcher_to_shuosher_form`, rungekutta.py:138-139. -/
def Ssprk33Step (E : Eqn V) (dt : ℝ) (H : Submodule ℝ V) (old new : V) : Prop :=
  ∃ C, RK.toShuOsher RK.ssprk33 = some C ∧ ShuOsherStep E C RK.ssprk33.n dt H old new

/-- One step of `ForwardEuler`, timeintegrator.py:139-147 and 158-165. -/
def EulerStep (E : Eqn V) (dt : ℝ) (H : Submodule ℝ V) (old new : V) : Prop :=
  new ∈ H ∧ ∀ w ∈ H, E.mass new w = E.mass old w + dt * E.res old old w

/-- One step of `SSPRK22ALE` on one mesh, timeintegrator.py:647-654, 673-739 and 764-770: the first stage ends at `mid`. -/
def TwoStageStep (E : Eqn V) (dt : ℝ) (H : Submodule ℝ V) (old new : V) : Prop :=
  new ∈ H ∧ ∃ mid ∈ H,
    (∀ w ∈ H, E.mass mid w = E.inner old w + dt * E.res old old w) ∧
    ∀ w ∈ H, E.mass new w = 1 / 2 * (E.inner old w + dt * E.res old old w) + 1 / 2 * E.inner old w +
      1 / 2 * (dt * E.res mid mid w)

end Verif.Explicit
