import Verif.Explicit.Model

/-!
Model of the times at which the time integrators evaluate an equation whose fields and boundary conditions change with time.

`E s r` is the equation with the fields of time `s` and the boundary conditions of time `r`; both are set by
`update_forcings`.  The forms of a step are those of `Contract/Model.lean` and `Explicit/Model.lean`.  `S` is a set that holds the
function at which the forms are evaluated: it is the set of all functions for an equation that is Lipschitz continuous
everywhere.
-/

namespace Verif.Converge

open Finset Verif.Contract Verif.Explicit

variable {V : Type*} [AddCommGroup V] [Module ℝ V]

/-- `advance` of `CrankNicolson`, timeintegrator.py:234-241: forcings are updated to the end of the step, and `fields_old` are
the fields at the end of the previous step; the boundary conditions `bnd` are the same in both halves, timeintegrator.py:202-211. -/
def CrankAt (E : ℝ → ℝ → Eqn V) (theta : ℝ) (semi : Bool) (H : Submodule ℝ V) (S : Set V) (t dt : ℝ) (old new : V) : Prop :=
  old ∈ S ∧ new ∈ S ∧ ThetaStep (E (t + dt) (t + dt)) (E t (t + dt)) dt theta semi H old new

/-- `advance` of `ForwardEuler`, timeintegrator.py:158-165: as in `CrankAt`. -/
def EulerAt (E : ℝ → ℝ → Eqn V) (H : Submodule ℝ V) (S : Set V) (t dt : ℝ) (old new : V) : Prop :=
  old ∈ S ∧ EulerStep (E t (t + dt)) dt H old new

/-- The equation of stage `i`: forcings are updated to the time of the stage, rungekutta.py:565-566, 705-706, 850-851 and
935-936. -/
def stageEqn (E : ℝ → ℝ → Eqn V) (T : RK.Tableau) (t dt : ℝ) (i : ℕ) : Eqn V := E (t + T.c i * dt) (t + T.c i * dt)

/-- `advance` of `DIRKGeneric`, rungekutta.py:429-435 and 555-577; `TendencyStep` with stages in `S`. -/
def TendencyAt (E : ℝ → ℝ → Eqn V) (T : RK.Tableau) (semi : Bool) (H : Submodule ℝ V) (S : Set V) (t dt : ℝ) (old new : V) : Prop :=
  ∃ k : ℕ → V, (∀ i < T.n, k i ∈ H ∧ stageValue T dt old k i ∈ S ∧ ∀ w ∈ H,
      -(stageEqn E T t dt i).inner (k i) w +
        (stageEqn E T t dt i).res (stageValue T dt old k i) (stageLin T dt semi old k i) w = 0) ∧
    new = old + ∑ j ∈ range T.n, (dt * T.b j) • k j

/-- `advance` of `DIRKGenericUForm`, rungekutta.py:429-435 and 690-711; `UStep` with stages in `S`. -/
def UAt (E : ℝ → ℝ → Eqn V) (T : RK.Tableau) (semi : Bool) (H : Submodule ℝ V) (S : Set V) (t dt : ℝ) (old new : V) : Prop :=
  ∃ u k : ℕ → V, (∀ i < T.n, u i ∈ H ∧ u i ∈ S ∧ ∀ w ∈ H,
      (stageEqn E T t dt i).mass (u i) w - (stageEqn E T t dt i).mass old w -
        (dt * T.a i i * (stageEqn E T t dt i).res (u i) (if semi then old else u i) w +
          ∑ j ∈ range i, dt * T.a i j * (stageEqn E T t dt i).inner (k j) w) = 0) ∧
    (∀ i < T.n - 1, k i ∈ H ∧ ∀ w ∈ H,
      dt * T.a i i * (stageEqn E T t dt i).inner (k i) w -
          ((stageEqn E T t dt i).mass (u i) w - (stageEqn E T t dt i).mass old w) +
        ∑ j ∈ range i, dt * T.a i j * (stageEqn E T t dt i).inner (k j) w = 0) ∧
    new = u (T.n - 1)

/-- `advance` of `ERKGeneric`, rungekutta.py:429-435 and 841-867. -/
def ButcherAt (E : ℝ → ℝ → Eqn V) (T : RK.Tableau) (H : Submodule ℝ V) (S : Set V) (t dt : ℝ) (old new : V) : Prop :=
  ∃ k : ℕ → V, (∀ i < T.n, stage T old k i ∈ S ∧ Tendency (stageEqn E T t dt i) dt H (stage T old k i) (k i)) ∧
    new = old + ∑ j ∈ range T.n, T.b j • k j

/-- `advance` of `ERKGenericShuOsher`, rungekutta.py:429-435 and 923-952. -/
def ShuOsherAt (E : ℝ → ℝ → Eqn V) (T : RK.Tableau) (H : Submodule ℝ V) (S : Set V) (t dt : ℝ) (old new : V) : Prop :=
  ∃ C, RK.toShuOsher T = some C ∧ ∃ s k : ℕ → V, s 0 = old ∧ (∀ i < T.n, s i ∈ S ∧
    Tendency (stageEqn E T t dt i) dt H (s i) (k i) ∧
    s (i + 1) = C.β (i + 1) i • k i + ∑ j ∈ range (i + 1), C.α (i + 1) j • s j) ∧ new = s T.n

end Verif.Converge
