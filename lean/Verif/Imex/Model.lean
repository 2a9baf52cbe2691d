import Verif.Converge.Model

/-!
Model of one time step of `IMEXGeneric`, for equations in weak form.

`EI s r` holds the implicit terms and `EE s r` the explicit and source terms, with the fields of time `s` and the boundary
conditions of time `r`: implicitexplicit.py:45-54.  `S` is a set that holds the functions at which the forms are evaluated.
-/

namespace Verif.Imex

open Finset Verif.Contract Verif.Explicit Verif.Converge

variable {V : Type*} [AddCommGroup V] [Module ℝ V]

/-- `solve_stage` of stage `i`, implicitexplicit.py:80-94.  The function `ref = stage TE old ke i` is `u_n + sum(a*k_erk)`, rungekutta.py:825-838;
it is in both `solution` and `dirk.solution_old` when the implicit tendency is solved for, so that the coefficients of
implicit terms are evaluated there with and without `use_semi_implicit_linearization`, rungekutta.py:484-490.  Forcings are
updated to the time of the implicit stage, rungekutta.py:565-567, and then to that of the explicit one, rungekutta.py:841-852. -/
def StageAt (EI EE : ℝ → ℝ → Eqn V) (TE TI : RK.Tableau) (H : Submodule ℝ V) (S : Set V) (t dt : ℝ) (old : V) (ke kd : ℕ → V)
    (i : ℕ) : Prop :=
  stage TE old ke i ∈ S ∧ stageValue TI dt (stage TE old ke i) kd i ∈ S ∧ kd i ∈ H ∧
    (∀ w ∈ H, -(stageEqn EI TI t dt i).inner (kd i) w +
      (stageEqn EI TI t dt i).res (stageValue TI dt (stage TE old ke i) kd i) (stage TE old ke i) w = 0) ∧
    Tendency (stageEqn EE TE t dt i) dt H (stageValue TI dt (stage TE old ke i) kd i) (ke i)

/-- `advance` of `IMEXGeneric`, implicitexplicit.py:73-78; the last line is `get_final_solution`, implicitexplicit.py:96-108.  The
solution at the start is that of the end of the step before, implicitexplicit.py:108. -/
def ImexAt (EI EE : ℝ → ℝ → Eqn V) (TE TI : RK.Tableau) (H : Submodule ℝ V) (S : Set V) (t dt : ℝ) (old new : V) : Prop :=
  ∃ ke kd : ℕ → V, (∀ i < TE.n, StageAt EI EE TE TI H S t dt old ke kd i) ∧
    new = old + ∑ j ∈ range TE.n, TE.b j • ke j + ∑ j ∈ range TE.n, (dt * TI.b j) • kd j

/-- The terms of `ShallowWaterEquations` with the label `implicit`, shallowwater_eq.py:868-884: pressure gradient, advection, Coriolis force,
drags and divergence. -/
noncomputable def sweImplicit {m : Dg.Mesh 2} (T : Swe.Term m) (K : Swe.Coeffs m) (bc : ℕ → Option (Swe.Funcs m)) :
    Eqn (State m) where
  mass := (swe T K bc).mass
  inner := (swe T K bc).inner
  res u v w :=
    Swe.pressure T bc u.1 u.2 v.2 w.1 + Swe.advection T bc u.1 u.2 v.1 v.2 w.1 + Swe.coriolis K.coriolis u.1 w.1 +
      Swe.quadraticDrag T K.cd u.1 v.1 v.2 w.1 + Swe.linearDrag K.linear u.1 w.1 + Swe.boundaryDrag bc u.1 v.1 w.1 +
      Swe.turbineDrag T K.farms u.1 v.1 v.2 w.1 + Swe.huDiv T bc u.1 u.2 v.1 v.2 w.2

/-- The terms with the labels `explicit` and `source`: viscosity, wind, atmospheric pressure, friction at the bottom and sources. -/
noncomputable def sweExplicit {m : Dg.Mesh 2} (T : Swe.Term m) (K : Swe.Coeffs m) (bc : ℕ → Option (Swe.Funcs m)) :
    Eqn (State m) where
  mass := (swe T K bc).mass
  inner := (swe T K bc).inner
  res u v w :=
    Swe.viscosity T bc K.nu u.1 u.2 v.2 w.1 + (Swe.windStress T K.wind v.2 w.1 + Swe.atmPressure T K.pressure w.1 +
      Swe.bottomDrag3d T K.bottomDrag K.uvBottom v.2 w.1 + Swe.momentumSource K.source w.1 + Swe.volumeSource K.volume w.2)

end Verif.Imex
