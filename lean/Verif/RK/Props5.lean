import Verif.RK.Props4
import Mathlib.Tactic.Module
import Mathlib.Algebra.Module.LinearMap.Basic

/-!
Properties C20, C21 and C25 over several steps: the explicit integrators and the forward Euler
scheme continue from the value they produced, and the order of the two schemes for moving meshes.
-/

namespace Verif.RK

open Finset

section

variable {V : Type*} [AddCommGroup V] [Module ℝ V] {P : Type*}

/-- A run of the explicit Butcher integrator; `F m` are the right-hand sides of step `m`. -/
def Erk.run (T : Tableau) (dt : ℝ) (F : ℕ → ℕ → V → V) : ℕ → Erk V → Erk V
  | 0, s => s
  | m + 1, s => (Erk.run T dt F m s).advance T dt (F m)

/-- C20: every step of a run of the Butcher integrator is the textbook step from the value of the
step before, provided nobody else writes to the solution in between (see `C28_erk_violation`). -/
theorem C20_run (T : Tableau) (dt : ℝ) (F : ℕ → ℕ → V → V) (s : Erk V)
    (h : s.inited = false ∨ s.old = s.sol) (m : ℕ) :
    ButcherStep T.n T.a T.b dt (F m) (Erk.run T dt F m s).sol (Erk.run T dt F (m + 1) s).sol := by
  have H : (Erk.run T dt F m s).inited = false ∨ (Erk.run T dt F m s).old = (Erk.run T dt F m s).sol := by
    cases m with
    | zero => exact h
    | succ m => exact Or.inr rfl
  exact C20_butcher_is_textbook T dt (F m) _ H

/-- The hypothesis holds for a freshly created integrator. -/
example (T : Tableau) (dt : ℝ) (F : ℕ → ℕ → ℝ → ℝ) (u : ℝ) (m : ℕ) :
    ButcherStep T.n T.a T.b dt (F m) (Erk.run T dt F m ⟨u, 0, fun _ => 0, false⟩).sol
      (Erk.run T dt F (m + 1) ⟨u, 0, fun _ => 0, false⟩).sol :=
  C20_run T dt F _ (Or.inl rfl) m

/-- A run of forward Euler steps with forcings `p 0, p 1, …` at the ends of the steps. -/
def TwoLevel.runEuler (dt : ℝ) (R : V → V → P → V) (p : ℕ → P) : ℕ → TwoLevel V P → TwoLevel V P
  | 0, s => s
  | n + 1, s => (TwoLevel.runEuler dt R p n s).forwardEuler dt R (p n)

/-- C25: over a run of forward Euler steps each step adds `dt` times the residual at the old value
with the forcing of the start of the step, and the lagged value is the value of the step before. -/
theorem C25_forward_euler_run (dt : ℝ) (R : V → V → P → V) (p : ℕ → P) (s : TwoLevel V P) (n : ℕ) :
    (TwoLevel.runEuler dt R p (n + 2) s).sol - (TwoLevel.runEuler dt R p (n + 1) s).sol
      = dt • R (TwoLevel.runEuler dt R p (n + 1) s).sol (TwoLevel.runEuler dt R p (n + 1) s).sol (p n) ∧
    (TwoLevel.runEuler dt R p (n + 2) s).old = (TwoLevel.runEuler dt R p (n + 1) s).sol ∧
    (TwoLevel.runEuler dt R p 1 s).sol - s.sol = dt • R s.sol s.sol s.fieldsOld := by
  refine ⟨?_, rfl, ?_⟩
  · show (TwoLevel.runEuler dt R p (n + 1) s).sol + _ - _ = _
    rw [add_sub_cancel_left]; rfl
  · show s.sol + _ - _ = _
    rw [add_sub_cancel_left]; rfl

end

section

variable {V W : Type*} [AddCommGroup V] [Module ℝ V] [AddCommGroup W] [Module ℝ W]

/-- C21: on a fixed mesh the leap-frog Adams-Moulton scheme is of third order for linear problems
`u' = A u`: if the value of the step before is the Taylor polynomial of degree two of the exact
solution (plus an error `r`), then the new value is the Taylor polynomial of degree three (plus
`(dt / 3) A r`). -/
theorem C21_leapfrog_am3 (M : V →ₗ[ℝ] W) (Minv : W →ₗ[ℝ] V) (hM : ∀ v, Minv (M v) = v)
    (A : V →ₗ[ℝ] V) (dt : ℝ) (s : Leap V W) (r : V) (hm : s.minv = Minv)
    (hold : s.old = s.sol - dt • A s.sol + (dt ^ 2 / 2) • A (A s.sol) + r) :
    (s.advance dt M (fun v => M (A v)) (fun v => M (A v)) Minv).sol
      = s.sol + dt • A s.sol + (dt ^ 2 / 2) • A (A s.sol) + (dt ^ 3 / 6) • A (A (A s.sol))
        + (dt / 3) • A r := by
  simp only [Leap.advance, Leap.predict, Leap.evalRhs, Leap.correct, hm, hold, map_add, map_sub,
    map_smul, hM, lfγ]
  module

/-- C21: on a fixed mesh the two-stage moving mesh scheme is of second order for linear problems. -/
theorem C21_ssprk22ale (M : V →ₗ[ℝ] W) (Minv : W →ₗ[ℝ] V) (hM : ∀ v, Minv (M v) = v)
    (A : V →ₗ[ℝ] V) (dt : ℝ) (s : Ale V W) :
    (s.advance dt M (fun v => M (A v)) (fun v => M (A v)) Minv Minv).sol
      = s.sol + dt • A s.sol + (dt ^ 2 / 2) • A (A s.sol) := by
  simp only [Ale.advance, Ale.prep1, Ale.prep2, Ale.solve, map_add, map_smul, hM]
  module

/-- Both apply to the identity mass matrix and `A = -3`. -/
example (dt u : ℝ) : (Leap.advance dt (LinearMap.id : ℝ →ₗ[ℝ] ℝ)
      (fun v => (LinearMap.id : ℝ →ₗ[ℝ] ℝ) (((-3 : ℝ) • (LinearMap.id : ℝ →ₗ[ℝ] ℝ)) v))
      (fun v => (LinearMap.id : ℝ →ₗ[ℝ] ℝ) (((-3 : ℝ) • (LinearMap.id : ℝ →ₗ[ℝ] ℝ)) v))
      (LinearMap.id : ℝ →ₗ[ℝ] ℝ)
      ⟨u, u + 3 * dt * u + 9 * dt ^ 2 / 2 * u, 0, 0, (LinearMap.id : ℝ →ₗ[ℝ] ℝ)⟩).sol
      = u - 3 * dt * u + 9 * dt ^ 2 / 2 * u - 27 * dt ^ 3 / 6 * u := by
  rw [C21_leapfrog_am3 LinearMap.id LinearMap.id (fun _ => rfl) _ dt _ 0 rfl
    (by simp; ring)]
  simp
  ring

end

end Verif.RK
