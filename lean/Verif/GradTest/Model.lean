import Mathlib.Analysis.SpecialFunctions.Log.Basic

/-!
Model of `InversionManager.consistency_test` and `InversionManager.taylor_test`, `thetis/inversion_tools.py:567-594`.

Simplifications: real numbers; the functional is any function on a vector space of controls and the gradient any linear function.
`numpy.isclose` and `taylor_test` of pyadjoint are taken from their documentation; the latter returns the smallest rate of convergence of the
residuals for four steps, each half of the one before.
-/

namespace Verif.GradTest

/-- `numpy.isclose(J, J0)` with its default tolerances. -/
noncomputable def isclose (J J0 : ℝ) : Bool := decide (|J - J0| ≤ 1 / 10 ^ 8 + 1 / 10 ^ 5 * |J0|)

/-- `consistency_test`, lines 567-577: `true` if no exception is raised.  `J` is the value recomputed at the controls `m`. -/
noncomputable def consistencyTest {V : Type} (J : V → ℝ) (m : V) (J0 : ℝ) : Bool := isclose (J m) J0

variable {V : Type} [AddCommGroup V] [Module ℝ V]

/-- The steps of pyadjoint: 0.01 and its halves. -/
noncomputable def eps (i : ℕ) : ℝ := 1 / 100 / 2 ^ i

/-- The residual of the expansion of first order in direction `h` with gradient `g`. -/
noncomputable def residual (J : V → ℝ) (g : V →ₗ[ℝ] ℝ) (m h : V) (i : ℕ) : ℝ := |J (m + eps i • h) - J m - eps i * g h|

/-- The rate of convergence from step `i` to the next; not defined if a residual is zero (a division by zero or the logarithm of zero). -/
noncomputable def rate (r : ℕ → ℝ) (i : ℕ) : Option ℝ :=
  if r i = 0 ∨ r (i + 1) = 0 then none else some (Real.log (r (i + 1) / r i) / Real.log (eps (i + 1) / eps i))

/-- Lines 592-594 with the three rates: the smallest is compared with 1.9.  `none` if a rate is not defined. -/
noncomputable def verdict (r : ℕ → ℝ) : Option Bool :=
  match rate r 0, rate r 1, rate r 2 with
  | some a, some b, some c => some (!decide (min a (min b c) < 19 / 10))
  | _, _, _ => none

/-- `taylor_test`, lines 579-594: the direction is a copy of the controls.  `some true` if no exception is raised. -/
noncomputable def taylorTest (J : V → ℝ) (g : V →ₗ[ℝ] ℝ) (m : V) : Option Bool := verdict (residual J g m m)

end Verif.GradTest
