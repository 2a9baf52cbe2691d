import Verif.GradTest.Model
import Mathlib.Tactic.Linarith
import Mathlib.Tactic.FieldSimp
import Mathlib.Tactic.NormNum
import Mathlib.Tactic.Ring
import Mathlib.Tactic.Positivity

/-!
C159: the tests of inversions pass for right gradients and fail for wrong ones.
-/

namespace Verif.GradTest

variable {V : Type} [AddCommGroup V] [Module ℝ V]

theorem eps_pos (i : ℕ) : 0 < eps i := by unfold eps; positivity

theorem eps_half (i : ℕ) : eps (i + 1) = eps i / 2 := by
  unfold eps
  rw [pow_succ]
  field_simp

theorem eps_le (i : ℕ) : eps i ≤ 1 / 100 := by
  unfold eps
  exact div_le_self (by norm_num) (one_le_pow₀ (by norm_num))

theorem log_half_neg : Real.log (1 / 2) < 0 := Real.log_neg (by norm_num) (by norm_num)

theorem rate_eq {r : ℕ → ℝ} {i : ℕ} (h : 0 < r i) (h' : 0 < r (i + 1)) :
    rate r i = some (Real.log (r (i + 1) / r i) / Real.log (1 / 2)) := by
  have e : eps (i + 1) / eps i = 1 / 2 := by
    rw [eps_half]
    have := (eps_pos i).ne'
    field_simp
  rw [rate, if_neg (by push Not; exact ⟨h.ne', h'.ne'⟩), e]

/-- C159: if the functional is quadratic in the direction of the controls, with some curvature, the right gradient passes the test. -/
theorem C159_right_partial (J : V → ℝ) (g : V →ₗ[ℝ] ℝ) (m : V) (q : ℝ) (hq : q ≠ 0)
    (hJ : ∀ e : ℝ, J (m + e • m) = J m + e * g m + e ^ 2 * q) : taylorTest J g m = some true := by
  have hr : ∀ i, residual J g m m i = eps i ^ 2 * |q| := by
    intro i
    unfold residual
    rw [hJ, show J m + eps i * g m + eps i ^ 2 * q - J m - eps i * g m = eps i ^ 2 * q by ring, abs_mul, abs_of_nonneg (by positivity)]
  have hpos : ∀ i, 0 < residual J g m m i := fun i => by
    rw [hr]
    exact mul_pos (pow_pos (eps_pos i) 2) (abs_pos.2 hq)
  have h2 : ∀ i, rate (residual J g m m) i = some 2 := by
    intro i
    rw [rate_eq (hpos i) (hpos (i + 1)), hr, hr, eps_half]
    have e : (eps i / 2) ^ 2 * |q| / (eps i ^ 2 * |q|) = (1 / 2) ^ 2 := by
      have h1 := (eps_pos i).ne'
      have h2 := (abs_pos.2 hq).ne'
      field_simp
    rw [e, Real.log_pow]
    have := log_half_neg.ne
    congr 1
    push_cast
    field_simp
  simp only [taylorTest, verdict, h2]
  norm_num

/-- C159: if the gradient is wrong in the direction of the controls, by more than four times what the curvature contributes at the first
step, the test fails. -/
theorem C159_wrong_partial (J : V → ℝ) (g : V →ₗ[ℝ] ℝ) (m : V) (d q : ℝ) (hd : g m ≠ d) (hsmall : |q| / 100 ≤ |d - g m| / 4)
    (hJ : ∀ e : ℝ, J (m + e • m) = J m + e * d + e ^ 2 * q) : taylorTest J g m = some false := by
  have hδ : 0 < |d - g m| := abs_pos.2 (sub_ne_zero.2 hd.symm)
  have hr : ∀ i, residual J g m m i = eps i * |d - g m + eps i * q| := by
    intro i
    unfold residual
    rw [hJ, show J m + eps i * d + eps i ^ 2 * q - J m - eps i * g m = eps i * (d - g m + eps i * q) by ring, abs_mul,
      abs_of_pos (eps_pos i)]
  have hb : ∀ i, |eps i * q| ≤ |d - g m| / 4 := by
    intro i
    rw [abs_mul, abs_of_pos (eps_pos i)]
    have := mul_le_mul_of_nonneg_right (eps_le i) (abs_nonneg q)
    linarith
  have hlow : ∀ i, 3 / 4 * |d - g m| ≤ |d - g m + eps i * q| := by
    intro i
    have h1 := abs_sub_abs_le_abs_sub (d - g m) (-(eps i * q))
    rw [abs_neg, sub_neg_eq_add] at h1
    have := hb i
    linarith
  have hup : ∀ i, |d - g m + eps i * q| ≤ 5 / 4 * |d - g m| := by
    intro i
    have h1 := abs_add_le (d - g m) (eps i * q)
    have := hb i
    linarith
  have hpos : ∀ i, 0 < residual J g m m i := fun i => by
    rw [hr]
    exact mul_pos (eps_pos i) (lt_of_lt_of_le (by linarith) (hlow i))
  have hrate : ∀ i, ∃ a, rate (residual J g m m) i = some a ∧ a < 19 / 10 := by
    intro i
    refine ⟨_, rate_eq (hpos i) (hpos (i + 1)), ?_⟩
    have hge : 3 / 10 ≤ residual J g m m (i + 1) / residual J g m m i := by
      rw [le_div_iff₀ (hpos i), hr, hr]
      have h1 := hlow (i + 1)
      have h2 := hup i
      have h3 := eps_pos i
      have h4 := mul_le_mul_of_nonneg_left h1 (eps_pos (i + 1)).le
      have h5 := mul_le_mul_of_nonneg_left h2 h3.le
      have h6 := eps_half i
      calc 3 / 10 * (eps i * |d - g m + eps i * q|) ≤ 3 / 10 * (eps i * (5 / 4 * |d - g m|)) := by linarith
        _ = eps (i + 1) * (3 / 4 * |d - g m|) := by rw [h6]; ring
        _ ≤ _ := h4
    rw [div_lt_iff_of_neg log_half_neg]
    have h1 : Real.log (3 / 10) ≤ Real.log (residual J g m m (i + 1) / residual J g m m i) := Real.log_le_log (by norm_num) hge
    refine lt_of_lt_of_le ?_ h1
    have h2 : Real.log ((1 / 2) ^ 19) < Real.log ((3 / 10) ^ 10) := Real.log_lt_log (by norm_num) (by norm_num)
    rw [Real.log_pow, Real.log_pow] at h2
    push_cast at h2
    linarith
  obtain ⟨a, ha, ha'⟩ := hrate 0
  obtain ⟨b, hb, -⟩ := hrate 1
  obtain ⟨c, hc, -⟩ := hrate 2
  simp only [taylorTest, verdict, ha, hb, hc]
  have : min a (min b c) < 19 / 10 := lt_of_le_of_lt (min_le_left _ _) ha'
  simp [this]

/-- C159: one slow decrease of the residuals is enough for the test to fail. -/
theorem C159_slow (J : V → ℝ) (g : V →ₗ[ℝ] ℝ) (m : V) (r : ℕ → ℝ)
    (hr : ∀ i, r i = |J (m + (1 / 100 / 2 ^ i : ℝ) • m) - J m - 1 / 100 / 2 ^ i * g m|) (hpos : ∀ i < 4, 0 < r i) (k : ℕ) (hk : k < 3)
    (hslow : r k ^ 10 < 2 ^ 19 * r (k + 1) ^ 10) : taylorTest J g m = some false := by
  have e : residual J g m m = r := by
    funext i
    rw [hr]
    rfl
  have key : ∀ i < 3, rate r i = some (Real.log (r (i + 1) / r i) / Real.log (1 / 2)) := fun i hi =>
    rate_eq (hpos i (by omega)) (hpos (i + 1) (by omega))
  have hlt : Real.log (r (k + 1) / r k) / Real.log (1 / 2) < 19 / 10 := by
    have h0 := hpos k (by omega)
    have h1 := hpos (k + 1) (by omega)
    rw [div_lt_iff_of_neg log_half_neg]
    have h2 : Real.log ((1 / 2) ^ 19) < Real.log ((r (k + 1) / r k) ^ 10) := by
      refine Real.log_lt_log (by norm_num) ?_
      rw [div_pow (r (k + 1)), lt_div_iff₀ (pow_pos h0 10), one_div, inv_pow, inv_mul_lt_iff₀ (by norm_num)]
      exact hslow
    rw [Real.log_pow, Real.log_pow] at h2
    push_cast at h2
    linarith
  simp only [taylorTest, e, verdict, key 0 (by omega), key 1 (by omega), key 2 (by omega)]
  have : k = 0 ∨ k = 1 ∨ k = 2 := by omega
  rcases this with rfl | rfl | rfl <;> simp only [Option.some.injEq, Bool.not_eq_false', decide_eq_true_eq, min_lt_iff]
  · exact Or.inl hlt
  · exact Or.inr (Or.inl hlt)
  · exact Or.inr (Or.inr hlt)

/-- C159: the outcome depends on the functional at the controls and at four points next to them. -/
theorem C159_points (J J' : V → ℝ) (g : V →ₗ[ℝ] ℝ) (m : V) (h0 : J m = J' m)
    (h : ∀ i < 4, J (m + (1 / 100 / 2 ^ i : ℝ) • m) = J' (m + (1 / 100 / 2 ^ i : ℝ) • m)) : taylorTest J g m = taylorTest J' g m := by
  have e : ∀ i < 4, residual J g m m i = residual J' g m m i := fun i hi => by
    simp only [residual, eps, h0, h i hi]
  simp only [taylorTest, verdict, rate, e 0 (by omega), e (0 + 1) (by omega), e (1 + 1) (by omega),
    e (2 + 1) (by omega)]

/-- C159 is violated: gradients are tested in the direction of the controls only, so that all that agree there have the same outcome. -/
theorem C159_blind_violated (J : V → ℝ) (g g' : V →ₗ[ℝ] ℝ) (m : V) (h : g m = g' m) : taylorTest J g m = taylorTest J g' m := by
  have : residual J g m m = residual J g' m m := by
    funext i
    simp only [residual, h]
  rw [taylorTest, this, taylorTest]

/-- C159 is violated for controls that are zero: nothing is tested, whatever the gradient. -/
theorem C159_zero_violated (J : V → ℝ) (g : V →ₗ[ℝ] ℝ) : (∀ i, residual J g 0 0 i = 0) ∧ taylorTest J g 0 = none := by
  have : ∀ i, residual J g 0 0 i = 0 := fun i => by simp [residual]
  refine ⟨this, ?_⟩
  simp [taylorTest, verdict, rate, this]

/-- C159 is violated for functionals that are linear in the direction of the controls: the right gradient has no rate. -/
theorem C159_linear_violated (J : V → ℝ) (g : V →ₗ[ℝ] ℝ) (m : V) (hJ : ∀ e : ℝ, J (m + e • m) = J m + e * g m) :
    taylorTest J g m = none := by
  have : ∀ i, residual J g m m i = 0 := fun i => by simp [residual, hJ]
  simp [taylorTest, verdict, rate, this]

/-- C159: the consistency test passes if the value is recomputed as it was, and fails if it changes by more than the tolerances. -/
theorem C159_consistency_partial {V : Type} (J : V → ℝ) (m : V) (J0 : ℝ) :
    (J m = J0 → consistencyTest J m J0 = true) ∧
      (1 / 10 ^ 8 + 1 / 10 ^ 5 * |J0| < |J m - J0| → consistencyTest J m J0 = false) := by
  constructor
  · intro h
    simp only [consistencyTest, isclose, h, sub_self, abs_zero, decide_eq_true_eq]
    positivity
  · intro h
    simpa [consistencyTest, isclose] using h

/-- C159 is violated for functionals with small values: the consistency test passes whatever is recomputed. -/
theorem C159_small_violated {V : Type} (J : V → ℝ) (m : V) (J0 : ℝ) (h : |J m| ≤ 1 / 10 ^ 8 / 2) (h0 : |J0| ≤ 1 / 10 ^ 8 / 2) :
    consistencyTest J m J0 = true := by
  simp only [consistencyTest, isclose, decide_eq_true_eq]
  have h1 := abs_sub (J m) J0
  have h2 : 0 ≤ 1 / 10 ^ 5 * |J0| := by positivity
  linarith

/-! ### Examples -/

/-- The square of one control, at 3: the right gradient passes, half of it fails. -/
example : taylorTest (fun x : ℝ => x ^ 2) (LinearMap.lsmul ℝ ℝ 6) 3 = some true :=
  C159_right_partial _ _ _ 9 (by norm_num) fun e => by simp; ring

example : taylorTest (fun x : ℝ => x ^ 2) (LinearMap.lsmul ℝ ℝ 3) 3 = some false :=
  C159_wrong_partial _ _ _ 18 9 (by norm_num) (by norm_num) fun e => by simp; ring

/-- A gradient with a wrong second component, at controls whose second component is zero. -/
example (J : ℝ × ℝ → ℝ) (a b c : ℝ) :
    taylorTest J ((LinearMap.lsmul ℝ ℝ a).coprod (LinearMap.lsmul ℝ ℝ b)) (1, 0) =
      taylorTest J ((LinearMap.lsmul ℝ ℝ a).coprod (LinearMap.lsmul ℝ ℝ c)) (1, 0) :=
  C159_blind_violated _ _ _ _ (by simp)

end Verif.GradTest
