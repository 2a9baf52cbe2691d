import Mathlib.Analysis.Calculus.Taylor
import Mathlib.Analysis.SpecialFunctions.Exp
import Verif.RK.Model

/-!
Lemmas for the convergence of time integrators: defects of quadrature rules, the error of one step of a method with stages, and the
growth of errors over many steps.
-/

namespace Verif.Converge

open Finset

variable {F : Type*} [NormedAddCommGroup F] [NormedSpace ℝ F]

/-! ### Growth of errors -/

theorem growth {e : ℕ → ℝ} {K d : ℝ} (hK : 0 ≤ K) (hd : 0 ≤ d) (N : ℕ) (h : ∀ m < N, e (m + 1) ≤ (1 + K) * e m + d) (h0 : 0 ≤ e 0) :
    e N ≤ Real.exp (K * N) * (e 0 + N * d) := by
  have key : ∀ m ≤ N, e m ≤ (1 + K) ^ m * (e 0 + m * d) := by
    intro m
    induction m with
    | zero => intro _; simp
    | succ m ih =>
      intro hm
      have h1 := h m (by omega)
      have h2 := ih (by omega)
      have hp : 1 ≤ (1 + K) ^ (m + 1) := one_le_pow₀ (by linarith)
      calc e (m + 1) ≤ (1 + K) * e m + d := h1
        _ ≤ (1 + K) * ((1 + K) ^ m * (e 0 + m * d)) + (1 + K) ^ (m + 1) * d := by
          gcongr
          exact le_mul_of_one_le_left hd hp
        _ = _ := by push_cast; ring
  refine (key N le_rfl).trans (mul_le_mul_of_nonneg_right ?_ (by positivity))
  · calc (1 + K) ^ N ≤ (Real.exp K) ^ N := by
          gcongr
          linarith [Real.add_one_le_exp K]
      _ = Real.exp (K * N) := by rw [← Real.exp_nat_mul, mul_comm]

/-! ### Taylor expansion -/

/-- Taylor expansion with one constant for all base points in an interval. -/
theorem taylor_uniform {U : ℝ → F} (n : ℕ) (hU : ContDiff ℝ (n + 1) U) (tEnd : ℝ) :
    ∃ M, 0 ≤ M ∧ ∀ t s, 0 ≤ t → t ≤ s → s ≤ tEnd →
      ‖U s - ∑ k ∈ range (n + 1), ((k.factorial : ℝ)⁻¹ * (s - t) ^ k) • iteratedDeriv k U t‖ ≤ M * (s - t) ^ (n + 1) := by
  have hc : Continuous (iteratedDeriv (n + 1) U) := by
    have := hU.continuous_iteratedDeriv (n + 1) (by norm_cast)
    exact this
  obtain ⟨M, hM⟩ := (isCompact_Icc (a := (0 : ℝ)) (b := tEnd)).exists_bound_of_continuousOn hc.continuousOn
  refine ⟨|M|, abs_nonneg _, fun t s h0 hts hs => ?_⟩
  rcases hts.eq_or_lt with rfl | hlt
  · rw [sum_range_succ']
    simp
  have hu := uniqueDiffOn_Icc hlt
  have e : ∀ k ≤ n + 1, ∀ y ∈ Set.Icc t s, iteratedDerivWithin k U (Set.Icc t s) y = iteratedDeriv k U y := fun k hk y hy =>
    iteratedDerivWithin_eq_iteratedDeriv hu (hU.contDiffAt.of_le (by exact_mod_cast hk)) hy
  have := taylor_mean_remainder_bound (C := |M|) hlt.le hU.contDiffOn ⟨hlt.le, le_rfl⟩ fun y hy => by
    rw [e _ le_rfl y hy]
    exact (hM y ⟨h0.trans hy.1, hy.2.trans hs⟩).trans (le_abs_self M)
  rw [taylor_within_apply] at this
  have e2 : ∑ k ∈ range (n + 1), ((k.factorial : ℝ)⁻¹ * (s - t) ^ k) • iteratedDerivWithin k U (Set.Icc t s) t =
      ∑ k ∈ range (n + 1), ((k.factorial : ℝ)⁻¹ * (s - t) ^ k) • iteratedDeriv k U t :=
    sum_congr rfl fun k hk => by rw [e k (by rw [mem_range] at hk; omega) t ⟨le_rfl, hlt.le⟩]
  rw [e2] at this
  refine this.trans (div_le_self (by positivity) ?_)
  exact_mod_cast Nat.one_le_iff_ne_zero.2 (Nat.factorial_ne_zero n)

/-- The defect of a quadrature rule with `n` nodes `c` and weights `g` for the integral to `x`, as multiples of the derivatives of
the solution. -/
theorem quadrature {U : ℝ → F} (q : ℕ) (hU : ContDiff ℝ (q + 2) U) (tEnd : ℝ) (n : ℕ) (g c : ℕ → ℝ) (x : ℝ) (hx : 0 ≤ x ∧ x ≤ 1)
    (hc : ∀ j < n, 0 ≤ c j ∧ c j ≤ 1) :
    ∃ M, 0 ≤ M ∧ ∀ t dt, 0 ≤ t → 0 ≤ dt → t + dt ≤ tEnd →
      ‖U (t + x * dt) - U t - dt • ∑ j ∈ range n, g j • deriv U (t + c j * dt) -
        ∑ k ∈ range (q + 1), (dt ^ (k + 1) * (k.factorial : ℝ)⁻¹ * (x ^ (k + 1) / (k + 1) - ∑ j ∈ range n, g j * c j ^ k)) •
          iteratedDeriv (k + 1) U t‖ ≤ M * dt ^ (q + 2) := by
  obtain ⟨M1, hM1, h1⟩ := taylor_uniform (q + 1) (U := U) (by exact_mod_cast hU) tEnd
  have hd : ContDiff ℝ (q + 1) (deriv U) := by
    have h : ContDiff ℝ ((q + 1 : ℕ) + 1) U := by exact_mod_cast hU
    have := (contDiff_succ_iff_deriv (n := (q + 1 : ℕ))).1 h
    exact_mod_cast this.2.2
  obtain ⟨M2, hM2, h2⟩ := taylor_uniform q (U := deriv U) hd tEnd
  simp only [← iteratedDeriv_succ'] at h2
  refine ⟨M1 + M2 * ∑ j ∈ range n, |g j|, by positivity, fun t dt ht hdt hte => ?_⟩
  have hin : ∀ y, 0 ≤ y → y ≤ 1 → t ≤ t + y * dt ∧ t + y * dt ≤ tEnd := fun y h0 h1 =>
    ⟨by nlinarith, by nlinarith⟩
  obtain ⟨r, hr⟩ : ∃ r, r = U (t + x * dt) -
      ∑ k ∈ range (q + 2), ((k.factorial : ℝ)⁻¹ * (x * dt) ^ k) • iteratedDeriv k U t := ⟨_, rfl⟩
  obtain ⟨p, hp⟩ : ∃ p : ℕ → F, p = fun j => deriv U (t + c j * dt) -
      ∑ k ∈ range (q + 1), ((k.factorial : ℝ)⁻¹ * (c j * dt) ^ k) • iteratedDeriv (k + 1) U t := ⟨_, rfl⟩
  have br : ‖r‖ ≤ M1 * dt ^ (q + 2) := by
    have := h1 t (t + x * dt) ht (hin x hx.1 hx.2).1 (hin x hx.1 hx.2).2
    rw [add_sub_cancel_left, ← hr] at this
    refine this.trans ?_
    gcongr
    · exact mul_nonneg hx.1 hdt
    · exact mul_le_of_le_one_left hdt hx.2
  have bp : ∀ j < n, ‖p j‖ ≤ M2 * dt ^ (q + 1) := fun j hj => by
    have := h2 t (t + c j * dt) ht (hin _ (hc j hj).1 (hc j hj).2).1 (hin _ (hc j hj).1 (hc j hj).2).2
    rw [add_sub_cancel_left] at this
    rw [hp]
    refine this.trans ?_
    have := hc j hj
    gcongr
    · exact mul_nonneg this.1 hdt
    · exact mul_le_of_le_one_left hdt this.2
  have e1 : U (t + x * dt) = r + (U t + ∑ k ∈ range (q + 1), (dt ^ (k + 1) * (k.factorial : ℝ)⁻¹ * (x ^ (k + 1) / (k + 1))) •
      iteratedDeriv (k + 1) U t) := by
    rw [hr, sum_range_succ' _ (q + 1)]
    have : ∀ k ∈ range (q + 1), (((k + 1).factorial : ℝ)⁻¹ * (x * dt) ^ (k + 1)) • iteratedDeriv (k + 1) U t =
        (dt ^ (k + 1) * (k.factorial : ℝ)⁻¹ * (x ^ (k + 1) / (k + 1))) • iteratedDeriv (k + 1) U t := fun k _ => by
      congr 1
      rw [Nat.factorial_succ]
      push_cast
      have : (k : ℝ) + 1 ≠ 0 := by positivity
      have : (k.factorial : ℝ) ≠ 0 := by positivity
      field_simp
      rw [mul_pow, mul_comm]
    rw [sum_congr rfl this]
    simp only [Nat.factorial_zero, Nat.cast_one, inv_one, pow_zero, mul_one, one_smul, iteratedDeriv_zero]
    abel
  have e2 : dt • ∑ j ∈ range n, g j • deriv U (t + c j * dt) = dt • ∑ j ∈ range n, g j • p j +
      ∑ k ∈ range (q + 1), (dt ^ (k + 1) * (k.factorial : ℝ)⁻¹ * ∑ j ∈ range n, g j * c j ^ k) • iteratedDeriv (k + 1) U t := by
    have a1 : ∀ j, deriv U (t + c j * dt) = p j +
        ∑ k ∈ range (q + 1), ((k.factorial : ℝ)⁻¹ * (c j * dt) ^ k) • iteratedDeriv (k + 1) U t := fun j => by simp only [hp, sub_add_cancel]
    simp only [a1, smul_add, sum_add_distrib]
    congr 1
    simp only [smul_sum, mul_sum, sum_smul]
    rw [sum_comm]
    refine sum_congr rfl fun k _ => sum_congr rfl fun j _ => ?_
    rw [smul_smul, smul_smul]
    congr 1
    ring
  have e3 : U (t + x * dt) - U t - dt • ∑ j ∈ range n, g j • deriv U (t + c j * dt) -
        ∑ k ∈ range (q + 1), (dt ^ (k + 1) * (k.factorial : ℝ)⁻¹ * (x ^ (k + 1) / (k + 1) - ∑ j ∈ range n, g j * c j ^ k)) •
          iteratedDeriv (k + 1) U t = r - dt • ∑ j ∈ range n, g j • p j := by
    rw [e2, e1]
    simp only [mul_sub, sub_smul, sum_sub_distrib]
    abel
  rw [e3]
  calc ‖r - dt • ∑ j ∈ range n, g j • p j‖ ≤ ‖r‖ + ‖dt • ∑ j ∈ range n, g j • p j‖ := norm_sub_le _ _
    _ ≤ M1 * dt ^ (q + 2) + dt * ∑ j ∈ range n, |g j| * (M2 * dt ^ (q + 1)) := by
      refine add_le_add br ?_
      rw [norm_smul, Real.norm_of_nonneg hdt]
      refine mul_le_mul_of_nonneg_left ((norm_sum_le _ _).trans (sum_le_sum fun j hj => ?_)) hdt
      rw [norm_smul, Real.norm_eq_abs]
      exact mul_le_mul_of_nonneg_left (bp j (mem_range.1 hj)) (abs_nonneg _)
    _ = _ := by rw [← sum_mul]; ring

/-! ### One step -/

/-- The stages of one step of a method for `u' = f(t, u)`. -/
def Stages (T : RK.Tableau) (f : ℝ → F → F) (t dt : ℝ) (old new : F) (s : ℕ → F) : Prop :=
  (∀ i < T.n, s i = old + dt • ∑ j ∈ range T.n, T.a i j • f (t + T.c j * dt) (s j)) ∧
    new = old + dt • ∑ j ∈ range T.n, T.b j • f (t + T.c j * dt) (s j)

/-- Sizes of the coefficients. -/
noncomputable def sizeA (T : RK.Tableau) : ℝ := ∑ i ∈ range T.n, ∑ j ∈ range T.n, |T.a i j|
noncomputable def sizeB (T : RK.Tableau) : ℝ := ∑ i ∈ range T.n, |T.b i|

theorem sizeA_nonneg (T : RK.Tableau) : 0 ≤ sizeA T := sum_nonneg fun _ _ => sum_nonneg fun _ _ => abs_nonneg _
theorem sizeB_nonneg (T : RK.Tableau) : 0 ≤ sizeB T := sum_nonneg fun _ _ => abs_nonneg _

theorem norm_weighted (n : ℕ) (g : ℕ → ℝ) (x : ℕ → F) (y : ℕ → ℝ) (h : ∀ j < n, ‖x j‖ ≤ y j) :
    ‖∑ j ∈ range n, g j • x j‖ ≤ (∑ j ∈ range n, |g j|) * ∑ j ∈ range n, y j := by
  have hy : ∀ j ∈ range n, 0 ≤ y j := fun j hj => (norm_nonneg _).trans (h j (mem_range.1 hj))
  refine (norm_sum_le _ _).trans ?_
  rw [sum_mul]
  refine sum_le_sum fun j hj => ?_
  rw [norm_smul, Real.norm_eq_abs]
  exact mul_le_mul_of_nonneg_left ((h j (mem_range.1 hj)).trans (single_le_sum hy hj)) (abs_nonneg _)

section Step

variable {T : RK.Tableau} {f : ℝ → F → F} {t dt L : ℝ} {old new : F} {s U : ℕ → F} {u0 u1 : F} (hs : Stages T f t dt old new s)
  (hdt : 0 ≤ dt) (hL : 0 ≤ L)
  (hf : ∀ j < T.n, ‖f (t + T.c j * dt) (s j) - f (t + T.c j * dt) (U j)‖ ≤ L * ‖s j - U j‖)

/-- The defects: what is missing when the exact solution `U` at the stages, `u0` before and `u1` after the step are put into the method. -/
def defect (T : RK.Tableau) (f : ℝ → F → F) (t dt : ℝ) (u0 : F) (U : ℕ → F) (i : ℕ) : F :=
  U i - u0 - dt • ∑ j ∈ range T.n, T.a i j • f (t + T.c j * dt) (U j)

def defectEnd (T : RK.Tableau) (f : ℝ → F → F) (t dt : ℝ) (u0 u1 : F) (U : ℕ → F) : F :=
  u1 - u0 - dt • ∑ j ∈ range T.n, T.b j • f (t + T.c j * dt) (U j)

/-- The errors of all stages together. -/
def total (T : RK.Tableau) (s U : ℕ → F) : ℝ := ∑ j ∈ range T.n, ‖s j - U j‖

omit [NormedSpace ℝ F] in
theorem total_nonneg (T : RK.Tableau) (s U : ℕ → F) : 0 ≤ total T s U := sum_nonneg fun _ _ => norm_nonneg _

include hs in
theorem stage_error (u0 : F) (i : ℕ) (hi : i < T.n) :
    s i - U i = (old - u0) + dt • ∑ j ∈ range T.n, T.a i j • (f (t + T.c j * dt) (s j) - f (t + T.c j * dt) (U j)) -
      defect T f t dt u0 U i := by
  rw [hs.1 i hi, defect]
  simp only [smul_sub, sum_sub_distrib]
  abel

include hs in
theorem end_error (u0 u1 : F) :
    new - u1 = (old - u0) + dt • ∑ j ∈ range T.n, T.b j • (f (t + T.c j * dt) (s j) - f (t + T.c j * dt) (U j)) -
      defectEnd T f t dt u0 u1 U := by
  rw [hs.2, defectEnd]
  simp only [smul_sub, sum_sub_distrib]
  abel

include hdt hf in
theorem total_of_error {d : ℝ} (p : ℕ → F) (hp : ∀ i < T.n, s i - U i = (old - u0) +
      dt • ∑ j ∈ range T.n, T.a i j • (f (t + T.c j * dt) (s j) - f (t + T.c j * dt) (U j)) - p i)
    (hd : ∀ i < T.n, ‖p i‖ ≤ d) (hsmall : dt * (sizeA T * L) ≤ 1 / 2) :
    total T s U ≤ 2 * T.n * (‖old - u0‖ + d) := by
  have h1 : ∀ i < T.n, ‖s i - U i‖ ≤ ‖old - u0‖ + dt * ((∑ j ∈ range T.n, |T.a i j|) * (L * total T s U)) + d := fun i hi => by
    rw [hp i hi]
    refine (norm_sub_le _ _).trans (add_le_add ((norm_add_le _ _).trans (add_le_add le_rfl ?_)) (hd i hi))
    rw [norm_smul, Real.norm_of_nonneg hdt]
    refine mul_le_mul_of_nonneg_left ?_ hdt
    have := norm_weighted T.n (T.a i) _ _ hf
    rwa [← mul_sum] at this
  have h2 : total T s U ≤ ∑ i ∈ range T.n, (‖old - u0‖ + dt * ((∑ j ∈ range T.n, |T.a i j|) * (L * total T s U)) + d) :=
    sum_le_sum fun i hi => h1 i (mem_range.1 hi)
  rw [sum_add_distrib, sum_add_distrib, ← mul_sum, ← sum_mul] at h2
  simp only [sum_const, card_range, nsmul_eq_mul] at h2
  have h3 : dt * (sizeA T * (L * total T s U)) ≤ 1 / 2 * total T s U := by
    have := mul_le_mul_of_nonneg_right hsmall (total_nonneg T s U)
    calc _ = dt * (sizeA T * L) * total T s U := by ring
      _ ≤ _ := this
  change total T s U ≤ T.n * ‖old - u0‖ + dt * (sizeA T * (L * total T s U)) + T.n * d at h2
  linarith

include hdt hL hf in
theorem error_of_error {d d' : ℝ} (p : ℕ → F) (p' : F) (hp : ∀ i < T.n, s i - U i = (old - u0) +
      dt • ∑ j ∈ range T.n, T.a i j • (f (t + T.c j * dt) (s j) - f (t + T.c j * dt) (U j)) - p i)
    (hp' : new - u1 = (old - u0) +
      dt • ∑ j ∈ range T.n, T.b j • (f (t + T.c j * dt) (s j) - f (t + T.c j * dt) (U j)) - p')
    (hd : ∀ i < T.n, ‖p i‖ ≤ d) (hd' : ‖p'‖ ≤ d') (hsmall : dt * (sizeA T * L) ≤ 1 / 2) :
    ‖new - u1‖ ≤ (1 + dt * (2 * T.n * (sizeB T * L))) * ‖old - u0‖ + (dt * (2 * T.n * (sizeB T * L)) * d + d') := by
  have h1 := total_of_error hdt hf p hp hd hsmall
  rw [hp']
  have h2 : ‖dt • ∑ j ∈ range T.n, T.b j • (f (t + T.c j * dt) (s j) - f (t + T.c j * dt) (U j))‖ ≤
      dt * (sizeB T * (L * total T s U)) := by
    rw [norm_smul, Real.norm_of_nonneg hdt]
    refine mul_le_mul_of_nonneg_left ?_ hdt
    have := norm_weighted T.n T.b _ _ hf
    rwa [← mul_sum] at this
  have h3 : dt * (sizeB T * (L * total T s U)) ≤ dt * (sizeB T * (L * (2 * T.n * (‖old - u0‖ + d)))) := by
    have := sizeB_nonneg T
    gcongr
  have h4 := norm_sub_le (old - u0 + dt • ∑ j ∈ range T.n, T.b j • (f (t + T.c j * dt) (s j) - f (t + T.c j * dt) (U j))) p'
  have h5 := norm_add_le (old - u0) (dt • ∑ j ∈ range T.n, T.b j • (f (t + T.c j * dt) (s j) - f (t + T.c j * dt) (U j)))
  nlinarith

include hs hdt hf in
theorem total_le {d : ℝ} (hd : ∀ i < T.n, ‖defect T f t dt u0 U i‖ ≤ d) (hsmall : dt * (sizeA T * L) ≤ 1 / 2) :
    total T s U ≤ 2 * T.n * (‖old - u0‖ + d) :=
  total_of_error hdt hf _ (stage_error hs u0) hd hsmall

include hs hdt hL hf in
/-- The error after one step. -/
theorem step_error {d d' : ℝ} (hd : ∀ i < T.n, ‖defect T f t dt u0 U i‖ ≤ d) (hd' : ‖defectEnd T f t dt u0 u1 U‖ ≤ d')
    (hsmall : dt * (sizeA T * L) ≤ 1 / 2) :
    ‖new - u1‖ ≤ (1 + dt * (2 * T.n * (sizeB T * L))) * ‖old - u0‖ + (dt * (2 * T.n * (sizeB T * L)) * d + d') :=
  error_of_error hdt hL hf _ _ (stage_error hs u0) (end_error hs u0 u1) hd hd' hsmall

include hs hdt hL hf in
/-- The error after one step, when the right-hand side is differentiable along the solution: the defects of the stages only enter
through their weighted sum, up to terms of higher order. -/
theorem step_error_smooth {d' d'' M : ℝ} (D : F →ₗ[ℝ] F) (hD : ∀ x, ‖D x‖ ≤ L * ‖x‖) (hM : 0 ≤ M)
    (hf2 : ∀ j < T.n, ‖f (t + T.c j * dt) (s j) - f (t + T.c j * dt) (U j) - D (s j - U j)‖ ≤
      M * (dt + ‖s j - U j‖) * ‖s j - U j‖)
    (hd' : ‖defectEnd T f t dt u0 u1 U‖ ≤ d') (hd'' : ‖∑ i ∈ range T.n, T.b i • defect T f t dt u0 U i‖ ≤ d'') :
    ‖new - u1‖ ≤ ‖old - u0‖ + dt * (L * (sizeB T * ‖old - u0‖ + dt * (sizeB T * (sizeA T * (L * total T s U))) + d'')) +
      dt * (sizeB T * (M * (dt + total T s U) * total T s U)) + d' := by
  obtain ⟨g, hg⟩ : ∃ g : ℕ → F, g = fun j => f (t + T.c j * dt) (s j) - f (t + T.c j * dt) (U j) := ⟨_, rfl⟩
  obtain ⟨r, hr⟩ : ∃ r : ℕ → F, r = fun j => g j - D (s j - U j) := ⟨_, rfl⟩
  have hX := total_nonneg T s U
  have hB := sizeB_nonneg T
  have hA := sizeA_nonneg T
  have hle : ∀ j < T.n, ‖s j - U j‖ ≤ total T s U := fun j hj =>
    single_le_sum (f := fun j => ‖s j - U j‖) (fun _ _ => norm_nonneg _) (mem_range.2 hj)
  have bg : ∀ j < T.n, ‖g j‖ ≤ L * ‖s j - U j‖ := fun j hj => by rw [hg]; exact hf j hj
  have br : ∀ j < T.n, ‖r j‖ ≤ M * (dt + total T s U) * ‖s j - U j‖ := fun j hj => by
    rw [hr, hg]
    refine (hf2 j hj).trans ?_
    gcongr
    exact hle j hj
  have e1 : ∑ j ∈ range T.n, T.b j • g j = D (∑ j ∈ range T.n, T.b j • (s j - U j)) + ∑ j ∈ range T.n, T.b j • r j := by
    rw [map_sum, ← sum_add_distrib]
    refine sum_congr rfl fun j _ => ?_
    rw [map_smul, ← smul_add, hr]
    simp only [add_sub_cancel]
  have e2 : ∑ j ∈ range T.n, T.b j • (s j - U j) = ∑ j ∈ range T.n, T.b j • (old - u0) +
      dt • ∑ i ∈ range T.n, T.b i • ∑ j ∈ range T.n, T.a i j • g j - ∑ i ∈ range T.n, T.b i • defect T f t dt u0 U i := by
    rw [smul_sum, ← sum_add_distrib, ← sum_sub_distrib]
    refine sum_congr rfl fun i hi => ?_
    rw [stage_error hs u0 i (mem_range.1 hi), hg, smul_sub, smul_add, smul_comm]
  have b1 : ‖∑ j ∈ range T.n, T.b j • (old - u0)‖ ≤ sizeB T * ‖old - u0‖ := by
    rw [← sum_smul, norm_smul, Real.norm_eq_abs]
    exact mul_le_mul_of_nonneg_right (abs_sum_le_sum_abs _ _) (norm_nonneg _)
  have b2 : ‖∑ i ∈ range T.n, T.b i • ∑ j ∈ range T.n, T.a i j • g j‖ ≤ sizeB T * (sizeA T * (L * total T s U)) := by
    have := norm_weighted T.n T.b (fun i => ∑ j ∈ range T.n, T.a i j • g j)
      (fun i => (∑ j ∈ range T.n, |T.a i j|) * (L * total T s U)) fun i _ => by
        have := norm_weighted T.n (T.a i) _ _ bg
        rwa [← mul_sum] at this
    rwa [← sum_mul] at this
  have b3 : ‖∑ j ∈ range T.n, T.b j • (s j - U j)‖ ≤
      sizeB T * ‖old - u0‖ + dt * (sizeB T * (sizeA T * (L * total T s U))) + d'' := by
    rw [e2]
    refine (norm_sub_le _ _).trans (add_le_add ((norm_add_le _ _).trans (add_le_add b1 ?_)) hd'')
    rw [norm_smul, Real.norm_of_nonneg hdt]
    exact mul_le_mul_of_nonneg_left b2 hdt
  have b4 : ‖∑ j ∈ range T.n, T.b j • r j‖ ≤ sizeB T * (M * (dt + total T s U) * total T s U) := by
    have := norm_weighted T.n T.b _ _ br
    rwa [← mul_sum] at this
  have b5 : ‖∑ j ∈ range T.n, T.b j • g j‖ ≤
      L * (sizeB T * ‖old - u0‖ + dt * (sizeB T * (sizeA T * (L * total T s U))) + d'') +
        sizeB T * (M * (dt + total T s U) * total T s U) := by
    rw [e1]
    exact (norm_add_le _ _).trans (add_le_add ((hD _).trans (mul_le_mul_of_nonneg_left b3 hL)) b4)
  rw [end_error hs u0 u1]
  refine (norm_sub_le _ _).trans (add_le_add ?_ hd')
  refine (norm_add_le _ _).trans ?_
  rw [add_assoc]
  refine add_le_add le_rfl ?_
  rw [norm_smul, Real.norm_of_nonneg hdt, ← mul_add]
  refine mul_le_mul_of_nonneg_left ?_ hdt
  rw [hg] at b5
  exact b5

end Step

end Verif.Converge
