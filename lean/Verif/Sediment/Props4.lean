import Verif.Sediment.Props3

/-!
Further theorems of C46 and C48 about the intermediate quantities.
-/

namespace Verif.Sediment

open Real

/-- C46: the bed stress is the density times the squared shear velocity. -/
theorem C46_shear_velocity (o : Opts) (q : Flow) : bedStressOf o q = rhow * ustar o q ^ 2 := by
  have : 0 ≤ 0.5 * qfc o q * unorm q :=
    mul_nonneg (mul_nonneg (by norm_num) (qfc_pos o q).le) (unorm_nonneg q)
  unfold ustar bedStressOf
  rw [sq_sqrt this]
  ring

/-- C46: the dimensionless grain size. -/
theorem C46_grain_size (o : Opts) (h : o.Valid) :
    o.dstar ^ 3 = o.size ^ 3 * (g * o.R / o.visc ^ 2) := by
  have hx : 0 ≤ g * o.R / o.visc ^ 2 :=
    div_nonneg (mul_nonneg g_pos.le h.R_pos.le) (sq_nonneg _)
  unfold Opts.dstar
  rw [mul_pow, ← rpow_natCast ((g * o.R / o.visc ^ 2) ^ (1 / 3 : ℝ)) 3, ← rpow_mul hx]
  norm_num

/-- C46: the skin friction is a part of the total friction: none in water not deeper than the skin
roughness, otherwise positive and (bed roughness at least the skin roughness, water deeper than a
millimetre) at most all of it. -/
theorem C46_skin_friction (o : Opts) (h : o.Valid) (q : Flow) :
    (q.depth ≤ 3 * o.size → mu o q = 0) ∧ (3 * o.size < q.depth → 0 < mu o q) ∧
    (3 * o.size ≤ o.bedRef → 0.001 < q.depth → mu o q ≤ 1) := by
  have hs := h.size
  have hq := qfc_pos o q
  have hk : 0 < o.ksp := by unfold Opts.ksp; positivity
  have hmu : mu o q = cfactor o q / qfc o q := by unfold mu; rw [if_pos hq]
  have hlog : o.ksp < q.depth → log 1.001 ≤ log (11.036 * q.depth / o.ksp) ∧
      0 < log (11.036 * q.depth / o.ksp) := by
    intro hd
    have : (1.001 : ℝ) ≤ 11.036 * q.depth / o.ksp := by
      rw [le_div_iff₀ hk]; nlinarith
    exact ⟨log_le_log (by norm_num) this, log_pos (by linarith [show (1 : ℝ) < 1.001 by norm_num])⟩
  have hkap : (0 : ℝ) < kappa := by unfold kappa; norm_num
  refine ⟨fun hd => ?_, fun hd => ?_, fun hb hd => ?_⟩
  · rw [hmu]; unfold cfactor
    rw [if_neg (not_lt.2 (show q.depth ≤ o.ksp from hd)), zero_div]
  · rw [hmu]; unfold cfactor
    rw [if_pos (show q.depth > o.ksp from hd)]
    have := (hlog hd).2
    positivity
  · rw [hmu, div_le_one hq]
    by_cases hd' : q.depth > o.ksp
    · obtain ⟨h1, h2⟩ := hlog hd'
      unfold cfactor qfc
      rw [if_pos hd', if_pos (show q.depth > 0.001 from hd)]
      simp only
      have hbr : 0 < o.bedRef := h.bedRef
      have hle : ∀ A, 0 < log A → log A ≤ log (11.036 * q.depth / o.ksp) →
          2 * (1 / kappa * log (11.036 * q.depth / o.ksp)) ^ (-2 : ℤ) ≤ 2 / (log A / kappa) ^ 2 := by
        intro A hA hA'
        rw [zpow_neg, ← div_eq_mul_inv, show (2 : ℤ) = ((2 : ℕ) : ℤ) from rfl, zpow_natCast]
        apply div_le_div_of_nonneg_left (by norm_num) (by positivity)
        apply pow_le_pow_left₀ (by positivity)
        rw [one_div_mul_eq_div]
        exact div_le_div_of_nonneg_right hA' hkap.le
      split_ifs with h3
      · refine hle _ (log_pos (by linarith)) (log_le_log (by linarith) ?_)
        apply div_le_div_of_nonneg_left (by nlinarith) hk hb
      · exact hle _ (log_pos (by norm_num)) h1
    · unfold cfactor
      rw [if_neg hd']
      exact hq.le

/-- C48: the reference height relative to the depth is the larger of the two heights, cut at 1/1.1. -/
theorem C48_reference (depth ksp a : ℝ) (hd : 0 < depth) :
    amax depth ksp a = min (max ksp a / depth) (1 / 1.1) := by
  have key : ∀ x, (if depth > 1.1 * x then x / depth else 1 / 1.1) = min (x / depth) (1 / 1.1) := by
    intro x
    split_ifs with h
    · rw [min_eq_left]
      rw [div_le_div_iff₀ hd (by norm_num)]; linarith
    · rw [min_eq_right]
      rw [div_le_div_iff₀ (by norm_num) hd]; linarith
  unfold amax
  simp only [key]
  rw [← max_div_div_right hd.le, min_max_distrib_right]
  split_ifs with h
  · rw [max_eq_right h.le]
  · rw [max_eq_left (not_lt.1 h)]

/-- C48: the exponent is minus the Rouse number of the profile, cut at settling as fast as the shear
velocity. -/
theorem C48_exponent (o : Opts) (q : Flow) (r : ℝ) (h : rouse o q = some r) :
    (o.ws < ustar o q → r1conv o.ws (ustar o q) = -r) ∧
    (ustar o q ≤ o.ws → r1conv o.ws (ustar o q) = -(3 / 2)) := by
  unfold rouse at h
  split_ifs at h with hu
  rw [Option.some.injEq] at h
  have hp : 0 < ustar o q := lt_of_le_of_ne (sqrt_nonneg _) (Ne.symm hu)
  unfold r1conv
  constructor
  · intro hw
    rw [if_pos ⟨hu, by rwa [div_lt_one hp]⟩, ← h]
    have : kappa ≠ 0 := by unfold kappa; norm_num
    field_simp
    ring
  · intro hw
    rw [if_neg (by rw [div_lt_one hp]; intro hx; linarith [hx.2])]
    unfold kappa
    norm_num

end Verif.Sediment
