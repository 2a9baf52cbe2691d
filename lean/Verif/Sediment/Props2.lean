import Verif.Sediment.Props
import Mathlib.Analysis.Complex.ExponentialBounds

/-!
Properties C46 (the Rouse profile), C47 (sediment slide) and C48 (velocity correction).
-/

namespace Verif.Sediment

open Real

/-! ### C46: the near-bed factor -/

/-- Integral of a power over `[a, 1]`. -/
theorem integral_pow_to_one {a r : ℝ} (ha : 0 < a) (ha1 : a ≤ 1) (hr : r ≠ 0) :
    ∫ x in a..1, x ^ (r - 1) = (1 - a ^ r) / r := by
  rw [integral_rpow]
  · simp
  · right
    refine ⟨fun h => hr (by linarith), ?_⟩
    rw [Set.uIcc_of_le ha1]
    intro h; exact absurd h.1 (not_le.2 ha)

/-- C46: the inverse of the deposition factor is the depth average of the Rouse profile
`(z / a) ^ -(r + 1)` above the reference height (`b` the relative reference height). -/
theorem C46_profile_integral (b r : ℝ) (hb : 0 < b) (hb1 : b ≤ 1) (hr : 1e-4 < |r|) (h3 : r ≤ 3) :
    stepOf b r = ∫ x in b..1, (x / b) ^ (-(r + 1)) := by
  have hr0 : r ≠ 0 := by rintro rfl; norm_num at hr
  have e : ∫ x in b..1, (x / b) ^ (-(r + 1)) = ∫ x in b..1, b ^ (r + 1) * x ^ (-r - 1) := by
    apply intervalIntegral.integral_congr
    intro x hx
    rw [Set.uIcc_of_le hb1] at hx
    have hx0 : 0 < x := lt_of_lt_of_le hb hx.1
    show (x / b) ^ (-(r + 1)) = b ^ (r + 1) * x ^ (-r - 1)
    rw [div_rpow hx0.le hb.le, rpow_neg hb.le, div_inv_eq_mul, mul_comm]
    congr 2; ring
  rw [e, intervalIntegral.integral_const_mul, integral_pow_to_one hb hb1 (neg_ne_zero.2 hr0), stepOf,
    if_pos hr, min_eq_left h3, rpow_add hb, rpow_one, rpow_neg hb.le]
  have : b ^ r ≠ 0 := (rpow_pos_of_pos hb r).ne'
  field_simp
  ring

/-- C46: in the special case the same integral at Rouse number zero is used. -/
theorem C46_profile_special (b r : ℝ) (hb : 0 < b) (hr : |r| ≤ 1e-4) :
    stepOf b r = ∫ x in b..1, (x / b) ^ (-1 : ℝ) := by
  have e : ∫ x in b..1, (x / b) ^ (-1 : ℝ) = ∫ x in b..1, b * x⁻¹ := by
    apply intervalIntegral.integral_congr
    intro x hx
    show (x / b) ^ (-1 : ℝ) = b * x⁻¹
    rw [rpow_neg_one, inv_div, div_eq_mul_inv]
  rw [e, intervalIntegral.integral_const_mul, integral_inv_of_pos hb one_pos, stepOf,
    if_neg (not_lt.2 hr), one_div, log_inv]
  ring

/-- The profile never exceeds its value at the bed on average. -/
theorem stepOf_le (b r : ℝ) (hb : 0 < b) (hb1 : b ≤ 1) (hr : -1 ≤ r) : stepOf b r ≤ 1 - b := by
  have hlog : -b * log b ≤ 1 - b := by
    have := log_le_sub_one_of_pos (inv_pos.2 hb)
    rw [log_inv] at this
    have h2 := mul_le_mul_of_nonneg_left this hb.le
    have h3 : b * (b⁻¹ - 1) = 1 - b := by field_simp
    linarith
  unfold stepOf
  split_ifs with h
  · rcases lt_or_ge 0 r with h0 | h0
    · -- 1 - b^m ≤ -m log b
      have hm : 0 < min r 3 := lt_min h0 (by norm_num)
      have h1 : 1 - b ^ min r 3 ≤ -(min r 3 * log b) := by
        rw [rpow_def_of_pos hb]
        have := add_one_le_exp (log b * min r 3)
        linarith
      have h2 : (1 - b ^ min r 3) / min r 3 ≤ -log b := by
        rw [div_le_iff₀ hm]; linarith
      calc b * (1 - b ^ min r 3) / min r 3 = b * ((1 - b ^ min r 3) / min r 3) := by ring
        _ ≤ b * -log b := mul_le_mul_of_nonneg_left h2 hb.le
        _ ≤ 1 - b := by linarith
    · have hr0 : r ≠ 0 := by rintro rfl; norm_num at h
      have hneg : r < 0 := lt_of_le_of_ne h0 hr0
      rw [min_eq_left (by linarith : r ≤ 3)]
      -- b^r = (1/b)^s, s = -r ∈ (0,1]
      have hb' : (0 : ℝ) ≤ b⁻¹ - 1 := by
        have := one_le_inv_iff₀.2 ⟨hb, hb1⟩; linarith
      have hbern := rpow_one_add_le_one_add_mul_self (s := b⁻¹ - 1) (by linarith)
        (p := -r) (by linarith) (by linarith)
      have e : (1 + (b⁻¹ - 1)) ^ (-r) = b ^ r := by
        rw [add_sub_cancel, inv_rpow hb.le, rpow_neg hb.le, inv_inv]
      rw [e] at hbern
      have h1 : (1 - b ^ r) / r ≤ b⁻¹ - 1 := by
        rw [div_le_iff_of_neg hneg]; linarith
      calc b * (1 - b ^ r) / r = b * ((1 - b ^ r) / r) := by ring
        _ ≤ b * (b⁻¹ - 1) := mul_le_mul_of_nonneg_left h1 hb.le
        _ = 1 - b := by field_simp
  · exact hlog

theorem Opts.Valid.b_mem {o : Opts} (h : o.Valid) (q : Flow) :
    0 < bHeight o q ∧ bHeight o q ≤ 1 := by
  have ha : 0 < o.a := by have := h.bedRef; unfold Opts.a; positivity
  unfold bHeight
  split_ifs with h1
  · norm_num
  · have hd : 0 < q.depth := lt_of_lt_of_le ha (not_lt.1 h1)
    exact ⟨div_pos ha hd, (div_le_one hd).2 (not_lt.1 h1)⟩

/-- C46: the lower limit 1 of the deposition factor never acts: the factor is the inverse of the
average of the profile (or the cap 1e12). -/
theorem C46_limit_inactive (o : Opts) (h : o.Valid) (q : Flow) :
    integratedRouse o q
      = if intermediateStep o q > 1e-12 then 1 / intermediateStep o q else 1e12 := by
  obtain ⟨hb, hb1⟩ := h.b_mem q
  have hs : intermediateStep o q ≤ 1 := by
    unfold intermediateStep
    split
    · have : 0 ≤ bHeight o q ^ (3 : ℝ) := rpow_nonneg hb.le _
      have h2 : bHeight o q * (1 - bHeight o q ^ (3 : ℝ)) ≤ 1 := by nlinarith
      linarith
    · rename_i r hr
      have : -1 ≤ r := by
        unfold rouse at hr
        split_ifs at hr with h0
        · simp only [Option.some.injEq] at hr
          have hu : 0 ≤ ustar o q := sqrt_nonneg _
          have := div_nonneg h.ws_pos.le (mul_nonneg kappa_pos.le hu)
          linarith
      have := stepOf_le _ r hb hb1 this
      linarith
  unfold integratedRouse
  apply max_eq_left
  split_ifs with hp
  · rw [le_div_iff₀ (by linarith)]; linarith
  · norm_num

/-! ### C47: sediment slide -/

/-- The bed slope. -/
noncomputable def slope (bx by' : ℝ) : ℝ := sqrt (bx ^ 2 + by' ^ 2)

theorem slide_parts (bx by' : ℝ) :
    let nz := 1 / sqrt (1 + (bx ^ 2 + by' ^ 2))
    sqrt (1 - nz ^ 2) = slope bx by' * nz ∧ sqrt (1 - nz ^ 2) / nz = slope bx by' ∧
      nz ^ 2 = 1 / (1 + slope bx by' ^ 2) ∧ arcsin (sqrt (1 - nz ^ 2)) = arctan (slope bx by') := by
  intro nz
  have hs : slope bx by' ^ 2 = bx ^ 2 + by' ^ 2 := sq_sqrt (by positivity)
  have hs0 : 0 ≤ slope bx by' := sqrt_nonneg _
  have hp : 0 < 1 + (bx ^ 2 + by' ^ 2) := by positivity
  have hnz : 0 < nz := by positivity
  have h2 : nz ^ 2 = 1 / (1 + slope bx by' ^ 2) := by
    rw [div_pow, one_pow, sq_sqrt hp.le, hs]
  have h1 : sqrt (1 - nz ^ 2) = slope bx by' * nz := by
    rw [show 1 - nz ^ 2 = (slope bx by' * nz) ^ 2 from ?_, sqrt_sq (by positivity)]
    rw [mul_pow, h2]
    have : (1 + slope bx by' ^ 2) ≠ 0 := by positivity
    field_simp
    ring
  refine ⟨h1, ?_, h2, ?_⟩
  · rw [h1]; field_simp
  · rw [h1, arctan_eq_arcsin, hs, mul_one_div]

/-- C47: no slide on slopes up to the maximum angle. -/
theorem C47_inactive (bx by' tanphi L p dt m : ℝ) (h : slope bx by' ≤ tanphi) :
    slideCoef bx by' tanphi L p dt m = 0 := by
  obtain ⟨-, h2, -, -⟩ := slide_parts bx by'
  unfold slideCoef
  simp only [h2]
  rw [if_neg (by linarith : ¬ slope bx by' - tanphi > 0)]
  simp

/-- C47: the diffusivity (the negative of the coefficient) above the maximum angle.  The time step
and the acceleration factor appear inside the cosine. -/
theorem C47_value (bx by' tanphi L p dt m : ℝ) (h0 : 0 ≤ tanphi) (h : tanphi < slope bx by') :
    slideCoef bx by' tanphi L p dt m
      = -((1 - p) * L ^ 2 * (slope bx by' - tanphi)
        / (2 * slope bx by' * sqrt (1 + slope bx by' ^ 2) * cos (arctan (slope bx by') * dt * m))) := by
  obtain ⟨h1, h2, h3, h4⟩ := slide_parts bx by'
  have hs : 0 < slope bx by' := lt_of_le_of_lt h0 h
  have hss : slope bx by' ^ 2 = bx ^ 2 + by' ^ 2 := sq_sqrt (by positivity)
  have hnz : 0 < 1 / sqrt (1 + (bx ^ 2 + by' ^ 2)) := by positivity
  unfold slideCoef
  simp only [h2, h4]
  have hq : slope bx by' - tanphi > 0 := by linarith
  rw [if_pos (show √(1 - (1 / √(1 + (bx ^ 2 + by' ^ 2))) ^ 2) > 0 by rw [h1]; positivity), if_pos hq, h1, h3,
    ← hss]
  have hr : sqrt (1 + slope bx by' ^ 2) ^ 2 = 1 + slope bx by' ^ 2 := sq_sqrt (by positivity)
  have hr0 : 0 < sqrt (1 + slope bx by' ^ 2) := sqrt_pos.2 (by positivity)
  set t := sqrt (1 + slope bx by' ^ 2)
  rw [← hr]
  by_cases hc : cos (arctan (slope bx by') * dt * m) = 0
  · simp [hc]
  · field_simp
    ring

/-- C47, the part that holds: as long as the bed angle times time step times acceleration factor is
below a right angle, the coefficient is at most zero, and the term dissipates the bed slope: tested
with the bed itself it is at most zero. -/
theorem C47_downslope_partial (bx by' tanphi L p dt m : ℝ) (h0 : 0 ≤ tanphi) (hp : p ≤ 1)
    (hd : 0 ≤ dt) (hm : 0 ≤ m) (hc : arctan (slope bx by') * dt * m < π / 2) :
    slideCoef bx by' tanphi L p dt m ≤ 0 ∧
    slideCell (slideCoef bx by' tanphi L p dt m) (bx, by') (bx, by') ≤ 0 := by
  have key : slideCoef bx by' tanphi L p dt m ≤ 0 := by
    rcases le_or_gt (slope bx by') tanphi with h | h
    · rw [C47_inactive _ _ _ _ _ _ _ h]
    · rw [C47_value _ _ _ _ _ _ _ h0 h]
      have hs : 0 < slope bx by' := lt_of_le_of_lt h0 h
      have ha : 0 ≤ arctan (slope bx by') := by
        have := arctan_strictMono hs; rw [arctan_zero] at this; exact this.le
      have : 0 < cos (arctan (slope bx by') * dt * m) :=
        cos_pos_of_mem_Ioo ⟨by have := pi_pos; have : 0 ≤ arctan (slope bx by') * dt * m := by positivity
                               linarith, hc⟩
      have h1 : 0 ≤ 1 - p := by linarith
      have h2 : 0 ≤ slope bx by' - tanphi := by linarith
      have h3 : 0 < sqrt (1 + slope bx by' ^ 2) := sqrt_pos.2 (by positivity)
      have : 0 ≤ (1 - p) * L ^ 2 * (slope bx by' - tanphi)
        / (2 * slope bx by' * sqrt (1 + slope bx by' ^ 2) * cos (arctan (slope bx by') * dt * m)) := by
        positivity
      linarith
  refine ⟨key, ?_⟩
  unfold slideCell
  simp only
  nlinarith [sq_nonneg bx, sq_nonneg by']

/-- C47 is violated: on a bed of 45 degrees with a time step of 4 s the coefficient is positive, the
slide moves sediment up-slope. -/
theorem C47_upslope_violated : 0 < slideCoef 1 0 (1 / 2) 1 0.4 4 1 := by
  have hs : slope 1 0 = 1 := by simp [slope]
  rw [C47_value _ _ _ _ _ _ _ (by norm_num) (by rw [hs]; norm_num), hs, arctan_one,
    show π / 4 * 4 * 1 = π from by ring, cos_pi]
  have : 0 < sqrt (1 + 1 ^ 2) := sqrt_pos.2 (by norm_num)
  have h2 : (0:ℝ) < (1 - 0.4) * 1 ^ 2 * (1 - 1 / 2) / (2 * 1 * sqrt (1 + 1 ^ 2)) := by
    apply div_pos <;> [norm_num; positivity]
  have e : -((1 - 0.4) * 1 ^ 2 * (1 - 1 / 2) / (2 * 1 * sqrt (1 + 1 ^ 2) * -1))
      = (1 - 0.4) * 1 ^ 2 * (1 - 1 / 2) / (2 * 1 * sqrt (1 + 1 ^ 2)) := by
    rw [mul_neg_one, div_neg, neg_neg]
  rw [e]; exact h2

/-- C47: for a continuous bed (the only one accepted, solver2d.py:519-524) the facet terms vanish. -/
theorem C47_facets (sigma K : ℝ) (fT fB : ℝ × ℝ) : slideFacet sigma K 0 0 fT fB = 0 := by
  simp [slideFacet, dot]

/-- C47: the remaining term moves sediment against the bed gradient: the weak form is that of
`d b / d t = div (-K grad b)`. -/
theorem C47_weak_form (K : ℝ) (t b : ℝ × ℝ) : slideCell K t b = -(t.1 * (-K * b.1) + t.2 * (-K * b.2)) := by
  simp [slideCell]

/-- The slope condition holds for usual steps: a bed of 45 degrees and a step of one second. -/
example : arctan (slope 1 0) * 1 * 1 < π / 2 := by
  have hs : slope 1 0 = 1 := by simp [slope]
  rw [hs, arctan_one]; have := pi_pos; linarith

/-! ### C48: velocity correction factor -/

/-- C48: the factor lies between zero and one. -/
theorem C48_range (depth ksp ws us a : ℝ) :
    0 ≤ corrFactor depth ksp ws us a ∧ corrFactor depth ksp ws us a ≤ 1 :=
  ⟨le_max_right _ _, max_le (min_le_right _ _) zero_le_one⟩

/-- The relative height used lies strictly between zero and one. -/
theorem amax_mem (depth ksp a : ℝ) (hk : 0 < ksp) (ha : 0 < a) :
    0 < amax depth ksp a ∧ amax depth ksp a < 1 := by
  have key : ∀ x : ℝ, 0 < x → 0 < (if depth > 1.1 * x then x / depth else 1 / 1.1) ∧
      (if depth > 1.1 * x then x / depth else 1 / 1.1) < 1 := by
    intro x hx
    split_ifs with h
    · have hd : 0 < depth := by linarith
      exact ⟨div_pos hx hd, (div_lt_one hd).2 (by linarith)⟩
    · norm_num
  unfold amax
  simp only
  have h1 := key ksp hk
  have h2 := key a ha
  split_ifs at * <;> first | exact h1 | exact h2

/-- C48: away from the special case the first integral is that of the concentration profile. -/
theorem C48_ione_integral (A r : ℝ) (hA : 0 < A) (hA1 : A ≤ 1) (hr : 1e-8 < |r|) :
    ione A r = ∫ x in A..1, x ^ (r - 1) := by
  have hr0 : r ≠ 0 := by rintro rfl; norm_num at hr
  rw [integral_pow_to_one hA hA1 hr0]
  unfold ione
  rcases lt_abs.1 hr with h | h
  · rw [if_pos h]
  · rw [if_neg (by linarith), if_pos (by linarith)]

theorem integral_log_pow {A r : ℝ} (hA : 0 < A) (hA1 : A ≤ 1) (hr : r ≠ 0) :
    ∫ x in A..1, x ^ (r - 1) * log x = -((1 - A ^ r) / r + log A * A ^ r) / r := by
  have hd : ∀ x ∈ Set.uIcc A 1, HasDerivAt (fun y => y ^ r * log y / r - y ^ r / r ^ 2)
      (x ^ (r - 1) * log x) x := by
    intro x hx
    rw [Set.uIcc_of_le hA1] at hx
    have hx0 : 0 < x := lt_of_lt_of_le hA hx.1
    have h1 := Real.hasDerivAt_rpow_const (x := x) (p := r) (Or.inl hx0.ne')
    have h2 := Real.hasDerivAt_log hx0.ne'
    have h3 := (((h1.mul h2).div_const r).sub (h1.div_const (r ^ 2)))
    refine h3.congr_deriv ?_
    have e : x ^ r * x⁻¹ = x ^ (r - 1) := by
      rw [rpow_sub_one hx0.ne', div_eq_mul_inv]
    rw [e]
    field_simp
    ring
  rw [intervalIntegral.integral_eq_sub_of_hasDerivAt hd]
  · simp
    field_simp
    ring
  · apply ContinuousOn.intervalIntegrable
    rw [Set.uIcc_of_le hA1]
    intro x hx
    have hx0 : x ≠ 0 := (lt_of_lt_of_le hA hx.1).ne'
    exact ((continuousAt_rpow_const x (r - 1) (Or.inl hx0)).mul (continuousAt_log hx0)).continuousWithinAt

/-- C48: away from the special case the second integral is that of the profile times the
logarithm. -/
theorem C48_itwo_integral (A r : ℝ) (hA : 0 < A) (hA1 : A ≤ 1) (hr : 1e-8 < |r|) :
    itwo A r = ∫ x in A..1, x ^ (r - 1) * log x := by
  have hr0 : r ≠ 0 := by rintro rfl; norm_num at hr
  have hi := C48_ione_integral A r hA hA1 hr
  rw [integral_pow_to_one hA hA1 hr0] at hi
  rw [integral_log_pow hA hA1 hr0, ← hi]
  unfold itwo
  rcases lt_abs.1 hr with h | h
  · rw [if_pos h]
  · rw [if_neg (by linarith), if_pos (by linarith)]

/-- C48: the second integral is right in the special case too. -/
theorem C48_itwo_special (A r : ℝ) (hA : 0 < A) (hA1 : A ≤ 1) (hr : |r| ≤ 1e-8) :
    itwo A r = ∫ x in A..1, x ^ ((0 : ℝ) - 1) * log x := by
  have hd : ∀ x ∈ Set.uIcc A 1, HasDerivAt (fun y => log y ^ 2 / 2)
      (x ^ ((0 : ℝ) - 1) * log x) x := by
    intro x hx
    rw [Set.uIcc_of_le hA1] at hx
    have hx0 : 0 < x := lt_of_lt_of_le hA hx.1
    refine (((Real.hasDerivAt_log hx0.ne').fun_pow 2).div_const 2).congr_deriv ?_
    rw [zero_sub, rpow_neg_one]
    simp
    ring
  rw [intervalIntegral.integral_eq_sub_of_hasDerivAt hd]
  · unfold itwo
    obtain ⟨h1, h2⟩ := abs_le.1 hr
    rw [if_neg (by linarith), if_neg (by linarith)]
    simp
    ring
  · apply ContinuousOn.intervalIntegrable
    rw [Set.uIcc_of_le hA1]
    intro x hx
    have hx0 : x ≠ 0 := (lt_of_lt_of_le hA hx.1).ne'
    exact ((continuousAt_rpow_const x _ (Or.inl hx0)).mul (continuousAt_log hx0)).continuousWithinAt

/-- C48 is violated: in the special case the first integral has the wrong sign, for every relative
height. -/
theorem C48_ione_violated (A : ℝ) (hA : 0 < A) (hA1 : A < 1) :
    ione A 0 = -∫ x in A..1, x ^ ((0 : ℝ) - 1) ∧ ione A 0 < 0 := by
  have e : ∫ x in A..1, x ^ ((0 : ℝ) - 1) = ∫ x in A..1, x⁻¹ := by
    apply intervalIntegral.integral_congr
    intro x _
    show x ^ ((0 : ℝ) - 1) = x⁻¹
    rw [zero_sub, rpow_neg_one]
  have h : ione A 0 = log A := by
    unfold ione; rw [if_neg (by norm_num), if_neg (by norm_num)]
  rw [e, integral_inv_of_pos hA one_pos, h, one_div, log_inv, neg_neg]
  exact ⟨rfl, log_neg hA hA1⟩

/-- C48: away from the special case the factor (before clipping) is the ratio between the transport
by a logarithmic velocity profile `log (30 x / A)` and the product of the means of concentration and
velocity. -/
theorem C48_meaning_partial (A r : ℝ) (hA : 0 < A) (hA1 : A < 1) (hr : 1e-8 < |r|)
    (hden : log A - log 30 + 1 ≠ 0) :
    alphaCorr A r * ((∫ x in A..1, x ^ (r - 1)) * (-(log A - log 30) - 1))
      = ∫ x in A..1, x ^ (r - 1) * log (30 * x / A) := by
  have hr0 : r ≠ 0 := by rintro rfl; norm_num at hr
  have h1 := C48_ione_integral A r hA hA1.le hr
  have h2 := C48_itwo_integral A r hA hA1.le hr
  have hpos : ione A r ≠ 0 := by
    rw [h1, integral_pow_to_one hA hA1.le hr0]
    refine div_ne_zero (sub_ne_zero.2 ?_) hr0
    intro h
    have := congrArg log h
    rw [log_rpow hA, log_one] at this
    have := log_neg hA hA1
    rcases mul_eq_zero.1 (by assumption : (0:ℝ) = r * log A).symm with h | h
    · exact hr0 h
    · linarith
  have ci : ∀ f : ℝ → ℝ, (∀ x, 0 < x → ContinuousAt f x) →
      IntervalIntegrable f MeasureTheory.volume A 1 := by
    intro f hf
    apply ContinuousOn.intervalIntegrable
    rw [Set.uIcc_of_le hA1.le]
    intro x hx
    exact (hf x (lt_of_lt_of_le hA hx.1)).continuousWithinAt
  have cp : ∀ x : ℝ, 0 < x → ContinuousAt (fun x : ℝ => x ^ (r - 1)) x := fun x hx =>
    continuousAt_rpow_const x (r - 1) (Or.inl hx.ne')
  have h3 : ∫ x in A..1, x ^ (r - 1) * log (30 * x / A)
      = (∫ x in A..1, x ^ (r - 1) * log x) - (log A - log 30) * ∫ x in A..1, x ^ (r - 1) := by
    rw [← intervalIntegral.integral_const_mul, ← intervalIntegral.integral_sub]
    · apply intervalIntegral.integral_congr
      intro x hx
      rw [Set.uIcc_of_le hA1.le] at hx
      have hx0 : 0 < x := lt_of_lt_of_le hA hx.1
      show x ^ (r - 1) * log (30 * x / A) = x ^ (r - 1) * log x - (log A - log 30) * x ^ (r - 1)
      rw [log_div (by positivity) hA.ne', log_mul (by norm_num) hx0.ne']
      ring
    · exact ci _ fun x hx => (cp x hx).mul (continuousAt_log hx.ne')
    · exact ci _ fun x hx => (cp x hx).const_mul _
  rw [h3, ← h1, ← h2]
  unfold alphaCorr
  field_simp
  ring

theorem log30_lt : log 30 < 3.5 := by
  rw [log_lt_iff_lt_exp (by norm_num)]
  have h1 := exp_one_gt_d9
  have h2 : exp 3.5 ^ 2 = exp 1 ^ 7 := by
    rw [← exp_nat_mul, ← exp_nat_mul]; norm_num
  have h3 : (2.7182818283 : ℝ) ^ 7 < exp 1 ^ 7 := pow_lt_pow_left₀ h1 (by norm_num) (by norm_num)
  by_contra hn
  have h4 : exp 3.5 ^ 2 ≤ 30 ^ 2 := pow_le_pow_left₀ (exp_pos _).le (not_lt.1 hn) 2
  rw [h2] at h4
  norm_num at h3 h4
  linarith

theorem jump_aux (r : ℝ) (h0 : r ≠ 0) (h : |r| < 1 / 10) :
    1 + 2.35 * r < exp (4 * r) * (1 - 1.65 * r) := by
  obtain ⟨h1, h2⟩ := abs_lt.1 h
  rcases lt_or_gt_of_ne h0 with hn | hp
  · -- exp (-x) = 1 / exp x
    have hb := exp_bound' (x := -(4 * r)) (by linarith) (by linarith) (n := 3) (by norm_num)
    simp only [Finset.sum_range_succ, Finset.sum_range_zero] at hb
    norm_num [Nat.factorial] at hb
    have he : exp (4 * r) * exp (-(4 * r)) = 1 := by rw [← exp_add]; simp
    have hpos := exp_pos (4 * r)
    have hk : 0 < 1 + 2.35 * r := by linarith
    have : (1 + 2.35 * r) * exp (-(4 * r)) < 1 - 1.65 * r := by
      refine lt_of_le_of_lt (mul_le_mul_of_nonneg_left hb hk.le) ?_
      nlinarith [sq_pos_of_neg hn, mul_pos_of_neg_of_neg hn hn, pow_pos (neg_pos.2 hn) 3,
        pow_pos (neg_pos.2 hn) 4]
    have := mul_lt_mul_of_pos_left this hpos
    calc 1 + 2.35 * r = (exp (4 * r) * exp (-(4 * r))) * (1 + 2.35 * r) := by rw [he, one_mul]
      _ = exp (4 * r) * ((1 + 2.35 * r) * exp (-(4 * r))) := by ring
      _ < _ := this
  · have hq := quadratic_le_exp_of_nonneg (x := 4 * r) (by linarith)
    have hk : 0 < 1 - 1.65 * r := by linarith
    refine lt_of_lt_of_le ?_ (mul_le_mul_of_nonneg_right hq hk.le)
    nlinarith [pow_pos hp 2, pow_pos hp 3]

/-- C48 is violated: consequence for the factor.  With relative height `exp (-4)` the formula for
exponents close to zero gives less than 9/10, but in the special case the factor jumps to one. -/
theorem C48_jump_violated :
    1 < alphaCorr (exp (-4)) 0 ∧
    ∀ r, 1e-8 < |r| → |r| < 1 / 10 → alphaCorr (exp (-4)) r < 9 / 10 := by
  have hl : 0 < log 30 := log_pos (by norm_num)
  have hl2 := log30_lt
  constructor
  · have h1 : ione (exp (-4)) 0 = -4 := by
      unfold ione; rw [if_neg (by norm_num), if_neg (by norm_num), log_exp]
    have h2 : itwo (exp (-4)) 0 = -8 := by
      unfold itwo; rw [if_neg (by norm_num), if_neg (by norm_num), log_exp]; norm_num
    unfold alphaCorr
    rw [h1, h2, log_exp, lt_div_iff₀ (by nlinarith)]
    nlinarith
  · intro r hr hr'
    have hr0 : r ≠ 0 := by rintro rfl; norm_num at hr
    have hA : 0 < exp (-4 : ℝ) := exp_pos _
    have hA1 : exp (-4 : ℝ) ≤ 1 := exp_le_one_iff.2 (by norm_num)
    have h1 := C48_ione_integral _ r hA hA1 hr
    have h2 := C48_itwo_integral _ r hA hA1 hr
    rw [integral_pow_to_one hA hA1 hr0] at h1
    rw [integral_log_pow hA hA1 hr0, log_exp] at h2
    have e : exp (-4 : ℝ) ^ r = exp (-(4 * r)) := by
      rw [← exp_mul]; ring_nf
    rw [e] at h1 h2
    have haux := jump_aux r hr0 hr'
    have he : exp (4 * r) * exp (-(4 * r)) = 1 := by rw [← exp_add]; simp
    set E := exp (-(4 * r)) with hE
    have hEpos : 0 < E := exp_pos _
    have key : (1 + 2.35 * r) * E < 1 - 1.65 * r := by
      have := mul_lt_mul_of_pos_right haux hEpos
      calc (1 + 2.35 * r) * E < exp (4 * r) * (1 - 1.65 * r) * E := this
        _ = (exp (4 * r) * E) * (1 - 1.65 * r) := by ring
        _ = 1 - 1.65 * r := by rw [he, one_mul]
    have hI : 0 < ione (exp (-4)) r := by
      rw [h1]
      rcases lt_or_gt_of_ne hr0 with hn | hp
      · apply div_pos_of_neg_of_neg _ hn
        have : 1 < E := by rw [hE, one_lt_exp_iff]; linarith
        linarith
      · apply div_pos _ hp
        have : E < 1 := by rw [hE, exp_lt_one_iff]; linarith
        linarith
    have hsum : itwo (exp (-4)) r + 1.65 * ione (exp (-4)) r < 0 := by
      rw [h1, h2]
      have e2 : -((1 - E) / r + -4 * E) / r + 1.65 * ((1 - E) / r)
          = -(((1 - 1.65 * r) - (1 + 2.35 * r) * E) / r ^ 2) := by
        field_simp; ring
      rw [e2, neg_lt_zero]
      exact div_pos (by linarith) (by positivity)
    unfold alphaCorr
    rw [log_exp]
    have hden : ione (exp (-4)) r * ((-4 - log 30) + 1) < 0 := by nlinarith
    rw [div_lt_iff_of_neg hden]
    nlinarith
end Verif.Sediment
