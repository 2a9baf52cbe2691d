import Verif.Wall.Model
import Verif.Turb.StabProps
import Verif.Turb.ClosureProps
import Mathlib.Analysis.SpecialFunctions.Pow.Deriv

namespace Verif.Wall

open Verif.Turb

/-! ### C122: the logarithmic layer -/

/-- Kinetic energy of the logarithmic layer with friction velocity `us`. -/
noncomputable def wallK (cmu0 us : ℝ) : ℝ := us ^ 2 / cmu0 ^ 2

/-- `psi` at distance `z` from the wall: `cmu0^p k^m l^n` with the length scale `l = kappa z`. -/
noncomputable def wallPsi (cmu0 p m n kappa us z : ℝ) : ℝ :=
  cmu0 ^ p * wallK cmu0 us ^ m * (kappa * z) ^ n

/-- Square of the shear `us / (kappa z)` of the velocity `us / kappa * log z`. -/
noncomputable def wallM2 (kappa us z : ℝ) : ℝ := (us / (kappa * z)) ^ 2

section
variable {cmu0 p m n kappa us z : ℝ}

theorem wallK_pos (hc : 0 < cmu0) (hu : 0 < us) : 0 < wallK cmu0 us := by unfold wallK; positivity

theorem wallPsi_pos (hc : 0 < cmu0) (hu : 0 < us) (hk : 0 < kappa) (hz : 0 < z) :
    0 < wallPsi cmu0 p m n kappa us z := by
  have := wallK_pos hc hu
  unfold wallPsi; positivity

theorem wallK_sqrt (hc : 0 < cmu0) (hu : 0 < us) : Real.sqrt (wallK cmu0 us) = us / cmu0 := by
  unfold wallK
  rw [← div_pow, Real.sqrt_sq (by positivity)]

theorem wallK_three_halves (hc : 0 < cmu0) (hu : 0 < us) :
    wallK cmu0 us ^ (3 / 2 : ℝ) = us ^ 3 / cmu0 ^ 3 := by
  unfold wallK
  rw [← div_pow, ← div_pow, ← Real.rpow_natCast (us / cmu0) 2, ← Real.rpow_mul (by positivity), ← Real.rpow_natCast]
  norm_num

/-- C122: the dissipation computed from `k` and `psi` in the layer is `us^3 / (kappa z)`. -/
theorem C122_dissipation (o : GlsOpts) (hc : 0 < o.cmu0) (hn : o.n ≠ 0) (hu : 0 < us) (hk : 0 < kappa) (hz : 0 < z) :
    epsOf o (wallK o.cmu0 us) (wallPsi o.cmu0 o.p o.m o.n kappa us z) = us ^ 3 / (kappa * z) := by
  have h0 := wallK_pos hc hu
  have hkz : 0 < kappa * z := by positivity
  unfold epsOf wallPsi
  rw [Real.mul_rpow (by positivity) (by positivity), Real.mul_rpow (by positivity) (by positivity),
    ← Real.rpow_mul hc.le, ← Real.rpow_mul h0.le, ← Real.rpow_mul hkz.le]
  have e1 : o.n * (-1.0 / o.n) = -1 := by field_simp; norm_num
  have e2 : o.p * (-1.0 / o.n) = -(o.p / o.n) := by norm_num; ring
  have e3 : o.m * (-1.0 / o.n) = -(o.m / o.n) := by norm_num; ring
  rw [e1, e2, e3, Real.rpow_neg_one]
  have e4 : o.cmu0 ^ (3.0 + o.p / o.n) * o.cmu0 ^ (-(o.p / o.n)) = o.cmu0 ^ 3 := by
    rw [← Real.rpow_add hc, ← Real.rpow_natCast]; norm_num
  have e5 : wallK o.cmu0 us ^ ((3.0 / 2.0 : ℝ) + o.m / o.n) * wallK o.cmu0 us ^ (-(o.m / o.n)) =
      us ^ 3 / o.cmu0 ^ 3 := by
    rw [← Real.rpow_add h0, ← wallK_three_halves hc hu]; norm_num
  calc _ = (o.cmu0 ^ (3.0 + o.p / o.n) * o.cmu0 ^ (-(o.p / o.n))) *
        (wallK o.cmu0 us ^ ((3.0 / 2.0 : ℝ) + o.m / o.n) * wallK o.cmu0 us ^ (-(o.m / o.n))) * (kappa * z)⁻¹ := by ring
    _ = us ^ 3 / (kappa * z) := by rw [e4, e5]; field_simp

/-- The normalised shear number in the layer. -/
theorem wall_alpha (hc : 0 < cmu0) (hu : 0 < us) (hk : 0 < kappa) (hz : 0 < z) :
    wallK cmu0 us ^ 2 / (us ^ 3 / (kappa * z)) ^ 2 * wallM2 kappa us z = 1 / cmu0 ^ 4 := by
  unfold wallK wallM2; field_simp

/-- The root in `compute_cmu0` is real, positive and within the limit of the shear number for `N^2 = 0`. -/
theorem cmu0Shear_range (c : Coef) (ha : c.d5 - c.n2 ≠ 0) (h0 : 0 < c.d0) (h2 : 0 < c.d2)
    (hb : c.d2 - c.n0 < 0) (hf : (c.d5 - c.n2) * c.d0 + (c.d2 - c.n0) * c.d2 + c.d2 ^ 2 ≤ 0) :
    0 ≤ (c.d2 - c.n0) ^ 2 - 4 * (c.d5 - c.n2) * c.d0 ∧ 0 < c.cmu0Shear ∧ c.cmu0Shear ≤ c.d0 / c.d2 := by
  have hx : c.cmu0Shear = (-(c.d2 - c.n0) - Real.sqrt ((c.d2 - c.n0) ^ 2 - 4 * (c.d5 - c.n2) * c.d0)) / 2 /
    (c.d5 - c.n2) := rfl
  rw [hx]
  generalize c.d5 - c.n2 = a at *
  generalize c.d2 - c.n0 = b at *
  have h3 : a * (c.d0 / c.d2) ^ 2 + b * (c.d0 / c.d2) + c.d0 ≤ 0 := by
    have h1 : a * (c.d0 / c.d2) ^ 2 + b * (c.d0 / c.d2) + c.d0 =
        c.d0 / c.d2 ^ 2 * (a * c.d0 + b * c.d2 + c.d2 ^ 2) := by field_simp
    rw [h1]; exact mul_nonpos_of_nonneg_of_nonpos (by positivity) hf
  have hy : 0 < c.d0 / c.d2 := by positivity
  generalize c.d0 / c.d2 = y at *
  rcases lt_or_gt_of_ne ha with ha | ha
  · have hm : 0 < -a * c.d0 := mul_pos (by linarith) h0
    have hD0 : 0 ≤ b ^ 2 - 4 * a * c.d0 := by nlinarith
    refine ⟨hD0, ?_, ?_⟩
    · have : -b < Real.sqrt (b ^ 2 - 4 * a * c.d0) := by
        rw [Real.lt_sqrt (by linarith)]; nlinarith
      exact div_pos_of_neg_of_neg (by linarith) ha
    · rw [div_le_iff_of_neg ha]
      have : Real.sqrt (b ^ 2 - 4 * a * c.d0) ≤ -b - 2 * a * y := by
        rw [Real.sqrt_le_left (by nlinarith)]
        nlinarith
      linarith
  · have hD : (b + 2 * a * y) ^ 2 ≤ b ^ 2 - 4 * a * c.d0 := by nlinarith
    have hr := (abs_le.1 (Real.abs_le_sqrt hD)).1
    refine ⟨le_trans (sq_nonneg _) hD, ?_, ?_⟩
    · have : Real.sqrt (b ^ 2 - 4 * a * c.d0) < -b := by
        rw [Real.sqrt_lt' (by linarith)]
        have := mul_pos ha h0
        nlinarith
      exact div_pos (by linarith) ha
    · rw [div_div, div_le_iff₀ (by positivity)]
      linarith

/-- Conditions for `cmu0Shear_range`, for the functions that can be selected. -/
theorem select_conditions (s : StabName) (c : Coef) (h : selectStability s = some c) :
    c.d5 - c.n2 ≠ 0 ∧ 0 < c.d0 ∧ 0 < c.d2 ∧ c.d2 - c.n0 < 0 ∧
    (c.d5 - c.n2) * c.d0 + (c.d2 - c.n0) * c.d2 + c.d2 ^ 2 ≤ 0 := by
  cases s <;> simp [selectStability] at h <;> subst h <;>
    norm_num [canutoA, canutoB, cheng, Inter.coef, canutoInter, chengInter, lamCanutoA, lamCanutoB, lamCheng]

/-- C122: `compute_cmu0` gives the value for which the stability function of the layer is `cmu0^4`, whatever limits are
switched on. -/
theorem C122_stability (s : StabName) (c : Coef) (h : selectStability s = some c) (o : LimOpts)
    (hcrit : o.smooth = true → o.crit ≤ 0) (hu : 0 < us) (hk : 0 < kappa) (hz : 0 < z) :
    0 < c.cmu0 ∧
    (c.evaluate o (wallM2 kappa us z) 0 (wallK c.cmu0 us) (us ^ 3 / (kappa * z))).1 = c.cmu0 ^ 4 := by
  obtain ⟨ha, h0, h2, hb, hf⟩ := select_conditions s c h
  obtain ⟨hD, hx0, hx⟩ := cmu0Shear_range c ha h0 h2 hb hf
  have hg := good_select s c h
  have hm : c.alphaBuoyMin ≤ 0 := by
    obtain ⟨p1, p2, p3⟩ := C44_smooth_applies
    have : c.alphaBuoyMin < -1.2 := by
      cases s <;> simp [selectStability] at h <;> subst h <;> assumption
    norm_num at this ⊢
    linarith
  have hmax : c.alphaShearMax 0 = c.d0 / c.d2 := by
    rw [alphaShearMax_eq c _ hg 0 hm]; simp
  have hden : 0 < c.den 0 c.cmu0Shear :=
    (good_positive c _ hg 0 _ hm hx0.le (by rw [hmax]; exact hx)).1
  obtain ⟨q1, q2⟩ := C44_cmu0 c ha hD hden.ne'
  have q3 := q2 hx0
  have hs : (c.evalFuncs 0 c.cmu0Shear).1 = c.cmu0 ^ 4 := by
    have : c.cmu0Shear ≠ 0 := hx0.ne'
    apply mul_right_cancel₀ this
    rw [q1, q3]
  have hcpos : 0 < c.cmu0 := by
    unfold Coef.cmu0
    refine Real.rpow_pos_of_pos ?_ _
    by_contra hle
    have := mul_nonpos_of_nonpos_of_nonneg (not_lt.1 hle) hx0.le
    linarith
  refine ⟨hcpos, ?_⟩
  have halpha : wallK c.cmu0 us ^ 2 / (us ^ 3 / (kappa * z)) ^ 2 * wallM2 kappa us z = c.cmu0Shear := by
    rw [wall_alpha hcpos hu hk hz]
    field_simp
    linarith
  rw [C64_inactive c o, mul_zero, halpha, hs]
  · rw [mul_zero]
    split
    · rename_i hsm; exact hcrit hsm
    · exact hm
  · rw [mul_zero, halpha, hmax]; exact hx

/-- None of the limits of the closure is active in the layer. -/
structure Unlimited (o : GlsOpts) (kappa us z : ℝ) : Prop where
  k : o.kMin ≤ wallK o.cmu0 us
  psi : o.psiMin ≤ wallPsi o.cmu0 o.p o.m o.n kappa us z
  psiLim : o.limitPsi = true → if o.n > 0
    then wallPsi o.cmu0 o.p o.m o.n kappa us z ≤ psiLimit o (wallK o.cmu0 us) 0
    else psiLimit o (wallK o.cmu0 us) 0 ≤ wallPsi o.cmu0 o.p o.m o.n kappa us z
  eps : o.epsMin ≤ us ^ 3 / (kappa * z)
  len : o.limitLenMin = true → o.lenMin ≤ kappa * z
  lenLim : o.limitLen = true → kappa * z ≤ o.galperin * Real.sqrt (2 * wallK o.cmu0 us / 1e-12)
  visc : o.viscMin ≤ us * kappa * z

/-- C122: the closure keeps the state of the layer, with dissipation `us^3 / (kappa z)`, length scale `kappa z` and
viscosity `us kappa z`: the stress is `us^2` at all heights. -/
theorem C122_closure (s : StabName) (c : Coef) (h : selectStability s = some c) (lo : LimOpts)
    (hcrit : lo.smooth = true → lo.crit ≤ 0) (o : GlsOpts) (ho : o.cmu0 = c.cmu0) (hn : o.n ≠ 0)
    (hu : 0 < us) (hk : 0 < kappa) (hz : 0 < z) (hl : Unlimited o kappa us z) (t : GlsState)
    (h1 : t.k = wallK o.cmu0 us) (h2 : t.psi = wallPsi o.cmu0 o.p o.m o.n kappa us z)
    (h3 : t.m2 = wallM2 kappa us z) (h4 : t.n2 = 0) (h5 : t.n2pos = 0) :
    let r := postprocess o (c.evaluate lo) t
    r.k = t.k ∧ r.psi = t.psi ∧ r.eps = us ^ 3 / (kappa * z) ∧ r.len = kappa * z ∧ r.visc = us * kappa * z ∧
      r.visc * (us / (kappa * z)) = us ^ 2 := by
  intro r
  obtain ⟨hc, hs⟩ := C122_stability (us := us) (kappa := kappa) (z := z) s c h lo hcrit hu hk hz
  rw [← ho] at hc hs
  have hkpos := wallK_pos hc hu
  have e1 : setMin t.k o.kMin = wallK o.cmu0 us := by
    rw [h1]; simp [setMin, not_lt.2 hl.k]
  have e2 : (if o.limitPsi = true then
      (if o.n > 0 then min t.psi (psiLimit o (wallK o.cmu0 us) t.n2pos)
        else max t.psi (psiLimit o (wallK o.cmu0 us) t.n2pos)) else t.psi) =
      wallPsi o.cmu0 o.p o.m o.n kappa us z := by
    rw [h2, h5]
    split
    · rename_i hb
      have := hl.psiLim hb
      split
      · rename_i hn'; rw [if_pos hn'] at this; exact min_eq_left this
      · rename_i hn'; rw [if_neg hn'] at this; exact max_eq_left this
    · rfl
  have e3 : setMin (wallPsi o.cmu0 o.p o.m o.n kappa us z) o.psiMin = wallPsi o.cmu0 o.p o.m o.n kappa us z := by
    simp [setMin, not_lt.2 hl.psi]
  have hep : 0 < us ^ 3 / (kappa * z) := by positivity
  have e4 : (if o.limitEps = true then max (epsOf o (wallK o.cmu0 us) (wallPsi o.cmu0 o.p o.m o.n kappa us z))
      (o.cmu0 ^ (3.0 : ℝ) / (Real.sqrt 2 * o.galperin) * Real.sqrt t.n2pos * wallK o.cmu0 us)
      else epsOf o (wallK o.cmu0 us) (wallPsi o.cmu0 o.p o.m o.n kappa us z)) = us ^ 3 / (kappa * z) := by
    rw [C122_dissipation o hc hn hu hk hz, h5]
    split
    · rw [Real.sqrt_zero, mul_zero, zero_mul, max_eq_left hep.le]
    · rfl
  have e5 : setMin (us ^ 3 / (kappa * z)) o.epsMin = us ^ 3 / (kappa * z) := by
    simp [setMin, not_lt.2 hl.eps]
  have e6 : o.cmu0 ^ (3.0 : ℝ) * wallK o.cmu0 us ^ (3.0 / 2.0 : ℝ) / (us ^ 3 / (kappa * z)) = kappa * z := by
    have a1 : o.cmu0 ^ (3.0 : ℝ) = o.cmu0 ^ 3 := by rw [← Real.rpow_natCast]; norm_num
    have a2 : wallK o.cmu0 us ^ (3.0 / 2.0 : ℝ) = us ^ 3 / o.cmu0 ^ 3 := by
      rw [← wallK_three_halves hc hu]; norm_num
    rw [a1, a2]
    field_simp
  have e7 : (if o.limitLenMin = true then setMin (kappa * z) o.lenMin else kappa * z) = kappa * z := by
    split
    · rename_i hb; simp [setMin, not_lt.2 (hl.len hb)]
    · rfl
  have e8 : (if o.limitLen = true then min (kappa * z)
      (o.galperin * Real.sqrt (2 * wallK o.cmu0 us / (t.n2pos + 1e-12))) else kappa * z) = kappa * z := by
    rw [h5, zero_add]
    split
    · rename_i hb; exact min_eq_left (hl.lenLim hb)
    · rfl
  have e9 : Real.sqrt (wallK o.cmu0 us) * (kappa * z) * o.cmu0 ^ 4 / o.cmu0 ^ 3 = us * kappa * z := by
    rw [wallK_sqrt hc hu]; field_simp
  have hv : r.visc = us * kappa * z := by
    simp only [r, postprocess]
    rw [e1, e2, e3, e4, e5, e6, e7, e8, h3, h4, hs, e9]
    have : (1.0 : ℝ) * (us * kappa * z) + (1.0 - 1.0) * t.visc = us * kappa * z := by norm_num
    rw [this]
    simp [setMin, not_lt.2 hl.visc]
  refine ⟨?_, ?_, ?_, ?_, hv, ?_⟩
  · simp only [r, postprocess]; rw [e1, h1]
  · simp only [r, postprocess]; rw [e1, e2, e3, h2]
  · simp only [r, postprocess]; rw [e1, e2, e3, e4, e5]
  · simp only [r, postprocess]; rw [e1, e2, e3, e4, e5, e6, e7, e8]
  · rw [hv]; field_simp

/-- The hypotheses are met: minimum values zero, all limits on, at the height 1 for a friction velocity of `cmu0`. -/
example (cmu0 : ℝ) (hc : 0 < cmu0) :
    Unlimited ⟨3, 1.5, -1, cmu0, 0, 0, 0, 0, 0, 0, 1, true, true, true, true⟩ 1 cmu0 1 := by
  have hK : wallK cmu0 cmu0 = 1 := by unfold wallK; field_simp
  have hP : wallPsi cmu0 3 1.5 (-1) 1 cmu0 1 = cmu0 ^ (3 : ℝ) := by simp [wallPsi, hK]
  refine ⟨by simp [hK], ?_, fun _ => ?_, ?_, fun _ => by norm_num, fun _ => ?_, ?_⟩
  · simp only [hP]; positivity
  · rw [if_neg (by norm_num)]
    simp only [hP, psiLimit, hK, Real.one_rpow, mul_one]
    have hY : (1 : ℝ) ≤ (0 + 1e-12) ^ (-0.5 : ℝ) :=
      Real.one_le_rpow_of_pos_of_le_one_of_nonpos (by norm_num) (by norm_num) (by norm_num)
    have h2 : 1 ≤ Real.sqrt 2 := by rw [Real.one_le_sqrt]; norm_num
    have h3 : cmu0 ^ (3 / -1 : ℝ) = (cmu0 ^ (3 : ℝ))⁻¹ := by rw [← Real.rpow_neg hc.le]; norm_num
    have hp : 0 < cmu0 ^ (3 : ℝ) := by positivity
    rw [h3, Real.rpow_neg_one]
    refine inv_le_of_inv_le₀ hp ?_
    have h4 : 1 ≤ Real.sqrt 2 * (0 + 1e-12) ^ (-0.5 : ℝ) := one_le_mul_of_one_le_of_one_le h2 hY
    have h5 : 0 < (cmu0 ^ (3 : ℝ))⁻¹ := by positivity
    nlinarith
  · norm_num; positivity
  · simp only [hK]
    rw [one_mul, one_mul, Real.one_le_sqrt]
    norm_num
  · simp; exact hc.le

/-- Fields of the layer that enter the sources; `diff` is the diffusivity. -/
noncomputable def wallFields (kappa us z diff : ℝ) : SrcFields :=
  ⟨us * kappa * z, diff, us ^ 3 / (kappa * z), wallM2 kappa us z, 0, 0⟩

/-- C122: production and dissipation of the kinetic energy are in balance. -/
theorem C122_tke (hc : 0 < cmu0) (hu : 0 < us) (hk : 0 < kappa) (hz : 0 < z) (diff : ℝ) :
    tkeSource (wallFields kappa us z diff) (wallK cmu0 us) (wallK cmu0 us) = 0 := by
  have := (wallK_pos hc hu).ne'
  simp only [tkeSource, wallFields, wallM2]
  field_simp
  ring

theorem wallPsi_deriv (hk : 0 < kappa) (hz : 0 < z) :
    HasDerivAt (fun y => wallPsi cmu0 p m n kappa us y) (n * wallPsi cmu0 p m n kappa us z / z) z := by
  have hkz : 0 < kappa * z := by positivity
  have h1 : HasDerivAt (fun y => kappa * y) kappa z := by simpa using (hasDerivAt_id z).const_mul kappa
  have h2 := (h1.rpow_const (p := n) (Or.inl hkz.ne')).const_mul (cmu0 ^ p * wallK cmu0 us ^ m)
  refine h2.congr_deriv ?_
  unfold wallPsi
  rw [Real.rpow_sub_one hkz.ne']
  field_simp

/-- C122: diffusion and sources of `psi` are in balance at all heights iff the Schmidt number is the one of
`compute_sigma_psi`. -/
theorem C122_psi (c : PsiConsts) (hf : c.fWall = 1) (hc12 : c.c1 < c.c2) (sigma diff : ℝ) (hs : 0 < sigma)
    (hc : 0 < cmu0) (hu : 0 < us) (hk : 0 < kappa) (hz : 0 < z) :
    ∃ d, HasDerivAt (fun y => us * kappa * y / sigma * deriv (fun y => wallPsi cmu0 p m n kappa us y) y) d z ∧
      (d + psiSource c (wallFields kappa us z diff) (wallK cmu0 us) (wallPsi cmu0 p m n kappa us z)
        (wallPsi cmu0 p m n kappa us z) = 0 ↔ sigma = computeSigmaPsi kappa cmu0 n c.c1 c.c2) := by
  have hpsi := wallPsi_pos (p := p) (m := m) (n := n) hc hu hk hz
  have hkk := (wallK_pos hc hu).ne'
  refine ⟨us * kappa * n / sigma * (n * wallPsi cmu0 p m n kappa us z / z), ?_, ?_⟩
  · have h1 := (wallPsi_deriv (cmu0 := cmu0) (p := p) (m := m) (n := n) (us := us) hk hz).const_mul
      (us * kappa * n / sigma)
    refine h1.congr_of_eventuallyEq ?_
    filter_upwards [lt_mem_nhds hz] with y hy
    rw [(wallPsi_deriv hk hy).deriv]
    field_simp
  · have hsrc : psiSource c (wallFields kappa us z diff) (wallK cmu0 us) (wallPsi cmu0 p m n kappa us z)
        (wallPsi cmu0 p m n kappa us z) =
        -(wallPsi cmu0 p m n kappa us z * (us / (kappa * z)) * (cmu0 ^ 2 * (c.c2 - c.c1))) := by
      simp only [psiSource, wallFields, wallM2, hf, mul_zero, add_zero, ite_self, zero_sub, mul_one]
      unfold wallK
      field_simp
      ring
    rw [hsrc]
    have h12 : 0 < c.c2 - c.c1 := by linarith
    have e : us * kappa * n / sigma * (n * wallPsi cmu0 p m n kappa us z / z) +
        -(wallPsi cmu0 p m n kappa us z * (us / (kappa * z)) * (cmu0 ^ 2 * (c.c2 - c.c1))) =
        wallPsi cmu0 p m n kappa us z * us / (kappa * z * sigma) *
          ((n * kappa) ^ 2 - sigma * (cmu0 ^ 2 * (c.c2 - c.c1))) := by
      field_simp
      ring
    rw [e, mul_eq_zero, or_iff_right (by positivity), sub_eq_zero]
    unfold computeSigmaPsi
    rw [eq_div_iff (by positivity)]
    exact eq_comm

/-- C122: the flux of `psi` prescribed at the bottom and at the surface is that of the layer, at the distance `z` of the
first level from the wall: at the surface the layer is measured downwards. -/
theorem C122_flux (sigma nz : ℝ) (hc : 0 < cmu0) (hu : 0 < us) (hk : 0 < kappa) (hz : 0 < z) (zs : ℝ) :
    psiFlux n (us * kappa * z) sigma cmu0 p m (wallK cmu0 us) kappa z false nz =
      us * kappa * z / sigma * deriv (fun y => wallPsi cmu0 p m n kappa us y) z * nz ∧
    psiFlux n (us * kappa * z) sigma cmu0 p m (wallK cmu0 us) kappa z true nz =
      us * kappa * z / sigma * deriv (fun y => wallPsi cmu0 p m n kappa us (zs - y)) (zs - z) * nz := by
  have hd := wallPsi_deriv (cmu0 := cmu0) (p := p) (m := m) (n := n) (us := us) hk hz
  have e : n * (us * kappa * z / sigma) * cmu0 ^ p * wallK cmu0 us ^ m * kappa ^ n * z ^ (n - 1.0) =
      us * kappa * z / sigma * (n * wallPsi cmu0 p m n kappa us z / z) := by
    have : (1.0 : ℝ) = 1 := by norm_num
    unfold wallPsi
    rw [this, Real.rpow_sub_one hz.ne', Real.mul_rpow hk.le hz.le]
    field_simp
  constructor
  · simp only [psiFlux, Bool.false_eq_true, if_false]
    rw [e, hd.deriv]
  · have hd' : HasDerivAt (fun y => wallPsi cmu0 p m n kappa us (zs - y))
        (-(n * wallPsi cmu0 p m n kappa us z / z)) (zs - z) := by
      have h1 : HasDerivAt (fun y => zs - y) (-1) (zs - z) := by
        simpa using (hasDerivAt_id (zs - z)).const_sub zs
      have h2 : HasDerivAt (fun y => wallPsi cmu0 p m n kappa us y) (n * wallPsi cmu0 p m n kappa us z / z)
          ((fun y => zs - y) (zs - z)) := by simpa using hd
      have := h2.comp (zs - z) h1
      exact this.congr_deriv (by ring)
    simp only [psiFlux, if_true]
    rw [e, hd'.deriv]
    ring

/-! ### Parameters of the closure -/

/-- C122: with either of the computed parameters the Schmidt number, the von Karman constant of the closure and `cmu0` go
together; `compute_kappa` also sets the constant of the process, `compute_schmidt_nb_psi` keeps it. -/
theorem C122_parameters (c : Coef) (o : Par) (g : ℝ) (hcm : 0 < (construct c o g).1.cmu0) (hn : o.n ≠ 0)
    (h12 : o.c1 < o.c2) (hs : 0 ≤ o.schmidtPsi) (h : o.computeKappa = true ∨ o.computeSchmidt = true) :
    let q := (construct c o g).1
    q.schmidtPsi = computeSigmaPsi q.kappa q.cmu0 q.n q.c1 q.c2 ∧
    (construct c o g).2 = (if o.computeKappa then q.kappa else g) ∧
    q.cmu0 = (if o.computeCmu0 then c.cmu0 else o.cmu0) ∧
    (o.computeKappa = true → q.schmidtPsi = o.schmidtPsi) ∧ (o.computeKappa = false → q.kappa = o.kappa) := by
  unfold construct at hcm ⊢
  by_cases hk : o.computeKappa = true
  · simp only [hk, if_true] at hcm ⊢
    exact ⟨((C44_kappa_sigma _ _ _ _ hcm hn h12).1 _ hs).symm, trivial, trivial, fun _ => trivial,
      fun h => by cases h⟩
  · have h2 : o.computeSchmidt = true := h.resolve_left hk
    simp only [hk, h2, if_true]
    simp

/-- C122: the layer is a steady state of the model. For every stability function that can be selected, the computed
parameters and the constant `g` of the process used at the wall: if the closure computes kappa, or if it computes the Schmidt
number and its kappa is the constant of the process, all equations are in balance and the flux at the wall is that of the
layer, with the von Karman constant of the process. -/
theorem C122_steady (s : StabName) (c : Coef) (h : selectStability s = some c) (lo : LimOpts)
    (hcrit : lo.smooth = true → lo.crit ≤ 0) (o : Par) (g : ℝ) (hm : o.computeCmu0 = true)
    (hmode : o.computeKappa = true ∧ 0 < o.schmidtPsi ∨
      o.computeKappa = false ∧ o.computeSchmidt = true ∧ o.kappa = g ∧ 0 < g)
    (hn : o.n ≠ 0) (h12 : o.c1 < o.c2) (hf : o.fWall = 1) (hu : 0 < us) (hz : 0 < z) (diff nz : ℝ) :
    let q := (construct c o g).1
    let kap := (construct c o g).2
    0 < kap ∧ 0 < q.cmu0 ∧
    (c.evaluate lo (wallM2 kap us z) 0 (wallK q.cmu0 us) (us ^ 3 / (kap * z))).1 = q.cmu0 ^ 4 ∧
    tkeSource (wallFields kap us z diff) (wallK q.cmu0 us) (wallK q.cmu0 us) = 0 ∧
    (∃ d, HasDerivAt (fun y => us * kap * y / q.schmidtPsi *
        deriv (fun y => wallPsi q.cmu0 q.p q.m q.n kap us y) y) d z ∧
      d + psiSource q.consts (wallFields kap us z diff) (wallK q.cmu0 us) (wallPsi q.cmu0 q.p q.m q.n kap us z)
        (wallPsi q.cmu0 q.p q.m q.n kap us z) = 0) ∧
    psiFlux q.n (us * kap * z) q.schmidtPsi q.cmu0 q.p q.m (wallK q.cmu0 us) kap z false nz =
      us * kap * z / q.schmidtPsi * deriv (fun y => wallPsi q.cmu0 q.p q.m q.n kap us y) z * nz := by
  intro q kap
  have hc0 : 0 < c.cmu0 :=
    (C122_stability (us := 1) (kappa := 1) (z := 1) s c h lo hcrit one_pos one_pos one_pos).1
  have hcq : q.cmu0 = c.cmu0 := by
    simp only [q, construct]
    split_ifs <;> simp
  have hcm : 0 < q.cmu0 := by rw [hcq]; exact hc0
  have hsn : 0 ≤ o.schmidtPsi ∨ o.computeKappa = false := by
    rcases hmode with ⟨_, h⟩ | ⟨h, _⟩
    · exact .inl h.le
    · exact .inr h
  have hqn : q.n = o.n ∧ q.c1 = o.c1 ∧ q.c2 = o.c2 ∧ q.fWall = o.fWall := by
    simp only [q, construct]
    split_ifs <;> simp
  have h12' : 0 < o.c2 - o.c1 := by linarith
  have key : kap = q.kappa ∧ 0 < kap ∧ 0 < q.schmidtPsi ∧
      q.schmidtPsi = computeSigmaPsi kap q.cmu0 q.n q.c1 q.c2 := by
    rcases hmode with ⟨h1, h2⟩ | ⟨h1, h2, h3, h4⟩
    · have hp := C122_parameters c o g hcm hn h12 h2.le (.inl h1)
      have e1 : kap = q.kappa := by rw [show kap = _ from hp.2.1, if_pos h1]
      have e2 : kap = computeKappa o.schmidtPsi q.cmu0 o.n o.c1 o.c2 := by
        simp only [kap, q, construct, h1, if_true]
      refine ⟨e1, ?_, by rw [hp.2.2.2.1 h1]; exact h2, by rw [e1]; exact hp.1⟩
      rw [e2]
      unfold computeKappa
      have := abs_pos.2 hn
      have := Real.sqrt_pos.2 (mul_pos h2 h12')
      positivity
    · have e1 : kap = g := by simp [kap, construct, h1, h2]
      have e2 : q.kappa = g := by simp [q, construct, h1, h2, h3]
      have e3 : q.schmidtPsi = computeSigmaPsi q.kappa q.cmu0 q.n q.c1 q.c2 := by simp [q, construct, h1, h2]
      refine ⟨by rw [e1, e2], by rw [e1]; exact h4, ?_, by rw [e1, ← e2]; exact e3⟩
      rw [e3, e2, hqn.1, hqn.2.1, hqn.2.2.1]
      unfold computeSigmaPsi
      have : 0 < (o.n * g) ^ 2 := by
        have := h4.ne'
        positivity
      positivity
  obtain ⟨_, hkap, hsp, hsig⟩ := key
  refine ⟨hkap, hcm, ?_, C122_tke hcm hu hkap hz diff, ?_, ?_⟩
  · have := (C122_stability (us := us) (kappa := kap) (z := z) s c h lo hcrit hu hkap hz).2
    rw [hcq]; exact this
  · obtain ⟨d, hd, hiff⟩ := C122_psi (p := q.p) (m := q.m) (n := q.n) q.consts (by simp [Par.consts, hqn.2.2.2, hf])
      (by simp only [Par.consts]; rw [hqn.2.1, hqn.2.2.1]; exact h12) q.schmidtPsi diff hsp hcm hu hkap hz
    exact ⟨d, hd, hiff.2 hsig⟩
  · exact (C122_flux q.schmidtPsi nz hcm hu hkap hz 0).1

/-- C122: the defaults of the three closures meet the conditions on the constants. -/
theorem C122_defaults (k : Closure) (o : Par) :
    (applyDefaults k o).n < 0 ∧ (applyDefaults k o).c1 < (applyDefaults k o).c2 ∧ (applyDefaults k o).fWall = 1 ∧
    0 < (applyDefaults k o).schmidtPsi ∧ 0 < (applyDefaults k o).schmidtTke ∧ 0 < (applyDefaults k o).cmu0 ∧
    0 < (applyDefaults k o).kMin ∧ 0 < (applyDefaults k o).psiMin ∧ 0 < (applyDefaults k o).epsMin ∧
    (applyDefaults k o).kappa = o.kappa ∧ (applyDefaults k o).computeKappa = o.computeKappa := by
  cases k <;> norm_num [applyDefaults]

/-- C122: `psi` is what the name of the closure says: the dissipation rate, and the dissipation per energy
`eps / (cmu0^4 k)`. -/
theorem C122_variable (o : Par) (q : GlsOpts) (k psi : ℝ) (hk : 0 < k) (hc : 0 < q.cmu0) :
    (q.p = (applyDefaults .kEpsilon o).p → q.m = (applyDefaults .kEpsilon o).m → q.n = (applyDefaults .kEpsilon o).n →
      psi = epsOf q k psi) ∧
    (q.p = (applyDefaults .kOmega o).p → q.m = (applyDefaults .kOmega o).m → q.n = (applyDefaults .kOmega o).n →
      psi = epsOf q k psi / (q.cmu0 ^ 4 * k)) := by
  refine ⟨fun hp hm hn => ?_, fun hp hm hn => ?_⟩
  · simp only [applyDefaults] at hp hm hn
    unfold epsOf
    rw [hp, hm, hn]
    norm_num
  · simp only [applyDefaults] at hp hm hn
    have : epsOf q k psi = q.cmu0 ^ 4 * k * psi := by
      have h4 : q.cmu0 ^ (4 : ℝ) = q.cmu0 ^ 4 := by exact_mod_cast Real.rpow_natCast q.cmu0 4
      unfold epsOf
      rw [hp, hm, hn, ← h4]
      norm_num
    rw [this]
    field_simp

/-- C122: the least energy is that of a speed of less than 4 mm/s, and the least values of the two other variables are
below it; unstable stratification enters `psi` with the weight of the energy equation, stable stratification is a source
of `psi` in the k-epsilon and k-omega closures (`c3minus < 0`, `psiSource`), and a sink of small weight at most else. -/
theorem C122_limits (c : Closure) (o : Par) :
    (applyDefaults c o).kMin < 0.004 ^ 2 ∧ (applyDefaults c o).epsMin < (applyDefaults c o).kMin ∧
    (applyDefaults c o).psiMin < (applyDefaults c o).kMin ∧ (applyDefaults c o).c3plus = 1 ∧
    (applyDefaults c o).c3minus < 0.1 ∧ (c = .kEpsilon ∨ c = .kOmega → (applyDefaults c o).c3minus < 0) := by
  cases c <;> simp only [applyDefaults, reduceCtorEq, or_self, false_imp_iff] <;> norm_num

/-- The default closure: k-epsilon with computed `cmu0` and Schmidt number, and kappa as the constant of the process. -/
noncomputable def exPar : Par :=
  applyDefaults .kEpsilon ⟨0, 0, 0, 0, 0, 0, 0, 0, 0, 0, 0, 0, 0, 0, 0.4, true, false, true⟩

/-- The hypotheses of `C122_steady` are met by the default closure in a new process. -/
example : (construct canutoA exPar 0.4).1.schmidtPsi =
    computeSigmaPsi 0.4 (construct canutoA exPar 0.4).1.cmu0 exPar.n exPar.c1 exPar.c2 ∧
    0 < (construct canutoA exPar 0.4).2 := by
  have h := C122_steady (us := 1) (z := 1) .canutoA canutoA rfl ⟨true, true, true, -1.2⟩ (fun _ => by norm_num) exPar 0.4
    rfl (.inr ⟨rfl, rfl, rfl, by norm_num⟩) (C122_defaults .kEpsilon _).1.ne (C122_defaults .kEpsilon _).2.1
    (C122_defaults .kEpsilon _).2.2.1 one_pos one_pos 1 1
  refine ⟨?_, h.1⟩
  have := (C122_parameters canutoA exPar 0.4 h.2.1 (C122_defaults .kEpsilon _).1.ne (C122_defaults .kEpsilon _).2.1
    (C122_defaults .kEpsilon _).2.2.2.1.le (.inr rfl)).1
  exact this

/-- C122 violated: a kappa set by the user (with the default flags) enters the Schmidt number but not the flux at the wall
nor the drag, which take the constant of the process: the layer with that constant is not in balance. -/
theorem C122_option_violated (c : Coef) (o : Par) (g : ℝ) (hk : o.computeKappa = false) (hs : o.computeSchmidt = true)
    (hcm : 0 < (construct c o g).1.cmu0) (hn : o.n ≠ 0) (h12 : o.c1 < o.c2) (hf : o.fWall = 1) (h0 : 0 < o.kappa)
    (hg : 0 < g) (hne : o.kappa ≠ g) (hu : 0 < us) (hz : 0 < z) (diff : ℝ) :
    let q := (construct c o g).1
    let kap := (construct c o g).2
    ∃ d, HasDerivAt (fun y => us * kap * y / q.schmidtPsi *
        deriv (fun y => wallPsi q.cmu0 q.p q.m q.n kap us y) y) d z ∧
      d + psiSource q.consts (wallFields kap us z diff) (wallK q.cmu0 us) (wallPsi q.cmu0 q.p q.m q.n kap us z)
        (wallPsi q.cmu0 q.p q.m q.n kap us z) ≠ 0 := by
  intro q kap
  have hkap : kap = g := by simp [kap, construct, hk, hs]
  have hq : q.n = o.n ∧ q.c1 = o.c1 ∧ q.c2 = o.c2 ∧ q.fWall = o.fWall := by simp [q, construct, hk, hs]
  have hsig : q.schmidtPsi = computeSigmaPsi o.kappa q.cmu0 q.n q.c1 q.c2 := by simp [q, construct, hk, hs]
  have h12' : 0 < q.c2 - q.c1 := by rw [hq.2.1, hq.2.2.1]; linarith
  have hn' : q.n ≠ 0 := by rw [hq.1]; exact hn
  have hsp : 0 < q.schmidtPsi := by
    rw [hsig]
    unfold computeSigmaPsi
    have : 0 < (q.n * o.kappa) ^ 2 := by
      have := h0.ne'
      positivity
    have hcm' : 0 < q.cmu0 := hcm
    positivity
  obtain ⟨d, hd, hiff⟩ := C122_psi (p := q.p) (m := q.m) (n := q.n) (us := us) (z := z) q.consts
    (by simp [Par.consts, hq.2.2.2, hf]) (by simp only [Par.consts]; linarith) q.schmidtPsi diff hsp hcm hu
    (show 0 < kap by rw [hkap]; exact hg) hz
  refine ⟨d, hd, fun h => hne ?_⟩
  have e := hiff.1 h
  rw [hsig, hkap] at e
  have e2 := congrArg (fun s => computeKappa s q.cmu0 q.n q.c1 q.c2) e
  have hks := (C44_kappa_sigma q.cmu0 q.n q.c1 q.c2 hcm hn' (by linarith)).2
  have e3 : computeKappa (computeSigmaPsi g q.cmu0 q.n q.c1 q.c2) q.cmu0 q.n q.c1 q.c2 = g := hks _ hg.le
  beta_reduce at e2
  rw [hks _ h0.le] at e2
  exact e2.trans e3

/-- C122 violated: the constant of the process is set by a closure that computes kappa and never reset, so that another
solver of the same process with the default options is not in balance: its kappa is not the constant used at its walls. -/
theorem C122_process_violated (c c' : Coef) (o o' : Par) (g : ℝ) (h : o.computeKappa = true)
    (h' : o'.computeKappa = false)
    (hne : computeKappa o.schmidtPsi (construct c o g).1.cmu0 o.n o.c1 o.c2 ≠ o'.kappa) :
    (construct c' o' (construct c o g).2).2 ≠ (construct c' o' (construct c o g).2).1.kappa ∧
      (construct c' o' o'.kappa).2 = (construct c' o' o'.kappa).1.kappa := by
  have e1 : (construct c o g).2 = computeKappa o.schmidtPsi (construct c o g).1.cmu0 o.n o.c1 o.c2 := by
    simp only [construct, h, if_true]
  have e2 : ∀ x, (construct c' o' x).2 = x ∧ (construct c' o' x).1.kappa = o'.kappa := by
    intro x
    simp only [construct, h']
    split_ifs <;> simp_all
  exact ⟨by rw [(e2 _).1, (e2 _).2, e1]; exact hne, by rw [(e2 _).1, (e2 _).2]⟩

/-- The hypothesis is met: of all Schmidt numbers only one gives the kappa of the other solver. -/
example (cmu0 : ℝ) (hc : 0 < cmu0) : computeKappa (computeSigmaPsi 0.5 cmu0 (-1) 1 2) cmu0 (-1) 1 2 ≠ (0.4 : ℝ) := by
  rw [(C44_kappa_sigma cmu0 (-1) 1 2 hc (by norm_num) (by norm_num)).2 0.5 (by norm_num)]
  norm_num

/-- C122 violated: with both computed parameters switched off the defaults of none of the closures are in balance. -/
theorem C122_fixed_violated (k : Closure) (o : Par) (hk : o.kappa = 0.4) :
    let q := applyDefaults k o
    q.schmidtPsi ≠ computeSigmaPsi q.kappa q.cmu0 q.n q.c1 q.c2 := by
  cases k <;> norm_num [applyDefaults, computeSigmaPsi, hk]

/-! ### The stratified steady state -/

/-- C122: with the `c3_minus` of `compute_c3_minus` the state of homogeneous shear at the Richardson number `ri` is steady:
the shear number `as` is that of `compute_alpha_shear_steady`, viscosity and diffusivity are `s k^2 / eps`. -/
theorem C122_richardson (c : Coef) (pc : PsiConsts) (ri as k eps psi : ℝ) (hk : 0 < k) (he : 0 < eps) (hp : 0 < psi)
    (hri : ri ≠ 0) (hf : pc.fWall = 1)
    (h2 : (c.evalFuncs (ri * as) as).2 ≠ 0)
    (hst : (c.evalFuncs (ri * as) as).1 * as - (c.evalFuncs (ri * as) as).2 * as * ri = 1)
    (h3 : pc.c3minus = c.c3Minus pc.c1 pc.c2 ri as) :
    let m2 := as * eps ^ 2 / k ^ 2
    let f : SrcFields := ⟨(c.evalFuncs (ri * as) as).1 * k ^ 2 / eps, (c.evalFuncs (ri * as) as).2 * k ^ 2 / eps, eps, m2,
      ri * m2, 0⟩
    tkeSource f k k = 0 ∧ psiSource pc f k psi psi = 0 := by
  simp only [Coef.c3Minus] at h3
  generalize (c.evalFuncs (ri * as) as).1 = s1 at *
  generalize (c.evalFuncs (ri * as) as).2 = s2 at *
  intro m2 f
  constructor
  · simp only [tkeSource, f, m2]
    field_simp
    linear_combination eps ^ 2 * hst
  · have h3' : pc.c3minus * s2 * ri = pc.c2 * s2 * ri - (pc.c2 - pc.c1) * s1 := by rw [h3]; field_simp
    have e : psiSource pc f k psi psi = psi / k * eps * (pc.c1 * s1 * as - pc.c3minus * s2 * ri * as - pc.c2) := by
      simp only [psiSource, f, m2, hf]
      split <;> (field_simp; ring)
    rw [e, h3']
    have : pc.c1 * s1 * as - (pc.c2 * s2 * ri - (pc.c2 - pc.c1) * s1) * as - pc.c2 = 0 := by
      linear_combination pc.c2 * hst
    rw [this, mul_zero]

/-- The hypotheses are met by the selectable functions at the default Richardson number. -/
example (s : StabName) (c : Coef) (h : selectStability s = some c) :
    (c.evalFuncs (0.25 * c.alphaShearSteady 0.25) (c.alphaShearSteady 0.25)).1 * c.alphaShearSteady 0.25 -
      (c.evalFuncs (0.25 * c.alphaShearSteady 0.25) (c.alphaShearSteady 0.25)).2 * c.alphaShearSteady 0.25 * 0.25 = 1 :=
  (C44_steady_default s c h).2

end

end Verif.Wall
