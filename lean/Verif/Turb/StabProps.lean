import Verif.Turb.Stability
import Mathlib.Tactic.Linarith
import Mathlib.Tactic.Positivity
import Mathlib.Tactic.NormNum
import Mathlib.Tactic.FieldSimp
import Mathlib.Tactic.LinearCombination

/-!
Property C44 (stability function identities) and C64 (the limited stability functions are well
defined and positive, equivalent formulations agree).
-/

namespace Verif.Turb

/-! ### Equilibrium -/

/-- C44: whenever the analytical steady shear number is real (non-negative discriminant, proper
quadratic), it solves the equilibrium condition `S_m aM - S_h aM Ri = 1`. -/
theorem C44_steady_solves (c : Coef) (ri : ℝ) (ha : c.qa ri ≠ 0)
    (hd : 0 ≤ c.qb ri ^ 2 - 4 * c.qa ri * c.qc)
    (hden : c.den (ri * c.alphaShearSteady ri) (c.alphaShearSteady ri) ≠ 0) :
    let x := c.alphaShearSteady ri
    (c.evalFuncs (ri * x) x).1 * x - (c.evalFuncs (ri * x) x).2 * x * ri = 1 := by
  intro x
  have hx : c.qa ri * x ^ 2 + c.qb ri * x + c.qc = 0 := by
    have hs := Real.sq_sqrt hd
    set r := Real.sqrt (c.qb ri ^ 2 - 4 * c.qa ri * c.qc) with hr
    have e : x = (-c.qb ri + r) / 2 / c.qa ri := rfl
    rw [e]
    field_simp
    linear_combination hs
  change c.den (ri * x) x ≠ 0 at hden
  simp only [Coef.evalFuncs]
  field_simp
  simp only [Coef.den, Coef.qa, Coef.qb, Coef.qc] at hx ⊢
  linear_combination hx

/-- C44: the steady shear number is positive when the quadratic coefficient and `d0` are. -/
theorem C44_steady_positive (c : Coef) (ri : ℝ) (ha : 0 < c.qa ri) (h0 : 0 < c.d0) :
    0 < c.alphaShearSteady ri := by
  have hlt : c.qb ri < Real.sqrt (c.qb ri ^ 2 - 4 * c.qa ri * c.qc) := by
    apply Real.lt_sqrt_of_sq_lt
    have : 0 < c.qa ri * c.d0 := mul_pos ha h0
    simp only [Coef.qc]; nlinarith
  unfold Coef.alphaShearSteady
  have : 0 < -c.qb ri + Real.sqrt (c.qb ri ^ 2 - 4 * c.qa ri * c.qc) := by linarith
  positivity

/-- C44: without stratification the shear number used for `cmu0` satisfies `S_m aM = 1`, and the
fourth power of `cmu0` is `S_m`. -/
theorem C44_cmu0 (c : Coef) (ha : c.d5 - c.n2 ≠ 0)
    (hd : 0 ≤ (c.d2 - c.n0) ^ 2 - 4 * (c.d5 - c.n2) * c.d0)
    (hden : c.den 0 c.cmu0Shear ≠ 0) :
    (c.evalFuncs 0 c.cmu0Shear).1 * c.cmu0Shear = 1 ∧
    (0 < c.cmu0Shear → c.cmu0 ^ 4 * c.cmu0Shear = 1) := by
  set x := c.cmu0Shear with hxd
  have hx : (c.d5 - c.n2) * x ^ 2 + (c.d2 - c.n0) * x + c.d0 = 0 := by
    have hs := Real.sq_sqrt hd
    set r := Real.sqrt ((c.d2 - c.n0) ^ 2 - 4 * (c.d5 - c.n2) * c.d0) with hr
    have e : x = (-(c.d2 - c.n0) - r) / 2 / (c.d5 - c.n2) := rfl
    rw [e]
    field_simp
    linear_combination hs
  have h1 : (c.evalFuncs 0 x).1 * x = 1 := by
    simp only [Coef.evalFuncs]
    field_simp
    simp only [Coef.den]
    linear_combination -hx
  refine ⟨h1, fun hpos => ?_⟩
  have hs : 0 < (c.evalFuncs 0 x).1 := by
    by_contra hn
    have : (c.evalFuncs 0 x).1 * x ≤ 0 := mul_nonpos_of_nonpos_of_nonneg (not_lt.1 hn) hpos.le
    linarith
  have : c.cmu0 ^ 4 = (c.evalFuncs 0 x).1 := by
    unfold Coef.cmu0
    rw [← Real.rpow_natCast, ← Real.rpow_mul hs.le]
    norm_num [hxd]
  rw [this, h1]

/-- C44: the computed `c3_minus` reproduces the requested steady state Richardson number. -/
theorem C44_c3_minus (c : Coef) (c1 c2 ri as : ℝ) (hri : ri ≠ 0) (hc : c1 ≠ c2)
    (hm : (c.evalFuncs (ri * as) as).1 ≠ 0) (hh : (c.evalFuncs (ri * as) as).2 ≠ 0) :
    let s := c.evalFuncs (ri * as) as
    s.1 / s.2 * (c2 - c1) / (c2 - c.c3Minus c1 c2 ri as) = ri := by
  intro s
  change s.1 ≠ 0 at hm
  change s.2 ≠ 0 at hh
  have e : c2 - c.c3Minus c1 c2 ri as = (c2 - c1) * s.1 / s.2 / ri := by
    change c2 - (c2 - (c2 - c1) * s.1 / s.2 / ri) = _
    ring
  have h2 : c2 - c1 ≠ 0 := sub_ne_zero.2 hc.symm
  rw [e]
  field_simp

/-! ### von Karman constant and Schmidt number -/

/-- C44: computing kappa from the Schmidt number and the Schmidt number from kappa are inverse to
each other. -/
theorem C44_kappa_sigma (cmu0 n c1 c2 : ℝ) (hm : 0 < cmu0) (hn : n ≠ 0) (hc : c1 < c2) :
    (∀ s, 0 ≤ s → computeSigmaPsi (computeKappa s cmu0 n c1 c2) cmu0 n c1 c2 = s) ∧
    (∀ k, 0 ≤ k → computeKappa (computeSigmaPsi k cmu0 n c1 c2) cmu0 n c1 c2 = k) := by
  have hcc : 0 < c2 - c1 := by linarith
  have hn' : |n| ≠ 0 := abs_ne_zero.2 hn
  constructor
  · intro s hs
    simp only [computeSigmaPsi, computeKappa]
    have hq := Real.sq_sqrt (mul_nonneg hs hcc.le)
    have : (n * (cmu0 / |n| * √(s * (c2 - c1)))) ^ 2 =
        n ^ 2 * (cmu0 ^ 2 / |n| ^ 2 * (√(s * (c2 - c1))) ^ 2) := by ring
    rw [this, hq, sq_abs]
    field_simp
  · intro k hk
    simp only [computeSigmaPsi, computeKappa]
    have : (n * k) ^ 2 / (cmu0 ^ 2 * (c2 - c1)) * (c2 - c1) = (|n| * k / cmu0) ^ 2 := by
      rw [div_pow, mul_pow, mul_pow, sq_abs]; field_simp
    rw [this, Real.sqrt_sq (by positivity)]
    field_simp

/-! ### Two evaluations of the same function -/

/-- C44: the direct and the normalised evaluation of the Canuto functions agree everywhere. -/
theorem C44_canuto_agree (l : Lam) (ab as : ℝ) :
    (canutoInter l).coef.evalFuncs ab as = (canutoInter l).evalFuncsNew ab as := by
  simp only [Coef.evalFuncs, Inter.evalFuncsNew, Inter.coef, Coef.den, Prod.mk.injEq]
  constructor <;> congr 1 <;> ring

/-- C44: likewise for the Cheng functions. -/
theorem C44_cheng_agree (l : Lam) (ab as : ℝ) :
    (chengInter l).coef.evalFuncs ab as = (chengInter l).evalFuncsNew ab as := by
  simp only [Coef.evalFuncs, Inter.evalFuncsNew, Inter.coef, Coef.den, Prod.mk.injEq]
  constructor <;> congr 1 <;> ring

/-! ### Smooth limiter -/

theorem smoothMin_eq (m ac ab : ℝ) (hm : m < ac) (h : ab < ac) :
    smoothMin m ac ab = ac - (ac - ab) * (ac - m) / ((ac - ab) + (ac - m)) := by
  have : ab + m - 2 * ac ≠ 0 := by intro hh; linarith
  have h2 : (ac - ab) + (ac - m) ≠ 0 := by intro hh; linarith
  have e : ab + m - 2 * ac = -((ac - ab) + (ac - m)) := by ring
  simp only [smoothMin]
  rw [e, div_neg, sub_neg_eq_add]
  field_simp
  ring

/-- C44: the smooth buoyancy limiter maps values below the critical one strictly between minimum and
critical value, never lowers them, and keeps their order. -/
theorem C44_smooth (m ac : ℝ) (hm : m < ac) :
    (∀ ab, ab < ac → m < smoothMin m ac ab ∧ smoothMin m ac ab < ac ∧ ab < smoothMin m ac ab) ∧
    (∀ a b, a < b → b < ac → smoothMin m ac a < smoothMin m ac b) := by
  constructor
  · intro ab h
    rw [smoothMin_eq m ac ab hm h]
    have h1 : 0 < ac - ab := by linarith
    have h2 : 0 < ac - m := by linarith
    have h3 : 0 < (ac - ab) + (ac - m) := by linarith
    refine ⟨?_, ?_, ?_⟩
    · have : (ac - ab) * (ac - m) / ((ac - ab) + (ac - m)) < ac - m := by
        rw [div_lt_iff₀ h3]; nlinarith
      linarith
    · have : 0 < (ac - ab) * (ac - m) / ((ac - ab) + (ac - m)) := by positivity
      linarith
    · have : (ac - ab) * (ac - m) / ((ac - ab) + (ac - m)) < ac - ab := by
        rw [div_lt_iff₀ h3]; nlinarith
      linarith
  · intro a b hab hb
    rw [smoothMin_eq m ac a hm (by linarith), smoothMin_eq m ac b hm hb]
    have h1 : 0 < ac - b := by linarith
    have h2 : 0 < ac - m := by linarith
    have h3 : 0 < (ac - a) + (ac - m) := by linarith
    have h4 : 0 < (ac - b) + (ac - m) := by linarith
    have : (ac - b) * (ac - m) / ((ac - b) + (ac - m)) <
        (ac - a) * (ac - m) / ((ac - a) + (ac - m)) := by
      rw [div_lt_div_iff₀ h4 h3]
      have : 0 < (b - a) * (ac - m) ^ 2 := by
        have : 0 < b - a := by linarith
        positivity
      nlinarith
    linarith

/-- The minimum buoyancy number of the Canuto functions in closed form. -/
theorem alphaBuoyMin_canuto (l : Lam) (h4 : 0 < l.l4) (h5 : 0 < l.l5) (h8 : 0 < l.l8) :
    (canutoInter l).coef.alphaBuoyMin = -(3 / 4) * l.l5 / (4 * l.l4 + 3 * l.l8 + 1) := by
  simp only [Coef.alphaBuoyMin, Inter.coef, canutoInter]
  have e : (4 * (l.l5 * (7 * l.l4 + 3 * l.l8)) + 2 * (2 * l.l5)) ^ 2 -
      4 * (3 * l.l5 ^ 2) * (4 ^ 2 * (l.l4 * (4 * l.l4 + 3 * l.l8)) + 2 * 4 * (2 * l.l4)) =
      (4 * l.l5 * (l.l4 + 3 * l.l8 + 1)) ^ 2 := by ring
  rw [e, Real.sqrt_sq (by positivity)]
  have hx : 4 ^ 2 * (l.l4 * (4 * l.l4 + 3 * l.l8)) + 2 * 4 * (2 * l.l4) ≠ 0 := by positivity
  have hy : 4 * l.l4 + 3 * l.l8 + 1 ≠ 0 := by positivity
  rw [div_eq_div_iff hx hy]
  ring

theorem alphaBuoyMin_cheng (l : Lam) (h4 : 0 < l.l4) (h5 : 0 < l.l5) (h8 : 0 < l.l8) :
    (chengInter l).coef.alphaBuoyMin = -(3 / 4) * l.l5 / (4 * l.l4 + 3 * l.l8 + 1) := by
  simp only [Coef.alphaBuoyMin, Inter.coef, chengInter]
  have e : (4 * ((7.0 / 3 * l.l4 + l.l8) / l.l5) + 2 * (2.0 / 3 / l.l5)) ^ 2 -
      4 * 1 * (4 ^ 2 * (1.0 / 3 * l.l4 * (l.l5 ^ 2)⁻¹ * (4 * l.l4 + 3 * l.l8)) +
        2 * 4 * (2.0 / 3 * l.l4 * (l.l5 ^ 2)⁻¹)) =
      (4 / 3 * (l.l4 + 3 * l.l8 + 1) / l.l5) ^ 2 := by
    norm_num; field_simp; ring
  rw [e, Real.sqrt_sq (by positivity)]
  have hx : 4 ^ 2 * (1.0 / 3 * l.l4 * (l.l5 ^ 2)⁻¹ * (4 * l.l4 + 3 * l.l8)) +
        2 * 4 * (2.0 / 3 * l.l4 * (l.l5 ^ 2)⁻¹) ≠ 0 := by positivity
  have hy : 4 * l.l4 + 3 * l.l8 + 1 ≠ 0 := by positivity
  rw [div_eq_div_iff hx hy]
  norm_num
  field_simp
  ring

/-- C44: for the three selectable functions the minimum lies below the default critical value
-1.2, so the smooth limiter theorem applies to them. -/
theorem C44_smooth_applies :
    canutoA.alphaBuoyMin < -1.2 ∧ canutoB.alphaBuoyMin < -1.2 ∧ cheng.alphaBuoyMin < -1.2 := by
  refine ⟨?_, ?_, ?_⟩
  · rw [canutoA, alphaBuoyMin_canuto] <;> norm_num [lamCanutoA]
  · rw [canutoB, alphaBuoyMin_canuto] <;> norm_num [lamCanutoB]
  · rw [cheng, alphaBuoyMin_cheng] <;> norm_num [lamCheng]

/-! ### Positivity of the limited functions -/

/-- Conditions on the coefficients on the half line of admissible buoyancy numbers. -/
structure Good (c : Coef) (m : ℝ) : Prop where
  hd5 : c.d5 ≤ 0
  hb2 : 0 ≤ c.nb2
  hP : ∀ a, m ≤ a → 0 < c.d0 + c.d1 * a + c.d4 * a ^ 2
  hq : ∀ a, m ≤ a → 0 < c.d2 + c.d3 * a
  hn : ∀ a, m ≤ a → 0 < c.n0 + c.n1 * a
  hb : ∀ a, m ≤ a → 0 < c.nb0 + c.nb1 * a
  hdq : ∀ a, m ≤ a → 0 ≤ (c.d2 + c.d3 * a) ^ 2 + c.d5 * (c.d0 + c.d1 * a + c.d4 * a ^ 2)
  hnq : ∀ a, m ≤ a → 0 < (c.n0 + c.n1 * a) * (c.d2 + c.d3 * a)
    + c.n2 * (c.d0 + c.d1 * a + c.d4 * a ^ 2)

theorem alphaShearMax_eq (c : Coef) (m : ℝ) (h : Good c m) (a : ℝ) (ha : m ≤ a) :
    c.alphaShearMax a = (c.d0 + c.d1 * a + c.d4 * a ^ 2) / (c.d2 + c.d3 * a) := by
  have h1 := (h.hn a ha).ne'
  have h2 := (h.hq a ha).ne'
  unfold Coef.alphaShearMax
  have e1 : c.d0 * c.n0 + (c.d0 * c.n1 + c.d1 * c.n0) * a + (c.d1 * c.n1 + c.d4 * c.n0) * a ^ 2
      + c.d4 * c.n1 * a ^ 3 = (c.d0 + c.d1 * a + c.d4 * a ^ 2) * (c.n0 + c.n1 * a) := by ring
  have e2 : c.d2 * c.n0 + (c.d2 * c.n1 + c.d3 * c.n0) * a + c.d3 * c.n1 * a ^ 2 =
      (c.d2 + c.d3 * a) * (c.n0 + c.n1 * a) := by ring
  rw [e1, e2, mul_div_mul_right _ _ h1]

theorem good_positive (c : Coef) (m : ℝ) (h : Good c m) (a s : ℝ) (ha : m ≤ a) (h0 : 0 ≤ s)
    (hs : s ≤ c.alphaShearMax a) :
    0 < c.den a s ∧ 0 < c.n0 + c.n1 * a + c.n2 * s ∧ 0 < c.nb0 + c.nb1 * a + c.nb2 * s := by
  rw [alphaShearMax_eq c m h a ha] at hs
  have hP := h.hP a ha
  have hq := h.hq a ha
  have hn := h.hn a ha
  have hnq := h.hnq a ha
  have hdq := h.hdq a ha
  have hb := h.hb a ha
  set P := c.d0 + c.d1 * a + c.d4 * a ^ 2 with hPd
  set q := c.d2 + c.d3 * a with hqd
  have hsq : s * q ≤ P := (le_div_iff₀ hq).1 hs
  refine ⟨?_, ?_, ?_⟩
  · have e : c.den a s = P + s * (q + c.d5 * s) := by
      rw [hPd, hqd]; unfold Coef.den; ring
    rw [e]
    have : 0 ≤ q + c.d5 * s := by
      have h5 : 0 ≤ -c.d5 := by linarith [h.hd5]
      have : (-c.d5) * (s * q) ≤ (-c.d5) * P := mul_le_mul_of_nonneg_left hsq h5
      have : 0 ≤ q * (q + c.d5 * s) := by nlinarith
      by_contra hneg
      have := mul_neg_of_pos_of_neg hq (not_le.1 hneg)
      linarith
    have := mul_nonneg h0 this
    linarith
  · rcases le_total 0 c.n2 with h2 | h2
    · have := mul_nonneg h2 h0; linarith
    · have : c.n2 * P ≤ c.n2 * (s * q) := mul_le_mul_of_nonpos_left hsq h2
      have : 0 < q * (c.n0 + c.n1 * a + c.n2 * s) := by nlinarith
      exact (mul_pos_iff_of_pos_left hq).1 this
  · have := mul_nonneg h.hb2 h0; linarith

theorem good_canutoA : Good canutoA canutoA.alphaBuoyMin := by
  have hm : canutoA.alphaBuoyMin = -(8925 / 2920) := by
    rw [canutoA, alphaBuoyMin_canuto] <;> norm_num [lamCanutoA]
  rw [hm]
  simp only [canutoA, Inter.coef, canutoInter, lamCanutoA]
  constructor
  · norm_num
  · norm_num
  all_goals
    intro a ha
    obtain ⟨t, rfl⟩ : ∃ t, a = -(8925 / 2920) + t := ⟨a + 8925 / 2920, by ring⟩
    have ht : 0 ≤ t := by linarith
    first
      | (norm_num; ring_nf; positivity)
      | (norm_num; linarith)
      | (norm_num; nlinarith)

theorem good_canutoB : Good canutoB canutoB.alphaBuoyMin := by
  have hm : canutoB.alphaBuoyMin = -(8400 / 2358) := by
    rw [canutoB, alphaBuoyMin_canuto] <;> norm_num [lamCanutoB]
  rw [hm]
  simp only [canutoB, Inter.coef, canutoInter, lamCanutoB]
  constructor
  · norm_num
  · norm_num
  all_goals
    intro a ha
    obtain ⟨t, rfl⟩ : ∃ t, a = -(8400 / 2358) + t := ⟨a + 8400 / 2358, by ring⟩
    have ht : 0 ≤ t := by linarith
    first
      | (norm_num; ring_nf; positivity)
      | (norm_num; linarith)
      | (norm_num; nlinarith)

theorem good_cheng : Good cheng cheng.alphaBuoyMin := by
  have hm : cheng.alphaBuoyMin = -(8280 / 3041) := by
    rw [cheng, alphaBuoyMin_cheng] <;> norm_num [lamCheng]
  rw [hm]
  simp only [cheng, Inter.coef, chengInter, lamCheng]
  constructor
  · norm_num
  · norm_num
  all_goals
    intro a ha
    obtain ⟨t, rfl⟩ : ∃ t, a = -(8280 / 3041) + t := ⟨a + 8280 / 3041, by ring⟩
    have ht : 0 ≤ t := by linarith
    first
      | (norm_num; ring_nf; positivity)
      | (norm_num; linarith)
      | (norm_num; nlinarith)

theorem good_select (s : StabName) (c : Coef) (h : selectStability s = some c) :
    Good c c.alphaBuoyMin := by
  cases s <;> simp [selectStability] at h <;> subst h
  · exact good_canutoA
  · exact good_canutoB
  · exact good_cheng

theorem limited_range (c : Coef) (o : LimOpts) (h : Good c c.alphaBuoyMin) (hs : o.limShear = true)
    (hb : o.limBuoy = true) (hc : o.smooth = true → c.alphaBuoyMin < o.crit)
    (shear2 buoy2 k eps : ℝ) (h2 : 0 ≤ shear2) :
    c.alphaBuoyMin ≤ (c.limited o shear2 buoy2 k eps).1 ∧
    0 ≤ (c.limited o shear2 buoy2 k eps).2 ∧
    (c.limited o shear2 buoy2 k eps).2 ≤ c.alphaShearMax (c.limited o shear2 buoy2 k eps).1 := by
  have h1 : c.alphaBuoyMin ≤ (c.limited o shear2 buoy2 k eps).1 := by
    simp only [Coef.limited, hb, if_true]
    by_cases hsm : o.smooth = true
    · simp only [hsm, if_true]
      split
      · rename_i hlt
        exact ((C44_smooth _ _ (hc hsm)).1 _ hlt).1.le
      · rename_i hge
        exact (hc hsm).le.trans (not_lt.1 hge)
    · simp only [Bool.not_eq_true] at hsm
      simp [hsm]
  have e : (c.limited o shear2 buoy2 k eps).2 = min (k ^ 2 / eps ^ 2 * shear2)
      (c.alphaShearMax (c.limited o shear2 buoy2 k eps).1) := by
    simp [Coef.limited, hs]
  refine ⟨h1, ?_, ?_⟩
  · rw [e]
    refine le_min (by positivity) ?_
    rw [alphaShearMax_eq c _ h _ h1]
    exact (div_pos (h.hP _ h1) (h.hq _ h1)).le
  · rw [e]; exact min_le_right _ _

/-- C64: for every selectable stability function and every flow state (any stratification, any
shear, any turbulence level) the limited functions are well defined (non-zero denominator) and
positive, both with the clipping and with the smooth limiter at its default critical value. -/
theorem C64_positive (s : StabName) (c : Coef) (h : selectStability s = some c) (o : LimOpts)
    (hs : o.limShear = true) (hb : o.limBuoy = true) (hc : o.smooth = true → o.crit = -1.2)
    (shear2 buoy2 k eps : ℝ) (h2 : 0 ≤ shear2) :
    0 < c.den (c.limited o shear2 buoy2 k eps).1 (c.limited o shear2 buoy2 k eps).2 ∧
    0 < (c.evaluate o shear2 buoy2 k eps).1 ∧ 0 < (c.evaluate o shear2 buoy2 k eps).2 := by
  have hg := good_select s c h
  have hcrit : o.smooth = true → c.alphaBuoyMin < o.crit := by
    intro hsm
    rw [hc hsm]
    obtain ⟨p1, p2, p3⟩ := C44_smooth_applies
    cases s <;> simp [selectStability] at h <;> subst h <;> assumption
  obtain ⟨r1, r2, r3⟩ := limited_range c o hg hs hb hcrit shear2 buoy2 k eps h2
  obtain ⟨q1, q2, q3⟩ := good_positive c _ hg _ _ r1 r2 r3
  exact ⟨q1, div_pos q2 q1, div_pos q3 q1⟩

/-- C64: the limiters leave weak stratification and weak shear alone: inside the admissible range
the functions are evaluated at the unlimited normalised frequencies. -/
theorem C64_inactive (c : Coef) (o : LimOpts) (shear2 buoy2 k eps : ℝ)
    (h1 : if o.smooth then o.crit ≤ k ^ 2 / eps ^ 2 * buoy2
      else c.alphaBuoyMin ≤ k ^ 2 / eps ^ 2 * buoy2)
    (h2 : k ^ 2 / eps ^ 2 * shear2 ≤ c.alphaShearMax (k ^ 2 / eps ^ 2 * buoy2)) :
    c.evaluate o shear2 buoy2 k eps =
      c.evalFuncs (k ^ 2 / eps ^ 2 * buoy2) (k ^ 2 / eps ^ 2 * shear2) := by
  have e : c.limited o shear2 buoy2 k eps = (k ^ 2 / eps ^ 2 * buoy2, k ^ 2 / eps ^ 2 * shear2) := by
    have hab : (if o.limBuoy = true then
      (if o.smooth = true then (if k ^ 2 / eps ^ 2 * buoy2 < o.crit then
        smoothMin c.alphaBuoyMin o.crit (k ^ 2 / eps ^ 2 * buoy2) else k ^ 2 / eps ^ 2 * buoy2)
       else max (k ^ 2 / eps ^ 2 * buoy2) c.alphaBuoyMin)
      else k ^ 2 / eps ^ 2 * buoy2) = k ^ 2 / eps ^ 2 * buoy2 := by
      cases hsm : o.smooth with
      | true =>
        simp only [hsm, if_true] at h1
        simp [not_lt.2 h1]
      | false =>
        simp only [hsm, Bool.false_eq_true, if_false] at h1
        simp [max_eq_left h1]
    simp only [Coef.limited, hab]
    cases o.limShear <;> simp [min_eq_left h2]
  simp only [Coef.evaluate, e]

/-- Non-vacuity: strongly unstable and strongly sheared state. -/
example : ∃ c, selectStability .canutoA = some c ∧
    0 < (c.evaluate ⟨true, true, false, -1.2⟩ 100 (-100) 1 1).1 :=
  ⟨canutoA, rfl, (C64_positive .canutoA canutoA rfl _ rfl rfl (by simp) 100 (-100) 1 1
    (by norm_num)).2.1⟩

/-! ### Default steady state -/

/-- C44: at the default steady state Richardson number 0.25 the steady shear number of the selectable
functions is positive and solves the equilibrium condition. -/
theorem C44_steady_default (s : StabName) (c : Coef) (h : selectStability s = some c) :
    let x := c.alphaShearSteady 0.25
    0 < x ∧ (c.evalFuncs (0.25 * x) x).1 * x - (c.evalFuncs (0.25 * x) x).2 * x * 0.25 = 1 := by
  intro x
  have ha : 0 < c.qa 0.25 := by
    cases s <;> simp [selectStability] at h <;> subst h <;>
      norm_num [Coef.qa, canutoA, canutoB, cheng, Inter.coef, canutoInter, chengInter, lamCanutoA,
        lamCanutoB, lamCheng]
  have h0 : 0 < c.d0 := by
    cases s <;> simp [selectStability] at h <;> subst h <;>
      norm_num [canutoA, canutoB, cheng, Inter.coef, canutoInter, chengInter, lamCanutoA,
        lamCanutoB, lamCheng]
  have hx : 0 < x := C44_steady_positive c 0.25 ha h0
  refine ⟨hx, C44_steady_solves c 0.25 ha.ne' ?_ ?_⟩
  · have : 0 < c.qa 0.25 * c.d0 := mul_pos ha h0
    simp only [Coef.qc]; nlinarith [sq_nonneg (c.qb 0.25)]
  · change c.den (0.25 * x) x ≠ 0
    have e : c.den (0.25 * x) x = c.d0 + (c.d1 * 0.25 + c.d2) * x
        + (c.d3 * 0.25 + c.d4 * 0.25 ^ 2 + c.d5) * x ^ 2 := by unfold Coef.den; ring
    have h1 : 0 < c.d1 * 0.25 + c.d2 := by
      cases s <;> simp [selectStability] at h <;> subst h <;>
        norm_num [canutoA, canutoB, cheng, Inter.coef, canutoInter, chengInter, lamCanutoA,
          lamCanutoB, lamCheng]
    have h2 : 0 < c.d3 * 0.25 + c.d4 * 0.25 ^ 2 + c.d5 := by
      cases s <;> simp [selectStability] at h <;> subst h <;>
        norm_num [canutoA, canutoB, cheng, Inter.coef, canutoInter, chengInter, lamCanutoA,
          lamCanutoB, lamCheng]
    rw [e]
    positivity

/-- C44: the Galperin limit is the length scale of the steady state: where the buoyancy number is the
steady one, `cmu0 ^ 3 k ^ (3/2) / eps` is the limit times `sqrt (2 k / N ^ 2)`. -/
theorem C44_length_clim (c : Coef) (cmu0 ri k eps n2 : ℝ) (hk : 0 < k) (he : 0 < eps) (hn : 0 < n2)
    (h : k ^ 2 / eps ^ 2 * n2 = ri * c.alphaShearSteady ri) :
    c.lengthClim cmu0 ri * Real.sqrt (2 * k / n2) = cmu0 ^ 3 * (k * Real.sqrt k) / eps := by
  unfold Coef.lengthClim
  rw [← h, mul_assoc, ← Real.sqrt_mul (by positivity)]
  have e : k ^ 2 / eps ^ 2 * n2 / 2 * (2 * k / n2) = (k / eps) ^ 2 * k := by field_simp
  rw [e, Real.sqrt_mul (by positivity), Real.sqrt_sq (by positivity)]
  ring

/-- C44 is violated for the exported Kantha-Clayson function: at the default Richardson number the
formula picks a negative squared shear number (and the length scale limit becomes the square root of
a negative number, NaN in the code). -/
theorem C44_kantha_clayson_violated : gotmKanthaClayson.coef.alphaShearSteady 0.25 < 0 := by
  have ha : gotmKanthaClayson.coef.qa 0.25 < 0 := by
    norm_num [Coef.qa, gotmKanthaClayson, Gotm.coef, Gotm.a1, Gotm.a2, Gotm.a3, Gotm.a5, Gotm.ab1,
      Gotm.ab2, Gotm.ab3, Gotm.ab5, Gotm.nn, Gotm.nb]
  have hb : gotmKanthaClayson.coef.qb 0.25 < 0 := by
    norm_num [Coef.qb, gotmKanthaClayson, Gotm.coef, Gotm.a1, Gotm.a2, Gotm.a3, Gotm.a5, Gotm.ab1,
      Gotm.ab2, Gotm.ab3, Gotm.ab5, Gotm.nn, Gotm.nb]
  unfold Coef.alphaShearSteady
  apply div_neg_of_pos_of_neg _ ha
  have := Real.sqrt_nonneg (gotmKanthaClayson.coef.qb 0.25 ^ 2
    - 4 * gotmKanthaClayson.coef.qa 0.25 * gotmKanthaClayson.coef.qc)
  linarith

/-! ### Equivalent formulations -/

/-- Parameters of the Canuto form corresponding to those of Umlauf and Burchard. -/
noncomputable def Gotm.lam (g : Gotm) : Lam where
  l1 := g.a1 / g.nn
  l2 := g.a2 / (2 * g.nn)
  l3 := g.a3 / (2 * g.nn)
  l4 := g.a5 * g.ab3 / (2 * g.nn)
  l5 := 2 * g.nb
  l6 := g.ab1
  l7 := g.ab2
  l8 := g.ab5 / 2

/-- C65: the Canuto form and the form of Umlauf and Burchard are the same functions of the normalised
frequencies (for the published parameter sets, which all have `cb4 = 0`). -/
theorem C65_canuto_gotm (g : Gotm) (hn : g.nn ≠ 0) (hb : g.nb ≠ 0) (h4 : g.cb4 = 0) (ab as : ℝ) :
    g.coef.evalFuncs ab as = (canutoInter g.lam).coef.evalFuncs ab as := by
  have h3 : g.ab3 = 2 := by norm_num [Gotm.ab3, h4]
  have hk : 3 * g.nn ^ 3 ≠ 0 := by positivity
  have e1 : g.coef.den ab as = 3 * g.nn ^ 3 * (canutoInter g.lam).coef.den ab as := by
    simp only [Coef.den, Gotm.coef, Inter.coef, canutoInter, Gotm.lam, h3]
    norm_num
    field_simp
    ring
  have e2 : g.coef.n0 + g.coef.n1 * ab + g.coef.n2 * as = 3 * g.nn ^ 3 *
      ((canutoInter g.lam).coef.n0 + (canutoInter g.lam).coef.n1 * ab
        + (canutoInter g.lam).coef.n2 * as) := by
    simp only [Gotm.coef, Inter.coef, canutoInter, Gotm.lam, h3]
    norm_num
    field_simp
    ring
  have e3 : g.coef.nb0 + g.coef.nb1 * ab + g.coef.nb2 * as = 3 * g.nn ^ 3 *
      ((canutoInter g.lam).coef.nb0 + (canutoInter g.lam).coef.nb1 * ab
        + (canutoInter g.lam).coef.nb2 * as) := by
    simp only [Gotm.coef, Inter.coef, canutoInter, Gotm.lam, h3]
    norm_num
    field_simp
    ring
  simp only [Coef.evalFuncs, e1, e2, e3]
  rw [mul_div_mul_left _ _ hk, mul_div_mul_left _ _ hk]

/-- C65, Cheng, provable part: the Cheng form is the Canuto form divided by `3 l5²` in all
coefficients except the two multiplying the shear number in the numerators.  Missing: `n2` has the
opposite sign and `nb2` lacks a term, see `C65_cheng_violated`. -/
theorem C65_cheng_partial (l : Lam) (h5 : l.l5 ≠ 0) :
    let a := (chengInter l).coef
    let b := (canutoInter l).coef
    let s := 3 * l.l5 ^ 2
    s * a.d0 = b.d0 ∧ s * a.d1 = b.d1 ∧ s * a.d2 = b.d2 ∧ s * a.d3 = b.d3 ∧ s * a.d4 = b.d4 ∧
    s * a.d5 = b.d5 ∧ s * a.n0 = b.n0 ∧ s * a.n1 = b.n1 ∧ s * a.n2 = -b.n2 ∧
    s * a.nb0 = b.nb0 ∧ s * a.nb1 = b.nb1 ∧
    s * a.nb2 = b.nb2 - 6 * l.l1 * (l.l6 - l.l7) := by
  simp only [Inter.coef, canutoInter, chengInter]
  norm_num
  refine ⟨?_, ?_, ?_, ?_, ?_, ?_, ?_, ?_, ?_, ?_, ?_⟩ <;> field_simp <;> ring

/-- C65 is violated: with the Cheng parameters and no stratification the two formulations give
different momentum stability functions for every non-zero shear number at which the denominator does
not vanish. -/
theorem C65_cheng_violated (as : ℝ) (hs : as ≠ 0) (hd : cheng.den 0 as ≠ 0) :
    (cheng.evalFuncs 0 as).1 ≠ ((canutoInter lamCheng).coef.evalFuncs 0 as).1 := by
  have h5 : lamCheng.l5 ≠ 0 := by norm_num [lamCheng]
  obtain ⟨e0, e1, e2, e3, e4, e5, f0, f1, f2, -⟩ := C65_cheng_partial lamCheng h5
  have hk : 3 * lamCheng.l5 ^ 2 ≠ 0 := by positivity
  have eden : (canutoInter lamCheng).coef.den 0 as = 3 * lamCheng.l5 ^ 2 * cheng.den 0 as := by
    simp only [Coef.den, ← e0, ← e1, ← e2, ← e3, ← e4, ← e5, cheng]; ring
  have en : (canutoInter lamCheng).coef.n0 + (canutoInter lamCheng).coef.n1 * 0
      + (canutoInter lamCheng).coef.n2 * as = 3 * lamCheng.l5 ^ 2 * (cheng.n0 - cheng.n2 * as) := by
    have f2' : (canutoInter lamCheng).coef.n2 = -(3 * lamCheng.l5 ^ 2 * cheng.n2) := by
      rw [cheng, f2]; ring
    rw [f2', ← f0, cheng]; ring
  simp only [Coef.evalFuncs]
  rw [eden, en, mul_div_mul_left _ _ hk]
  intro heq
  have := (div_left_inj' hd).1 heq
  have h2 : cheng.n2 ≠ 0 := by norm_num [cheng, Inter.coef, chengInter, lamCheng]
  have : cheng.n2 * as = 0 := by linarith
  rcases mul_eq_zero.1 this with h | h
  · exact h2 h
  · exact hs h

/-- Non-vacuity of `C65_canuto_gotm`: the Canuto A parameters. -/
example : let g : Gotm := ⟨5, 0.8, 1.968, 1.136, 0, 0.4, 5.95, 0.6, 1, 0, 0.3333, 0.72⟩
    g.nn ≠ 0 ∧ g.nb ≠ 0 ∧ g.cb4 = 0 := by norm_num [Gotm.nn, Gotm.nb]

/-! ### Selection by name -/

/-- C66, provable part: every accepted name except one yields a stability function.  Missing: the
accepted name 'Kantha-Clayson', see `C66_kantha_clayson_violated`. -/
theorem C66_select_partial (s : StabName) (h : s ≠ .kanthaClayson) :
    (selectStability s).isSome = true := by
  cases s <;> simp_all [selectStability]

/-- C66 is violated: the option accepts the name 'Kantha-Clayson' but building the model with it
fails with an undefined name. -/
theorem C66_kantha_clayson_violated : selectStability .kanthaClayson = none := rfl

end Verif.Turb
