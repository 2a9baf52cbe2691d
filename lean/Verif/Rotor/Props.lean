import Verif.Rotor.Model
import Mathlib.Analysis.Convex.SpecificFunctions.Basic
import Mathlib.Analysis.Convex.SpecificFunctions.Pow
import Mathlib.Analysis.Convex.Jensen
import Mathlib.Analysis.SpecialFunctions.Integrals.Basic
import Mathlib.Data.Fin.Rev
import Mathlib.Algebra.BigOperators.Fin
import Mathlib.Tactic.Linarith
import Mathlib.Tactic.FieldSimp
import Mathlib.Tactic.Positivity
import Mathlib.Tactic.NormNum
import Mathlib.Tactic.FinCases
import Mathlib.Tactic.LinearCombination

namespace Verif.Rotor

open Verif.Turbine

/-! ### C120: turbines in a sheared current -/

/-- C120: the weights are positive, symmetric about the hub and add up to one. -/
theorem C120_weights : (∀ i, 0 < defaultWeights i) ∧ (∀ i, defaultWeights i.rev = defaultWeights i) ∧
    ∑ i, defaultWeights i = 1 := by
  refine ⟨?_, ?_, ?_⟩
  · intro i; fin_cases i <;> norm_num [defaultWeights]
  · intro i; fin_cases i <;> rfl
  · simp [Fin.sum_univ_succ, defaultWeights]; norm_num

/-- C120: the samples go from the lower to the upper tip. -/
theorem C120_samples (n : ℕ) (hub d : ℝ) (hd : 0 ≤ d) :
    zVals n hub d 0 = hub - d / 2 ∧ zVals n hub d (Fin.last (n + 1)) = hub + d / 2 ∧
    ∀ i, hub - d / 2 ≤ zVals n hub d i ∧ zVals n hub d i ≤ hub + d / 2 := by
  have hn : (0 : ℝ) < n + 1 := by positivity
  refine ⟨by simp [zVals], ?_, fun i => ?_⟩
  · simp only [zVals, Fin.val_last]; push_cast; field_simp; ring
  · have h1 : (i.val : ℝ) ≤ n + 1 := by exact_mod_cast Nat.lt_succ_iff.1 i.2
    have h0 : (0 : ℝ) ≤ i.val := by positivity
    have h2 : (hub + d / 2 - (hub - d / 2)) / ((n : ℝ) + 1) = d / (n + 1) := by ring
    unfold zVals
    rw [h2]
    have h3 : 0 ≤ d / ((n : ℝ) + 1) := by positivity
    have h4 : (i.val : ℝ) * (d / (n + 1)) ≤ (n + 1) * (d / (n + 1)) := mul_le_mul_of_nonneg_right h1 h3
    rw [mul_div_cancel₀ _ hn.ne'] at h4
    have := mul_nonneg h0 h3
    constructor <;> linarith

theorem zVals_rev (n : ℕ) (hub d : ℝ) (i : Fin (n + 2)) : zVals n hub d i.rev = 2 * hub - zVals n hub d i := by
  have hn : (n : ℝ) + 1 ≠ 0 := by positivity
  have : ((i.rev).val : ℝ) = n + 1 - i.val := by
    rw [Fin.val_rev, Nat.cast_sub (by omega)]; push_cast; ring
  unfold zVals
  rw [this]
  field_simp
  ring

/-- C120: with symmetric weights the mean height of the samples is the hub height. -/
theorem C120_mean_height {n : ℕ} (w : Fin (n + 2) → ℝ) (hs : ∀ i, w i.rev = w i) (h1 : ∑ i, w i = 1) (hub d : ℝ) :
    ∑ i, w i * zVals n hub d i = hub := by
  have h : ∑ i, w i * zVals n hub d i = ∑ i, w i * (2 * hub - zVals n hub d i) := by
    rw [← Equiv.sum_comp Fin.revPerm]
    exact Finset.sum_congr rfl fun i _ => by simp [hs, zVals_rev]
  have h2 : ∑ i, w i * (2 * hub - zVals n hub d i) = 2 * hub - ∑ i, w i * zVals n hub d i := by
    rw [Finset.sum_congr rfl fun i _ => by rw [mul_sub], Finset.sum_sub_distrib, ← Finset.sum_mul, h1, one_mul]
  linarith

theorem shear_nonneg {a b h U z : ℝ} (hb : 0 < b) (hh : 0 < h) (hU : 0 ≤ U) (hz : 0 ≤ z) : 0 ≤ shear a b h U z := by
  unfold shear; positivity

theorem shear_mono {a b h U z z' : ℝ} (ha : 0 < a) (hb : 0 < b) (hh : 0 < h) (hU : 0 ≤ U) (hz : 0 ≤ z) (hzz : z ≤ z') :
    shear a b h U z ≤ shear a b h U z' := by
  unfold shear
  refine mul_le_mul_of_nonneg_left (Real.rpow_le_rpow (by positivity) ?_ (by positivity)) hU
  exact div_le_div_of_nonneg_right hzz (by positivity)

theorem cbrt_cube {x : ℝ} (hx : 0 ≤ x) : (x ^ 3) ^ (1 / 3 : ℝ) = x := by
  rw [← Real.rpow_natCast, ← Real.rpow_mul hx]; norm_num

theorem cube_cbrt {x : ℝ} (hx : 0 ≤ x) : (x ^ (1 / 3 : ℝ)) ^ 3 = x := by
  rw [← Real.rpow_natCast, ← Real.rpow_mul hx]; norm_num

/-- The cube of the rotor average is the average of the cubes. -/
theorem rotorAverage_cube {n : ℕ} {w : Fin (n + 2) → ℝ} (hw : ∀ i, 0 ≤ w i) {a b h hub d U : ℝ} (hb : 0 < b)
    (hh : 0 < h) (hU : 0 ≤ U) (hd : 0 ≤ d) (hr : d / 2 ≤ hub) :
    rotorAverage w a b h hub d U ^ 3 = ∑ i, shear a b h U (zVals n hub d i) ^ 3 * w i ∧
    0 ≤ rotorAverage w a b h hub d U := by
  have h0 : 0 ≤ ∑ i, shear a b h U (zVals n hub d i) ^ 3 * w i := by
    refine Finset.sum_nonneg fun i _ => mul_nonneg (pow_nonneg (shear_nonneg hb hh hU ?_) 3) (hw i)
    linarith [((C120_samples n hub d hd).2.2 i).1]
  exact ⟨cube_cbrt h0, Real.rpow_nonneg h0 _⟩

/-- C120: the speed of a rotor is between the speeds of the current at its lower and at its upper tip. -/
theorem C120_between {n : ℕ} (w : Fin (n + 2) → ℝ) (hw : ∀ i, 0 ≤ w i) (h1 : ∑ i, w i = 1)
    (a b h hub d U : ℝ) (ha : 0 < a) (hb : 0 < b) (hh : 0 < h) (hU : 0 ≤ U) (hd : 0 ≤ d) (hr : d / 2 ≤ hub) :
    shear a b h U (hub - d / 2) ≤ rotorAverage w a b h hub d U ∧
    rotorAverage w a b h hub d U ≤ shear a b h U (hub + d / 2) := by
  obtain ⟨hc, h0⟩ := rotorAverage_cube (n := n) hw (a := a) hb hh hU hd hr
  have hz := (C120_samples n hub d hd).2.2
  constructor
  · refine le_of_pow_le_pow_left₀ (n := 3) (by norm_num) h0 ?_
    rw [hc]
    calc shear a b h U (hub - d / 2) ^ 3 = ∑ i, shear a b h U (hub - d / 2) ^ 3 * w i := by
          rw [← Finset.mul_sum, h1, mul_one]
      _ ≤ _ := Finset.sum_le_sum fun i _ => mul_le_mul_of_nonneg_right
          (pow_le_pow_left₀ (shear_nonneg hb hh hU (by linarith))
            (shear_mono ha hb hh hU (by linarith) (hz i).1) 3) (hw i)
  · refine le_of_pow_le_pow_left₀ (n := 3) (by norm_num) (shear_nonneg hb hh hU (by linarith)) ?_
    rw [hc]
    calc _ ≤ ∑ i, shear a b h U (hub + d / 2) ^ 3 * w i :=
          Finset.sum_le_sum fun i _ => mul_le_mul_of_nonneg_right
          (pow_le_pow_left₀ (shear_nonneg hb hh hU (by linarith [(hz i).1]))
            (shear_mono ha hb hh hU (by linarith [(hz i).1]) (hz i).2) 3) (hw i)
      _ = _ := by rw [← Finset.mul_sum, h1, mul_one]

/-- C120: the speed of a rotor is proportional to the depth-averaged speed. -/
theorem C120_scaling {n : ℕ} (w : Fin (n + 2) → ℝ) (hw : ∀ i, 0 ≤ w i)
    (a b h hub d U c : ℝ) (hb : 0 < b) (hh : 0 < h) (hU : 0 ≤ U) (hc : 0 ≤ c) (hd : 0 ≤ d) (hr : d / 2 ≤ hub) :
    rotorAverage w a b h hub d (c * U) = c * rotorAverage w a b h hub d U := by
  obtain ⟨e1, p1⟩ := rotorAverage_cube (n := n) hw (a := a) hb hh hU hd hr
  obtain ⟨e2, p2⟩ := rotorAverage_cube (n := n) hw (a := a) hb hh (mul_nonneg hc hU) hd hr
  refine (pow_left_inj₀ p2 (mul_nonneg hc p1) (n := 3) (by norm_num)).1 ?_
  rw [e2, mul_pow, e1, Finset.mul_sum]
  refine Finset.sum_congr rfl fun i _ => ?_
  unfold shear
  ring

theorem shear_cube {a b h U z : ℝ} (hb : 0 < b) (hh : 0 < h) (hz : 0 ≤ z) :
    shear a b h U z ^ 3 = U ^ 3 * (z / (b * h)) ^ (3 / a) := by
  unfold shear
  rw [mul_pow, ← Real.rpow_natCast ((z / (b * h)) ^ (1 / a)), ← Real.rpow_mul (by positivity)]
  congr 2
  push_cast; ring

/-- C120: for exponents up to `1/3` (`shear_alpha` at least 3, as by default) the speed of a rotor is at most that at its hub,
for larger exponents at least; at 3 they agree. -/
theorem C120_hub {n : ℕ} (w : Fin (n + 2) → ℝ) (hw : ∀ i, 0 ≤ w i) (hs : ∀ i, w i.rev = w i) (h1 : ∑ i, w i = 1)
    (a b h hub d U : ℝ) (ha : 0 < a) (hb : 0 < b) (hh : 0 < h) (hU : 0 ≤ U) (hd : 0 ≤ d) (hr : d / 2 ≤ hub) :
    (3 ≤ a → rotorAverage w a b h hub d U ≤ shear a b h U hub) ∧
    (a ≤ 3 → shear a b h U hub ≤ rotorAverage w a b h hub d U) := by
  obtain ⟨hc, h0⟩ := rotorAverage_cube (n := n) hw (a := a) hb hh hU hd hr
  have hz := (C120_samples n hub d hd).2.2
  have hz0 : ∀ i, 0 ≤ zVals n hub d i / (b * h) := fun i =>
    div_nonneg (by linarith [(hz i).1]) (by positivity)
  have hm : ∑ i, w i • (zVals n hub d i / (b * h)) = hub / (b * h) := by
    simp only [smul_eq_mul, ← mul_div_assoc]
    rw [← Finset.sum_div, C120_mean_height w hs h1]
  have hsum : ∑ i, shear a b h U (zVals n hub d i) ^ 3 * w i =
      U ^ 3 * ∑ i, w i • (zVals n hub d i / (b * h)) ^ (3 / a) := by
    rw [Finset.mul_sum]
    refine Finset.sum_congr rfl fun i _ => ?_
    rw [shear_cube hb hh (by linarith [(hz i).1])]
    simp only [smul_eq_mul]; ring
  constructor
  · intro h3
    refine le_of_pow_le_pow_left₀ (n := 3) (by norm_num) (shear_nonneg hb hh hU (by linarith)) ?_
    rw [hc, hsum, shear_cube hb hh (by linarith)]
    refine mul_le_mul_of_nonneg_left ?_ (by positivity)
    have := (Real.concaveOn_rpow (p := 3 / a) (by positivity) (by rw [div_le_one ha]; exact h3)).le_map_sum
      (t := Finset.univ) (w := w) (p := fun i => zVals n hub d i / (b * h)) (fun i _ => hw i) h1 (fun i _ => hz0 i)
    rwa [hm] at this
  · intro h3
    refine le_of_pow_le_pow_left₀ (n := 3) (by norm_num) h0 ?_
    rw [hc, hsum, shear_cube hb hh (by linarith)]
    refine mul_le_mul_of_nonneg_left ?_ (by positivity)
    have := (convexOn_rpow (p := 3 / a) (by rw [le_div_iff₀ ha]; linarith)).map_sum_le
      (t := Finset.univ) (w := w) (p := fun i => zVals n hub d i / (b * h)) (fun i _ => hw i) h1 (fun i _ => hz0 i)
    rwa [hm] at this

/-- The mean of the profile over the depth. -/
theorem integral_shear (a b h U : ℝ) (ha : 0 < a) (hb : 0 < b) (hh : 0 < h) :
    (∫ z in (0 : ℝ)..h, shear a b h U z) / h = U * (a / (a + 1) * (1 / b) ^ (1 / a)) := by
  have h1 : ∀ z ∈ Set.uIcc (0 : ℝ) h, shear a b h U z = U * (1 / (b * h)) ^ (1 / a) * z ^ (1 / a) := by
    intro z hz
    rw [Set.uIcc_of_le hh.le] at hz
    unfold shear
    rw [div_eq_mul_one_div, Real.mul_rpow hz.1 (by positivity)]
    ring
  rw [intervalIntegral.integral_congr h1, intervalIntegral.integral_const_mul,
    integral_rpow (Or.inl (by have : 0 < 1 / a := by positivity
                              linarith))]
  have h2 : (1 / (b * h)) ^ (1 / a) = (1 / b) ^ (1 / a) * (1 / h) ^ (1 / a) := by
    rw [← Real.mul_rpow (by positivity) (by positivity)]; congr 1; field_simp
  have h3 : (1 / h) ^ (1 / a) * h ^ (1 / a) = 1 := by
    rw [← Real.mul_rpow (by positivity) hh.le, one_div_mul_cancel hh.ne', Real.one_rpow]
  have h4 : (0 : ℝ) ^ (1 / a + 1) = 0 := Real.zero_rpow (by positivity)
  rw [h2, h4, Real.rpow_add hh, Real.rpow_one]
  set p := (1 / h) ^ (1 / a)
  set q := h ^ (1 / a)
  rw [show U * ((1 / b) ^ (1 / a) * p) * ((q * h - 0) / (1 / a + 1)) / h =
    U * (1 / b) ^ (1 / a) * (p * q) * (a / (a + 1)) by field_simp; ring, h3]
  ring

/-- C120: the profile has the given depth average iff `shear_beta` is `(α/(α+1))^α`. -/
theorem C120_profile_mean (a b h U : ℝ) (ha : 0 < a) (hb : 0 < b) (hh : 0 < h) (hU : U ≠ 0) :
    (∫ z in (0 : ℝ)..h, shear a b h U z) / h = U ↔ b = (a / (a + 1)) ^ a := by
  rw [integral_shear a b h U ha hb hh]
  have h0 : 0 < a / (a + 1) := by positivity
  have hb' : 0 < b ^ (1 / a) := by positivity
  have h1 : (1 / b) ^ (1 / a) = 1 / b ^ (1 / a) := by
    rw [Real.div_rpow (by norm_num) hb.le, Real.one_rpow]
  have h2 : (b ^ (1 / a)) ^ a = b := by
    rw [← Real.rpow_mul hb.le, one_div_mul_cancel ha.ne', Real.rpow_one]
  have h3 : ((a / (a + 1)) ^ a) ^ (1 / a) = a / (a + 1) := by
    rw [← Real.rpow_mul h0.le, mul_one_div_cancel ha.ne', Real.rpow_one]
  rw [h1]
  constructor
  · intro h
    have h4 : a / (a + 1) * (1 / b ^ (1 / a)) = 1 := mul_left_cancel₀ hU (by rw [h, mul_one])
    have h5 : b ^ (1 / a) = a / (a + 1) := by
      rw [mul_one_div, div_eq_one_iff_eq hb'.ne'] at h4; exact h4.symm
    rw [← h5, h2]
  · intro h
    rw [h, h3, mul_one_div, div_self h0.ne', mul_one]

/-- C120 violated: with `shear_alpha = 3` and the default `shear_beta` of 0.4 the profile does not have the depth average that
it is computed from. -/
theorem C120_profile_mean_violated (h U : ℝ) (hh : 0 < h) (hU : U ≠ 0) :
    (∫ z in (0 : ℝ)..h, shear 3 0.4 h U z) / h ≠ U := by
  rw [Ne, C120_profile_mean 3 0.4 h U (by norm_num) (by norm_num) hh hU]
  rw [show ((3 : ℝ) / (3 + 1)) ^ (3 : ℝ) = (3 / 4) ^ (3 : ℕ) by rw [← Real.rpow_natCast]; norm_num]
  norm_num

/-- C120 violated: the weights are those of ten slices of a disc, but the samples are not in their middle: the second moment
of the heights of the samples is 0.31 of the square of the radius, that of the middles of the slices 0.252 (a disc has 1/4). -/
theorem C120_slices_violated (hub d : ℝ) :
    ∑ i, defaultWeights i * (zVals 8 hub d i - hub) ^ 2 = 0.252032 * (10 / 9) ^ 2 * (d / 2) ^ 2 ∧
    ∑ i : Fin 10, defaultWeights i * ((2 * i.val - 9) / 10 * (d / 2)) ^ 2 = 0.252032 * (d / 2) ^ 2 := by
  constructor <;> simp [Fin.sum_univ_succ, defaultWeights, zVals] <;> ring

/-- C120: the hub of a floating turbine keeps its distance to the surface, that of a fixed one to the bed. -/
theorem C120_moves (rel depth eta : ℝ) :
    hubHeight .bottomFixed rel (depth + eta) = hubHeight .bottomFixed rel depth ∧
    hubHeight .floating rel (depth + eta) = hubHeight .floating rel depth + eta := by
  constructor
  · rfl
  · simp only [hubHeight]; ring

/-- C120 violated: nothing keeps the rotor above the bed: in water shallower than this a floating turbine has samples at
negative heights, whose fractional power is not a number. -/
theorem C120_below_violated (rel depth d : ℝ) :
    zVals 8 (hubHeight .floating rel depth) d 0 < 0 ↔ depth < rel + d / 2 := by
  simp only [zVals, hubHeight, Fin.val_zero, Nat.cast_zero, zero_mul, add_zero]
  constructor <;> intro h <;> linarith

/-! #### Energy -/

theorem correction_pos (u : Bool) (f D h : ℝ) : 0 < velocityCorrection u f D h := by
  unfold velocityCorrection
  split
  · have := Real.sqrt_nonneg (1 - f / (D * h)); linarith
  · norm_num

/-- C120: the samples span the rotor itself; a projected diameter changes the upwind correction only. -/
theorem C120_span (t : Turb) (U depth : ℝ) (p : Option ℝ) :
    ({ t with projected := p } : Turb).effective U depth = t.effective U depth := rfl

/-- C120: the drag comes from the thrust coefficient at the speed of the rotor; the rest of the thrust curve is irrelevant. -/
theorem C120_drag (t : Turb) (U depth e CT : ℝ) (f : ℝ → ℝ) (he : t.effective U depth = some e) (hf : f e = CT)
    (hs : t.Csupport = 0) (hu : t.upwind = false) :
    ({ t with CT := f } : Turb).friction U depth = some (CT * (Real.pi * t.diameter ^ 2 / 4) / 2) := by
  have h : ({ t with CT := f } : Turb).effective U depth = some e := he
  rw [Turb.friction, h]
  simp [Turb.area, thrustArea, Turb.correction, velocityCorrection, hs, hu, hf]

/-- C120: thrust curves that agree at the speed of the rotor give the same drag, with upwind correction too. -/
theorem C120_drag_upwind (t : Turb) (U depth e : ℝ) (f : ℝ → ℝ) (he : t.effective U depth = some e) (hf : f e = t.CT e) :
    ({ t with CT := f } : Turb).friction U depth = t.friction U depth := by
  have h : ({ t with CT := f } : Turb).effective U depth = some e := he
  simp [Turb.friction, h, he, Turb.area, Turb.correction, Turb.projDiameter, hf]

/-- C120: the power is that of the cube of the rotor speed, corrected to the speed far upstream, and of the power coefficient
at that speed. -/
theorem C120_power (t : Turb) (rho U depth e : ℝ) (f : ℝ → ℝ) (he : t.effective U depth = some e) :
    ∃ c, 1 / 2 ≤ c ∧ (t.upwind = false → c = 1) ∧
      ({ t with CP := f } : Turb).power rho U depth
        = some (1 / 2 * rho * (Real.pi * t.diameter ^ 2 / 4) * f (e / c) * (e / c) ^ 3) := by
  have h : ({ t with CP := f } : Turb).effective U depth = some e := he
  refine ⟨t.correction U depth, ?_, fun hu => by simp [Turb.correction, velocityCorrection, hu], ?_⟩
  · simp only [Turb.correction, velocityCorrection]
    split
    · have := Real.sqrt_nonneg (1 - t.area U / (t.projDiameter * depth))
      linarith
    · norm_num
  · simp only [Turb.power, h, Option.map_some]
    rw [← div_pow]; rfl

/-- Power and loss with the default power coefficient, no support structure and no shear profile. -/
theorem C120_energy (t : Turb) (CT rho U depth : ℝ) (hs : t.applyShear = false) (hC : t.Csupport = 0)
    (hCT : ∀ v, t.CT v = CT) (hCP : ∀ v, t.CP v = defaultCP CT) (h0 : 0 ≤ CT) (_h1 : CT ≤ 1) (hr : 0 ≤ rho) (hU : 0 ≤ U)
    (hd : 0 < depth) (hfit : t.upwind = true → Real.pi * t.diameter ^ 2 / 4 ≤ t.projDiameter * depth)
    (hD : 0 < t.diameter) :
    ∃ P L, t.power rho U depth = some P ∧ t.loss rho U depth = some L ∧ 0 ≤ P ∧ P ≤ L := by
  have hA : 0 < Real.pi * t.diameter ^ 2 / 4 := by have := Real.pi_pos; positivity
  have harea : ∀ v, t.area v = CT * (Real.pi * t.diameter ^ 2 / 4) := by
    intro v; simp [Turb.area, thrustArea, hC, hCT]
  have hαpos : 0 < t.correction U depth := correction_pos _ _ _ _
  have hα : 1 / 2 * (1 + Real.sqrt (1 - CT)) ≤ t.correction U depth := by
    unfold Turb.correction velocityCorrection
    split
    · rename_i hu
      have hf := hfit hu
      have hDh : 0 < t.projDiameter * depth := lt_of_lt_of_le hA hf
      rw [harea]
      have : CT * (Real.pi * t.diameter ^ 2 / 4) / (t.projDiameter * depth) ≤ CT := by
        rw [div_le_iff₀ hDh]; exact mul_le_mul_of_nonneg_left hf h0
      have := Real.sqrt_le_sqrt (show 1 - CT ≤ 1 - CT * (Real.pi * t.diameter ^ 2 / 4) / (t.projDiameter * depth) by
        linarith)
      linarith
    · have := Real.sqrt_le_one.2 (show 1 - CT ≤ 1 by linarith)
      linarith
  refine ⟨_, _, by simp only [Turb.power, Turb.effective, hs]; rfl,
    by simp only [Turb.loss, Turb.friction, Turb.effective, hs]; rfl, ?_, ?_⟩
  · beta_reduce
    rw [hCP]
    have : 0 ≤ defaultCP CT := by
      unfold defaultCP
      have := Real.sqrt_nonneg (1 - CT)
      positivity
    positivity
  · beta_reduce
    rw [hCP, harea]
    unfold defaultCP
    set A := Real.pi * t.diameter ^ 2 / 4
    set al := t.correction U depth
    have e1 : 1 / 2 * rho * A * (1 / 2 * CT * (1 + Real.sqrt (1 - CT))) * (U ^ 3 / al ^ 3) =
        (1 / 2 * rho * A * CT * (U ^ 3 / al ^ 3)) * (1 / 2 * (1 + Real.sqrt (1 - CT))) := by ring
    have e2 : rho * depth * U * (CT * A / 2 / al ^ 2 * 1 * U * U / depth) =
        (1 / 2 * rho * A * CT * (U ^ 3 / al ^ 3)) * al := by
      field_simp
    rw [e1, e2]
    exact mul_le_mul_of_nonneg_left hα (by positivity)

/-- C120 violated: with a shear profile the power is that of the speed at the rotor, but the drag that of the depth-averaged
speed; if the rotor is in faster water, the power exceeds the energy taken from the flow. -/
theorem C120_energy_violated (t : Turb) (CT rho U depth e : ℝ) (hu : t.upwind = false) (hC : t.Csupport = 0)
    (hCT : ∀ v, t.CT v = CT) (hCP : ∀ v, t.CP v = defaultCP CT) (h0 : 0 < CT) (hr : 0 < rho)
    (hd : 0 < depth) (hD : 0 < t.diameter) (he : t.effective U depth = some e)
    (hfast : 2 * U ^ 3 < e ^ 3 * (1 + Real.sqrt (1 - CT))) :
    ∃ P L, t.power rho U depth = some P ∧ t.loss rho U depth = some L ∧ L < P := by
  have hA : 0 < Real.pi * t.diameter ^ 2 / 4 := by have := Real.pi_pos; positivity
  have harea : ∀ v, t.area v = CT * (Real.pi * t.diameter ^ 2 / 4) := by
    intro v; simp [Turb.area, thrustArea, hC, hCT]
  have hc : ∀ v, t.correction v depth = 1 := by intro v; simp [Turb.correction, velocityCorrection, hu]
  refine ⟨_, _, by simp only [Turb.power, he]; rfl, by simp only [Turb.loss, Turb.friction, he]; rfl, ?_⟩
  beta_reduce
  rw [hCP, harea, hc, hc]
  unfold defaultCP
  set A := Real.pi * t.diameter ^ 2 / 4
  have e2 : rho * depth * U * (CT * A / 2 / 1 ^ 2 * 1 * U * U / depth) = rho * A * CT / 4 * (2 * U ^ 3) := by
    field_simp; ring
  have e1 : 1 / 2 * rho * A * (1 / 2 * CT * (1 + Real.sqrt (1 - CT))) * (e ^ 3 / 1 ^ 3) =
      rho * A * CT / 4 * (e ^ 3 * (1 + Real.sqrt (1 - CT))) := by ring
  rw [e1, e2]
  exact mul_lt_mul_of_pos_left hfast (by positivity)

/-- A turbine of diameter 10 with its hub at 30, profile exponent 1/3. -/
noncomputable def exTurb : Turb where
  diameter := 10
  projected := none
  Csupport := 0
  Asupport := 0
  upwind := false
  applyShear := true
  alpha := 3
  beta := 0.4
  rel := some 30
  struct := .bottomFixed
  CT := fun _ => 0.36
  CP := fun _ => defaultCP 0.36

/-- Example for `C120_energy_violated`: at a depth of 50 the cube of the speed at the rotor is 3/2 of that of the mean. -/
example : ∃ e, exTurb.effective 1 50 = some e ∧ 2 * 1 ^ 3 < e ^ 3 * (1 + Real.sqrt (1 - 0.36)) := by
  refine ⟨_, rfl, ?_⟩
  obtain ⟨hw, hs, h1⟩ := C120_weights
  have h := C120_hub (n := 8) defaultWeights (fun i => (hw i).le) hs h1 3 0.4 50 30 10 1 (by norm_num) (by norm_num)
    (by norm_num) (by norm_num) (by norm_num) (by norm_num)
  have he : rotorAverage (n := 8) defaultWeights 3 0.4 50 30 10 1 = shear 3 0.4 50 1 30 :=
    le_antisymm (h.1 le_rfl) (h.2 le_rfl)
  have hc : rotorAverage (n := 8) defaultWeights 3 0.4 50 30 10 1 ^ 3 = 3 / 2 := by
    rw [he, shear_cube (by norm_num) (by norm_num) (by norm_num)]; norm_num
  change 2 * 1 ^ 3 < rotorAverage (n := 8) defaultWeights 3 0.4 50 30 10 1 ^ 3 * (1 + Real.sqrt (1 - 0.36))
  rw [hc, show (1 : ℝ) - 0.36 = 0.8 ^ 2 by norm_num, Real.sqrt_sq (by norm_num)]
  norm_num

/-- C120 violated: the drag uses the total depth, the callback the depth at rest; with upwind correction and a raised surface
the reported power is larger than that of the actual depth. -/
theorem C120_callback_violated (t : Turb) (rho U bath eta C : ℝ) (hu : t.upwind = true) (hs : t.applyShear = false)
    (hCP : ∀ v, t.CP v = C) (hC : 0 < C) (hr : 0 < rho) (hU : 0 < U) (hb : 0 < bath) (he : 0 < eta) (hD : 0 < t.diameter)
    (hP : 0 < t.projDiameter) (ha : 0 < t.area U) (hfit : t.area U ≤ t.projDiameter * bath) :
    ∃ P Q, t.power rho U bath = some P ∧ t.power rho U (bath + eta) = some Q ∧ Q < P := by
  have hA : 0 < Real.pi * t.diameter ^ 2 / 4 := by have := Real.pi_pos; positivity
  refine ⟨_, _, by simp only [Turb.power, Turb.effective, hs]; rfl,
    by simp only [Turb.power, Turb.effective, hs]; rfl, ?_⟩
  beta_reduce
  rw [hCP, hCP]
  have h1 : 0 < t.correction U bath := correction_pos _ _ _ _
  have h2 : t.correction U bath < t.correction U (bath + eta) := by
    simp only [Turb.correction, velocityCorrection, hu, if_true]
    have h3 : t.area U / (t.projDiameter * (bath + eta)) < t.area U / (t.projDiameter * bath) := by
      refine div_lt_div_of_pos_left ha (by positivity) ?_
      exact mul_lt_mul_of_pos_left (by linarith) hP
    have h4 : t.area U / (t.projDiameter * bath) ≤ 1 := (div_le_one (by positivity)).2 hfit
    have := Real.sqrt_lt_sqrt (show 0 ≤ 1 - t.area U / (t.projDiameter * bath) by linarith)
      (show 1 - t.area U / (t.projDiameter * bath) < 1 - t.area U / (t.projDiameter * (bath + eta)) by linarith)
    linarith
  refine mul_lt_mul_of_pos_left ?_ (by positivity)
  exact div_lt_div_of_pos_left (by positivity) (by positivity) (pow_lt_pow_left₀ h2 h1.le (by norm_num))

/-- C120 violated: the correction of the power is that of the depth-averaged speed, that of the drag that of the speed at the
rotor; below the cut-in speed the former is one while the turbine works. -/
theorem C120_correction_violated (t : Turb) (U depth e : ℝ) (hu : t.upwind = true) (hC : t.Csupport = 0)
    (hcut : t.CT U = 0) (hon : 0 < t.CT e) (hD : 0 < t.diameter) (hP : 0 < t.projDiameter) (hd : 0 < depth) :
    t.correction U depth = 1 ∧ t.correction e depth < 1 := by
  have hA : 0 < Real.pi * t.diameter ^ 2 / 4 := by have := Real.pi_pos; positivity
  simp only [Turb.correction, velocityCorrection, hu, if_true, Turb.area, thrustArea, hC, ne_eq, not_true_eq_false,
    if_false, hcut]
  constructor
  · norm_num
  · have h3 : 0 < t.CT e * (Real.pi * t.diameter ^ 2 / 4) / (t.projDiameter * depth) := by positivity
    have : Real.sqrt (1 - t.CT e * (Real.pi * t.diameter ^ 2 / 4) / (t.projDiameter * depth)) < 1 := by
      rw [Real.sqrt_lt' (by norm_num)]; linarith
    linarith

/-! ### C121: turbine definition files -/

/-- C121: a file with all entries is loaded, with the thrust and power of the file and the support if wanted. -/
theorem C121_constant (ws ds : Bool) (f : TurbFile) (name : String) (CT CP d : ℚ) (s : Support) (ty : Structure)
    (rel C A : ℚ) (hn : f.name = some name) (hd : f.thrustDef = none ∨ f.thrustDef = some .constant) (hCT : f.CT = some CT)
    (hCP : f.CP = some CP) (hdi : f.diameter = some d) (hs : f.support = some s) (h1 : s.type = some ty)
    (h2 : s.relHub = some rel) (h3 : s.C = some C) (h4 : s.A = some A) (p1 : 0 < CT) (p2 : 0 < CP) (p3 : 0 < d)
    (p4 : 0 < rel) (p5 : 0 ≤ C) (p6 : 0 ≤ A) :
    ∃ o, loadTurbine ws ds f = some o ∧ o.coefs = .constant CT CP ∧ o.diameter = d ∧
      (ws = true → o.struct = ty ∧ o.rel = some rel ∧ o.C = C ∧ o.A = A) ∧
      (ws = false → o.rel = none ∧ o.C = 0 ∧ o.A = 0) ∧
      (ds = true → o.upwind = f.upwind.getD true) := by
  have hc : loadCoefs f = some (.constant CT CP) := by
    unfold loadCoefs
    rcases hd with hd | hd <;> simp [hd, hCT, hCP, p1, p2]
  cases ws <;> cases ds <;>
    simp [loadTurbine, hc, loadSupport, hs, h1, h2, h3, h4, hdi, hn, p3, p4, p5, p6]

/-- C121: likewise for tabulated coefficients. -/
theorem C121_table (ws ds : Bool) (f : TurbFile) (o : Farm) (ht : f.thrustDef = some .table)
    (h : loadTurbine ws ds f = some o) :
    ∃ c sp th po, f.curves = some c ∧ c.speeds = some sp ∧ c.thrust = some th ∧ c.power = some po ∧
      o.coefs = .table sp th po := by
  unfold loadTurbine at h
  simp only [Option.bind_eq_bind, Option.bind_eq_some_iff] at h
  obtain ⟨co, hco, s, -, d, -, h⟩ := h
  split at h
  · simp only [Option.bind_eq_some_iff] at h
    obtain ⟨-, -, h⟩ := h
    simp only [Option.pure_def, Option.some.injEq] at h
    subst h
    simp only [loadCoefs, ht, Option.getD_some, Option.bind_eq_bind, Option.bind_eq_some_iff, Option.pure_def,
      Option.some.injEq] at hco
    obtain ⟨c, h1, sp, h2, th, h3, po, h4, h5⟩ := hco
    exact ⟨c, sp, th, po, h1, h2, h3, h4, h5.symm⟩
  · simp at h

/-- C121: incomplete files are rejected. -/
theorem C121_missing (ws ds : Bool) (f : TurbFile)
    (h : f.name = none ∨ f.diameter = none ∨ f.thrustDef = some .other ∨
      (f.thrustDef ≠ some .table ∧ (f.CT = none ∨ f.CP = none)) ∨ (f.thrustDef = some .table ∧ f.curves = none)) :
    loadTurbine ws ds f = none := by
  unfold loadTurbine
  rcases h with h | h | h | ⟨h0, h⟩ | ⟨h0, h⟩
  · cases loadCoefs f <;> cases loadSupport ws f <;> cases f.diameter <;> simp [h]
  · cases loadCoefs f <;> cases loadSupport ws f <;> simp [h]
  · have : loadCoefs f = none := by simp [loadCoefs, h]
    simp [this]
  · have : loadCoefs f = none := by
      unfold loadCoefs
      match hf : f.thrustDef with
      | none => rcases h with h | h <;> cases hT : f.CT <;> simp_all
      | some .constant => rcases h with h | h <;> cases hT : f.CT <;> simp_all
      | some .table => exact absurd hf h0
      | some .other => simp
    simp [this]
  · have : loadCoefs f = none := by simp [loadCoefs, h0, h]
    simp [this]

/-- C121: a file without support structure describes a bed-mounted turbine without drag of the support. -/
theorem C121_no_support (ws ds : Bool) (f : TurbFile) (o : Farm) (hs : f.support = none)
    (h : loadTurbine ws ds f = some o) : o.struct = .bottomFixed ∧ o.rel = none ∧ o.C = 0 ∧ o.A = 0 := by
  have e : loadSupport ws f = some (.bottomFixed, none, 0, 0) := by cases ws <;> simp [loadSupport, hs]
  unfold loadTurbine at h
  simp only [Option.bind_eq_bind, Option.bind_eq_some_iff, e] at h
  obtain ⟨co, hco, s, hs', d, -, h⟩ := h
  cases hs'
  split at h
  · simp only [Option.bind_eq_some_iff] at h
    obtain ⟨-, -, h⟩ := h
    simp only [Option.pure_def, Option.some.injEq] at h
    subst h
    simp
  · simp at h

/-- C121: coefficients, diameters, hub heights and areas out of range are rejected. -/
theorem C121_range (ws ds : Bool) (f : TurbFile) (o : Farm) (h : loadTurbine ws ds f = some o) :
    0 < o.diameter ∧ 0 ≤ o.C ∧ 0 ≤ o.A ∧ (∀ r, o.rel = some r → 0 < r) ∧
    ∀ CT CP, o.coefs = .constant CT CP → 0 < CT ∧ 0 < CP := by
  unfold loadTurbine at h
  simp only [Option.bind_eq_bind, Option.bind_eq_some_iff] at h
  obtain ⟨co, hco, s, hs, d, -, h⟩ := h
  split at h
  · rename_i hd
    simp only [Option.bind_eq_some_iff] at h
    obtain ⟨-, -, h⟩ := h
    simp only [Option.pure_def, Option.some.injEq] at h
    subst h
    have h1 : 0 ≤ s.2.2.1 ∧ 0 ≤ s.2.2.2 ∧ ∀ r, s.2.1 = some r → 0 < r := by
      unfold loadSupport at hs
      split at hs
      · simp only [Option.bind_eq_bind, Option.bind_eq_some_iff] at hs
        obtain ⟨t, -, r, -, c, -, a, -, hs⟩ := hs
        split at hs
        · rename_i hr
          simp only [Option.pure_def, Option.some.injEq] at hs
          subst hs
          refine ⟨hr.2.1, hr.2.2, fun r' h => ?_⟩
          simp only [Option.some.injEq] at h
          rw [← h]; exact hr.1
        · simp at hs
      · simp only [Option.some.injEq] at hs
        subst hs
        simp
    refine ⟨hd, h1.1, h1.2.1, h1.2.2, fun CT CP hc => ?_⟩
    simp only at hc
    subst hc
    unfold loadCoefs at hco
    split at hco
    · simp only [Option.bind_eq_bind, Option.bind_eq_some_iff, Option.pure_def, Option.some.injEq] at hco
      obtain ⟨_, _, _, _, _, _, _, _, h⟩ := hco
      cases h
    · simp only [Option.bind_eq_bind, Option.bind_eq_some_iff] at hco
      obtain ⟨t, -, p, -, h⟩ := hco
      split at h
      · rename_i ht
        simp only [Option.pure_def, Option.some.injEq, Coefs.constant.injEq] at h
        rw [← h.1, ← h.2]; exact ht
      · simp at h
    · simp at hco
  · simp at h

/-- C121 violated: hub height and structure type are read, but the shear profile they are for is never switched on, and a
projected diameter in the file is not used; for a continuous farm neither is the upwind correction. -/
theorem C121_ignored_violated (ws ds : Bool) (f : TurbFile) (sh : Option Bool) (p : Option ℚ) (o : Farm)
    (h : loadTurbine ws ds f = some o) :
    o.applyShear = false ∧ o.projected = none ∧ (ds = false → o.upwind = false) ∧
    loadTurbine ws ds { f with shear := sh, projected := p } = some o := by
  refine ⟨?_, ?_, ?_, h⟩ <;>
  · unfold loadTurbine at h
    simp only [Option.bind_eq_bind, Option.bind_eq_some_iff] at h
    obtain ⟨co, hco, s, -, d, -, h⟩ := h
    split at h
    · simp only [Option.bind_eq_some_iff] at h
      obtain ⟨-, -, h⟩ := h
      simp only [Option.pure_def, Option.some.injEq] at h
      subst h
      first | rfl | (intro hd; simp [hd])
    · simp at h

/-- Example: a file with a support structure. -/
example : ∃ o, loadTurbine true true ⟨some "t", none, none, some 0.8, some 0.5, some ⟨some .floating, some 10, some 0.7,
    some 20⟩, some 18, some 30, none, some true⟩ = some o ∧ o.applyShear = false := by
  obtain ⟨o, h, -⟩ := C121_constant true true ⟨some "t", none, none, some 0.8, some 0.5, some ⟨some .floating, some 10,
    some 0.7, some 20⟩, some 18, some 30, none, some true⟩ "t" 0.8 0.5 18 _ .floating 10 0.7 20 rfl (Or.inl rfl) rfl rfl rfl
    rfl rfl rfl rfl rfl (by norm_num) (by norm_num) (by norm_num) (by norm_num) (by norm_num) (by norm_num)
  exact ⟨o, h, (C121_ignored_violated _ _ _ none none o h).1⟩

/-- C120: with the correction for the upwind speed, the width of the turbine is its projected diameter, or its diameter if none is given;
the thrust is always that of the diameter. -/
theorem C120_width (t : Turb) (hu : t.upwind = true) (U depth P : ℝ) (hP : t.projected = some P ∨ (t.projected = none ∧ t.diameter = P)) :
    t.correction U depth =
      1 / 2 * (1 + Real.sqrt (1 - (t.CT U * (Real.pi * t.diameter ^ 2 / 4) + t.Csupport * t.Asupport) / (P * depth))) := by
  have h : t.projDiameter = P := by
    rcases hP with h | ⟨h, h'⟩ <;> simp [Turb.projDiameter, h]
    exact h'
  rw [Turb.correction, h, hu]
  by_cases hc : t.Csupport = 0 <;> simp [velocityCorrection, Turb.area, thrustArea, hc]

end Verif.Rotor
