import Verif.Turbine.Props
import Mathlib.Analysis.SpecialFunctions.SmoothTransition
import Mathlib.Analysis.SumIntegralComparisons
import Mathlib.MeasureTheory.Measure.Haar.NormedSpace
import Mathlib.MeasureTheory.Integral.IntervalIntegral.Basic
import Mathlib.MeasureTheory.Function.LocallyIntegrable

/-!
C62: the density of turbines at prescribed positions.
-/

namespace Verif.Turbine

open MeasureTheory

theorem bump_eq (r : ℝ) : bump r = Real.exp 1 * expNegInvGlue (1 - r ^ 2) := by
  unfold bump expNegInvGlue
  by_cases h : |r| < 1
  · have : ¬ 1 - r ^ 2 ≤ 0 := by
      have := (sq_lt_one_iff_abs_lt_one r).2 h
      linarith
    rw [if_pos h, if_neg this, ← Real.exp_add]
    congr 1
    rw [one_div]; ring
  · have : 1 - r ^ 2 ≤ 0 := by
      have : ¬ r ^ 2 < 1 := fun k => h ((sq_lt_one_iff_abs_lt_one r).1 k)
      linarith
    rw [if_neg h, if_pos this, mul_zero]

theorem bump_smooth : ContDiff ℝ (⊤ : ℕ∞) bump := by
  have : bump = fun r => Real.exp 1 * expNegInvGlue (1 - r ^ 2) := funext bump_eq
  rw [this]
  exact contDiff_const.mul (expNegInvGlue.contDiff.comp (contDiff_const.sub (contDiff_id.pow 2)))

theorem bump_nonneg (r : ℝ) : 0 ≤ bump r := by
  rw [bump_eq]
  exact mul_nonneg (Real.exp_pos 1).le (expNegInvGlue.nonneg _)

theorem bump_antitone : AntitoneOn bump (Set.Ici 0) := by
  intro a ha b _ hab
  have ha : 0 ≤ a := ha
  rw [bump_eq, bump_eq]
  refine mul_le_mul_of_nonneg_left (expNegInvGlue.monotone ?_) (Real.exp_pos 1).le
  nlinarith

theorem bump_neg (r : ℝ) : bump (-r) = bump r := by simp [bump_eq]

theorem bump_zero : bump 0 = 1 := by simp [bump]

theorem bump_le_one (r : ℝ) : bump r ≤ 1 := by
  have h : bump r = bump |r| := by simp [bump_eq]
  rw [h, ← bump_zero]
  exact bump_antitone Set.self_mem_Ici (abs_nonneg r) (abs_nonneg r)

theorem bump_lt_one {r : ℝ} (hr : r ≠ 0) : bump r < 1 := by
  unfold bump
  split
  · next h =>
    have h1 := (sq_lt_one_iff_abs_lt_one r).2 h
    have h2 : 0 < r ^ 2 := by positivity
    rw [Real.exp_lt_one_iff, sub_neg, lt_div_iff₀ (by linarith)]
    linarith
  · exact one_pos

theorem addTurbines_sum (radius x y density : ℝ) (coords : List (ℝ × ℝ)) :
    addTurbines radius x y density coords = density +
      (coords.map fun c => bump ((x - c.1) / radius) * bump ((y - c.2) / radius) / (radius ^ 2 * 1.45661)).sum := by
  unfold addTurbines
  induction coords generalizing density with
  | nil => simp
  | cons c cs ih => simp only [List.foldl_cons, List.map_cons, List.sum_cons]; rw [ih]; ring

/-- C62: the density depends smoothly on the point and on the positions of the turbines, so that it has gradients for the
optimisation of the positions. -/
theorem C62_smooth (radius density : ℝ) (n : ℕ) :
    ContDiff ℝ (⊤ : ℕ∞) fun p : (ℝ × ℝ) × (Fin n → ℝ × ℝ) =>
      addTurbines radius p.1.1 p.1.2 density (List.ofFn p.2) := by
  have h : (fun p : (ℝ × ℝ) × (Fin n → ℝ × ℝ) => addTurbines radius p.1.1 p.1.2 density (List.ofFn p.2)) = fun p =>
      density + ∑ i, bump ((p.1.1 - (p.2 i).1) / radius) * bump ((p.1.2 - (p.2 i).2) / radius) / (radius ^ 2 * 1.45661) := by
    funext p
    rw [addTurbines_sum, List.map_ofFn, List.sum_ofFn]
    rfl
  rw [h]
  refine contDiff_const.add (ContDiff.sum fun i _ => ?_)
  have c1 : ContDiff ℝ (⊤ : ℕ∞) fun p : (ℝ × ℝ) × (Fin n → ℝ × ℝ) => p.2 i :=
    (contDiff_apply ℝ (ℝ × ℝ) i).comp contDiff_snd
  exact ((bump_smooth.comp ((contDiff_fst.fst.sub c1.fst).div_const _)).mul
    (bump_smooth.comp ((contDiff_fst.snd.sub c1.snd).div_const _))).div_const _

/-- C62: one turbine adds most at its own position, `1 / (1.45661 radius^2)`, and less at all others. -/
theorem C62_peak (radius x y density : ℝ) (c : ℝ × ℝ) (hr : 0 < radius) :
    addTurbines radius c.1 c.2 density [c] = density + 1 / (1.45661 * radius ^ 2) ∧
    ((x, y) ≠ c → addTurbines radius x y density [c] < density + 1 / (1.45661 * radius ^ 2)) := by
  have hk : 0 < radius ^ 2 * 1.45661 := by positivity
  have e : (1 : ℝ) / (1.45661 * radius ^ 2) = 1 / (radius ^ 2 * 1.45661) := by rw [mul_comm]
  refine ⟨?_, fun h => ?_⟩
  · rw [addTurbines_sum, e]
    simp [bump_zero]
  · rw [addTurbines_sum, e]
    simp only [List.map_cons, List.map_nil, List.sum_cons, List.sum_nil, add_zero]
    have : bump ((x - c.1) / radius) * bump ((y - c.2) / radius) < 1 := by
      have hx := bump_nonneg ((x - c.1) / radius)
      have hy := bump_nonneg ((y - c.2) / radius)
      have hx1 := bump_le_one ((x - c.1) / radius)
      have hy1 := bump_le_one ((y - c.2) / radius)
      by_cases h1 : x = c.1
      · have h2 : y ≠ c.2 := fun h2 => h (Prod.ext h1 h2)
        have := bump_lt_one (div_ne_zero (sub_ne_zero.2 h2) hr.ne')
        nlinarith
      · have := bump_lt_one (div_ne_zero (sub_ne_zero.2 h1) hr.ne')
        nlinarith
    have := div_lt_div_of_pos_right this hk
    linarith

theorem bump_support : Function.support bump ⊆ Set.Ioc (-1) 1 := by
  intro r hr
  by_contra h
  refine hr ?_
  unfold bump
  rw [if_neg]
  intro k
  rw [abs_lt] at k
  exact h ⟨k.1, k.2.le⟩

theorem bump_integrable : Integrable bump := by
  refine bump_smooth.continuous.integrable_of_hasCompactSupport ?_
  refine HasCompactSupport.intro isCompact_Icc (K := Set.Icc (-1) 1) fun r hr => ?_
  by_contra h
  exact hr (Set.Ioc_subset_Icc_self (bump_support h))

theorem bump_shift (c radius : ℝ) (hr : 0 < radius) : ∫ x, bump ((x - c) / radius) = radius * ∫ x, bump x := by
  rw [integral_sub_right_eq_self (fun x => bump (x / radius)) c, Measure.integral_comp_div bump radius, abs_of_pos hr,
    smul_eq_mul]

theorem bump_half : ∫ x, bump x = 2 * ∫ x in (0:ℝ)..1, bump x := by
  have hi : ∀ a b, IntervalIntegrable bump volume a b := fun a b => bump_smooth.continuous.intervalIntegrable a b
  rw [← intervalIntegral.integral_eq_integral_of_support_subset bump_support,
    ← intervalIntegral.integral_add_adjacent_intervals (hi (-1) 0) (hi 0 1)]
  have : ∫ x in (-1:ℝ)..0, bump x = ∫ x in (0:ℝ)..1, bump x := by
    have := intervalIntegral.integral_comp_neg (a := 0) (b := 1) bump
    simp only [bump_neg, neg_zero] at this
    exact this.symm
  rw [this]; ring

theorem exp_lower (q : ℝ) (h : q ≤ 64) : (1 - q / 64) ^ 64 ≤ Real.exp (-q) := by
  have := Real.one_sub_div_pow_le_exp_neg (n := 64) (t := q) (by exact_mod_cast h)
  exact_mod_cast this

theorem exp_upper (q : ℝ) (h : 0 ≤ q) : Real.exp (-q) ≤ ((1 + q / 64) ^ 64)⁻¹ := by
  rw [Real.exp_neg]
  refine inv_anti₀ (by positivity) ?_
  have h1 : 1 + q / 64 ≤ Real.exp (q / 64) := by rw [add_comm]; exact Real.add_one_le_exp _
  calc (1 + q / 64) ^ 64 ≤ Real.exp (q / 64) ^ 64 := by gcongr
    _ = Real.exp q := by rw [← Real.exp_nat_mul]; congr 1; push_cast; ring

theorem bump_at (i : ℕ) (hi : i < 32) : bump (i / 32) = Real.exp (-((i : ℝ) ^ 2 / (1024 - (i : ℝ) ^ 2))) := by
  have h : (i : ℝ) < 32 := by exact_mod_cast hi
  have h0 : (0 : ℝ) ≤ i := Nat.cast_nonneg i
  have h1 : |(i : ℝ) / 32| < 1 := by rw [abs_of_nonneg (by positivity)]; linarith
  unfold bump
  rw [if_pos h1]
  congr 1
  have h2 : (1024 - (i : ℝ) ^ 2) ≠ 0 := by nlinarith
  have h3 : 1 - ((i : ℝ) / 32) ^ 2 = (1024 - (i : ℝ) ^ 2) / 1024 := by ring
  rw [h3]
  field_simp
  ring

theorem bump_scaled : ∫ x in (0:ℝ)..1, bump x = 1 / 32 * ∫ x in (0:ℝ)..0 + (32 : ℕ), bump (x / 32) := by
  rw [intervalIntegral.integral_comp_div bump (by norm_num : (32:ℝ) ≠ 0)]
  norm_num
  ring

theorem scaled_antitone : AntitoneOn (fun x : ℝ => bump (x / 32)) (Set.Icc 0 (0 + (32 : ℕ))) := by
  intro a ha b hb hab
  exact bump_antitone (div_nonneg ha.1 (by norm_num)) (div_nonneg hb.1 (by norm_num)) (by linarith)

theorem bump_bounds : 0.586 ≤ ∫ x in (0:ℝ)..1, bump x ∧ ∫ x in (0:ℝ)..1, bump x ≤ 0.6205 := by
  have hl := AntitoneOn.sum_le_integral scaled_antitone
  have hu := AntitoneOn.integral_le_sum scaled_antitone
  simp only [zero_add] at hl hu
  have hq : ∀ i : ℕ, i < 32 → (0 : ℝ) ≤ (i : ℝ) ^ 2 / (1024 - (i : ℝ) ^ 2) := fun i hi => by
    have h : (i : ℝ) < 32 := by exact_mod_cast hi
    have : (0 : ℝ) ≤ i := Nat.cast_nonneg i
    exact div_nonneg (by positivity) (by nlinarith)
  have lo : ∀ i : ℕ, i < 32 → (1 - (i : ℝ) ^ 2 / (1024 - (i : ℝ) ^ 2) / 64) ^ 64 ≤ bump (i / 32) := fun i hi => by
    rw [bump_at i hi]
    refine exp_lower _ ?_
    have h : (i : ℝ) ≤ 31 := by exact_mod_cast Nat.le_of_lt_succ hi
    have h0 : (0 : ℝ) ≤ i := Nat.cast_nonneg i
    rw [div_le_iff₀ (by nlinarith)]
    nlinarith
  have up : ∀ i : ℕ, i < 32 → bump (i / 32) ≤ ((1 + (i : ℝ) ^ 2 / (1024 - (i : ℝ) ^ 2) / 64) ^ 64)⁻¹ := fun i hi => by
    rw [bump_at i hi]
    exact exp_upper _ (hq i hi)
  rw [bump_scaled]
  simp only [zero_add]
  constructor
  · have h1 : ∑ i ∈ Finset.range 31, (1 - ((i + 1 : ℕ) : ℝ) ^ 2 / (1024 - ((i + 1 : ℕ) : ℝ) ^ 2) / 64) ^ 64 ≤
        ∑ i ∈ Finset.range 32, bump (((i + 1 : ℕ) : ℝ) / 32) := by
      rw [Finset.sum_range_succ (fun i => bump (((i + 1 : ℕ) : ℝ) / 32)) 31]
      have := bump_nonneg (((31 + 1 : ℕ) : ℝ) / 32)
      have h2 := Finset.sum_le_sum (s := Finset.range 31) fun i hi => lo (i + 1) (by
        have := Finset.mem_range.1 hi; omega)
      linarith
    have h2 : (0.586 : ℝ) * 32 ≤
        ∑ i ∈ Finset.range 31, (1 - ((i + 1 : ℕ) : ℝ) ^ 2 / (1024 - ((i + 1 : ℕ) : ℝ) ^ 2) / 64) ^ 64 := by
      simp only [Finset.sum_range_succ, Finset.sum_range_zero]
      norm_num
    linarith
  · have h1 := Finset.sum_le_sum (s := Finset.range 32) fun i hi => up i (Finset.mem_range.1 hi)
    have h2 : ∑ i ∈ Finset.range 32, ((1 + (i : ℝ) ^ 2 / (1024 - (i : ℝ) ^ 2) / 64) ^ 64)⁻¹ ≤ (0.6205 : ℝ) * 32 := by
      simp only [Finset.sum_range_succ, Finset.sum_range_zero]
      norm_num
    linarith

/-- C62: the density integrates to the number of turbines, up to six percent: the same for each turbine, wherever it stands
and however large it is. -/
theorem C62_count (radius : ℝ) (hr : 0 < radius) (coords : List (ℝ × ℝ)) :
    ∃ unit : ℝ, |unit - 1| ≤ 0.06 ∧ unit = (∫ x, ∫ y, addTurbines 1 x y 0 [(0, 0)]) ∧
      ∫ x, ∫ y, addTurbines radius x y 0 coords = coords.length * unit := by
  have hx : ∀ c radius : ℝ, 0 < radius → Integrable fun x => bump ((x - c) / radius) := fun c radius hr =>
    ((bump_integrable.comp_div hr.ne').comp_sub_right c)
  have key : ∀ (radius : ℝ) (coords : List (ℝ × ℝ)), 0 < radius → ∫ x, ∫ y, addTurbines radius x y 0 coords =
      coords.length * ((∫ x, bump x) ^ 2 / 1.45661) := by
    intro radius coords hr
    have inner : ∀ (cs : List (ℝ × ℝ)) x, ∫ y, addTurbines radius x y 0 cs =
        (cs.map fun c => bump ((x - c.1) / radius) * (∫ x, bump x) / (radius * 1.45661)).sum := by
      intro cs x
      simp only [addTurbines_sum, zero_add]
      have hint : ∀ cs : List (ℝ × ℝ), Integrable fun y =>
          (cs.map fun c => bump ((x - c.1) / radius) * bump ((y - c.2) / radius) / (radius ^ 2 * 1.45661)).sum := by
        intro cs
        induction cs with
        | nil => simp
        | cons c cs ih =>
          simp only [List.map_cons, List.sum_cons]
          exact (((hx c.2 radius hr).const_mul _).div_const _).add ih
      induction cs with
      | nil => simp
      | cons c cs ih =>
        simp only [List.map_cons, List.sum_cons]
        rw [integral_add (((hx c.2 radius hr).const_mul _).div_const _) (hint cs), ih, integral_div, integral_const_mul,
          bump_shift _ _ hr]
        congr 1
        field_simp
    simp only [inner]
    have hint : ∀ cs : List (ℝ × ℝ), Integrable fun x =>
        (cs.map fun c => bump ((x - c.1) / radius) * (∫ x, bump x) / (radius * 1.45661)).sum := by
      intro cs
      induction cs with
      | nil => simp
      | cons c cs ih =>
        simp only [List.map_cons, List.sum_cons]
        exact (((hx c.1 radius hr).mul_const _).div_const _).add ih
    induction coords with
    | nil => simp
    | cons c cs ih =>
      simp only [List.map_cons, List.sum_cons, List.length_cons]
      rw [integral_add (((hx c.1 radius hr).mul_const _).div_const _) (hint cs), ih, integral_div, integral_mul_const,
        bump_shift _ _ hr]
      push_cast
      field_simp
      ring
  refine ⟨(∫ x, bump x) ^ 2 / 1.45661, ?_, ?_, key radius coords hr⟩
  · obtain ⟨h1, h2⟩ := bump_bounds
    rw [bump_half, abs_le]
    constructor
    · rw [le_sub_iff_add_le, le_div_iff₀ (by norm_num)]; nlinarith
    · rw [sub_le_iff_le_add, div_le_iff₀ (by norm_num)]; nlinarith
  · rw [key 1 [(0, 0)] one_pos]; simp

/-- Two turbines of diameter 20 m count as two. -/
example : |(∫ x, ∫ y, addTurbines 10 x y 0 [(0, 0), (50, 30)]) - 2| ≤ 0.12 := by
  obtain ⟨u, h1, _, h2⟩ := C62_count 10 (by norm_num) [(0, 0), (50, 30)]
  rw [h2]
  simp only [List.length_cons, List.length_nil]
  rw [abs_le] at *
  constructor <;> push_cast <;> linarith [h1.1, h1.2]

end Verif.Turbine
