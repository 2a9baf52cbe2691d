import Verif.Mom3.Props2
import Mathlib.Analysis.SpecialFunctions.Integrals.Basic
import Mathlib.MeasureTheory.Integral.IntervalIntegral.FundThmCalculus
import Mathlib.Analysis.Calculus.Deriv.MeanValue

/-!
C90: the drag coefficient and the logarithmic profile it is fitted to.
-/

namespace Verif.Mom3

open intervalIntegral

theorem profile_hasDerivAt (z0 x : ℝ) (hz : 0 < z0) (hx : 0 ≤ x) :
    HasDerivAt (fun x : ℝ => Real.log ((x + z0) / z0)) (1 / (x + z0)) x := by
  have h1 : HasDerivAt (fun x : ℝ => (x + z0) / z0) (1 / z0) x := ((hasDerivAt_id x).add_const z0).div_const z0
  have h2 := h1.log (by positivity)
  convert h2 using 1
  field_simp

theorem profile_continuousOn (z0 h : ℝ) (hz : 0 < z0) (hh : 0 < h) :
    ContinuousOn (fun x : ℝ => Real.log ((x + z0) / z0)) (Set.uIcc 0 h) := by
  rw [Set.uIcc_of_le hh.le]
  exact fun x hx => (profile_hasDerivAt z0 x hz hx.1).continuousAt.continuousWithinAt

theorem profile_mass (z0 h : ℝ) (hz : 0 < z0) (hh : 0 < h) :
    ∫ x in (0 : ℝ)..h, Real.log ((x + z0) / z0) = (h + z0) * Real.log ((h + z0) / z0) - h := by
  have hd : ∀ x ∈ Set.uIcc 0 h, HasDerivAt (fun x : ℝ => (x + z0) * Real.log ((x + z0) / z0) - x)
      (Real.log ((x + z0) / z0)) x := by
    intro x hx
    rw [Set.uIcc_of_le hh.le] at hx
    have h1 := (((hasDerivAt_id x).add_const z0).mul (profile_hasDerivAt z0 x hz hx.1)).sub (hasDerivAt_id x)
    refine HasDerivAt.congr_deriv h1 ?_
    have : x + z0 ≠ 0 := by have := hx.1; positivity
    simp only [id]
    field_simp
    ring
  rw [integral_eq_sub_of_hasDerivAt hd (profile_continuousOn z0 h hz hh).intervalIntegrable]
  simp [hz.ne']

theorem profile_moment (z0 h : ℝ) (hz : 0 < z0) (hh : 0 < h) :
    ∫ x in (0 : ℝ)..h, x * Real.log ((x + z0) / z0) =
      (h ^ 2 - z0 ^ 2) / 2 * Real.log ((h + z0) / z0) - h ^ 2 / 4 + h * z0 / 2 := by
  have hd : ∀ x ∈ Set.uIcc 0 h,
      HasDerivAt (fun x : ℝ => (x ^ 2 - z0 ^ 2) / 2 * Real.log ((x + z0) / z0) - x ^ 2 / 4 + x * z0 / 2)
      (x * Real.log ((x + z0) / z0)) x := by
    intro x hx
    rw [Set.uIcc_of_le hh.le] at hx
    have h1 := ((((((hasDerivAt_pow 2 x).sub_const (z0 ^ 2)).div_const 2).mul (profile_hasDerivAt z0 x hz hx.1)).sub
      ((hasDerivAt_pow 2 x).div_const 4)).add (((hasDerivAt_id x).mul_const z0).div_const 2))
    refine HasDerivAt.congr_deriv h1 ?_
    have : x + z0 ≠ 0 := by have := hx.1; positivity
    field_simp
    norm_num
    ring
  rw [integral_eq_sub_of_hasDerivAt hd (by
    refine ContinuousOn.intervalIntegrable ?_
    exact continuousOn_id.mul (profile_continuousOn z0 h hz hh))]
  simp [hz.ne']

/-- The linear function on the bottom element that has the same mean and first moment as the logarithmic profile. -/
def IsFit (a b h z0 : ℝ) : Prop :=
  (∫ x in (0 : ℝ)..h, (a + b * x) - Real.log ((x + z0) / z0)) = 0 ∧
  (∫ x in (0 : ℝ)..h, x * ((a + b * x) - Real.log ((x + z0) / z0))) = 0

theorem isFit_iff (a b h z0 : ℝ) (hz : 0 < z0) (hh : 0 < h) :
    IsFit a b h z0 ↔
    a * h + b * h ^ 2 / 2 = (h + z0) * Real.log ((h + z0) / z0) - h ∧
    a * h ^ 2 / 2 + b * h ^ 3 / 3 =
      (h ^ 2 - z0 ^ 2) / 2 * Real.log ((h + z0) / z0) - h ^ 2 / 4 + h * z0 / 2 := by
  have c := profile_continuousOn z0 h hz hh
  have c2 : ContinuousOn (fun x : ℝ => x * Real.log ((x + z0) / z0)) (Set.uIcc 0 h) := continuousOn_id.mul c
  have e2 : (fun x : ℝ => x * ((a + b * x) - Real.log ((x + z0) / z0))) =
      fun x => (a * x + b * x ^ 2) - x * Real.log ((x + z0) / z0) := by funext x; ring
  have i1 : ∫ x in (0 : ℝ)..h, (a + b * x) = a * h + b * h ^ 2 / 2 := by
    rw [integral_add (by simp) (by apply Continuous.intervalIntegrable; fun_prop), integral_const_mul, integral_id]
    simp; ring
  have i2 : ∫ x in (0 : ℝ)..h, (a * x + b * x ^ 2) = a * h ^ 2 / 2 + b * h ^ 3 / 3 := by
    rw [integral_add (by apply Continuous.intervalIntegrable; fun_prop)
      (by apply Continuous.intervalIntegrable; fun_prop), integral_const_mul, integral_const_mul, integral_id,
      integral_pow]
    norm_num; ring
  unfold IsFit
  rw [e2, integral_sub (by apply Continuous.intervalIntegrable; fun_prop) c.intervalIntegrable, profile_mass z0 h hz hh,
    integral_sub (by apply Continuous.intervalIntegrable; fun_prop) c2.intervalIntegrable, profile_moment z0 h hz hh,
    i1, i2, sub_eq_zero, sub_eq_zero]

/-- C90: the denominator of the drag coefficient is the value of the linear fit at a quarter of the element, times the
height, short of one term.  With this term it would be positive for all heights. -/
theorem C90_fit_violated (a b h z0 : ℝ) (hz : 0 < z0) (hh : 0 < h) (hf : IsFit a b h z0) :
    dragDenom h z0 = h * (a + b * (h / 4)) - (3 / 2) * z0 ^ 2 / h * Real.log ((h + z0) / z0) ∧
    0 < h * (a + b * (h / 4)) ∧ dragDenom h z0 ≠ h * (a + b * (h / 4)) := by
  obtain ⟨h1, h2⟩ := (isFit_iff a b h z0 hz hh).1 hf
  have hL : 0 < Real.log ((h + z0) / z0) := Real.log_pos (by rw [lt_div_iff₀ hz]; linarith)
  have he : dragDenom h z0 = h * (a + b * (h / 4)) - (3 / 2) * z0 ^ 2 / h * Real.log ((h + z0) / z0) := by
    unfold dragDenom
    have e : h * (a + b * (h / 4)) = 5 / 2 * (a * h + b * h ^ 2 / 2) - 3 / h * (a * h ^ 2 / 2 + b * h ^ 3 / 3) := by
      field_simp; ring
    rw [e, h1, h2]
    field_simp
    ring
  have hpos : 0 < 3 / 2 * z0 ^ 2 / h * Real.log ((h + z0) / z0) := by positivity
  refine ⟨he, ?_, by rw [he]; linarith⟩
  obtain ⟨r, hr0, hr⟩ : ∃ r, 0 < r ∧ h = r * z0 := ⟨h / z0, by positivity, by field_simp⟩
  have e1 : h * (a + b * (h / 4)) = dragDenom h z0 + 3 / 2 * z0 ^ 2 / h * Real.log ((h + z0) / z0) := by rw [he]; ring
  have e2 : (r * z0 + z0) / z0 = 1 + r := by field_simp; ring
  rw [e1, hr, dragDenom_scale r z0 hz, e2]
  have key : (7 * r ^ 2 + 6 * r) / (4 * r ^ 2 + 10 * r + 6) < Real.log (1 + r) := by
    have hd : ∀ x : ℝ, 0 ≤ x → HasDerivAt
        (fun x : ℝ => Real.log (1 + x) - (7 * x ^ 2 + 6 * x) / (4 * x ^ 2 + 10 * x + 6))
        ((16 * x ^ 3 + 18 * x ^ 2) / (4 * x ^ 2 + 10 * x + 6) ^ 2) x := by
      intro x hx
      have hD : 4 * x ^ 2 + 10 * x + 6 ≠ 0 := by positivity
      have l := ((hasDerivAt_id x).const_add 1).log (show 1 + id x ≠ 0 by simp only [id]; positivity)
      have n := ((hasDerivAt_pow 2 x).const_mul 7).add ((hasDerivAt_id x).const_mul 6)
      have d := (((hasDerivAt_pow 2 x).const_mul 4).add ((hasDerivAt_id x).const_mul 10)).add_const 6
      have t := l.sub (n.div d hD)
      refine HasDerivAt.congr_deriv t ?_
      simp only [id, Pi.add_apply]
      have h1x : 1 + x ≠ 0 := by positivity
      norm_num
      rw [← one_div, div_sub_div _ _ h1x (by positivity), div_eq_div_iff (by positivity) (by positivity)]
      ring
    have hm := strictMonoOn_of_deriv_pos (convex_Ici (0 : ℝ))
      (fun x hx => (hd x hx).continuousAt.continuousWithinAt)
      (fun x hx => by
        rw [interior_Ici] at hx
        have hx0 : 0 < x := hx
        rw [(hd x hx0.le).deriv]
        positivity)
    have := hm (Set.mem_Ici.2 le_rfl) (Set.mem_Ici.2 hr0.le) hr0
    simp at this
    linarith
  have hD : 0 < 4 * r ^ 2 + 10 * r + 6 := by positivity
  rw [div_lt_iff₀ hD] at key
  have e3 : z0 * (-(7 / 4) * r - 3 / 2 + (r + 5 / 2) * Real.log (1 + r)) +
      3 / 2 * z0 ^ 2 / (r * z0) * Real.log (1 + r) =
      z0 / (4 * r) * (Real.log (1 + r) * (4 * r ^ 2 + 10 * r + 6) - (7 * r ^ 2 + 6 * r)) := by
    field_simp
    ring
  rw [e3]
  exact mul_pos (by positivity) (by linarith)

/-! ### Example: a wind-driven shear flow over a rough bed -/

open Verif.Dg Verif.Ext

/-- Viscosity, roughness length 0.1 in elements of height 1, wind along the tank, rotation. -/
noncomputable def shearFields : Fields tank where
  eta := cst tank.m 0
  lfFactor := 1
  viscV := some (cst tank.m 1)
  viscH := some (cst tank.m 1)
  roughness := some (cst tank.m (1 / 10))
  coriolis := some (cst tank.m (1 / 10000))
  wind := some fun i => cst tank.m (if i = 0 then 1 else 0)

/-- At rest in the lower layer, with linear shear above. -/
noncomputable def shear : Vc tank.m := fun i =>
  if i = 0 then tankField ⟨0, 0, 0, 0⟩ ⟨1, 0, 0, 1⟩ else cst tank.m 0

theorem shear_trace (c : Fin 3) : Tracer3.TraceBoundV (cst tank.m 1) (shear c) 5 := by
  unfold Tracer3.TraceBoundV
  refine (tank_dSh _).le.trans (le_trans ?_ (mul_le_mul_of_nonneg_left (tank_dx _).ge (by norm_num)))
  fin_cases c
  · change (3 / 2 : ℝ) / 1 * 1 * ((0 * 1) ^ 2 / 1 ^ 2) + 1 / 1 * 1 * ((1 * 1) ^ 2 / 1 ^ 2) ≤
      5 * (3 / 2 * (1 * 0 ^ 2) + 1 * 1 ^ 2)
    norm_num
  · simp [shear]
  · simp [shear]

/-- Vertical viscosity and friction take its energy. -/
example : vViscosity exTerm shearFields shear shear ≤ 0 ∧ bottomFriction exTerm shearFields shear shear shear ≤ 0 := by
  refine ⟨C90_vertical exTerm shearFields shear (cst tank.m 1) 5 5 rfl tank_flat (fun s => ?_) (fun x => by simp)
    (fun s => by simp) (by norm_num) shear_trace (fun s => by simp [exTerm]) (by simp [exTerm]; norm_num),
    (C90_friction exTerm shearFields shear shear shear shear (Or.inl ⟨rfl, rfl⟩) (Or.inl ⟨rfl, rfl⟩) rfl
      (fun d hd => by cases hd)).1⟩
  change (0 : ℝ) < 3 / 2 ∧ (0 : ℝ) < 1 ∧ (0 : ℝ) < 1
  norm_num

/-- Horizontal viscosity does as well: neither surface nor bottom have a stress. -/
example : hViscosity exTerm shearFields shear shear ≤ 0 := by
  have hg : ∀ i p j, j ≠ 2 → (shear i p).g j = 0 := by
    intro i p j hj
    unfold shear
    split
    · have key : ∀ (a d x y z : ℝ), ((⟨a, 0, 0, d⟩ : Lin).jet x y z).g j = 0 := by
        intro a d x y z
        fin_cases j
        · rfl
        · rfl
        · exact absurd rfl hj
      cases p with
      | cell c => cases c <;> exact key _ _ _ _ _
      | plus c => cases c; exact key _ _ _ _ _
      | minus c => cases c; exact key _ _ _ _ _
      | bnd c => cases c <;> exact key _ _ _ _ _
    · simp
  refine C90_horizontal_partial exTerm shearFields shear shear (cst tank.m 1) 5 (Or.inl ⟨rfl, rfl⟩) rfl rfl tank_flat
    (fun s => ?_) (fun x => by simp) (fun s => by simp) (by norm_num) (fun c => ?_) (by norm_num [exTerm])
    (by norm_num [exTerm, tTerm, Tracer3.dofs]) (fun i b _ => ?_) rfl
  · change (0 : ℝ) < 3 / 2 ∧ (0 : ℝ) < 1 ∧ (0 : ℝ) < 1
    norm_num
  · unfold Tracer3.TraceBoundH
    simp only [hg c _ 0 (by decide), hg c _ 1 (by decide)]
    simp [dx_zero, dS_zero]
  · unfold stressAt
    rw [hg i _ 0 (by decide), hg i _ 1 (by decide)]
    simp

/-- The drag coefficient is positive. -/
example (b : tank.m.B) : ∃ Cd, dragAt exTerm shearFields b = some Cd ∧ 0 < Cd := by
  obtain ⟨_, Cd, h1, h2, _⟩ := C90_roughness exTerm shearFields (cst tank.m (1 / 10)) b (by norm_num [exTerm]) rfl rfl
    (by simp) (by simp [exTerm]; norm_num)
  exact ⟨Cd, h1, h2⟩

/-- The wind exerts a thousandth of its stress, the density being 1000. -/
example : source exTerm shearFields (fun j => if j = 0 then cst tank.m 1 else cst tank.m 0) = 1 / 1000 := by
  rw [C90_wind exTerm shearFields _ 0 (by decide) rfl rfl, if_pos rfl]
  refine (tank_dsurf _).trans ?_
  simp [exTerm]

/-- A fit exists for every height and roughness length. -/
example (h z0 : ℝ) (hz : 0 < z0) (hh : 0 < h) : ∃ a b, IsFit a b h z0 := by
  obtain ⟨A, hA⟩ : ∃ A, A = (h + z0) * Real.log ((h + z0) / z0) - h := ⟨_, rfl⟩
  obtain ⟨B, hB⟩ : ∃ B, B = (h ^ 2 - z0 ^ 2) / 2 * Real.log ((h + z0) / z0) - h ^ 2 / 4 + h * z0 / 2 := ⟨_, rfl⟩
  refine ⟨4 * A / h - 6 * B / h ^ 2, 12 * B / h ^ 3 - 6 * A / h ^ 2, (isFit_iff _ _ h z0 hz hh).2 ⟨?_, ?_⟩⟩
  · rw [← hA]; field_simp; ring
  · rw [← hB]; field_simp; ring

end Verif.Mom3
