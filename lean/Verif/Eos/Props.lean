import Verif.Eos.Model
import Mathlib.Analysis.Calculus.Deriv.MeanValue
import Mathlib.Analysis.Calculus.Deriv.Inv
import Mathlib.Analysis.Calculus.Deriv.Pow
import Mathlib.Analysis.Real.Sqrt

/-!
C93: equations of state.
-/

namespace Verif.Eos

/-- Temperatures and salinities of the sea at the surface. -/
def Sea (s th : ℝ) : Prop := 0 ≤ s ∧ s ≤ 42 ∧ -2 ≤ th ∧ th ≤ 40

/-- Numerator without salt, at zero pressure. -/
noncomputable def A (th : ℝ) : ℝ := a 0 + a 1 * th + a 2 * th ^ 2 + a 3 * th ^ 3
/-- Factor of the salinity in the numerator. -/
noncomputable def B (th : ℝ) : ℝ := a 4 + a 5 * th
/-- Denominator without salt. -/
noncomputable def D (th : ℝ) : ℝ := b 0 + b 1 * th + b 2 * th ^ 2 + b 3 * th ^ 3 + b 4 * th ^ 4
/-- Factor of the salinity in the denominator. -/
noncomputable def E (th : ℝ) : ℝ := b 5 + b 6 * th + b 7 * th ^ 3
/-- Factor of the salinity to the power 3/2. -/
noncomputable def F (th : ℝ) : ℝ := b 8 + b 9 * th ^ 2

theorem rpow_three_halves (t : ℝ) (ht : 0 ≤ t) : (t ^ 2) ^ (1.5 : ℝ) = t ^ 3 := by
  rw [← Real.rpow_natCast t 2, ← Real.rpow_natCast t 3, ← Real.rpow_mul ht]
  norm_num

theorem pn_eq (t th : ℝ) : pn (t ^ 2) th 0 = A th + B th * t ^ 2 + a 6 * t ^ 4 := by
  unfold pn A B; ring

theorem pd_eq (t th : ℝ) (ht : 0 ≤ t) : pd (t ^ 2) th 0 = D th + E th * t ^ 2 + F th * t ^ 3 := by
  unfold pd D E F; rw [rpow_three_halves t ht]; ring

/-- Bounds of the parts of the formula. -/
structure Bounds (th : ℝ) : Prop where
  A0 : 980 ≤ A th
  A1 : A th ≤ 1240
  B0 : 2.3 ≤ B th
  B1 : B th ≤ 2.61
  D0 : 0.98 ≤ D th
  D1 : D th ≤ 1.25
  E0 : 0.00138 ≤ E th
  E1 : E th ≤ 0.00179
  F0 : 0.0000057 ≤ F th
  F1 : F th ≤ 0.0000082
  X : 0.5 ≤ B th * D th - A th * E th

/-- The polynomials used below to find the sign of polynomials of degree at most 6 on an interval. -/
theorem bernstein (l r x : ℝ) (h0 : l ≤ x) (h1 : x ≤ r) (i j : ℕ) : 0 ≤ (x - l) ^ i * (r - x) ^ j :=
  mul_nonneg (pow_nonneg (by linarith) _) (pow_nonneg (by linarith) _)

theorem bounds (th : ℝ) (h0 : -2 ≤ th) (h1 : th ≤ 40) : Bounds th := by
  have q := bernstein (-2) 40 th h0 h1
  constructor
  all_goals
    simp only [A, B, D, E, F, a, b, Matrix.cons_val, Matrix.cons_val_zero, Matrix.cons_val_one]
    linarith [q 0 6, q 1 5, q 2 4, q 3 3, q 4 2, q 5 1, q 6 0]

theorem sqrt_range (s th : ℝ) (h : Sea s th) : ∃ t, 0 ≤ t ∧ t ≤ 6.5 ∧ s = t ^ 2 := by
  obtain ⟨h0, h1, -, -⟩ := h
  refine ⟨√s, Real.sqrt_nonneg s, ?_, (Real.sq_sqrt h0).symm⟩
  rw [Real.sqrt_le_left (by norm_num)]
  norm_num; linarith

theorem pd_pos (t th : ℝ) (ht : 0 ≤ t) (hb : Bounds th) : 0 < pd (t ^ 2) th 0 := by
  rw [pd_eq t th ht]
  have h1 := mul_nonneg (show 0 ≤ E th by linarith [hb.E0]) (sq_nonneg t)
  have h2 := mul_nonneg (show 0 ≤ F th by linarith [hb.F0]) (pow_nonneg ht 3)
  linarith [hb.D0]

/-- C93: the density is a number for the sea at the surface, with any reference density; negative salinities count as
zero. -/
theorem C93_defined (s th rho0 : ℝ) (h : Sea (max s 0) th) :
    computeRho s th 0 rho0 = some (pn (max s 0) th 0 / pd (max s 0) th 0 - rho0) := by
  obtain ⟨t, ht, -, e⟩ := sqrt_range _ _ h
  have := pd_pos t th ht (bounds th h.2.2.1 h.2.2.2)
  unfold computeRho eval
  rw [if_pos ⟨le_max_right _ _, by rw [e]; exact this.ne'⟩]

/-- C93: the reference density is subtracted, for all arguments. -/
theorem C93_reference (s th p rho0 : ℝ) : computeRho s th p rho0 = (computeRho s th p 0).map (· - rho0) := by
  unfold computeRho eval
  split <;> simp

/-- C93: without clipping a negative salinity gives no density; with clipping it gives that of fresh water. -/
theorem C93_negative (s th p rho0 : ℝ) (hs : s < 0) :
    eval s th p rho0 = none ∧ computeRho s th p rho0 = eval 0 th p rho0 := by
  constructor
  · unfold eval; rw [if_neg (by intro h; linarith [h.1])]
  · unfold computeRho; rw [max_eq_right hs.le]

/-- C93: saltier water is heavier. -/
theorem C93_saltier (s s' th rho0 : ℝ) (h : Sea s th) (h' : Sea s' th) (hlt : s < s') :
    ∃ r r', computeRho s th 0 rho0 = some r ∧ computeRho s' th 0 rho0 = some r' ∧ r < r' := by
  have e1 := C93_defined s th rho0 (by rw [max_eq_left h.1]; exact h)
  have e2 := C93_defined s' th rho0 (by rw [max_eq_left h'.1]; exact h')
  rw [max_eq_left h.1] at e1
  rw [max_eq_left h'.1] at e2
  refine ⟨_, _, e1, e2, ?_⟩
  obtain ⟨t, ht, ht6, rfl⟩ := sqrt_range _ _ h
  obtain ⟨u, hu, hu6, rfl⟩ := sqrt_range _ _ h'
  have htu : t < u := lt_of_pow_lt_pow_left₀ 2 hu hlt
  have hb := bounds th h.2.2.1 h.2.2.2
  have d1 := pd_pos t th ht hb
  have d2 := pd_pos u th hu hb
  rw [sub_lt_sub_iff_right, div_lt_div_iff₀ d1 d2, ← sub_pos, pn_eq, pn_eq, pd_eq t th ht, pd_eq u th hu]
  have hA := hb.A0; have hB := hb.B0; have hF := hb.F0; have hE := hb.E0; have hD := hb.D0
  have hC : 0 < a 6 := by simp only [a, Matrix.cons_val]; norm_num
  have hAF : A th * F th ≤ 0.0102 := by
    calc A th * F th ≤ 1240 * 0.0000082 := mul_le_mul hb.A1 hb.F1 (by linarith) (by norm_num)
      _ ≤ 0.0102 := by norm_num
  have hBF : B th * F th ≤ 0.00003 := by
    calc B th * F th ≤ 2.61 * 0.0000082 := mul_le_mul hb.B1 hb.F1 (by linarith) (by norm_num)
      _ ≤ 0.00003 := by norm_num
  have k : 0 < u - t := by linarith
  have m : 0 < t + u := by linarith
  have m13 : t + u ≤ 13 := by linarith
  have tu : 0 ≤ t * u := mul_nonneg ht hu
  have tu43 : t * u ≤ 42.25 := by nlinarith
  have x1 : 0.5 * (t + u) ≤ (B th * D th - A th * E th) * (t + u) := mul_le_mul_of_nonneg_right hb.X m.le
  have q : t ^ 2 + t * u + u ^ 2 ≤ 13 * (t + u) := by nlinarith
  have q0 : 0 ≤ t ^ 2 + t * u + u ^ 2 := by positivity
  have x2 : A th * F th * (t ^ 2 + t * u + u ^ 2) ≤ 0.0102 * (13 * (t + u)) :=
    mul_le_mul hAF q q0 (by norm_num)
  have q' : (t * u) ^ 2 ≤ 140 * (t + u) := by
    have h1 : t * u ≤ 3.25 * (t + u) := by nlinarith
    nlinarith
  have x3 : B th * F th * (t * u) ^ 2 ≤ 0.00003 * (140 * (t + u)) := mul_le_mul hBF q' (sq_nonneg _) (by norm_num)
  have x4 : 0 ≤ a 6 * D th * ((t + u) * (t ^ 2 + u ^ 2)) := by
    have : 0 ≤ D th := by linarith
    positivity
  have x5 : 0 ≤ a 6 * E th * ((t * u) ^ 2 * (t + u)) := by
    have : 0 ≤ E th := by linarith
    positivity
  have x6 : 0 ≤ a 6 * F th * (t * u) ^ 3 := by
    have : 0 ≤ F th := by linarith
    positivity
  have key : 0 < (B th * D th - A th * E th) * (t + u) - A th * F th * (t ^ 2 + t * u + u ^ 2) -
      B th * F th * (t * u) ^ 2 + a 6 * D th * ((t + u) * (t ^ 2 + u ^ 2)) + a 6 * E th * ((t * u) ^ 2 * (t + u)) +
      a 6 * F th * (t * u) ^ 3 := by linarith
  have := mul_pos k key
  convert this using 1
  ring

/-- C93: densities of the sea at the surface lie between 992 and 1036. -/
theorem C93_range (s th : ℝ) (h : Sea s th) : ∃ r, computeRho s th 0 0 = some r ∧ 992 < r ∧ r < 1036 := by
  have e1 := C93_defined s th 0 (by rw [max_eq_left h.1]; exact h)
  rw [max_eq_left h.1] at e1
  refine ⟨_, e1, ?_⟩
  obtain ⟨t, ht, ht6, rfl⟩ := sqrt_range _ _ h
  have hb := bounds th h.2.2.1 h.2.2.2
  have d1 := pd_pos t th ht hb
  rw [sub_zero, lt_div_iff₀ d1, div_lt_iff₀ d1, pn_eq, pd_eq t th ht]
  have q := bernstein (-2) 40 th h.2.2.1 h.2.2.2
  have g1 : 992 * D th < A th := by
    simp only [A, D, a, b, Matrix.cons_val, Matrix.cons_val_zero, Matrix.cons_val_one]
    linarith [q 0 6, q 1 5, q 2 4, q 3 3, q 4 2, q 5 1, q 6 0]
  have g2 : 992 * (E th + F th * 6.5) ≤ B th := by linarith [hb.E1, hb.F1, hb.B0]
  have g3 : A th + (B th + a 6 * 42) * 42 < 1036 * (D th + E th * 42) := by
    simp only [A, B, D, E, a, b, Matrix.cons_val, Matrix.cons_val_zero, Matrix.cons_val_one]
    linarith [q 0 6, q 1 5, q 2 4, q 3 3, q 4 2, q 5 1, q 6 0]
  have g4 : A th < 1036 * D th := by
    simp only [A, D, a, b, Matrix.cons_val, Matrix.cons_val_zero, Matrix.cons_val_one]
    linarith [q 0 6, q 1 5, q 2 4, q 3 3, q 4 2, q 5 1, q 6 0]
  have hC : 0 < a 6 := by simp only [a, Matrix.cons_val]; norm_num
  have hF : 0 ≤ F th := by linarith [hb.F0]
  have hs := h.2.1
  have t2 := sq_nonneg t
  constructor
  · have x1 := mul_le_mul_of_nonneg_right g2 t2
    have x2 : 0 ≤ 992 * F th * (t ^ 2 * (6.5 - t)) :=
      mul_nonneg (by positivity) (mul_nonneg t2 (by linarith))
    have x3 : 0 ≤ a 6 * t ^ 4 := by positivity
    linarith
  · have x1 := mul_nonneg t2 (sub_pos.2 g3).le
    have x2 := mul_nonneg (sub_nonneg.2 hs) (sub_pos.2 g4).le
    have x3 := mul_nonneg hC.le (mul_nonneg t2 (sub_nonneg.2 hs))
    have x4 : 0 ≤ F th * t ^ 3 := by positivity
    rcases lt_or_ge (t ^ 2) 42 with hs' | hs'
    · have x2' := mul_pos (sub_pos.2 hs') (sub_pos.2 g4)
      linarith
    · have e : t ^ 2 = 42 := le_antisymm hs hs'
      rw [show t ^ 4 = t ^ 2 * t ^ 2 by ring, e]
      linarith

/-- The derivative of the numerator times the denominator minus numerator times derivative of the denominator. -/
theorem slope_neg (t th : ℝ) (ht : 0 ≤ t) (ht6 : t ^ 2 ≤ 42) (h0 : 4 ≤ th) (h1 : th ≤ 40) :
    ((a 1 + 2 * a 2 * th + 3 * a 3 * th ^ 2) + a 5 * t ^ 2) * (D th + E th * t ^ 2 + F th * t ^ 3) -
      (A th + B th * t ^ 2 + a 6 * t ^ 4) * ((b 1 + 2 * b 2 * th + 3 * b 3 * th ^ 2 + 4 * b 4 * th ^ 3) +
        (b 6 + 3 * b 7 * th ^ 2) * t ^ 2 + 2 * b 9 * th * t ^ 3) < 0 := by
  have q := bernstein 4 40 th h0 h1
  have t6 : t ≤ 6.5 := by nlinarith
  have c0 : (a 1 + 2 * a 2 * th + 3 * a 3 * th ^ 2) * D th -
      A th * (b 1 + 2 * b 2 * th + 3 * b 3 * th ^ 2 + 4 * b 4 * th ^ 3) < 0 := by
    simp only [A, D, a, b, Matrix.cons_val, Matrix.cons_val_zero, Matrix.cons_val_one]
    linarith [q 0 6, q 1 5, q 2 4, q 3 3, q 4 2, q 5 1, q 6 0]
  have c1 : (a 1 + 2 * a 2 * th + 3 * a 3 * th ^ 2) * E th + a 5 * D th -
      A th * (b 6 + 3 * b 7 * th ^ 2) - B th * (b 1 + 2 * b 2 * th + 3 * b 3 * th ^ 2 + 4 * b 4 * th ^ 3) ≤
        -0.002 := by
    simp only [A, B, D, E, a, b, Matrix.cons_val, Matrix.cons_val_zero, Matrix.cons_val_one]
    linarith [q 0 6, q 1 5, q 2 4, q 3 3, q 4 2, q 5 1, q 6 0]
  have c2 : (a 1 + 2 * a 2 * th + 3 * a 3 * th ^ 2) * F th - A th * (2 * b 9 * th) ≤ 0.00003 := by
    simp only [A, F, a, b, Matrix.cons_val, Matrix.cons_val_zero, Matrix.cons_val_one]
    linarith [q 0 6, q 1 5, q 2 4, q 3 3, q 4 2, q 5 1, q 6 0]
  have c3 : a 5 * E th - B th * (b 6 + 3 * b 7 * th ^ 2) -
      a 6 * (b 1 + 2 * b 2 * th + 3 * b 3 * th ^ 2 + 4 * b 4 * th ^ 3) ≤ 0.000003 := by
    simp only [B, E, a, b, Matrix.cons_val, Matrix.cons_val_zero, Matrix.cons_val_one]
    linarith [q 0 6, q 1 5, q 2 4, q 3 3, q 4 2, q 5 1, q 6 0]
  have c4 : a 5 * F th - B th * (2 * b 9 * th) ≤ 0 := by
    simp only [B, F, a, b, Matrix.cons_val]
    linarith [q 0 6, q 1 5, q 2 4, q 3 3, q 4 2, q 5 1, q 6 0]
  have c5 : -a 6 * (b 6 + 3 * b 7 * th ^ 2) ≤ 0.00000002 := by
    simp only [a, b, Matrix.cons_val]
    linarith [q 0 6, q 1 5, q 2 4, q 3 3, q 4 2, q 5 1, q 6 0]
  have c6 : -a 6 * (2 * b 9 * th) ≤ 0 := by
    simp only [a, b, Matrix.cons_val]
    linarith
  have x1 := mul_le_mul_of_nonneg_right c1 (sq_nonneg t)
  have x2 := mul_le_mul_of_nonneg_right c2 (pow_nonneg ht 3)
  have x3 := mul_le_mul_of_nonneg_right c3 (pow_nonneg ht 4)
  have x4 := mul_le_mul_of_nonneg_right c4 (pow_nonneg ht 5)
  have x5 := mul_le_mul_of_nonneg_right c5 (pow_nonneg ht 6)
  have x6 := mul_le_mul_of_nonneg_right c6 (pow_nonneg ht 7)
  have y3 : t ^ 3 ≤ 6.5 * t ^ 2 := by nlinarith [mul_nonneg (sq_nonneg t) (sub_nonneg.2 t6)]
  have y4 : t ^ 4 ≤ 42 * t ^ 2 := by nlinarith [mul_nonneg (sq_nonneg t) (sub_nonneg.2 ht6)]
  have y6 : t ^ 6 ≤ 42 * 42 * t ^ 2 := by
    have := mul_nonneg (pow_nonneg ht 4) (sub_nonneg.2 ht6)
    nlinarith
  have t2 := sq_nonneg t
  linarith

/-- C93: warmer water is lighter, from 4 degrees on. -/
theorem C93_warmer (s th th' rho0 : ℝ) (h : Sea s th) (h' : Sea s th') (h4 : 4 ≤ th) (hlt : th < th') :
    ∃ r r', computeRho s th 0 rho0 = some r ∧ computeRho s th' 0 rho0 = some r' ∧ r' < r := by
  have e1 := C93_defined s th rho0 (by rw [max_eq_left h.1]; exact h)
  have e2 := C93_defined s th' rho0 (by rw [max_eq_left h'.1]; exact h')
  rw [max_eq_left h.1] at e1
  rw [max_eq_left h'.1] at e2
  refine ⟨_, _, e1, e2, ?_⟩
  obtain ⟨t, ht, ht6, rfl⟩ := sqrt_range _ _ h
  rw [sub_lt_sub_iff_right]
  have hd : ∀ x ∈ Set.Icc (4 : ℝ) 40, 0 < D x + E x * t ^ 2 + F x * t ^ 3 := fun x hx => by
    rw [← pd_eq t x ht]; exact pd_pos t x ht (bounds x (by linarith [hx.1]) hx.2)
  have hn : ∀ x : ℝ, HasDerivAt (fun x => A x + B x * t ^ 2 + a 6 * t ^ 4)
      ((a 1 + 2 * a 2 * x + 3 * a 3 * x ^ 2) + a 5 * t ^ 2) x := by
    intro x
    have i := hasDerivAt_id x
    have := ((((i.const_mul (a 1)).const_add (a 0)).add ((hasDerivAt_pow 2 x).const_mul (a 2))).add
      ((hasDerivAt_pow 3 x).const_mul (a 3))).add
      (((i.const_mul (a 5)).const_add (a 4)).mul_const (t ^ 2)) |>.add_const (a 6 * t ^ 4)
    refine HasDerivAt.congr_deriv (f := _) this ?_
    norm_num; ring
  have hq : ∀ x : ℝ, HasDerivAt (fun x => D x + E x * t ^ 2 + F x * t ^ 3)
      ((b 1 + 2 * b 2 * x + 3 * b 3 * x ^ 2 + 4 * b 4 * x ^ 3) + (b 6 + 3 * b 7 * x ^ 2) * t ^ 2 +
        2 * b 9 * x * t ^ 3) x := by
    intro x
    have i := hasDerivAt_id x
    have := ((((((i.const_mul (b 1)).const_add (b 0)).add ((hasDerivAt_pow 2 x).const_mul (b 2))).add
      ((hasDerivAt_pow 3 x).const_mul (b 3))).add ((hasDerivAt_pow 4 x).const_mul (b 4))).add
      ((((i.const_mul (b 6)).const_add (b 5)).add ((hasDerivAt_pow 3 x).const_mul (b 7))).mul_const (t ^ 2))).add
      ((((hasDerivAt_pow 2 x).const_mul (b 9)).const_add (b 8)).mul_const (t ^ 3))
    refine HasDerivAt.congr_deriv (f := _) this ?_
    norm_num; ring
  have anti : StrictAntiOn (fun x => (A x + B x * t ^ 2 + a 6 * t ^ 4) / (D x + E x * t ^ 2 + F x * t ^ 3))
      (Set.Icc (4 : ℝ) 40) := by
    refine strictAntiOn_of_deriv_neg (convex_Icc _ _) ?_ ?_
    · intro x hx
      exact ((hn x).div (hq x) (hd x hx).ne').continuousAt.continuousWithinAt
    · intro x hx
      rw [interior_Icc] at hx
      have hx' : x ∈ Set.Icc (4 : ℝ) 40 := ⟨hx.1.le, hx.2.le⟩
      have := ((hn x).div (hq x) (hd x hx').ne').deriv
      rw [show (fun x => (A x + B x * t ^ 2 + a 6 * t ^ 4) / (D x + E x * t ^ 2 + F x * t ^ 3)) =
        (fun x => A x + B x * t ^ 2 + a 6 * t ^ 4) / fun x => D x + E x * t ^ 2 + F x * t ^ 3 from rfl, this]
      refine div_neg_of_neg_of_pos (slope_neg t x ht h.2.1 hx'.1 hx'.2) ?_
      have := hd x hx'
      positivity
  have := anti (a := th) (b := th') ⟨h4, h.2.2.2⟩ ⟨by linarith, h'.2.2.2⟩ hlt
  rw [pn_eq, pn_eq, pd_eq t th ht, pd_eq t th' ht]
  exact this

end Verif.Eos
