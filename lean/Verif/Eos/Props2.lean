import Verif.Eos.Props
import Mathlib.Algebra.BigOperators.Fin
import Mathlib.Tactic.FinCases

/-!
C93: check values, the linear equation of state, the density solvers.
-/

namespace Verif.Eos

/-- `x` is within `tol` of `y`. -/
def Near (x y tol : ℝ) : Prop := y - tol < x ∧ x < y + tol

theorem near_of_pow (s l r th p rho tol : ℝ) (hs : 0 ≤ s) (hl : 0 ≤ l) (hls : l ^ 2 ≤ s) (hr : 0 ≤ r) (hrs : s ≤ r ^ 2)
    (h0 : ∀ c, l ^ 3 ≤ c → c ≤ r ^ 3 →
      0 < b 0 + th * b 1 + th * th * b 2 + th * th * th * b 3 + th * th * th * th * b 4 + s * b 5 + s * th * b 6 +
        s * th * th * th * b 7 + c * b 8 + c * th * th * b 9 + p * b 10 +
        p * p * th * th * th * b 11 + p * p * p * th * b 12 ∧
      (rho - tol) * (b 0 + th * b 1 + th * th * b 2 + th * th * th * b 3 + th * th * th * th * b 4 + s * b 5 +
        s * th * b 6 + s * th * th * th * b 7 + c * b 8 + c * th * th * b 9 + p * b 10 +
        p * p * th * th * th * b 11 + p * p * p * th * b 12) < pn s th p ∧
      pn s th p < (rho + tol) * (b 0 + th * b 1 + th * th * b 2 + th * th * th * b 3 + th * th * th * th * b 4 +
        s * b 5 + s * th * b 6 + s * th * th * th * b 7 + c * b 8 + c * th * th * b 9 + p * b 10 +
        p * p * th * th * th * b 11 + p * p * p * th * b 12)) :
    ∃ x, computeRho s th p 0 = some x ∧ Near x rho tol := by
  have e1 : l ^ 3 ≤ s ^ (1.5 : ℝ) := by
    rw [← rpow_three_halves l hl]; exact Real.rpow_le_rpow (sq_nonneg l) hls (by norm_num)
  have e2 : s ^ (1.5 : ℝ) ≤ r ^ 3 := by
    rw [← rpow_three_halves r hr]; exact Real.rpow_le_rpow hs hrs (by norm_num)
  obtain ⟨h1, h2, h3⟩ := h0 _ e1 e2
  change 0 < pd s th p at h1
  change (rho - tol) * pd s th p < _ at h2
  change _ < (rho + tol) * pd s th p at h3
  refine ⟨pn s th p / pd s th p - 0, ?_, ?_⟩
  · unfold computeRho eval
    rw [max_eq_left hs, if_pos ⟨hs, h1.ne'⟩]
  · unfold Near
    rw [sub_zero, lt_div_iff₀ h1, div_lt_iff₀ h1]
    exact ⟨h2, h3⟩

/-- C93: the check values of Jackett et al. (2006) are reproduced to nine digits after the point, with
pressure. -/
theorem C93_check :
    (∃ x, computeRho 35 25 2000 0 = some x ∧ Near x 1031.65056056576 1e-9) ∧
      (∃ x, computeRho 20 20 1000 0 = some x ∧ Near x 1017.72886801964 1e-9) ∧
      ∃ x, computeRho 40 12 8000 0 = some x ∧ Near x 1062.95279820631 1e-9 := by
  refine ⟨near_of_pow 35 5.916079783099 5.916079783100 25 2000 _ _ (by norm_num) (by norm_num) (by norm_num)
    (by norm_num) (by norm_num) ?_, near_of_pow 20 4.472135954999 4.472135955000 20 1000 _ _ (by norm_num)
    (by norm_num) (by norm_num) (by norm_num) (by norm_num) ?_, near_of_pow 40 6.324555320336 6.324555320337 12 8000 _ _
    (by norm_num) (by norm_num) (by norm_num) (by norm_num) (by norm_num) ?_⟩
  all_goals
    intro c h1 h2
    norm_num at h1 h2
    simp only [pn, a, b, Matrix.cons_val, Matrix.cons_val_zero, Matrix.cons_val_one]
    norm_num
    refine ⟨?_, ?_, ?_⟩ <;> linarith

/-- C93: fresh water is heaviest near four degrees: it is lighter at one and at seven degrees. -/
theorem C93_fresh : ∃ r1 r4 r7, computeRho 0 1 0 0 = some r1 ∧ computeRho 0 4 0 0 = some r4 ∧
    computeRho 0 7 0 0 = some r7 ∧ r1 < r4 ∧ r7 < r4 := by
  have e : ∀ th : ℝ, -2 ≤ th → th ≤ 40 → computeRho 0 th 0 0 = some (A th / D th) := fun th h0 h1 => by
    rw [C93_defined 0 th 0 (by rw [max_self]; exact ⟨le_rfl, by norm_num, h0, h1⟩), max_self, sub_zero]
    have h1 := pn_eq 0 th
    have h2 := pd_eq 0 th le_rfl
    norm_num at h1 h2
    rw [h1, h2]
  refine ⟨_, _, _, e 1 (by norm_num) (by norm_num), e 4 (by norm_num) (by norm_num), e 7 (by norm_num) (by norm_num),
    ?_, ?_⟩
  all_goals
    simp only [A, D, a, b, Matrix.cons_val, Matrix.cons_val_zero, Matrix.cons_val_one]
    norm_num

/-- C93: the linear equation of state gives the reference density at the reference state; the differences of density
are beta times that of salinity minus alpha times that of temperature. -/
theorem C93_linear (l : Linear) (s s' th th' rho0 : ℝ) :
    l.rho l.sRef l.thRef rho0 = l.rhoRef - rho0 ∧
      l.rho s' th' rho0 - l.rho s th rho0 = l.beta * (s' - s) - l.alpha * (th' - th) := by
  unfold Linear.rho
  constructor <;> ring

/-- C93: with positive coefficients, saltier and colder water is heavier. -/
theorem C93_linear_monotone (l : Linear) (ha : 0 < l.alpha) (hb : 0 < l.beta) (s s' th th' rho0 : ℝ)
    (hs : s ≤ s') (ht : th' ≤ th) (hne : s < s' ∨ th' < th) : l.rho s th rho0 < l.rho s' th' rho0 := by
  have h := (C93_linear l s s' th th' rho0).2
  rcases hne with h1 | h1
  · have := mul_pos hb (sub_pos.2 h1)
    have := mul_nonneg ha.le (sub_nonneg.2 ht)
    linarith
  · have := mul_nonneg hb.le (sub_nonneg.2 hs)
    have := mul_pos ha (sub_pos.2 h1)
    linarith

/-- C93: at the nodes both solvers use the same density: after the salinity was made nonnegative, the unclipped formula
gives what the clipped one gives for the original salinity. -/
theorem C93_agree {n : ℕ} (s : Fin n → ℝ) (th rho0 : ℝ) (i : Fin n) :
    eval (ensurePositive s i) th 0 rho0 = densityAt computeRho (s i) th rho0 := by
  unfold densityAt computeRho ensurePositive
  split
  · rw [max_eq_right (by linarith)]
  · rw [max_eq_left (by linarith)]

/-- C93: the correction of the salinity keeps nonnegative values, gives nonnegative values, and changes nothing the
second time. -/
theorem C93_positive {n : ℕ} (s : Fin n → ℝ) (i : Fin n) :
    (0 ≤ s i → ensurePositive s i = s i) ∧ 0 ≤ ensurePositive s i ∧
      ensurePositive (ensurePositive s) i = ensurePositive s i := by
  unfold ensurePositive
  refine ⟨fun h => if_neg (by linarith), ?_, ?_⟩
  · split <;> linarith
  · split
    · simp
    · rfl

/-- C93 violated: computing the density with `use_quadratic_density` adds salt to the state wherever the salinity has a
negative value, also for the linear equation of state, which needs no such correction.  `w` are the integrals of the
basis functions. -/
theorem C93_salt_violated {n : ℕ} (w s : Fin n → ℝ) (hw : ∀ i, 0 < w i) (i : Fin n) (hi : s i < 0) :
    ∑ j, w j * s j < ∑ j, w j * ensurePositive s j := by
  refine Finset.sum_lt_sum (fun j _ => mul_le_mul_of_nonneg_left ?_ (hw j).le) ⟨i, Finset.mem_univ i, ?_⟩
  · unfold ensurePositive; split <;> linarith
  · unfold ensurePositive; rw [if_pos hi]; exact mul_lt_mul_of_pos_left hi (hw i)

/-- The hypotheses of the theorems on the sea. -/
example : Sea 35 10 ∧ Sea 36 10 ∧ Sea 35 15 ∧ Sea (max (-1) 0) 10 := by
  unfold Sea; norm_num

/-- A front where advection left a small negative salinity. -/
example : ∑ j, ![(1 : ℝ), 1] j * ensurePositive ![-1, 30] j = 30 := by
  simp [ensurePositive, Fin.sum_univ_two]

end Verif.Eos
