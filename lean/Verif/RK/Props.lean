import Verif.RK.Lemmas
import Mathlib.Tactic.NormNum
import Mathlib.Tactic.FieldSimp
import Mathlib.Tactic.Positivity
import Mathlib.Tactic.LinearCombination
import Mathlib.Tactic.FinCases

/-!
Properties C20-C24: Runge-Kutta schemes.
-/

namespace Verif.RK

open Finset

section

variable {V : Type*} [AddCommGroup V] [Module ℝ V]

/-! ### C20: Butcher and Shu-Osher form -/

/-- Textbook explicit Runge-Kutta step with tableau `a, b` and `n` stages. -/
def ButcherStep (n : ℕ) (a : ℕ → ℕ → ℝ) (b : ℕ → ℝ) (dt : ℝ) (F : ℕ → V → V) (u u' : V) : Prop :=
  ∃ K : ℕ → V, (∀ i < n, K i = F i (u + dt • ∑ j ∈ range i, a i j • K j)) ∧
    u' = u + dt • ∑ j ∈ range n, b j • K j

/-- The entries survive the rounding of rungekutta.py:75-77. -/
def NoTinyEntries (T : Tableau) : Prop :=
  ∀ i j, (T.alpha i j = 0 ∨ 1 / 10 ^ 13 ≤ |T.alpha i j|) ∧
    (T.beta i j = 0 ∨ 1 / 10 ^ 13 ≤ |T.beta i j|)

/-- The Butcher integrator performs the textbook step. -/
theorem C20_butcher_is_textbook (T : Tableau) (dt : ℝ) (F : ℕ → V → V) (s : Erk V)
    (h : s.inited = false ∨ s.old = s.sol) :
    ButcherStep T.n T.a T.b dt F s.sol (s.advance T dt F).sol := by
  set s₀ : Erk V := if s.inited then s else s.initialize with hs₀
  have hold : s₀.old = s.sol := by
    rw [hs₀]
    cases hi : s.inited with
    | false => simp [Erk.initialize]
    | true =>
      rcases h with h | h
      · rw [hi] at h; cases h
      · simpa using h
  obtain ⟨h1, h2⟩ := erk_loop T dt F s₀ T.n
  rw [hold] at h1 h2
  set L := loop (Erk.stage T dt F) T.n s₀ with hL
  refine ⟨fun i => F i (s.sol + ∑ l ∈ range i, T.a i l • L.k l), ?_, ?_⟩
  · intro i hi
    have : dt • ∑ j ∈ range i, T.a i j • F j (s.sol + ∑ l ∈ range j, T.a j l • L.k l)
        = ∑ l ∈ range i, T.a i l • L.k l := by
      rw [Finset.smul_sum]
      refine Finset.sum_congr rfl fun j hj => ?_
      rw [h2 j (lt_trans (Finset.mem_range.1 hj) hi), smul_comm]
    rw [this]
  · have : (s.advance T dt F).sol = L.old + ∑ j ∈ range T.n, T.b j • L.k j := rfl
    rw [this, h1, Finset.smul_sum]
    congr 1
    refine Finset.sum_congr rfl fun j hj => ?_
    rw [h2 j (Finset.mem_range.1 hj), smul_comm]

/-- Textbook steps are unique. -/
theorem butcherStep_unique {n : ℕ} {a : ℕ → ℕ → ℝ} {b : ℕ → ℝ} {dt : ℝ} {F : ℕ → V → V}
    {u u₁ u₂ : V} (h₁ : ButcherStep n a b dt F u u₁) (h₂ : ButcherStep n a b dt F u u₂) :
    u₁ = u₂ := by
  obtain ⟨K, hK, e⟩ := h₁
  obtain ⟨K', hK', e'⟩ := h₂
  have : ∀ i, i < n → K i = K' i := by
    intro i
    induction i using Nat.strong_induction_on with
    | _ i ih =>
      intro hi
      rw [hK i hi, hK' i hi, sum_congr_k (fun j hj => ih j hj (by omega))]
  rw [e, e', sum_congr_k this]

/-- Any coefficients consistent with the tableau reproduce the textbook step. -/
theorem consistent_is_textbook (T : Tableau)
    (hT : ∀ i < T.n, ∀ j < T.n, i ≤ j → T.a i j = 0) (hn : 0 < T.n)
    (C : ShuOsher) (hcons : Consistent T C) (dt : ℝ) (F : ℕ → V → V) (s : Sho V) :
    ButcherStep T.n T.a T.b dt F s.sol (s.advance T.n C dt F).sol := by
  -- tendencies of the Butcher integrator
  let e : Erk V := ⟨s.sol, s.sol, fun _ => 0, true⟩
  obtain ⟨K, hK, -⟩ := C20_butcher_is_textbook T dt F e (Or.inr rfl)
  have hfull : ∀ j < T.n, ∑ l ∈ range j, T.a j l • K l = ∑ l ∈ range T.n, T.a j l • K l := by
    intro j hj
    refine Finset.sum_subset (Finset.range_subset_range.2 hj.le) fun l hl hl' => ?_
    rw [hT j hj l (Finset.mem_range.1 hl) (by simpa using hl'), zero_smul]
  have hsm : ∀ c : ℕ → ℝ, ∀ m, ∑ l ∈ range m, c l • (dt • K l) = dt • ∑ l ∈ range m, c l • K l := by
    intro c m
    rw [Finset.smul_sum]
    exact Finset.sum_congr rfl fun l _ => smul_comm _ _ _
  have hK' : ∀ j < T.n, dt • K j
      = dt • F j (s.sol + ∑ l ∈ range T.n, T.a j l • (dt • K l)) := by
    intro j hj
    rw [hsm, ← hfull j hj]
    exact congrArg (dt • ·) (hK j hj)
  obtain ⟨h1, -⟩ := sho_loop T C hcons hT dt F (fun j => dt • K j) s hK' T.n le_rfl
  refine ⟨K, hK, ?_⟩
  have := h1 (Or.inr hn)
  rw [Sho.advance, this, hsm]
  congr 2
  refine Finset.sum_congr rfl fun l _ => ?_
  simp [Tableau.butcher]

/-- C20: for every explicit tableau whose conversion is defined, a step of the Shu-Osher
integrator with the converted coefficients performs the textbook step of the tableau. -/
theorem C20_shuosher_is_textbook (T : Tableau)
    (hT : ∀ i < T.n, ∀ j < T.n, i ≤ j → T.a i j = 0) (hn : 0 < T.n) (htiny : NoTinyEntries T)
    (C : ShuOsher) (hC : toShuOsher T = some C) (dt : ℝ) (F : ℕ → V → V) (s : Sho V) :
    ButcherStep T.n T.a T.b dt F s.sol (s.advance T.n C dt F).sol := by
  have hdet : T.aa.det ≠ 0 := by
    intro h; simp [toShuOsher, h] at hC
  have hC' : C = ⟨T.alpha, T.beta⟩ := by
    simp only [toShuOsher, if_neg hdet, Option.some.injEq] at hC
    rw [← hC]
    congr 1
    · funext i j; exact chop_eq (htiny i j).1
    · funext i j; exact chop_eq (htiny i j).2
  exact consistent_is_textbook T hT hn C (hC' ▸ toShuOsher_consistent T hT hdet) dt F s

/-- C20: both integrators give the same new solution. -/
theorem C20_shuosher_eq_butcher (T : Tableau)
    (hT : ∀ i < T.n, ∀ j < T.n, i ≤ j → T.a i j = 0) (hn : 0 < T.n) (htiny : NoTinyEntries T)
    (C : ShuOsher) (hC : toShuOsher T = some C) (dt : ℝ) (F : ℕ → V → V) (s : Sho V) (e : Erk V)
    (hse : e.sol = s.sol) (he : e.inited = false ∨ e.old = e.sol) :
    (s.advance T.n C dt F).sol = (e.advance T dt F).sol := by
  have h1 := C20_shuosher_is_textbook T hT hn htiny C hC dt F s
  have h2 := C20_butcher_is_textbook T dt F e he
  rw [hse] at h2
  exact butcherStep_unique h1 h2

/-- The conversion of an explicit tableau is defined iff every subdiagonal entry of `a` and the
last weight are nonzero (otherwise `numpy.linalg.inv` raises). -/
theorem C20_conversion_defined (T : Tableau)
    (hT : ∀ i < T.n, ∀ j < T.n, i ≤ j → T.a i j = 0) :
    (toShuOsher T).isSome ↔ ∀ i < T.n, T.butcher (i + 1) i ≠ 0 := by
  have hlow : T.aa.BlockTriangular OrderDual.toDual := by
    intro i j hij
    have hij : i < j := OrderDual.toDual_lt_toDual.1 hij
    have hi : (i : ℕ) + 1 < T.n := lt_of_le_of_lt (Nat.succ_le_of_lt hij) j.2
    simp only [Tableau.aa, Matrix.of_apply, Tableau.butcher, hi, if_true]
    exact hT _ hi _ j.2 (Nat.succ_le_of_lt hij)
  have hdet : T.aa.det = ∏ i : Fin T.n, T.aa i i := Matrix.det_of_isLowerTriangular _ hlow
  have h : (toShuOsher T).isSome ↔ T.aa.det ≠ 0 := by
    unfold toShuOsher
    split <;> simp_all
  rw [h, hdet, Finset.prod_ne_zero_iff]
  constructor
  · intro H i hi
    have := H ⟨i, hi⟩ (Finset.mem_univ _)
    simpa [Tableau.aa] using this
  · intro H i _
    have := H i i.2
    simpa [Tableau.aa] using this

/-- The conversion of an implicit tableau (no zero on the diagonal): stage values and final value
are reproduced by the converted coefficients, whose rows sum to one and whose stage part is
strictly lower triangular. -/
theorem C20_implicit_conversion (T : Tableau)
    (hT : ∀ i < T.n, ∀ j < T.n, i < j → T.a i j = 0) (hdiag : ∀ i < T.n, T.a i i ≠ 0)
    (u : V) (K : Fin T.n → V) (U : Fin T.n → V) (u' : V)
    (hU : ∀ i, U i = u + ∑ j : Fin T.n, T.a i j • K j) (hu' : u' = u + ∑ j : Fin T.n, T.b j • K j) :
    (∀ i : Fin T.n, U i = T.alphaI0 i • u + ∑ j, T.alphaI i j • U j + ∑ j, T.betaI i j • K j) ∧
    u' = T.alphaI0 T.n • u + ∑ j, T.alphaI T.n j • U j + ∑ j, T.betaI T.n j • K j ∧
    (∀ i j : Fin T.n, i ≤ j → T.alphaI i j = 0) ∧
    ∀ i, T.alphaI0 i + ∑ j, T.alphaI i j = 1 := by
  have hlow : ∀ i j : Fin T.n, i < j → T.aMat i j = 0 := fun i j h => hT i i.2 j j.2 h
  have hbt : T.aMat.BlockTriangular OrderDual.toDual := fun i j hij =>
    hlow i j (OrderDual.toDual_lt_toDual.1 hij)
  have hdet : T.aMat.det ≠ 0 := by
    rw [Matrix.det_of_isLowerTriangular _ hbt, Finset.prod_ne_zero_iff]
    exact fun i _ => hdiag i i.2
  have hD : T.be0I = Matrix.diagonal fun i => T.aMat i i := rfl
  have hdetD : T.be0I.det ≠ 0 := by
    rw [hD, Matrix.det_diagonal, Finset.prod_ne_zero_iff]
    exact fun i _ => hdiag i i.2
  -- general step: rows with `al * a = row - be`
  have key : ∀ (al be row : Fin T.n → ℝ), (∀ l, ∑ j, al j * T.aMat j l = row l - be l) →
      u + ∑ l, row l • K l = (1 - ∑ j, al j) • u + ∑ j, al j • U j + ∑ l, be l • K l := by
    intro al be row h
    have e : ∑ j, al j • U j = (∑ j, al j) • u + ∑ l, (row l - be l) • K l := by
      have : ∀ j, al j • U j = al j • u + ∑ l, (al j * T.aMat j l) • K l := by
        intro j
        rw [hU j, smul_add, Finset.smul_sum]
        simp only [smul_smul, Tableau.aMat, Matrix.of_apply]
      rw [Finset.sum_congr rfl fun j _ => this j, Finset.sum_add_distrib, ← Finset.sum_smul,
        Finset.sum_comm]
      congr 1
      refine Finset.sum_congr rfl fun l _ => ?_
      rw [← Finset.sum_smul, h l]
    rw [e, sub_smul, one_smul]
    have : ∑ l, row l • K l = ∑ l, (row l - be l) • K l + ∑ l, be l • K l := by
      rw [← Finset.sum_add_distrib]
      refine Finset.sum_congr rfl fun l _ => ?_
      rw [← add_smul]; congr 1; ring
    rw [this]; abel
  refine ⟨fun i => ?_, ?_, ?_, fun i => by unfold Tableau.alphaI0; ring⟩
  · rw [hU i]
    have hal : ∀ j, T.alphaI i j = T.al0I i j := fun j => by simp [Tableau.alphaI]
    have hbe : ∀ j, T.betaI i j = T.be0I i j := fun j => by simp [Tableau.betaI]
    have := key (T.al0I i) (T.be0I i) (fun l => T.a i l) (fun l => by
      have := congrFun (congrFun (al_mul T.aMat hdet) i) l
      rw [Matrix.mul_apply] at this
      exact this)
    rw [this]
    simp only [Tableau.alphaI0, hal, hbe, hU]
  · rw [hu']
    have hal : ∀ j, T.alphaI T.n j = T.al1I j := fun j => by simp [Tableau.alphaI]
    have hbe : ∀ j : Fin T.n, T.betaI T.n j = T.be1I j := fun j => by simp [Tableau.betaI]
    have h1 : (T.be0I)⁻¹ * (1 - T.al0I) * T.aMat = 1 := by
      have : (1 : Matrix (Fin T.n) (Fin T.n) ℝ) - T.al0I = T.be0I * (T.aMat)⁻¹ := by
        simp [Tableau.al0I]
      rw [this, ← mul_assoc, Matrix.nonsing_inv_mul _ (isUnit_iff_ne_zero.2 hdetD), one_mul,
        Matrix.nonsing_inv_mul _ (isUnit_iff_ne_zero.2 hdet)]
    have := key T.al1I (fun l => T.be1I l) (fun l => T.b l) (fun l => by
      have e : ∑ j, T.al1I j * T.aMat j l
          = ∑ m : Fin T.n, (T.b m - T.be1I m) * ((T.be0I)⁻¹ * (1 - T.al0I) * T.aMat) m l := by
        simp only [Tableau.al1I, Finset.sum_mul]
        rw [Finset.sum_comm]
        refine Finset.sum_congr rfl fun m _ => ?_
        rw [Matrix.mul_apply, Finset.mul_sum]
        exact Finset.sum_congr rfl fun j _ => mul_assoc _ _ _
      rw [e, h1, Finset.sum_eq_single l]
      · rw [Matrix.one_apply_eq, mul_one]
      · intro m _ hm; rw [Matrix.one_apply_ne hm, mul_zero]
      · intro h; exact absurd (Finset.mem_univ l) h)
    rw [this]
    simp only [Tableau.alphaI0, hal, hbe]
  · intro i j hij
    have : T.alphaI i j = T.al0I i j := by simp [Tableau.alphaI]
    rw [this]
    exact al_strict T.aMat hdet hlow i j hij

/-! A concrete case for the hypotheses: SSPRK33. -/

theorem ssprk33_notiny : NoTinyEntries ssprk33 := by
  intro i j
  constructor
  · rcases i with _ | i
    · rcases j with _ | j
      · right; norm_num [Tableau.alpha]
      · left; rfl
    · rcases j with _ | j
      · right
        rw [ssprk33_alpha0]
        split_ifs <;> norm_num [abs_of_pos]
      · simp only [Tableau.alpha, ssprk33_at0_al]
        split_ifs
        · right; norm_num [abs_of_pos]
        · right; norm_num [abs_of_pos]
        · left; rfl
  · rcases i with _ | i
    · left; rfl
    · simp only [Tableau.beta, ssprk33_at0_be]
      split_ifs
      · right; norm_num [abs_of_pos]
      · right; norm_num [abs_of_pos]
      · right; norm_num [abs_of_pos]
      · left; rfl

theorem ssprk33_lower : ∀ i < ssprk33.n, ∀ j < ssprk33.n, i ≤ j → ssprk33.a i j = 0 := by
  intro i hi j hj hij
  have hi : i < 3 := hi
  have hj : j < 3 := hj
  interval_cases i <;> interval_cases j <;> first | omega | rfl

theorem ssprk33_conv : toShuOsher ssprk33 = some ⟨ssprk33.alpha, ssprk33.beta⟩ := by
  simp only [toShuOsher, if_neg ssprk33_det, Option.some.injEq]
  congr 1
  · funext i j; exact chop_eq (ssprk33_notiny i j).1
  · funext i j; exact chop_eq (ssprk33_notiny i j).2

/-- The shipped `SSPRK33` performs the step of its Butcher tableau. -/
theorem C20_ssprk33 (dt : ℝ) (F : ℕ → V → V) (s : Sho V) :
    ButcherStep 3 ssprk33.a ssprk33.b dt F s.sol
      (s.advance 3 ⟨ssprk33.alpha, ssprk33.beta⟩ dt F).sol :=
  C20_shuosher_is_textbook ssprk33 ssprk33_lower (by decide) ssprk33_notiny _ ssprk33_conv dt F s

/-- The conversion raises for a tableau with a zero on the subdiagonal. -/
example : toShuOsher (mk [[0, 0], [0, 0]] [1 / 2, 1 / 2] [0, 0]) = none := by
  have h := C20_conversion_defined (mk [[0, 0], [0, 0]] [1 / 2, 1 / 2] [0, 0]) (by
    intro i hi j hj _
    have hi : i < 2 := hi
    have hj : j < 2 := hj
    interval_cases i <;> interval_cases j <;> rfl)
  rw [← Option.not_isSome_iff_eq_none, h]
  intro H
  exact H 0 (by decide) rfl

/-! ### C21: consistency and order -/

/-- Order conditions up to order three (Hairer, Norsett, Wanner). -/
noncomputable def order1 (T : Tableau) : ℝ := ∑ i ∈ range T.n, T.b i - 1
noncomputable def order2 (T : Tableau) : ℝ := ∑ i ∈ range T.n, T.b i * T.c i - 1 / 2
noncomputable def order3a (T : Tableau) : ℝ := ∑ i ∈ range T.n, T.b i * T.c i ^ 2 - 1 / 3
noncomputable def order3b (T : Tableau) : ℝ :=
  ∑ i ∈ range T.n, ∑ j ∈ range T.n, T.b i * T.a i j * T.c j - 1 / 6

/-- Tableau accepted by the base class and of order at least `p` (for `p ≤ 3`). -/
def HasOrder (T : Tableau) (p : ℕ) : Prop :=
  T.Accepted ∧ order1 T = 0 ∧ (2 ≤ p → order2 T = 0) ∧ (3 ≤ p → order3a T = 0 ∧ order3b T = 0)

theorem γ22_eq : γ22 ^ 2 - 2 * γ22 + 1 / 2 = 0 := by
  have h : Real.sqrt 2 ^ 2 = 2 := Real.sq_sqrt (by norm_num)
  unfold γ22; nlinarith [h]

theorem γ23_eq : γ23 ^ 2 - γ23 + 1 / 6 = 0 := by
  have h : Real.sqrt 3 ^ 2 = 3 := Real.sq_sqrt (by norm_num)
  unfold γ23; nlinarith [h]

theorem hasOrder_one (a b c : ℝ) (p : ℕ) (h0 : a = c) (h1 : b = 1) (h2 : 2 ≤ p → b * c = 1 / 2)
    (h3 : p < 3) : HasOrder (mk [[a]] [b] [c]) p := by
  have hn : (mk [[a]] [b] [c]).n = 1 := rfl
  refine ⟨⟨?_, ?_⟩, ?_, fun hp => ?_, by omega⟩
  · rw [hn]; omega
  · intro i hi
    rw [hn] at hi
    interval_cases i
    simp [mk, vec, h0]
  · simp [order1, mk, vec, h1]
  · have := h2 hp
    simp only [order2, hn, Finset.sum_range_one]
    simp only [mk, vec, List.getD_cons_zero]
    linarith

theorem hasOrder_two (a00 a10 a11 b0 b1 c0 c1 : ℝ) (p : ℕ) (h0 : a00 = c0) (h0' : a10 + a11 = c1)
    (h1 : b0 + b1 = 1) (h2 : 2 ≤ p → b0 * c0 + b1 * c1 = 1 / 2)
    (h3 : 3 ≤ p → b0 * c0 ^ 2 + b1 * c1 ^ 2 = 1 / 3 ∧
      b0 * a00 * c0 + b1 * a10 * c0 + b1 * a11 * c1 = 1 / 6) :
    HasOrder (mk [[a00, 0], [a10, a11]] [b0, b1] [c0, c1]) p := by
  have hn : (mk [[a00, 0], [a10, a11]] [b0, b1] [c0, c1]).n = 2 := rfl
  refine ⟨⟨?_, ?_⟩, ?_, fun hp => ?_, fun hp => ⟨?_, ?_⟩⟩
  · rw [hn]
    intro i hi j hj hij
    interval_cases i <;> interval_cases j <;> first | omega | rfl
  · rw [hn]
    intro i hi
    interval_cases i <;> simp [mk, vec, Finset.sum_range_succ, h0, h0']
  · simp [order1, mk, vec, Finset.sum_range_succ, h1]
  · simp only [order2, hn, Finset.sum_range_succ, Finset.sum_range_zero]
    simp [mk, vec]
    linarith [h2 hp]
  · simp only [order3a, hn, Finset.sum_range_succ, Finset.sum_range_zero]
    simp [mk, vec]
    linarith [(h3 hp).1]
  · simp only [order3b, hn, Finset.sum_range_succ, Finset.sum_range_zero]
    simp [mk, vec]
    linarith [(h3 hp).2]

theorem hasOrder_three (a00 a10 a11 a20 a21 a22 b0 b1 b2 c0 c1 c2 : ℝ) (p : ℕ) (h0 : a00 = c0)
    (h0' : a10 + a11 = c1) (h0'' : a20 + a21 + a22 = c2)
    (h1 : b0 + b1 + b2 = 1) (h2 : 2 ≤ p → b0 * c0 + b1 * c1 + b2 * c2 = 1 / 2)
    (h3 : 3 ≤ p → b0 * c0 ^ 2 + b1 * c1 ^ 2 + b2 * c2 ^ 2 = 1 / 3 ∧
      b0 * a00 * c0 + (b1 * a10 * c0 + b1 * a11 * c1)
        + (b2 * a20 * c0 + b2 * a21 * c1 + b2 * a22 * c2) = 1 / 6) :
    HasOrder (mk [[a00, 0, 0], [a10, a11, 0], [a20, a21, a22]] [b0, b1, b2] [c0, c1, c2]) p := by
  have hn : (mk [[a00, 0, 0], [a10, a11, 0], [a20, a21, a22]] [b0, b1, b2] [c0, c1, c2]).n = 3 :=
    rfl
  refine ⟨⟨?_, ?_⟩, ?_, fun hp => ?_, fun hp => ⟨?_, ?_⟩⟩
  · rw [hn]
    intro i hi j hj hij
    interval_cases i <;> interval_cases j <;> first | omega | rfl
  · rw [hn]
    intro i hi
    interval_cases i <;> simp [mk, vec, Finset.sum_range_succ, h0, h0', h0'']
  · simp [order1, mk, vec, Finset.sum_range_succ, h1]
  · simp only [order2, hn, Finset.sum_range_succ, Finset.sum_range_zero]
    simp [mk, vec]
    linarith [h2 hp]
  · simp only [order3a, hn, Finset.sum_range_succ, Finset.sum_range_zero]
    simp [mk, vec]
    linarith [(h3 hp).1]
  · simp only [order3b, hn, Finset.sum_range_succ, Finset.sum_range_zero]
    simp [mk, vec]
    linarith [(h3 hp).2]

theorem C21_forwardEuler : HasOrder forwardEuler 1 :=
  hasOrder_one _ _ _ 1 rfl rfl (by omega) (by omega)
theorem C21_backwardEuler : HasOrder backwardEuler 1 :=
  hasOrder_one _ _ _ 1 rfl rfl (by omega) (by omega)
theorem C21_implicitMidpoint : HasOrder implicitMidpoint 2 :=
  hasOrder_one _ _ _ 2 rfl rfl (by norm_num) (by omega)
theorem C21_crankNicolson : HasOrder crankNicolson 2 :=
  hasOrder_two _ _ _ _ _ _ _ 2 rfl (by norm_num) (by norm_num) (by norm_num) (by omega)
theorem C21_esdirkTrapezoid : HasOrder esdirkTrapezoid 2 :=
  hasOrder_two _ _ _ _ _ _ _ 2 rfl (by norm_num) (by norm_num) (by norm_num) (by omega)
theorem C21_esdirkMidpoint : HasOrder esdirkMidpoint 2 :=
  hasOrder_two _ _ _ _ _ _ _ 2 rfl (by norm_num) (by norm_num) (by norm_num) (by omega)
theorem C21_erkMidpoint : HasOrder erkMidpoint 2 :=
  hasOrder_two _ _ _ _ _ _ _ 2 rfl (by norm_num) (by norm_num) (by norm_num) (by omega)
theorem C21_dirk22 : HasOrder dirk22 2 :=
  hasOrder_two _ _ _ _ _ _ _ 2 rfl (by ring) (by ring)
    (fun _ => by linear_combination -γ22_eq) (by omega)
theorem C21_dirk23 : HasOrder dirk23 3 :=
  hasOrder_two _ _ _ _ _ _ _ 3 rfl (by ring) (by ring)
    (fun _ => by ring)
    (fun _ => ⟨by linear_combination γ23_eq, by linear_combination -γ23_eq⟩)
theorem C21_dirkLSPUM2 : HasOrder dirkLSPUM2 2 :=
  hasOrder_three _ _ _ _ _ _ _ _ _ _ _ _ 2 rfl (by norm_num) (by norm_num) (by norm_num)
    (by norm_num) (by omega)
theorem C21_dirkLPUM2 : HasOrder dirkLPUM2 2 :=
  hasOrder_three _ _ _ _ _ _ _ _ _ _ _ _ 2 rfl (by norm_num) (by norm_num) (by norm_num)
    (by norm_num) (by omega)
theorem C21_erkLSPUM2 : HasOrder erkLSPUM2 2 :=
  hasOrder_three _ _ _ _ _ _ _ _ _ _ _ _ 2 rfl (by norm_num) (by norm_num) (by norm_num)
    (by norm_num) (by omega)
theorem C21_erkLPUM2 : HasOrder erkLPUM2 2 :=
  hasOrder_three _ _ _ _ _ _ _ _ _ _ _ _ 2 rfl (by norm_num) (by norm_num) (by norm_num)
    (by norm_num) (by omega)
theorem C21_ssprk33 : HasOrder ssprk33 3 :=
  hasOrder_three _ _ _ _ _ _ _ _ _ _ _ _ 3 rfl (by norm_num) (by norm_num) (by norm_num)
    (by norm_num) (fun _ => ⟨by norm_num, by norm_num⟩)

theorem C21_dirk43 : HasOrder dirk43 3 := by
  have hn : dirk43.n = 4 := rfl
  refine ⟨⟨?_, ?_⟩, ?_, fun _ => ?_, fun _ => ⟨?_, ?_⟩⟩
  · rw [hn]
    intro i hi j hj hij
    interval_cases i <;> interval_cases j <;> first | omega | rfl
  · rw [hn]
    intro i hi
    interval_cases i <;> norm_num [dirk43, mk, vec, Finset.sum_range_succ]
  · norm_num [order1, hn, dirk43, mk, vec, Finset.sum_range_succ]
  · norm_num [order2, hn, dirk43, mk, vec, Finset.sum_range_succ]
  · norm_num [order3a, hn, dirk43, mk, vec, Finset.sum_range_succ]
  · norm_num [order3b, hn, dirk43, mk, vec, Finset.sum_range_succ]

/-- `DIRK33` is accepted and first order; the conditions of order two and three hold up to the
ten decimals with which `gamma` is given. -/
theorem C21_dirk33_partial : HasOrder dirk33 1 ∧ |order2 dirk33| ≤ 1 / 10 ^ 11 ∧
    |order3a dirk33| ≤ 1 / 10 ^ 11 ∧ |order3b dirk33| ≤ 1 / 10 ^ 11 := by
  have hn : dirk33.n = 3 := rfl
  refine ⟨hasOrder_three _ _ _ _ _ _ _ _ _ _ _ _ 1 rfl (by ring)
    (by unfold b33₁ b33₂; ring) (by unfold b33₁ b33₂; ring) (by omega) (by omega), ?_, ?_, ?_⟩
  · rw [abs_le]
    constructor <;>
      norm_num [order2, hn, dirk33, mk, vec, Finset.sum_range_succ, b33₁, b33₂, γ33]
  · rw [abs_le]
    constructor <;>
      norm_num [order3a, hn, dirk33, mk, vec, Finset.sum_range_succ, b33₁, b33₂, γ33]
  · rw [abs_le]
    constructor <;>
      norm_num [order3b, hn, dirk33, mk, vec, Finset.sum_range_succ, b33₁, b33₂, γ33]

/-- With the decimal `gamma` the second order condition is not met exactly. -/
theorem C21_dirk33_not_exact : order2 dirk33 ≠ 0 := by
  have hn : dirk33.n = 3 := rfl
  norm_num [order2, hn, dirk33, mk, vec, Finset.sum_range_succ, b33₁, b33₂, γ33]

/-- The weights that the documentation of `DIRK22` prints (1/2, 1/2) are not second order; the
weights in the code are. -/
theorem C21_dirk22_doc_weights_wrong :
    order2 (mk [[γ22, 0], [1 - γ22, γ22]] [1 / 2, 1 / 2] [γ22, 1]) ≠ 0 := by
  have hn : (mk [[γ22, 0], [1 - γ22, γ22]] [1 / 2, 1 / 2] [γ22, 1]).n = 2 := rfl
  simp only [order2, hn, Finset.sum_range_succ, Finset.sum_range_zero]
  simp only [mk, vec, List.getD_cons_zero, List.getD_cons_succ]
  intro h
  have : γ22 = 0 := by linarith
  have := γ22_eq
  simp_all

/-- Implicit and explicit parts of the shipped implicit-explicit pairs: equal weights and the
coupling conditions of order two. -/
theorem C21_imex_coupling :
    (∀ i, erkLPUM2.b i = dirkLPUM2.b i) ∧ (∀ i, erkLSPUM2.b i = dirkLSPUM2.b i) ∧
    (∀ i, erkMidpoint.b i = esdirkMidpoint.b i) ∧
    ∑ i ∈ range 3, erkLPUM2.b i * dirkLPUM2.c i = 1 / 2 ∧
    ∑ i ∈ range 3, dirkLPUM2.b i * erkLPUM2.c i = 1 / 2 ∧
    ∑ i ∈ range 3, erkLSPUM2.b i * dirkLSPUM2.c i = 1 / 2 ∧
    ∑ i ∈ range 3, dirkLSPUM2.b i * erkLSPUM2.c i = 1 / 2 ∧
    ∑ i ∈ range 2, erkMidpoint.b i * esdirkMidpoint.c i = 1 / 2 ∧
    ∑ i ∈ range 2, esdirkMidpoint.b i * erkMidpoint.c i = 1 / 2 := by
  refine ⟨fun _ => rfl, fun _ => rfl, fun _ => rfl, ?_, ?_, ?_, ?_, ?_, ?_⟩ <;>
    norm_num [Finset.sum_range_succ, erkLPUM2, dirkLPUM2, erkLSPUM2, dirkLSPUM2, erkMidpoint,
      esdirkMidpoint, mk, vec]

/-! ### C22: solution form and tendency form -/

/-- C22 (partial: linear problems, or coefficients linearised around the last time step).  For
every stiffly accurate scheme with nonzero diagonal the two implementations give the same new
solution.  Missing: fully nonlinear residuals, for which the claim is false, see
`C22_nonlinear_violation`. -/
theorem C22_uform_eq_tendency_partial (T : Tableau) (hn : 0 < T.n)
    (hstiff : ∀ j < T.n, T.a (T.n - 1) j = T.b j) (hdiag : ∀ i < T.n, T.a i i ≠ 0)
    (dt : ℝ) (hdt : dt ≠ 0) (semi : Bool) (R : ℕ → V → V → V)
    (hlin : semi = true ∨ ∀ i u v w, R i u v = R i u w)
    (root : (V → V) → V) (hroot : RootFinder root) (hs : StagesSolvable T dt R)
    (s s' : Dirk V) (hss : s.sol = s'.sol) :
    (s'.advanceU T dt semi R root).sol = (s.advance T dt semi R root).sol := by
  obtain ⟨-, h2, -⟩ := uform_loop T dt semi R root hroot hs hdt hdiag hlin s s' hss T.n le_rfl
  obtain ⟨d1, d2, -⟩ := dirk_loop T dt semi R root hroot hs s T.n le_rfl
  simp only [Dirk.advanceU, Dirk.advance, Dirk.getFinal]
  rw [h2, d2, d1 hn]
  simp only [dirkStart, hn.ne', if_false]
  congr 1
  exact Finset.sum_congr rfl fun j hj => by rw [hstiff j (Finset.mem_range.1 hj)]

end

theorem exists_rootFinder {V : Type*} [AddCommGroup V] : ∃ root : (V → V) → V, RootFinder root := by
  classical
  refine ⟨fun G => if h : ∃ x, G x = 0 then h.choose else 0, fun G hG => ?_⟩
  obtain ⟨x, hx, -⟩ := hG
  have h : ∃ x, G x = 0 := ⟨x, hx⟩
  simp only [dif_pos h]
  exact h.choose_spec

/-- C22 fails for nonlinear residuals: for quadratic drag `R(u; v) = -v² u`, backward Euler with
`dt = 1` from `u = 2` (every stage equation uniquely solvable in both forms), the solution form
returns 1 and the tendency form 2/5.  The tendency form evaluates the coefficient at the old
solution even though semi-implicit linearisation is switched off. -/
theorem C22_nonlinear_violation (root : (ℝ → ℝ) → ℝ) (hroot : RootFinder root) (s : Dirk ℝ)
    (hs : s.sol = 2) :
    (s.advance backwardEuler 1 false (fun _ u v => -(v ^ 2 * u)) root).sol = 2 / 5 ∧
    (s.advanceU backwardEuler 1 false (fun _ u v => -(v ^ 2 * u)) root).sol = 1 := by
  have hn : backwardEuler.n = 1 := rfl
  have ha : backwardEuler.a 0 0 = 1 := rfl
  have hb : backwardEuler.b 0 = 1 := rfl
  constructor
  · have hz := hroot (fun k : ℝ => -k + -((2 : ℝ) ^ 2 * (2 + 0 + (1 * 1 : ℝ) • k)))
      ⟨-8 / 5, by norm_num, fun y hy => by simp only [smul_eq_mul] at hy; linarith⟩
    simp only [Dirk.advance, hn, loop, Dirk.stage, Dirk.getFinal, Dirk.updateSolution,
      Dirk.solveTendency, Finset.sum_range_one, Finset.sum_range_zero, Function.update_self, ha, hb,
      hs, if_true, Bool.false_eq_true, if_false]
    set r := root (fun k : ℝ => -k + -((2 : ℝ) ^ 2 * (2 + 0 + (1 * 1 : ℝ) • k))) with hr
    simp only [smul_eq_mul] at hz ⊢
    linarith
  · have hz := hroot (fun u : ℝ => (u - 2) - ((1 * 1 : ℝ) • -(u ^ 2 * u) + 0))
      ⟨1, by norm_num, fun y hy => by
        simp only [smul_eq_mul] at hy
        have h : (y - 1) * (y ^ 2 + y + 2) = 0 := by linarith [hy]
        rcases mul_eq_zero.1 h with h | h
        · linarith
        · nlinarith [sq_nonneg (y + 1 / 2)]⟩
    simp only [Dirk.advanceU, hn, loop, Dirk.stageU, Finset.sum_range_zero, ha, hs, if_true,
      Bool.false_eq_true, if_false]
    set r := root (fun u : ℝ => (u - 2) - ((1 * 1 : ℝ) • -(u ^ 2 * u) + 0)) with hr
    simp only [smul_eq_mul] at hz
    have h : (r - 1) * (r ^ 2 + r + 2) = 0 := by linarith [hz]
    rcases mul_eq_zero.1 h with h | h
    · linarith
    · nlinarith [sq_nonneg (r + 1 / 2)]

end Verif.RK
