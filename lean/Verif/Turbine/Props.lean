import Verif.Turbine.Model
import Mathlib.Tactic.Linarith
import Mathlib.Tactic.FieldSimp
import Mathlib.Tactic.Ring
import Mathlib.Tactic.NormNum
import Mathlib.Tactic.Positivity
import Mathlib.Analysis.Calculus.Deriv.Pow
import Mathlib.Analysis.Calculus.Deriv.Add
import Mathlib.Analysis.Calculus.Deriv.Mul
import Mathlib.Algebra.BigOperators.Intervals
import Mathlib.Algebra.BigOperators.Ring.List

/-!
Properties C14 (turbine part), C40, C41, C62.
-/

namespace Verif.Turbine

/-! ### C14 -/

/-- C14: after any non-empty power history, for each farm, average power times elapsed period is
the sum of `power * dt`, the elapsed period is the number of steps times `dt`, and the profit is
the average minus break-even times number of turbines. -/
theorem C14_turbine {n : ℕ} (dt : ℚ) (hdt : 0 < dt) (be cost : Fin n → ℚ)
    (hist : List (Fin n → ℚ)) (hne : hist ≠ []) (i : Fin n) :
    let s := hist.foldl (Acc.step dt be cost) (Acc.init n)
    s.timePeriod = hist.length * dt ∧
    s.average i * s.timePeriod = (hist.map (fun p => p i * dt)).sum ∧
    s.integrated i = (hist.map (fun p => p i * dt)).sum ∧
    s.profit i = s.average i - be i * cost i := by
  have key : ∀ hist : List (Fin n → ℚ),
      let s := hist.foldl (Acc.step dt be cost) (Acc.init n)
      s.timePeriod = hist.length * dt ∧ s.integrated i = (hist.map (fun p => p i * dt)).sum ∧
      (hist ≠ [] → s.average i = s.integrated i / s.timePeriod ∧
        s.profit i = s.average i - be i * cost i) := by
    intro hist
    induction hist using List.reverseRecOn with
    | nil => simp [Acc.init]
    | append_singleton h p ih =>
      obtain ⟨h1, h2, -⟩ := ih
      simp only [List.foldl_append, List.foldl_cons, List.foldl_nil]
      refine ⟨?_, ?_, fun _ => ⟨rfl, rfl⟩⟩
      · simp only [Acc.step, h1, List.length_append, List.length_singleton]; push_cast; ring
      · simp [Acc.step, h2]
  obtain ⟨h1, h2, h3⟩ := key hist
  obtain ⟨h3, h4⟩ := h3 hne
  have hl : (0 : ℚ) < hist.length := by
    exact_mod_cast List.length_pos_of_ne_nil hne
  refine ⟨h1, ?_, h2, h4⟩
  rw [← h2, h3]
  have : (hist.foldl (Acc.step dt be cost) (Acc.init n)).timePeriod ≠ 0 := by
    rw [h1]; positivity
  field_simp

example : let s := [fun _ => 3, fun _ => 5].foldl (Acc.step (1/2) (fun _ : Fin 1 => 1)
    (fun _ => 2)) (Acc.init 1)
    (s.timePeriod, s.average 0, s.profit 0) = (1, 4, 2) := by decide +kernel

/-! ### C40 -/

section Table
variable {K : Type} [Field K] [LinearOrder K] [IsStrictOrderedRing K]

/-- Specification of linear interpolation in segment `i` of the table. -/
def segment (x0 x1 y0 y1 x : K) : K := y0 + (y1 - y0) * (x - x0) / (x1 - x0)

theorem below_eq (x0 x1 y0 y1 x : K) (h : x0 < x1) :
    ((x1 - x) * y0 + (x - x0) * y1) / (x1 - x0) = segment x0 x1 y0 y1 x := by
  have : x1 - x0 ≠ 0 := by linarith [sub_pos.2 h] |> fun h => h
  unfold segment
  field_simp
  ring

omit [IsStrictOrderedRing K] in
theorem interpTable_isSome (xs ys : List K) (h : xs.length = ys.length) (h2 : 2 ≤ xs.length)
    (yf x : K) : ∃ v, interpTable xs ys yf x = some v := by
  induction xs generalizing ys with
  | nil => simp at h2
  | cons x0 xs ih =>
    match xs, ys, h with
    | [], _, _ => simp at h2
    | [x1], [y0, y1], _ => exact ⟨_, by simp [interpTable]; rfl⟩
    | x1 :: x2 :: xs', y0 :: y1 :: ys', h =>
      obtain ⟨v, hv⟩ := ih (y1 :: ys') (by simpa using h) (by simp)
      simp [interpTable, hv]

theorem interpTable_segment (xs ys : List K) (hl : xs.length = ys.length)
    (hs : xs.Pairwise (· < ·)) (yf x : K) (i : ℕ) (hi : i + 1 < xs.length)
    (h0 : xs[i] ≤ x) (h1 : x < xs[i + 1]) :
    interpTable xs ys yf x = some (segment xs[i] xs[i + 1] (ys[i]'(by omega)) (ys[i + 1]'(by omega)) x) := by
  induction xs generalizing ys i with
  | nil => simp at hi
  | cons x0 xs ih =>
    match xs, ys, hl with
    | [], _, _ => simp at hi
    | [x1], [y0, y1], _ =>
      have : i = 0 := by simp at hi; omega
      subst this
      simp only [List.getElem_cons_zero, List.getElem_cons_succ, zero_add] at h0 h1 ⊢
      have hlt : x0 < x1 := by simpa using hs
      simp only [interpTable, h1, if_true]
      rw [below_eq _ _ _ _ _ hlt]
    | x1 :: x2 :: xs', y0 :: y1 :: ys', hl =>
      rw [List.pairwise_cons] at hs
      have hlt : x0 < x1 := hs.1 x1 (by simp)
      cases i with
      | zero =>
        simp only [List.getElem_cons_zero, List.getElem_cons_succ, zero_add] at h0 h1 ⊢
        obtain ⟨v, hv⟩ := interpTable_isSome (x1 :: x2 :: xs') (y1 :: ys') (by simpa using hl)
          (by simp) yf x
        simp only [interpTable, hv, Option.map_some, h1, if_true]
        rw [below_eq _ _ _ _ _ hlt]
      | succ i =>
        have := ih (y1 :: ys') (by simpa using hl) hs.2 i (by simp at hi ⊢; omega)
          (by simpa using h0) (by simpa using h1)
        simp only [interpTable, this, Option.map_some]
        have hx : ¬ x < x1 := by
          rw [not_lt]
          refine le_trans ?_ h0
          cases i with
          | zero => simp
          | succ k =>
            have h2 := hs.2
            rw [List.pairwise_cons] at h2
            simp only [List.getElem_cons_succ]
            exact le_of_lt (h2.1 _ (List.getElem_mem _))
        rw [if_neg hx]
        rfl

omit [IsStrictOrderedRing K] in
theorem tabulated_eq (xs ys : List K) (hl : ys.length = xs.length) (x v : K)
    (h0 : 0 < xs.length) (hv : interpTable xs ys 0 x = some v) :
    tabulated xs ys x = some (if x < xs[0] then 0 else v) := by
  unfold tabulated
  rw [if_neg (not_not.2 hl)]
  cases xs with
  | nil => simp at h0
  | cons s0 rest => simp [hv]

omit [IsStrictOrderedRing K] in
theorem interpTable_last (xs ys : List K) (hl : xs.length = ys.length)
    (hs : xs.Pairwise (· < ·)) (h2 : 2 ≤ xs.length) (yf x : K) (h : ∀ s ∈ xs, s ≤ x) :
    interpTable xs ys yf x = some yf := by
  induction xs generalizing ys with
  | nil => simp at h2
  | cons x0 xs ih =>
    match xs, ys, hl with
    | [], _, _ => simp at h2
    | [x1], [y0, y1], _ =>
      have : ¬ x < x1 := not_lt.2 (h x1 (by simp))
      simp [interpTable, this]
    | x1 :: x2 :: xs', y0 :: y1 :: ys', hl =>
      rw [List.pairwise_cons] at hs
      have := ih (y1 :: ys') (by simpa using hl) hs.2 (by simp) (fun s hs => h s (by simp [hs]))
      have hx : ¬ x < x1 := not_lt.2 (h x1 (by simp))
      simp [interpTable, this, hx]

/-- C40: in every segment of every strictly increasing table the coefficient is the linear
interpolant; in particular it equals the table entry at every tabulated speed but the last. -/
theorem C40_segment_partial (xs ys : List K) (hl : ys.length = xs.length)
    (hs : xs.Pairwise (· < ·)) (x : K) (i : ℕ) (hi : i + 1 < xs.length)
    (h0 : xs[i] ≤ x) (h1 : x < xs[i + 1]) :
    tabulated xs ys x =
      some (segment xs[i] xs[i + 1] (ys[i]'(by omega)) (ys[i + 1]'(by omega)) x) ∧
    (x = xs[i] → tabulated xs ys x = some (ys[i]'(by omega))) := by
  have key : tabulated xs ys x =
      some (segment xs[i] xs[i + 1] (ys[i]'(by omega)) (ys[i + 1]'(by omega)) x) := by
    rw [tabulated_eq xs ys hl x _ (by omega) (interpTable_segment xs ys hl.symm hs 0 x i hi h0 h1)]
    have hx : ¬ x < xs[0] := by
      rw [not_lt]
      refine le_trans ?_ h0
      rcases Nat.eq_zero_or_pos i with rfl | hp
      · exact le_refl _
      · exact le_of_lt (List.pairwise_iff_getElem.1 hs 0 i (by omega) (by omega) hp)
    rw [if_neg hx]
  refine ⟨key, fun hx => ?_⟩
  rw [key, hx]
  simp [segment]

omit [IsStrictOrderedRing K] in
/-- C40: zero below the first and at or above the last speed. -/
theorem C40_outside (xs ys : List K) (hl : ys.length = xs.length) (hs : xs.Pairwise (· < ·))
    (h2 : 2 ≤ xs.length) (x : K) (h : x < xs[0] ∨ xs[xs.length - 1] ≤ x) :
    tabulated xs ys x = some 0 := by
  obtain ⟨v, hv⟩ := interpTable_isSome xs ys hl.symm h2 0 x
  rcases h with h | h
  · rw [tabulated_eq xs ys hl x v (by omega) hv, if_pos h]
  · have hle : ∀ s ∈ xs, s ≤ x := by
      intro s hsm
      obtain ⟨k, hk, rfl⟩ := List.getElem_of_mem hsm
      refine le_trans ?_ h
      rcases Nat.lt_or_ge k (xs.length - 1) with hlt | hge
      · exact le_of_lt (List.pairwise_iff_getElem.1 hs k (xs.length - 1) hk (by omega) hlt)
      · have : k = xs.length - 1 := by omega
        subst this; exact le_refl _
    have := interpTable_last xs ys hl.symm hs h2 0 x hle
    rw [tabulated_eq xs ys hl x 0 (by omega) this, ite_self]

theorem segment_mem (x0 x1 y0 y1 x lo hi : K) (h : x0 < x1) (h0 : x0 ≤ x) (h1 : x ≤ x1)
    (a : lo ≤ y0 ∧ y0 ≤ hi) (b : lo ≤ y1 ∧ y1 ≤ hi) :
    lo ≤ segment x0 x1 y0 y1 x ∧ segment x0 x1 y0 y1 x ≤ hi := by
  have hd : 0 < x1 - x0 := sub_pos.2 h
  rw [← below_eq _ _ _ _ _ h]
  rw [le_div_iff₀ hd, div_le_iff₀ hd]
  constructor <;> nlinarith [mul_nonneg (sub_nonneg.2 h1) (sub_nonneg.2 a.1),
    mul_nonneg (sub_nonneg.2 h1) (sub_nonneg.2 a.2),
    mul_nonneg (sub_nonneg.2 h0) (sub_nonneg.2 b.1),
    mul_nonneg (sub_nonneg.2 h0) (sub_nonneg.2 b.2)]

/-- C40: for every speed the coefficient lies in any interval containing zero and the table. -/
theorem C40_range (xs ys : List K) (hl : ys.length = xs.length) (hs : xs.Pairwise (· < ·))
    (h2 : 2 ≤ xs.length) (lo hi : K) (hlo : lo ≤ 0) (hhi : 0 ≤ hi)
    (hy : ∀ y ∈ ys, lo ≤ y ∧ y ≤ hi) (x : K) :
    ∃ v, tabulated xs ys x = some v ∧ lo ≤ v ∧ v ≤ hi := by
  by_cases hout : x < xs[0] ∨ xs[xs.length - 1] ≤ x
  · exact ⟨0, C40_outside xs ys hl hs h2 x hout, hlo, hhi⟩
  · push Not at hout
    -- the last index whose speed does not exceed x
    have hex : ∃ i, ∃ hi : i + 1 < xs.length, xs[i] ≤ x ∧ x < xs[i + 1] := by
      by_contra hno
      push Not at hno
      have : ∀ i, ∀ h : i < xs.length, xs[i] ≤ x := by
        intro i
        induction i with
        | zero => intro _; exact hout.1
        | succ i ih => intro h; exact hno i h (ih (by omega))
      exact absurd (this (xs.length - 1) (by omega)) (not_le.2 hout.2)
    obtain ⟨i, hi', h0, h1⟩ := hex
    refine ⟨_, (C40_segment_partial xs ys hl hs x i hi' h0 h1).1, ?_⟩
    exact segment_mem _ _ _ _ _ _ _ (List.pairwise_iff_getElem.1 hs i (i + 1) (by omega) hi' (by omega))
      h0 (le_of_lt h1) (hy _ (List.getElem_mem _)) (hy _ (List.getElem_mem _))

omit [IsStrictOrderedRing K] in
/-- C40, error branch: a table with fewer than two speeds, or with unequal lengths, is rejected. -/
theorem C40_short_table (xs ys : List K) (x : K) (h : xs.length < 2 ∨ ys.length ≠ xs.length) :
    tabulated xs ys x = none := by
  unfold tabulated
  by_cases hl : ys.length ≠ xs.length
  · rw [if_pos hl]
  · rw [if_neg hl]
    rcases h with h | h
    · match xs, h with
      | [], _ => rfl
      | [s], _ => simp [interpTable]
    · exact absurd h hl

omit [IsStrictOrderedRing K] in
/-- C40 is violated at the last tabulated speed: the coefficient is zero there, not the table
entry, for every table. -/
theorem C40_last_speed_violated (xs ys : List K) (hl : ys.length = xs.length)
    (hs : xs.Pairwise (· < ·)) (h2 : 2 ≤ xs.length) (hy : ys[xs.length - 1]'(by omega) ≠ 0) :
    tabulated xs ys xs[xs.length - 1] ≠ some (ys[xs.length - 1]'(by omega)) := by
  rw [C40_outside xs ys hl hs h2 _ (Or.inr (le_refl _))]
  intro h
  exact hy (Option.some.inj h).symm

end Table

example : tabulated [1, 2, 4] [(8/10 : ℚ), 6/10, 2/10] 3 = some (4/10) ∧
    tabulated [1, 2, 4] [(8/10 : ℚ), 6/10, 2/10] 2 = some (6/10) ∧
    tabulated [1, 2, 4] [(8/10 : ℚ), 6/10, 2/10] 4 = some 0 ∧
    tabulated [1, 2, 4] [(8/10 : ℚ), 6/10, 2/10] (1/2) = some 0 := by decide +kernel

/-! ### C41 -/

/-- C41: the constraints enumerate each unordered pair of turbines exactly once. -/
theorem C41_pairs (n : ℕ) : (pairs n).Nodup ∧ ∀ i j, (i, j) ∈ pairs n ↔ j < i ∧ i < n := by
  constructor
  · unfold pairs
    rw [List.nodup_flatMap]
    constructor
    · intro i _
      exact (List.nodup_range.filter _).map (fun a b h => (Prod.mk.inj h).2)
    · refine List.Pairwise.imp ?_ (List.nodup_range (n := n))
      intro a b hab
      simp only [Function.onFun, List.Disjoint, List.mem_map]
      rintro p ⟨_, _, rfl⟩ ⟨_, _, h⟩
      exact hab (Prod.mk.inj h).1.symm
  · intro i j
    simp only [pairs, List.mem_flatMap, List.mem_range, List.mem_map, List.mem_filter,
      Prod.mk.injEq, decide_eq_true_eq]
    constructor
    · rintro ⟨a, ha, b, ⟨hb, hab⟩, rfl, rfl⟩; omega
    · rintro ⟨h1, h2⟩; exact ⟨i, h2, j, ⟨by omega, by omega⟩, rfl, rfl⟩

theorem filter_range_length (n i : ℕ) (h : i ≤ n) :
    ((List.range n).filter (fun j => ¬ i ≤ j)).length = i := by
  induction n with
  | zero => simp; omega
  | succ n ih =>
    rw [List.range_succ, List.filter_append, List.length_append]
    by_cases hi : i ≤ n
    · rw [ih hi]; simp [hi]
    · have : i = n + 1 := by omega
      subst this
      have e : (List.range n).filter (fun j => ¬ n + 1 ≤ j) = List.range n := by
        rw [List.filter_eq_self]; intro a ha; simp at ha ⊢; omega
      rw [e]; simp

/-- C41: the announced number of constraints and Jacobian rows is the actual one. -/
theorem C41_length {K : Type} [Field K] (d : K) (n : ℕ) (m : ℕ → K) :
    (constraints d n m).length = nConstraints n ∧ (jacobian n m).length = nConstraints n := by
  have key : (pairs n).length = nConstraints n := by
    unfold pairs nConstraints
    rw [List.length_flatMap]
    have e : (List.range n).map (fun i => (((List.range n).filter
        (fun j => ¬ i ≤ j)).map (fun j => (i, j))).length) = (List.range n).map id := by
      apply List.map_congr_left
      intro i hi
      rw [List.length_map, filter_range_length n i (le_of_lt (by simpa using hi))]
      rfl
    rw [e, List.map_id]
    have h := Finset.sum_range_id_mul_two n
    have e2 : (List.range n).sum = ∑ i ∈ Finset.range n, i := by
      clear h e
      induction n with
      | zero => rfl
      | succ n ih => rw [List.range_succ, List.sum_append, ih, Finset.sum_range_succ]; simp
    rw [e2]; omega
  exact ⟨by rw [constraints, List.length_map, key], by rw [jacobian, List.length_map, key]⟩

/-- C41: all constraints are non-negative exactly when all pairs of distinct turbines are at
least the minimum distance apart (Euclidean distance, non-negative minimum distance). -/
theorem C41_feasible (d : ℝ) (hd : 0 ≤ d) (n : ℕ) (m : ℕ → ℝ) :
    (∀ c ∈ constraints d n m, 0 ≤ c) ↔
      ∀ i j, i < n → j < n → i ≠ j →
        d ≤ Real.sqrt ((m (2 * i) - m (2 * j)) ^ 2 + (m (2 * i + 1) - m (2 * j + 1)) ^ 2) := by
  have point : ∀ i j, 0 ≤ constraint d m (i, j) ↔
      d ≤ Real.sqrt ((m (2 * i) - m (2 * j)) ^ 2 + (m (2 * i + 1) - m (2 * j + 1)) ^ 2) := by
    intro i j
    rw [Real.le_sqrt hd (by positivity)]
    unfold constraint
    constructor <;> intro h <;> simp only at h ⊢ <;> linarith
  constructor
  · intro h i j hi hj hij
    rcases Nat.lt_or_gt_of_ne hij with h1 | h1
    · have := (point j i).1 (h _ (List.mem_map.2 ⟨(j, i), ((C41_pairs n).2 j i).2 ⟨h1, hj⟩, rfl⟩))
      rw [show (m (2 * i) - m (2 * j)) ^ 2 + (m (2 * i + 1) - m (2 * j + 1)) ^ 2
        = (m (2 * j) - m (2 * i)) ^ 2 + (m (2 * j + 1) - m (2 * i + 1)) ^ 2 by ring]
      exact this
    · exact (point i j).1 (h _ (List.mem_map.2 ⟨(i, j), ((C41_pairs n).2 i j).2 ⟨h1, hi⟩, rfl⟩))
  · intro h c hc
    obtain ⟨⟨i, j⟩, hp, rfl⟩ := List.mem_map.1 hc
    have := ((C41_pairs n).2 i j).1 hp
    exact (point i j).2 (h i j this.2 (by omega) (by omega))

theorem jacobianRow_apply {K : Type} [Field K] (m : ℕ → K) (i j : ℕ) (h : j < i) (k : ℕ) :
    jacobianRow m (i, j) k =
      if k = 2 * i then 2 * (m (2 * i) - m (2 * j))
      else if k = 2 * j then -2 * (m (2 * i) - m (2 * j))
      else if k = 2 * i + 1 then 2 * (m (2 * i + 1) - m (2 * j + 1))
      else if k = 2 * j + 1 then -2 * (m (2 * i + 1) - m (2 * j + 1)) else 0 := by
  simp only [jacobianRow, Function.update_apply]
  split_ifs <;> first | rfl | omega

/-- C41: for each pair, in the same order as the constraints, the Jacobian row is the exact
derivative: along every direction `v` the derivative of the constraint is `row · v`. -/
theorem C41_jacobian (d : ℝ) (n : ℕ) (m v : ℕ → ℝ) (r : ℕ) (hr : r < (pairs n).length) :
    HasDerivAt (fun t : ℝ => (constraints d n (fun k => m k + t * v k))[r]'(by
        rw [constraints, List.length_map]; exact hr))
      (∑ k ∈ Finset.range (2 * n), ((jacobian n m)[r]'(by
        rw [jacobian, List.length_map]; exact hr)) k * v k) 0 := by
  obtain ⟨⟨i, j⟩, hp⟩ : ∃ p, (pairs n)[r] = p := ⟨_, rfl⟩
  have hmem : (i, j) ∈ pairs n := hp ▸ List.getElem_mem hr
  obtain ⟨hji, hin⟩ := ((C41_pairs n).2 i j).1 hmem
  have hj : (jacobian n m)[r]'(by rw [jacobian, List.length_map]; exact hr) =
      jacobianRow m (i, j) := by
    rw [← hp]; exact List.getElem_map _
  simp only [constraints, List.getElem_map, hp]
  rw [hj]
  have hsum : (∑ k ∈ Finset.range (2 * n), jacobianRow m (i, j) k * v k) =
      2 * (m (2 * i) - m (2 * j)) * (v (2 * i) - v (2 * j)) +
      2 * (m (2 * i + 1) - m (2 * j + 1)) * (v (2 * i + 1) - v (2 * j + 1)) := by
    have e : ∀ k, jacobianRow m (i, j) k * v k =
        (if k = 2 * i then 2 * (m (2 * i) - m (2 * j)) * v k else 0) +
        (if k = 2 * j then -2 * (m (2 * i) - m (2 * j)) * v k else 0) +
        (if k = 2 * i + 1 then 2 * (m (2 * i + 1) - m (2 * j + 1)) * v k else 0) +
        (if k = 2 * j + 1 then -2 * (m (2 * i + 1) - m (2 * j + 1)) * v k else 0) := by
      intro k
      rw [jacobianRow_apply m i j hji k]
      split_ifs <;> first | omega | ring
    simp only [e, Finset.sum_add_distrib, Finset.sum_ite_eq', Finset.mem_range]
    rw [if_pos (by omega), if_pos (by omega), if_pos (by omega), if_pos (by omega)]
    ring
  rw [hsum]
  have hpoly : (fun t : ℝ => constraint d (fun k => m k + t * v k) (i, j)) =
      fun t => constraint d m (i, j) + t * (2 * (m (2 * i) - m (2 * j)) * (v (2 * i) - v (2 * j)) +
        2 * (m (2 * i + 1) - m (2 * j + 1)) * (v (2 * i + 1) - v (2 * j + 1))) +
        t ^ 2 * ((v (2 * i) - v (2 * j)) ^ 2 + (v (2 * i + 1) - v (2 * j + 1)) ^ 2) := by
    funext t; unfold constraint; ring
  rw [hpoly]
  generalize 2 * (m (2 * i) - m (2 * j)) * (v (2 * i) - v (2 * j)) +
    2 * (m (2 * i + 1) - m (2 * j + 1)) * (v (2 * i + 1) - v (2 * j + 1)) = A
  generalize (v (2 * i) - v (2 * j)) ^ 2 + (v (2 * i + 1) - v (2 * j + 1)) ^ 2 = B
  have := (((hasDerivAt_id (0 : ℝ)).mul_const A).const_add (constraint d m (i, j))).add
      ((hasDerivAt_pow 2 (0 : ℝ)).mul_const B)
  have e : 1 * A + ((2 : ℕ) : ℝ) * 0 ^ (2 - 1) * B = A := by norm_num
  rw [e] at this
  exact this

/-- Three turbines: three constraints, in the order (1,0), (2,0), (2,1). -/
example : pairs 3 = [(1, 0), (2, 0), (2, 1)] ∧
    constraints (2 : ℚ) 2 (fun k => if k = 2 then 3 else 0) = [5] := by decide +kernel

/-! ### C62: upwind correction and power -/

/-- C62: the thrust area is that of the swept disc plus that of the support structure, also when the
support coefficient is zero (treated as false in the code). -/
theorem C62_support (π CT diameter Cs As : ℝ) :
    thrustArea π CT diameter Cs As = CT * (π * (diameter / 2) ^ 2) + Cs * As := by
  unfold thrustArea
  by_cases h : Cs = 0
  · simp only [h]; norm_num; left; ring
  · simp only [if_pos h]; ring

/-- C62: with upwind correction and a thrust area up to the blocked cross-section, the correction
factor lies in [1/2, 1] and satisfies the actuator-disc relation `A_t = 4 α (1 - α) D H`, so that
the applied friction `c_t |u|²` with the local speed `u = α u∞` equals the thrust `½ C_t A u∞²`. -/
theorem C62_upwind (fric D H uInf : ℝ) (hD : 0 < D * H) (h0 : 0 ≤ fric) (h1 : fric ≤ D * H) :
    let α := velocityCorrection true fric D H
    1 / 2 ≤ α ∧ α ≤ 1 ∧ fric = 4 * α * (1 - α) * (D * H) ∧
    frictionCoefficient true fric D H * (α * uInf) ^ 2 = fric / 2 * uInf ^ 2 := by
  intro α
  have hα : α = 1 / 2 * (1 + Real.sqrt (1 - fric / (D * H))) := by simp [α, velocityCorrection]
  have hq0 : 0 ≤ fric / (D * H) := div_nonneg h0 hD.le
  have hq1 : fric / (D * H) ≤ 1 := by rw [div_le_one hD]; exact h1
  have hs0 := Real.sqrt_nonneg (1 - fric / (D * H))
  have hs1 : Real.sqrt (1 - fric / (D * H)) ≤ 1 := by
    exact Real.sqrt_le_one.2 (by linarith)
  have hsq := Real.sq_sqrt (show 0 ≤ 1 - fric / (D * H) by linarith)
  have hαpos : 1 / 2 ≤ α := by rw [hα]; linarith
  refine ⟨hαpos, by rw [hα]; linarith, ?_, ?_⟩
  · have : 4 * α * (1 - α) = fric / (D * H) := by rw [hα]; nlinarith
    rw [this, div_mul_cancel₀ _ hD.ne']
  · unfold frictionCoefficient
    change fric / 2 / α ^ 2 * (α * uInf) ^ 2 = _
    have : α ≠ 0 := by linarith
    field_simp

example : (0 : ℝ) < 20 * 40 ∧ (0:ℝ) ≤ 251 ∧ (251 : ℝ) ≤ 20 * 40 := by norm_num

/-- C62: without correction the factor is one. -/
theorem C62_no_upwind (fric D H : ℝ) :
    velocityCorrection false fric D H = 1 ∧ frictionCoefficient false fric D H = fric / 2 := by
  simp [velocityCorrection, frictionCoefficient]

/-- C62: the default power coefficient is non-negative, never exceeds the thrust coefficient and
respects the Betz limit 16/27, for all thrust coefficients in [0, 1]. -/
theorem C62_betz (CT : ℝ) (h0 : 0 ≤ CT) (h1 : CT ≤ 1) :
    0 ≤ defaultCP CT ∧ defaultCP CT ≤ CT ∧ defaultCP CT ≤ 16 / 27 := by
  have hs0 := Real.sqrt_nonneg (1 - CT)
  have hs1 : Real.sqrt (1 - CT) ≤ 1 := by exact Real.sqrt_le_one.2 (by linarith)
  have hsq := Real.sq_sqrt (show 0 ≤ 1 - CT by linarith)
  set s := Real.sqrt (1 - CT) with hs
  have hCT : CT = 1 - s ^ 2 := by linarith
  unfold defaultCP
  rw [← hs]
  refine ⟨by positivity, by nlinarith, ?_⟩
  rw [hCT]
  nlinarith [mul_nonneg (sq_nonneg (3 * s - 1)) (show (0:ℝ) ≤ s + 5 / 3 by linarith)]

/-- The limit is attained at `C_T = 8/9`. -/
example : defaultCP (8 / 9) = 16 / 27 := by
  unfold defaultCP
  rw [show (1 : ℝ) - 8 / 9 = (1 / 3) ^ 2 by norm_num, Real.sqrt_sq (by norm_num)]
  norm_num

/-- C62: with the default coefficient, the power `½ρ A C_P u∞³` is the thrust `½ρ A C_T u∞²` times
the disc velocity `½(1 + √(1-C_T)) u∞`. -/
theorem C62_power_is_thrust_times_speed (rho π diameter CT uInf α : ℝ) (hα : α ≠ 0) :
    power rho π diameter (defaultCP CT) (α * uInf) α =
      (1 / 2 * rho * (CT * (π * diameter ^ 2 / 4)) * uInf ^ 2) *
        (1 / 2 * (1 + Real.sqrt (1 - CT)) * uInf) := by
  unfold power defaultCP
  field_simp

/-- C62: the turbine density is never decreased by adding turbines, is unchanged farther than one
radius (in either direction) from all of them, and does not depend on the order of the list. -/
theorem C62_density (radius x y density : ℝ) (coords : List (ℝ × ℝ)) :
    density ≤ addTurbines radius x y density coords ∧
    ((∀ c ∈ coords, 1 ≤ |(x - c.1) / radius| ∨ 1 ≤ |(y - c.2) / radius|) →
      addTurbines radius x y density coords = density) ∧
    (∀ coords', coords.Perm coords' →
      addTurbines radius x y density coords = addTurbines radius x y density coords') := by
  have hb : ∀ r, 0 ≤ bump r := by
    intro r; unfold bump; split
    · exact (Real.exp_pos _).le
    · exact le_refl _
  have hz : ∀ r, 1 ≤ |r| → bump r = 0 := by
    intro r h; unfold bump; rw [if_neg (not_lt.2 h)]
  refine ⟨?_, ?_, ?_⟩
  · induction coords generalizing density with
    | nil => exact le_refl _
    | cons c cs ih =>
      refine le_trans ?_ (ih _)
      have : 0 ≤ bump ((x - c.1) / radius) * bump ((y - c.2) / radius) / (radius ^ 2 * 1.45661) :=
        div_nonneg (mul_nonneg (hb _) (hb _)) (by positivity)
      linarith
  · intro h
    induction coords generalizing density with
    | nil => rfl
    | cons c cs ih =>
      have hc : bump ((x - c.1) / radius) * bump ((y - c.2) / radius) / (radius ^ 2 * 1.45661) = 0 := by
        rcases h c (by simp) with h1 | h1 <;> rw [hz _ h1] <;> simp
      show addTurbines radius x y (density + _) cs = density
      rw [hc, add_zero]
      exact ih density (fun c' hc' => h c' (by simp [hc']))
  · intro cs' hp
    have : RightCommutative (fun (d : ℝ) (c : ℝ × ℝ) =>
      d + bump ((x - c.1) / radius) * bump ((y - c.2) / radius) / (radius ^ 2 * 1.45661)) :=
      ⟨fun a b c => by ring⟩
    exact hp.foldl_eq density

/-- A point at the centre of the second turbine gets exactly its peak. -/
example : addTurbines 1 5 0 0 [(0, 0), (5, 0)] = 1 / 1.45661 := by
  simp [addTurbines, bump]

end Verif.Turbine
