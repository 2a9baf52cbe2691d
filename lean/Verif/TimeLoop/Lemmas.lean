import Verif.TimeLoop.Model
import Mathlib.Tactic.Linarith
import Mathlib.Tactic.Ring
import Mathlib.Tactic.FieldSimp
import Mathlib.Tactic.Positivity
import Mathlib.Tactic.NormNum
import Mathlib.Data.List.Range

/-! Helper lemmas about the time loop. -/

namespace Verif.TimeLoop

/-- `n` unguarded passes through the loop body. -/
def iterN (c : Cfg) (t0 : ℚ) : ℕ → LoopSt → LoopSt × List Ev
  | 0, s => (s, [])
  | n + 1, s =>
    let r := body c t0 s
    let q := iterN c t0 n r.1
    (q.1, r.2 ++ q.2)

theorem iterN_add (c : Cfg) (t0 : ℚ) (m n : ℕ) (s : LoopSt) :
    iterN c t0 (m + n) s =
      ((iterN c t0 n (iterN c t0 m s).1).1,
        (iterN c t0 m s).2 ++ (iterN c t0 n (iterN c t0 m s).1).2) := by
  induction m generalizing s with
  | zero => simp [iterN]
  | succ m ih =>
    rw [Nat.succ_add]
    simp [iterN, ih, List.append_assoc]

theorem iterN_succ_last (c : Cfg) (t0 : ℚ) (n : ℕ) (s : LoopSt) :
    iterN c t0 (n + 1) s =
      ((body c t0 (iterN c t0 n s).1).1,
        (iterN c t0 n s).2 ++ (body c t0 (iterN c t0 n s).1).2) := by
  rw [iterN_add]; simp [iterN]

/-- If the guard holds before each of the first `n` passes and fails after them, the
loop makes exactly `n` passes, for every sufficient fuel. -/
theorem loop_eq_iterN (c : Cfg) (t0 : ℚ) (n k : ℕ) (s : LoopSt)
    (hg : ∀ j < n, guard c (iterN c t0 j s).1 = true)
    (hs : guard c (iterN c t0 n s).1 = false) :
    loop c t0 (n + 1 + k) s = some (iterN c t0 n s) := by
  induction n generalizing s with
  | zero =>
    have : guard c s = false := by simpa [iterN] using hs
    rw [show 0 + 1 + k = k + 1 by omega]
    simp [loop, this, iterN]
  | succ n ih =>
    have h0 : guard c s = true := by simpa [iterN] using hg 0 (by omega)
    have ih' := ih (body c t0 s).1
      (fun j hj => by simpa [iterN] using hg (j + 1) (by omega))
      (by simpa [iterN] using hs)
    rw [show n + 1 + 1 + k = (n + 1 + k) + 1 by omega]
    simp only [loop, h0, if_true]
    rw [ih']
    simp [iterN]

/-- Fuel below the number of passes is not enough. -/
theorem loop_none (c : Cfg) (t0 : ℚ) (n : ℕ) (s : LoopSt)
    (hg : ∀ j < n, guard c (iterN c t0 j s).1 = true) : loop c t0 n s = none := by
  induction n generalizing s with
  | zero => rfl
  | succ n ih =>
    have h0 : guard c s = true := by simpa [iterN] using hg 0 (by omega)
    have ih' := ih (body c t0 s).1
      (fun j hj => by simpa [iterN] using hg (j + 1) (by omega))
    simp [loop, h0, ih']

theorem iterN_internal (c : Cfg) (t0 : ℚ) (n : ℕ) (s : LoopSt) :
    (iterN c t0 n s).1.internal = s.internal + n ∧
    (iterN c t0 n s).1.iteration = s.iteration + n := by
  induction n with
  | zero => simp [iterN]
  | succ n ih =>
    rw [iterN_succ_last]
    simp only [body]
    split <;> simp [ih.1, ih.2, Nat.add_assoc]

theorem iterN_time (c : Cfg) (t0 : ℚ) (n : ℕ) (s : LoopSt) (h0 : s.internal = 0)
    (ht : s.t = t0) : (iterN c t0 n s).1.t = t0 + n * c.dt := by
  cases n with
  | zero => simp [iterN, ht]
  | succ n =>
    rw [iterN_succ_last]
    have := (iterN_internal c t0 n s).1
    simp only [body]
    split <;> simp [this, h0]

theorem iterN_counters (c : Cfg) (t0 : ℚ) (n : ℕ) (s : LoopSt) :
    ∃ e : ℕ, (iterN c t0 n s).1.iExport = s.iExport + e ∧
      (iterN c t0 n s).1.nextIx = s.nextIx + e ∧
      (iterN c t0 n s).1.nextT = s.nextT + e * c.expT := by
  induction n with
  | zero => exact ⟨0, by simp [iterN]⟩
  | succ n ih =>
    obtain ⟨e, h1, h2, h3⟩ := ih
    rw [iterN_succ_last]
    simp only [body]
    split
    · exact ⟨e + 1, by simp [h1, Nat.add_assoc], by simp [h2, Nat.add_assoc],
        by simp [h3]; ring⟩
    · exact ⟨e, by simp [h1], by simp [h2], by simp [h3]⟩

/-- Number of passes of the loop. -/
def steps (c : Cfg) (t0 : ℚ) : ℕ := (⌊(c.tEnd - tEps - t0) / c.dt⌋ + 1).toNat

theorem lt_steps_iff (c : Cfg) (t0 : ℚ) (hdt : 0 < c.dt) (n : ℕ) :
    n < steps c t0 ↔ t0 + n * c.dt ≤ c.tEnd - tEps := by
  unfold steps
  rw [Int.lt_toNat, Int.lt_add_one_iff, Int.le_floor, le_div_iff₀ hdt]
  push_cast
  constructor <;> intro h <;> linarith

theorem loop_eq (c : Cfg) (t0 : ℚ) (hdt : 0 < c.dt) (s : LoopSt) (h0 : s.internal = 0)
    (ht : s.t = t0) (fuel : ℕ) (hf : steps c t0 < fuel) :
    loop c t0 fuel s = some (iterN c t0 (steps c t0) s) := by
  obtain ⟨k, rfl⟩ := Nat.exists_eq_add_of_lt hf
  rw [show steps c t0 + k + 1 = steps c t0 + 1 + k by omega]
  apply loop_eq_iterN
  · intro j hj
    simp only [guard, iterN_time c t0 j s h0 ht, decide_eq_true_eq]
    exact (lt_steps_iff c t0 hdt j).1 hj
  · simp only [guard, iterN_time c t0 _ s h0 ht, decide_eq_false_iff_not]
    exact fun h => lt_irrefl _ ((lt_steps_iff c t0 hdt _).2 h)

theorem loop_none_of_le (c : Cfg) (t0 : ℚ) (hdt : 0 < c.dt) (s : LoopSt) (h0 : s.internal = 0)
    (ht : s.t = t0) (fuel : ℕ) (hf : fuel ≤ steps c t0) : loop c t0 fuel s = none := by
  apply loop_none
  intro j hj
  simp only [guard, iterN_time c t0 j s h0 ht, decide_eq_true_eq]
  exact (lt_steps_iff c t0 hdt j).1 (by omega)

/-- The part of an event visible as a time advance. -/
def advTime : Ev → Option ℚ
  | .adv t => some t
  | _ => none

/-- The part of an event visible as a time step callback. -/
def cbAt : Ev → Option (ℕ × ℚ)
  | .cb i t => some (i, t)
  | _ => none

/-- The part of an event visible as an export. -/
def expAt : Ev → Option (ℕ × ℕ × ℚ)
  | .exp i j t => some (i, j, t)
  | _ => none

theorem iterN_adv (c : Cfg) (t0 : ℚ) (n : ℕ) (s : LoopSt) (h0 : s.internal = 0)
    (ht : s.t = t0) :
    (iterN c t0 n s).2.filterMap advTime = (List.range n).map (fun k : ℕ => t0 + (k : ℚ) * c.dt) := by
  induction n with
  | zero => simp [iterN]
  | succ n ih =>
    rw [iterN_succ_last, List.range_succ, List.map_append, ← ih]
    have := iterN_time c t0 n s h0 ht
    simp only [List.filterMap_append, body]
    split <;> simp [List.filterMap_cons, advTime, this]

theorem iterN_cb (c : Cfg) (t0 : ℚ) (n : ℕ) (s : LoopSt) (h0 : s.internal = 0) :
    (iterN c t0 n s).2.filterMap cbAt =
      (List.range n).map (fun k => (s.iteration + (k + 1), t0 + ((k + 1 : ℕ) : ℚ) * c.dt)) := by
  induction n with
  | zero => simp [iterN]
  | succ n ih =>
    rw [iterN_succ_last, List.range_succ, List.map_append, ← ih]
    have h := iterN_internal c t0 n s
    simp only [List.filterMap_append, body]
    split <;> simp [List.filterMap_cons, cbAt, h.1, h.2, h0, Nat.add_assoc]

/-- First step whose time (relative to the start, shifted by `off`) reaches the `j`-th
export time. -/
def firstStep (c : Cfg) (off : ℚ) (j : ℕ) : ℕ := ⌈((j : ℚ) * c.expT - off - tEps) / c.dt⌉.toNat

/-- Number of exports after `n` steps. -/
def nExp (c : Cfg) (off : ℚ) (n : ℕ) : ℕ := ⌊((n : ℚ) * c.dt + off + tEps) / c.expT⌋.toNat

theorem nExp_spec (c : Cfg) (off : ℚ) (hT : 0 < c.expT) (n e : ℕ)
    (h1 : (e : ℚ) * c.expT ≤ n * c.dt + off + tEps)
    (h2 : n * c.dt + off + tEps < (e + 1 : ℚ) * c.expT) : nExp c off n = e := by
  have : ⌊((n : ℚ) * c.dt + off + tEps) / c.expT⌋ = (e : ℤ) := by
    rw [Int.floor_eq_iff]
    constructor
    · rw [le_div_iff₀ hT]; simpa using h1
    · rw [div_lt_iff₀ hT]; simpa using h2
  simp [nExp, this]

theorem firstStep_spec (c : Cfg) (off : ℚ) (hdt : 0 < c.dt) (n j : ℕ)
    (h1 : (j : ℚ) * c.expT - off - tEps ≤ (n + 1 : ℚ) * c.dt)
    (h2 : (n : ℚ) * c.dt < (j : ℚ) * c.expT - off - tEps) : firstStep c off j = n + 1 := by
  have : ⌈((j : ℚ) * c.expT - off - tEps) / c.dt⌉ = ((n + 1 : ℕ) : ℤ) := by
    rw [Int.ceil_eq_iff]
    push_cast
    constructor
    · rw [lt_div_iff₀ hdt]; linarith
    · rw [div_le_iff₀ hdt]; exact h1
  simp [firstStep, this]

/-- Main invariant of the export schedule: with `next = t0 - off + expT`, `0 ≤ off + ε < expT`
and `dt ≤ expT`, after `n` steps exactly `nExp n` exports have been made, the `j`-th of them
at step `firstStep j`. -/
theorem schedule (c : Cfg) (t0 off : ℚ) (hdt : 0 < c.dt) (hle : c.dt ≤ c.expT)
    (ho : 0 ≤ off + tEps) (ho' : off + tEps < c.expT) (n : ℕ) (s : LoopSt) (h0 : s.internal = 0)
    (hnext : s.nextT = t0 - off + c.expT) :
    ((nExp c off n : ℚ) * c.expT ≤ n * c.dt + off + tEps ∧
      n * c.dt + off + tEps < (nExp c off n + 1 : ℚ) * c.expT) ∧
    (iterN c t0 n s).1.iExport = s.iExport + nExp c off n ∧
    (iterN c t0 n s).1.nextIx = s.nextIx + nExp c off n ∧
    (iterN c t0 n s).1.nextT = s.nextT + nExp c off n * c.expT ∧
    (iterN c t0 n s).2.filterMap expAt =
      (List.range (nExp c off n)).map (fun j =>
        (s.iExport + (j + 1), s.nextIx + j, t0 + (firstStep c off (j + 1) : ℚ) * c.dt)) := by
  have hT : 0 < c.expT := lt_of_lt_of_le hdt hle
  induction n with
  | zero =>
    have : nExp c off 0 = 0 := nExp_spec c off hT 0 0 (by simpa using ho) (by simpa using ho')
    rw [this]
    simp [iterN]
    exact ⟨ho, ho'⟩
  | succ n ih =>
    obtain ⟨⟨hb1, hb2⟩, h1, h2, h3, h4⟩ := ih
    have hint := (iterN_internal c t0 n s).1
    rw [iterN_succ_last]
    simp only [body, hint, h0, h1, h2, h3, hnext, Nat.zero_add]
    set e := nExp c off n with he
    by_cases hc : t0 + ((n + 1 : ℕ) : ℚ) * c.dt ≥ t0 - off + c.expT + e * c.expT - tEps
    · rw [if_pos hc]
      push_cast at hc
      have hE : nExp c off (n + 1) = e + 1 := by
        apply nExp_spec c off hT
        · push_cast; linarith
        · push_cast; linarith
      have hF : firstStep c off (e + 1) = n + 1 := by
        apply firstStep_spec c off hdt
        · push_cast; linarith
        · push_cast; linarith
      rw [hE]
      refine ⟨⟨?_, ?_⟩, ?_, ?_, ?_, ?_⟩
      · push_cast; linarith
      · push_cast; linarith
      · simp [Nat.add_assoc]
      · simp [Nat.add_assoc]
      · push_cast; linarith
      · rw [List.filterMap_append, h4, List.range_succ, List.map_append]
        simp [List.filterMap_cons, expAt, hF, Nat.add_assoc]
    · rw [if_neg hc]
      push_cast at hc
      push Not at hc
      have hE : nExp c off (n + 1) = e := by
        apply nExp_spec c off hT
        · push_cast; linarith
        · push_cast; linarith
      rw [hE]
      refine ⟨⟨?_, ?_⟩, rfl, rfl, rfl, ?_⟩
      · push_cast; linarith
      · push_cast; linarith
      · rw [List.filterMap_append, h4]
        simp [List.filterMap_cons, expAt]

/-- The driver in closed form. -/
theorem iterate_eq (d : Dim) (c : Cfg) (s : Solver) (t0 : ℚ) (hdt : 0 < c.dt)
    (ht : s.time = some t0) (fuel : ℕ) (hf : steps c t0 < fuel) :
    iterate d c fuel s = .done (finish d s (iterN c t0 (steps c t0) (startLoop d c s t0)).1)
      (startEvents s t0 ++ (iterN c t0 (steps c t0) (startLoop d c s t0)).2) := by
  simp [iterate, ht, loop_eq c t0 hdt (startLoop d c s t0) rfl rfl fuel hf]

theorem iterate_unfinished (d : Dim) (c : Cfg) (s : Solver) (t0 : ℚ) (hdt : 0 < c.dt)
    (ht : s.time = some t0) (fuel : ℕ) (hf : fuel ≤ steps c t0) :
    iterate d c fuel s = .unfinished := by
  simp [iterate, ht, loop_none_of_le c t0 hdt (startLoop d c s t0) rfl rfl fuel hf]

theorem fuel_of_done (d : Dim) (c : Cfg) (s : Solver) (t0 : ℚ) (hdt : 0 < c.dt)
    (ht : s.time = some t0) (fuel : ℕ) (s' : Solver) (evs : List Ev)
    (h : iterate d c fuel s = .done s' evs) : steps c t0 < fuel := by
  by_contra hcon
  rw [iterate_unfinished d c s t0 hdt ht fuel (by omega)] at h
  simp at h

theorem body_shift (c : Cfg) (t0 : ℚ) (K : ℕ) (s s' : LoopSt)
    (h : s = { s' with internal := s'.internal + K }) :
    (body c t0 s).2 = (body c (t0 + K * c.dt) s').2 ∧
    (body c t0 s).1 = { (body c (t0 + K * c.dt) s').1 with
      internal := (body c (t0 + K * c.dt) s').1.internal + K } := by
  subst h
  have e : t0 + ((s'.internal + K + 1 : ℕ) : ℚ) * c.dt
      = t0 + K * c.dt + ((s'.internal + 1 : ℕ) : ℚ) * c.dt := by push_cast; ring
  simp only [body, e]
  split <;> refine ⟨rfl, ?_⟩ <;> simp <;> omega

theorem iterN_shift (c : Cfg) (t0 : ℚ) (K n : ℕ) (s s' : LoopSt)
    (h : s = { s' with internal := s'.internal + K }) :
    (iterN c t0 n s).2 = (iterN c (t0 + K * c.dt) n s').2 ∧
    (iterN c t0 n s).1 = { (iterN c (t0 + K * c.dt) n s').1 with
      internal := (iterN c (t0 + K * c.dt) n s').1.internal + K } := by
  induction n generalizing s s' with
  | zero => simpa [iterN] using h
  | succ n ih =>
    have hb := body_shift c t0 K s s' h
    have := ih _ _ hb.2
    simp only [iterN]
    exact ⟨by rw [hb.1, this.1], this.2⟩

theorem steps_shift (c : Cfg) (t0 : ℚ) (hdt : 0 < c.dt) (K : ℕ) (hK : K ≤ steps c t0) :
    steps c t0 = K + steps c (t0 + K * c.dt) := by
  have h1 := lt_steps_iff c t0 hdt
  have h2 := lt_steps_iff c (t0 + K * c.dt) hdt
  have h3 : ∀ n, n < steps c (t0 + K * c.dt) ↔ K + n < steps c t0 := by
    intro n
    rw [h1, h2]; push_cast
    constructor <;> intro h <;> linarith
  have a := h3 (steps c t0 - K)
  have b := h3 (steps c (t0 + K * c.dt))
  omega

theorem storedTime_append_fresh (evs evs' : List Ev) (ix : ℕ) (t : ℚ)
    (h : storedTime evs ix = some t) (h' : ∀ i j u, Ev.exp i j u ∈ evs' → j ≠ ix) :
    storedTime (evs ++ evs') ix = some t := by
  unfold storedTime at *
  rw [List.reverse_append, List.findSome?_append]
  have : evs'.reverse.findSome? (stampOf ix) = none := by
    rw [List.findSome?_eq_none_iff]
    intro e he
    rw [List.mem_reverse] at he
    cases e with
    | exp i j u => simp [stampOf, h' i j u he]
    | adv _ => rfl
    | cb _ _ => rfl
  rw [this]; simpa using h

theorem iterN_exp_ix_ge (c : Cfg) (t0 : ℚ) (n : ℕ) (s : LoopSt) :
    s.nextIx ≤ (iterN c t0 n s).1.nextIx ∧
    ∀ i j u, Ev.exp i j u ∈ (iterN c t0 n s).2 → s.nextIx ≤ j := by
  induction n with
  | zero => simp [iterN]
  | succ n ih =>
    rw [iterN_succ_last]
    simp only [body]
    split
    · refine ⟨by simp; omega, ?_⟩
      intro i j u hm
      simp only [List.mem_append, List.mem_cons, reduceCtorEq, List.not_mem_nil, or_false, false_or,
        Ev.exp.injEq] at hm
      rcases hm with hm | ⟨-, rfl, -⟩
      · exact ih.2 i j u hm
      · exact ih.1
    · refine ⟨by simpa using ih.1, ?_⟩
      intro i j u hm
      simp only [List.mem_append, List.mem_cons, reduceCtorEq, List.not_mem_nil, or_false] at hm
      exact ih.2 i j u hm

end Verif.TimeLoop
