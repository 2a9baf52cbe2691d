import Verif.Callback.Model
import Verif.Export.Lemmas
import Mathlib.Tactic.Linarith
import Mathlib.Tactic.Ring
import Mathlib.Tactic.FieldSimp
import Mathlib.Algebra.BigOperators.Group.List.Basic

/-!
Properties C08–C13 and the accumulator part of C14.
-/

namespace Verif.Callback

/-! ### C08: the diagnostics file is a table -/

/-- A row of the abstract table: time and one value per variable. -/
abbrev Row (n : ℕ) (V : Type) := ℚ × (Fin (n + 1) → V)

/-- Specification: append without index or with index equal to the length, replace below,
refuse above. -/
def tablePush {R : Type} (rows : List R) (r : R) : Option ℕ → Option (List R)
  | none => some (rows ++ [r])
  | some i => if i < rows.length then some (rows.set i r)
              else if i = rows.length then some (rows ++ [r]) else none

/-- The file holds exactly the table. -/
def Holds {n : ℕ} {V : Type} (inclTime : Bool) (f : H5File n V) (rows : List (Row n V)) : Prop :=
  (∀ i, f.cols i = rows.map (fun r => r.2 i)) ∧
  f.time = if inclTime then rows.map (·.1) else []

theorem set_append_last {α : Type} (l : List α) (a b : α) :
    (l ++ [a]).set l.length b = l ++ [b] := by simp

/-- C08: one push refines the table operation; a refused push reports an error and leaves the
file unchanged. -/
theorem C08_push {n : ℕ} {V : Type} (fill : V) (inclTime : Bool) (f : H5File n V)
    (rows : List (Row n V)) (h : Holds inclTime f rows) (r : Row n V) (index : Option ℕ) :
    match tablePush rows r index with
    | some rows' => ∃ f', f.export fill inclTime r.2 (some r.1) index = (f', none) ∧
        Holds inclTime f' rows'
    | none => f.export fill inclTime r.2 (some r.1) index = (f, some .assertion) := by
  obtain ⟨hc, ht⟩ := h
  have hn : f.nentries = rows.length := by simp [H5File.nentries, hc]
  have happ : ∃ f', (f.expand fill inclTime).assign inclTime
      ((f.expand fill inclTime).nentries - 1) r.2 (some r.1) = (f', none) ∧
      Holds inclTime f' (rows ++ [r]) := by
    have hne : (f.expand fill inclTime).nentries - 1 = rows.length := by
      simp [H5File.nentries, H5File.expand, hc]
    rw [hne]
    cases inclTime with
    | true =>
      refine ⟨_, rfl, ?_, ?_⟩
      · intro i
        simp only [H5File.expand, hc, List.map_append, List.map_cons, List.map_nil]
        have := set_append_last (rows.map (fun r => r.2 i)) fill (r.2 i)
        rwa [List.length_map] at this
      · simp only [H5File.expand, ht, if_true, List.map_append, List.map_cons, List.map_nil]
        have := set_append_last (rows.map (fun r => r.1)) 0 r.1
        rwa [List.length_map] at this
    | false =>
      refine ⟨_, rfl, ?_, ?_⟩
      · intro i
        simp only [H5File.expand, hc, List.map_append, List.map_cons, List.map_nil]
        have := set_append_last (rows.map (fun r => r.2 i)) fill (r.2 i)
        rwa [List.length_map] at this
      · simp [H5File.expand, ht]
  cases index with
  | none => simpa [tablePush, H5File.export] using happ
  | some i =>
    by_cases h1 : i < rows.length
    · have h2 : i ≤ f.nentries := by omega
      have h3 : i ≠ f.nentries := by omega
      simp only [tablePush, h1, if_true, H5File.export, h2, h3, if_false]
      cases inclTime with
      | true =>
        refine ⟨_, rfl, ?_, ?_⟩
        · intro j; simp [hc, List.map_set]
        · simp [ht, List.map_set]
      | false =>
        refine ⟨_, rfl, ?_, ?_⟩
        · intro j; simp [hc, List.map_set]
        · simp [ht]
    · by_cases h2 : i = rows.length
      · have h3 : i ≤ f.nentries := by omega
        have h4 : i = f.nentries := by omega
        simp only [tablePush, if_neg h1, if_pos h2, H5File.export, if_pos h3, if_pos h4]
        exact happ
      · have h3 : ¬ i ≤ f.nentries := by omega
        simp [tablePush, h1, h2, H5File.export, h3]

/-- A sequence of pushes on the concrete file; failing pushes are caught by the caller and leave
the file as the failing operation left it. -/
def pushes {n : ℕ} {V : Type} (fill : V) (inclTime : Bool) (f : H5File n V) :
    List (Row n V × Option ℕ) → H5File n V
  | [] => f
  | (r, i) :: ps => pushes fill inclTime (f.export fill inclTime r.2 (some r.1) i).1 ps

/-- The abstract table after the same pushes. -/
def tablePushes {R : Type} (rows : List R) : List (R × Option ℕ) → List R
  | [] => rows
  | (r, i) :: ps => tablePushes ((tablePush rows r i).getD rows) ps

/-- C08: for every sequence of pushes the file equals the abstract table; in particular all
datasets always have the same length. -/
theorem C08_file_is_table {n : ℕ} {V : Type} (fill : V) (inclTime : Bool)
    (ps : List (Row n V × Option ℕ)) :
    Holds inclTime (pushes fill inclTime (H5File.empty n V) ps) (tablePushes [] ps) := by
  suffices h : ∀ (f : H5File n V) rows, Holds inclTime f rows →
      Holds inclTime (pushes fill inclTime f ps) (tablePushes rows ps) from
    h _ _ ⟨fun _ => rfl, by cases inclTime <;> rfl⟩
  induction ps with
  | nil => intro f rows h; exact h
  | cons p ps ih =>
    intro f rows h
    obtain ⟨r, i⟩ := p
    have := C08_push fill inclTime f rows h r i
    simp only [pushes, tablePushes]
    cases hp : tablePush rows r i with
    | some rows' =>
      rw [hp] at this
      obtain ⟨f', he, hh⟩ := this
      rw [he]; exact ih _ _ hh
    | none =>
      rw [hp] at this
      rw [this]; exact ih _ _ h

/-- Rows: append, append, overwrite the first, refused index 5. -/
example : (tablePushes [] [((0, fun _ => 1), none), ((1, fun _ => 2), some 1),
    ((2, fun _ => 3), some 0), ((3, fun _ => 4), some 5)] : List (Row 0 ℕ)).map (·.1) = [2, 1] := by
  decide +kernel

/-- C08, error branch: a push without time to a file with times fails *after* the datasets were
extended: a row of fill values remains. -/
theorem C08_missing_time_violated {n : ℕ} {V : Type} (fill : V) (f : H5File n V)
    (rows : List (Row n V)) (h : Holds true f rows) (vars : Fin (n + 1) → V) :
    (f.export fill true vars none none).2 = some .assertion ∧
    Holds true (f.export fill true vars none none).1 (rows ++ [(0, fun _ => fill)]) := by
  refine ⟨rfl, ?_, ?_⟩
  · intro i; simp [H5File.export, H5File.assign, H5File.expand, h.1]
  · simp [H5File.export, H5File.assign, H5File.expand, h.2]

/-! ### C09: registry -/

section Registry
variable {Mode Name Cb : Type} [DecidableEq Mode] [LinearOrder Name]

theorem dictGet_dictSet {α β : Type} [DecidableEq α] (k k' : α) (v : β) (d : List (α × β)) :
    dictGet k' (dictSet k v d) = if k' = k then some v else dictGet k' d := by
  induction d with
  | nil =>
    by_cases h : k = k'
    · subst h; simp [dictSet, dictGet]
    · simp [dictSet, dictGet, h, Ne.symm h]
  | cons p d ih =>
    obtain ⟨a, b⟩ := p
    simp only [dictSet]
    by_cases h : a = k
    · subst h
      by_cases h2 : a = k'
      · subst h2; simp [dictGet]
      · simp [dictGet, h2, Ne.symm h2]
    · simp only [h, if_false, dictGet, ih]
      by_cases h2 : a = k'
      · subst h2; simp [h]
      · simp [h2]

theorem mem_keys_iff {α β : Type} [DecidableEq α] (k : α) (d : List (α × β)) :
    k ∈ d.map Prod.fst ↔ (dictGet k d).isSome := by
  induction d with
  | nil => simp [dictGet]
  | cons p d ih =>
    obtain ⟨a, b⟩ := p
    by_cases h : a = k
    · subst h; simp [dictGet]
    · simp only [List.map_cons, List.mem_cons, dictGet, h, if_false, ih, Ne.symm h, false_or]

theorem nodup_dictSet {α β : Type} [DecidableEq α] (k : α) (v : β) (d : List (α × β))
    (h : (d.map Prod.fst).Nodup) : ((dictSet k v d).map Prod.fst).Nodup := by
  induction d with
  | nil => simp [dictSet]
  | cons p d ih =>
    obtain ⟨a, b⟩ := p
    rw [List.map_cons, List.nodup_cons] at h
    simp only [dictSet]
    by_cases hk : a = k
    · simp only [hk, if_true]
      subst hk
      rw [List.map_cons, List.nodup_cons]; exact h
    · simp only [hk, if_false, List.map_cons, List.nodup_cons]
      refine ⟨?_, ih h.2⟩
      rw [mem_keys_iff, dictGet_dictSet, if_neg hk, ← mem_keys_iff]
      exact h.1

/-- The registry after a list of registrations `(callback, name, mode)`. -/
def registered (regs : List (Cb × Name × Mode)) : Registry Mode Name Cb :=
  regs.foldl (fun r x => r.add x.1 x.2.1 x.2.2) (fun _ => [])

/-- Specification: the callback last registered under this name and mode. -/
def lastRegistered (regs : List (Cb × Name × Mode)) (mode : Mode) (name : Name) : Option Cb :=
  (regs.reverse.find? (fun x => x.2.1 = name ∧ x.2.2 = mode)).map (·.1)

omit [DecidableEq Mode] in
theorem evaluate_props (r : Registry Mode Name Cb) (mode : Mode)
    (h : ((r mode).map Prod.fst).Nodup) :
    (r.evaluate mode).Pairwise (fun a b => a.1 < b.1) ∧
    ∀ name cb, (name, cb) ∈ r.evaluate mode ↔ dictGet name (r mode) = some cb := by
  constructor
  · unfold Registry.evaluate
    rw [List.pairwise_filterMap]
    have hs : (((r mode).map Prod.fst).mergeSort (fun a b => decide (a ≤ b))).Pairwise
        (fun a b => a ≤ b) := by
      have := List.pairwise_mergeSort (le := fun a b : Name => decide (a ≤ b))
        (by intro a b c; simp; exact le_trans) (by intro a b; simp; exact le_total a b)
        ((r mode).map Prod.fst)
      simpa using this
    have hn : (((r mode).map Prod.fst).mergeSort (fun a b => decide (a ≤ b))).Nodup :=
      (List.mergeSort_perm _ _).nodup_iff.2 h
    have := List.Pairwise.and hs hn
    refine this.imp ?_
    rintro a b ⟨h1, h2⟩ x hx y hy
    simp only [Option.map_eq_some_iff] at hx hy
    obtain ⟨_, _, rfl⟩ := hx
    obtain ⟨_, _, rfl⟩ := hy
    exact lt_of_le_of_ne h1 h2
  · intro name cb
    unfold Registry.evaluate
    rw [List.mem_filterMap]
    constructor
    · rintro ⟨k, -, hk⟩
      rw [Option.map_eq_some_iff] at hk
      obtain ⟨c, hc, he⟩ := hk
      rw [Prod.mk.injEq] at he
      rw [← he.1, ← he.2]; exact hc
    · intro hg
      refine ⟨name, ?_, by simp [hg]⟩
      rw [(List.mergeSort_perm _ _).mem_iff, mem_keys_iff, hg]; rfl

/-- C09: after any registrations, evaluating a mode runs callbacks in strictly increasing name
order (hence each once), and runs exactly those last registered under this mode. -/
theorem C09_evaluate (regs : List (Cb × Name × Mode)) (mode : Mode) :
    ((registered regs).evaluate mode).Pairwise (fun a b => a.1 < b.1) ∧
    ∀ name cb, (name, cb) ∈ (registered regs).evaluate mode ↔
      lastRegistered regs mode name = some cb := by
  have key : ∀ (regs : List (Cb × Name × Mode)),
      (((registered regs) mode).map Prod.fst).Nodup ∧
      ∀ name, dictGet name ((registered regs) mode) = lastRegistered regs mode name := by
    intro regs
    induction regs using List.reverseRecOn with
    | nil => simp [registered, lastRegistered, dictGet]
    | append_singleton regs x ih =>
      obtain ⟨cb, nm, md⟩ := x
      have e : registered (regs ++ [(cb, nm, md)]) = (registered regs).add cb nm md := by
        simp [registered]
      rw [e]
      by_cases hm : mode = md
      · subst hm
        refine ⟨?_, ?_⟩
        · simpa [Registry.add] using nodup_dictSet nm cb _ ih.1
        · intro name
          simp only [Registry.add, if_true, dictGet_dictSet, ih.2]
          by_cases hn : name = nm
          · subst hn; simp [lastRegistered]
          · simp [lastRegistered, hn, Ne.symm hn]
      · refine ⟨by simpa [Registry.add, hm] using ih.1, ?_⟩
        intro name
        simp only [Registry.add, hm, if_false, ih.2]
        simp [lastRegistered, Ne.symm hm]
  have h := key regs
  obtain ⟨h1, h2⟩ := evaluate_props (registered regs) mode h.1
  exact ⟨h1, fun name cb => by rw [h2, h.2]⟩

/-- Two modes (`true` = export), a replaced name. -/
example : (registered [("a1", 2, true), ("b", 1, true), ("c", 3, false), ("a2", 2, true)]).evaluate
    true = [(1, "b"), (2, "a2")] := by
  simp [registered, Registry.add, Registry.evaluate, dictSet, dictGet, List.mergeSort,
    List.MergeSort.Internal.splitInTwo]

end Registry

/-! ### C10: time window -/

/-- C10, provable part: for bounds different from zero the callback is evaluated exactly within
the closed window.  The property also claims this for zero bounds; see the violation below. -/
theorem C10_window_partial (start stop : Option ℚ) (t : ℚ) (hs : start ≠ some 0)
    (he : stop ≠ some 0) :
    inWindow start stop t = true ↔ (∀ s, start = some s → s ≤ t) ∧ (∀ e, stop = some e → t ≤ e) := by
  have h1 : (¬ ((t : WithBot ℚ) < orDefault start (fun v => (v : WithBot ℚ)) ⊥)) ↔
      ∀ s, start = some s → s ≤ t := by
    cases start with
    | none => simp [orDefault]
    | some s =>
      have : s ≠ 0 := fun h => hs (by rw [h])
      simp [orDefault, this]
  have h2 : (¬ (orDefault stop (fun v => (v : WithTop ℚ)) ⊤ < (t : WithTop ℚ))) ↔
      ∀ e, stop = some e → t ≤ e := by
    cases stop with
    | none => simp [orDefault]
    | some e =>
      have : e ≠ 0 := fun h => he (by rw [h])
      simp [orDefault, this]
  simp only [inWindow, decide_eq_true_eq]
  rw [h1, h2]

example : inWindow (some 3600) (some 7200) 7200 = true ∧ inWindow (some 3600) (some 7200) 7201 = false
    ∧ inWindow (some 3600) none 3599 = false := by decide +kernel

/-- C10 is violated for a zero bound: it is treated as "no bound", for every time. -/
theorem C10_zero_bound_violated (t : ℚ) :
    (inWindow none (some 0) t = true) ∧ (inWindow (some 0) none t = true) := by
  simp [inWindow, orDefault]

/-- C10 in the 3D driver: export callbacks are pushed under the solver's export index
(solver.py:993), so a window that skips the first `k ≥ 1` exports makes the first evaluated push
fail with an assertion instead of recording the value. -/
theorem C10_skipped_export_violated {R : Type} (row : R) (k : ℕ) (hk : 1 ≤ k) :
    (Diag.push ⟨none, true, false⟩ row (some k)).2 = some .assertion := by
  have h1 : ¬ k < 0 := by omega
  have h2 : k ≠ 0 := by omega
  simp [Diag.push, h2]

/-! ### C11 -/

/-- C11: the first relative change is zero and later ones are relative to the first value, for
every history with a non-zero first value. -/
theorem C11_conservation (v0 : ℚ) (h0 : v0 ≠ 0) (vs : List ℚ) :
    feed conservation none (v0 :: vs) =
      (.ok (v0, 0) :: vs.map (fun v => .ok (v, (v - v0) / v0))) := by
  have key : ∀ vs : List ℚ, feed conservation (some v0) vs =
      vs.map (fun v => (.ok (v, (v - v0) / v0) : Except Err (ℚ × ℚ))) := by
    intro vs
    induction vs with
    | nil => rfl
    | cons v vs ih => simp [feed, conservation, h0] at ih ⊢; simpa [conservation] using ih
  have := key vs
  simp [feed, conservation, h0] at this ⊢
  simpa [conservation] using this

example : feed conservation none [4, 5, 4, 3] =
    [.ok (4, 0), .ok (5, 1/4), .ok (4, 0), .ok (3, -1/4)] := by decide +kernel

/-- C11, error branch: if the first value is zero every evaluation of the history fails. -/
theorem C11_zero_initial (vs : List ℚ) :
    feed conservation none (0 :: vs) = (.error .zeroDivision) :: vs.map (fun _ => .error .zeroDivision) := by
  have key : ∀ vs : List ℚ, feed conservation (some 0) vs =
      vs.map (fun _ => (.error .zeroDivision : Except Err (ℚ × ℚ))) := by
    intro vs
    induction vs with
    | nil => rfl
    | cons v vs ih => simp [feed, conservation] at ih ⊢; simpa [conservation] using ih
  have := key vs
  simp [feed, conservation] at this ⊢
  simpa [conservation] using this

/-- C11: for every history, each report consists of the observed extrema, a non-positive undershoot
that is zero iff the minimum has not dropped below the first one, and a non-negative overshoot that
is zero iff the maximum has not risen above the first one; otherwise they are the exact excess. -/
theorem C11_overshoot (v0 : ℚ × ℚ) (vs : List (ℚ × ℚ)) :
    List.Forall₂ (fun (v : ℚ × ℚ) (r : ℚ × ℚ × ℚ × ℚ) =>
      r.1 = v.1 ∧ r.2.1 = v.2 ∧
      r.2.2.1 ≤ 0 ∧ (r.2.2.1 = 0 ↔ v0.1 ≤ v.1) ∧ (r.2.2.1 < 0 → v0.1 + r.2.2.1 = v.1) ∧
      0 ≤ r.2.2.2 ∧ (r.2.2.2 = 0 ↔ v.2 ≤ v0.2) ∧ (0 < r.2.2.2 → v0.2 + r.2.2.2 = v.2))
      (v0 :: vs) (feed minMax none (v0 :: vs)) := by
  have point : ∀ v : ℚ × ℚ,
      v.1 = v.1 ∧ v.2 = v.2 ∧
      min (v.1 - v0.1) 0 ≤ 0 ∧ (min (v.1 - v0.1) 0 = 0 ↔ v0.1 ≤ v.1) ∧
      (min (v.1 - v0.1) 0 < 0 → v0.1 + min (v.1 - v0.1) 0 = v.1) ∧
      0 ≤ max (v.2 - v0.2) 0 ∧ (max (v.2 - v0.2) 0 = 0 ↔ v.2 ≤ v0.2) ∧
      (0 < max (v.2 - v0.2) 0 → v0.2 + max (v.2 - v0.2) 0 = v.2) := by
    intro v
    refine ⟨rfl, rfl, min_le_right _ _, ?_, ?_, le_max_right _ _, ?_, ?_⟩
    · rw [min_eq_right_iff, sub_nonneg]
    · intro h
      rcases le_total (v.1 - v0.1) 0 with h' | h'
      · rw [min_eq_left h']; ring
      · rw [min_eq_right h'] at h; exact absurd h (lt_irrefl _)
    · rw [max_eq_right_iff, sub_nonpos]
    · intro h
      rcases le_total (v.2 - v0.2) 0 with h' | h'
      · rw [max_eq_right h'] at h; exact absurd h (lt_irrefl _)
      · rw [max_eq_left h']; ring
  have key : ∀ vs : List (ℚ × ℚ), List.Forall₂ (fun (v : ℚ × ℚ) (r : ℚ × ℚ × ℚ × ℚ) =>
      r.1 = v.1 ∧ r.2.1 = v.2 ∧
      r.2.2.1 ≤ 0 ∧ (r.2.2.1 = 0 ↔ v0.1 ≤ v.1) ∧ (r.2.2.1 < 0 → v0.1 + r.2.2.1 = v.1) ∧
      0 ≤ r.2.2.2 ∧ (r.2.2.2 = 0 ↔ v.2 ≤ v0.2) ∧ (0 < r.2.2.2 → v0.2 + r.2.2.2 = v.2))
      vs (feed minMax (some v0) vs) := by
    intro vs
    induction vs with
    | nil => exact List.Forall₂.nil
    | cons v vs ih => exact List.Forall₂.cons (point v) ih
  exact List.Forall₂.cons (point v0) (key vs)

example : feed minMax none [(1, 2), (0, 2), (1, 5)] =
    [(1, 2, 0, 0), (0, 2, -1, 0), (1, 5, 0, 3)] := by decide +kernel

/-! ### C12 -/

/-- C12: regrouping a record built by concatenating the fields' components returns the fields. -/
theorem C12_regroup {V : Type} (xss : List (List V)) :
    valuesPerField xss.flatten 0 (xss.map List.length) = xss := by
  have key : ∀ (pre : List V) (xss : List (List V)),
      valuesPerField (pre ++ xss.flatten) pre.length (xss.map List.length) = xss := by
    intro pre xss
    induction xss generalizing pre with
    | nil => rfl
    | cons x xss ih =>
      have := ih (pre ++ x)
      simp only [List.length_append, List.append_assoc] at this
      simp only [List.map_cons, List.flatten_cons, valuesPerField, this]
      simp
  simpa using key [] xss

/-- C12: conversely every value of a full record ends up in exactly one group, in order. -/
theorem C12_no_loss {V : Type} (values : List V) (dims : List ℕ) (h : values.length = dims.sum) :
    (valuesPerField values 0 dims).flatten = values ∧
    (valuesPerField values 0 dims).map List.length = dims := by
  have key : ∀ (dims : List ℕ) (i : ℕ), values.length = i + dims.sum →
      (valuesPerField values i dims).flatten = values.drop i ∧
      (valuesPerField values i dims).map List.length = dims := by
    intro dims
    induction dims with
    | nil =>
      intro i hi
      simp at hi
      simp [valuesPerField, List.drop_eq_nil_of_le (le_of_eq hi)]
    | cons d dims ih =>
      intro i hi
      rw [List.sum_cons] at hi
      obtain ⟨h1, h2⟩ := ih (i + d) (by omega)
      refine ⟨?_, ?_⟩
      · simp only [valuesPerField, List.flatten_cons, h1]
        rw [← List.drop_drop, List.take_append_drop]
      · simp only [valuesPerField, List.map_cons, h2, List.length_take, List.length_drop]
        congr 1
        omega
  simpa using key dims 0 (by simpa using h)

example : valuesPerField [10, 20, 30] 0 [2, 1] = [[10, 20], [30]] := rfl

theorem decimal_length_mono {i n : ℕ} (h : i ≤ n) :
    (Export.decimal i).length ≤ (Export.decimal n).length := by
  unfold Export.decimal
  by_cases h0 : i = 0
  · rw [if_pos h0]
    split
    · exact le_refl _
    · rename_i hn
      rw [List.length_reverse, List.length_singleton]
      have : Nat.digits 10 n ≠ [] := Nat.digits_ne_nil_iff_ne_zero.2 hn
      exact List.length_pos_of_ne_nil this
  · rw [if_neg h0, if_neg (by omega), List.length_reverse, List.length_reverse]
    exact Nat.le_length_digits_le 10 i n h

theorem detectorName_length {n i : ℕ} (h : i ≤ n) :
    (detectorName n i).length = (Export.decimal n).length := by
  have := decimal_length_mono h
  simp only [detectorName, Export.zeroPad, List.length_append, List.length_replicate]
  omega

theorem lex_of_value_lt : ∀ (a b : List ℕ), a.length = b.length → (∀ d ∈ a, d < 10) →
    (∀ d ∈ b, d < 10) → Nat.ofDigits 10 a.reverse < Nat.ofDigits 10 b.reverse → a < b
  | [], [], _, _, _, h => by simp at h
  | [], _ :: _, h, _, _, _ => by simp at h
  | _ :: _, [], h, _, _, _ => by simp at h
  | x :: a, y :: b, hl, ha, hb, h => by
    simp only [List.reverse_cons, Nat.ofDigits_append, List.length_reverse, Nat.ofDigits_singleton]
      at h
    have hl' : a.length = b.length := by simpa using hl
    have ha' : ∀ d ∈ a, d < 10 := fun d hd => ha d (by simp [hd])
    have hb' : ∀ d ∈ b, d < 10 := fun d hd => hb d (by simp [hd])
    have b1 : Nat.ofDigits 10 b.reverse < 10 ^ b.length := by
      have := Nat.ofDigits_lt_base_pow_length (b := 10) (l := b.reverse) (by norm_num)
        (by intro d hd; exact hb' d (by simpa using hd))
      simpa using this
    rw [hl'] at h
    rw [List.cons_lt_cons_iff]
    by_cases hxy : x < y
    · exact Or.inl hxy
    · right
      have hge : y ≤ x := by omega
      have hp : 0 < 10 ^ b.length := Nat.pow_pos (by norm_num)
      have hx : x = y := by
        by_contra hne
        have h1 : y + 1 ≤ x := by omega
        have := Nat.mul_le_mul_left (10 ^ b.length) h1
        rw [Nat.mul_add, Nat.mul_one] at this
        omega
      subst hx
      exact ⟨rfl, lex_of_value_lt a b hl' ha' hb' (by omega)⟩

/-- C12: automatic detector names are strictly increasing in the detector number in dictionary
order (hence distinct), for any number of detectors. -/
theorem C12_names_sorted (n i j : ℕ) (hij : i < j) (hj : j < n) :
    detectorName n i < detectorName n j ∧ detectorName n i ≠ detectorName n j := by
  have hlt : detectorName n i < detectorName n j := by
    apply lex_of_value_lt
    · rw [detectorName_length (by omega), detectorName_length (by omega)]
    · exact fun d hd => Export.zeroPad_lt _ _ d hd
    · exact fun d hd => Export.zeroPad_lt _ _ d hd
    · simp only [detectorName, Export.ofDigits_zeroPad]; exact hij
  exact ⟨hlt, fun h => absurd hlt (by rw [h]; exact List.lt_irrefl _)⟩

example : detectorName 12 3 = [0, 3] ∧ detectorName 12 11 = [1, 1] := by decide +kernel

/-! ### C13: diagnostics across a restart -/

theorem pushAll_indexed {R : Type} (rows : List R) (i : ℕ) (hi : i + 1 ≤ rows.length) (new : List R)
    (cn : Bool) :
    (Diag.pushAll ⟨some rows, cn, true⟩
      (new.mapIdx (fun k r => (r, some (i + 1 + k))))).2 = none ∧
    (Diag.pushAll ⟨some rows, cn, true⟩
      (new.mapIdx (fun k r => (r, some (i + 1 + k))))).1.disk =
        some (rows.take (i + 1) ++ new ++ rows.drop (i + 1 + new.length)) := by
  induction new generalizing rows i with
  | nil => simp [Diag.pushAll]
  | cons r new ih =>
    simp only [List.mapIdx_cons, Nat.add_zero, Diag.pushAll]
    have e : (List.mapIdx (fun k r => (r, some (i + 1 + (k + 1)))) new) =
        List.mapIdx (fun k r => (r, some (i + 1 + 1 + k))) new := by
      congr 1; funext k r; congr 2; omega
    by_cases h : i + 1 < rows.length
    · have hp : (Diag.push (⟨some rows, cn, true⟩ : Diag R) r (some (i + 1))) =
          (⟨some (rows.set (i + 1) r), cn, true⟩, none) := by simp [Diag.push, h]
      rw [hp, e]
      obtain ⟨h1, h2⟩ := ih (rows.set (i + 1) r) (i + 1) (by simp; omega)
      refine ⟨h1, ?_⟩
      rw [h2]
      congr 1
      have ht : (rows.set (i + 1) r).take (i + 1 + 1) = rows.take (i + 1) ++ [r] := by
        rw [List.take_succ_eq_append_getElem (by simpa using h)]
        rw [List.getElem_set_self, List.take_set, List.set_eq_of_length_le (by simp)]
      rw [ht, List.drop_set, if_pos (by omega)]
      have hx : i + 1 + 1 + new.length = i + 1 + (r :: new).length := by
        simp only [List.length_cons]; omega
      rw [hx]
      simp only [List.append_assoc, List.cons_append, List.nil_append]
    · have hl : rows.length = i + 1 := by omega
      have hp : (Diag.push (⟨some rows, cn, true⟩ : Diag R) r (some (i + 1))) =
          (⟨some (rows ++ [r]), cn, true⟩, none) := by simp [Diag.push, hl]
      rw [hp, e]
      obtain ⟨h1, h2⟩ := ih (rows ++ [r]) (i + 1) (by simp; omega)
      refine ⟨h1, ?_⟩
      rw [h2]
      have d1 : (rows ++ [r]).drop (i + 1 + 1 + new.length) = [] :=
        List.drop_eq_nil_of_le (by simp; omega)
      have d2 : rows.drop (i + 1 + (r :: new).length) = [] :=
        List.drop_eq_nil_of_le (by simp; omega)
      rw [d1, d2]
      have t1 : (rows ++ [r]).take (i + 1 + 1) = rows ++ [r] :=
        List.take_of_length_le (by simp; omega)
      have t2 : rows.take (i + 1) = rows := List.take_of_length_le (by omega)
      rw [t1, t2]; simp

/-- C13, 3D driver, export callbacks: after a crash the file has at least the rows `0..i` of
checkpoint `i`; the continued run pushes under indices `i+1, i+2, …`.  Rows `0..i` stay, the new
rows follow directly, and stale rows beyond are replaced one by one. -/
theorem C13_restart_3d {R : Type} (old : Diag R) (rows : List R) (hd : old.disk = some rows) (i : ℕ)
    (hi : i + 1 ≤ rows.length) (new : List R) (hne : new ≠ []) :
    ((old.restart true).pushAll (new.mapIdx (fun k r => (r, some (i + 1 + k))))).2 = none ∧
    ((old.restart true).pushAll (new.mapIdx (fun k r => (r, some (i + 1 + k))))).1.disk =
      some (rows.take (i + 1) ++ new ++ rows.drop (i + 1 + new.length)) := by
  obtain ⟨r, rest, rfl⟩ := List.exists_cons_of_ne_nil hne
  have h := pushAll_indexed rows i hi (r :: rest) false
  have e : (old.restart true).push r (some (i + 1)) =
      (⟨some rows, false, true⟩ : Diag R).push r (some (i + 1)) := by
    simp [Diag.push, Diag.restart, hd]
  simp only [List.mapIdx_cons, Nat.add_zero, Diag.pushAll] at h ⊢
  rw [e]; exact h

example : ((⟨some [0, 1, 2, 3, 4], true, true⟩ : Diag ℕ).restart true).pushAll
    [(12, some 2), (13, some 3)] = (⟨some [0, 1, 12, 13, 4], false, true⟩, none) := by decide

/-- C13 is violated by the 2D driver: it never switches to append mode, so the first push after a
restart erases every earlier row, whatever they were. -/
theorem C13_restart_2d_violated {R : Type} (old : Diag R) (r : R) (new : List R) :
    ((old.restart false).pushAll ((r :: new).map (fun x => (x, none)))).1.disk = some (r :: new) := by
  have key : ∀ (rows new : List R), ((⟨some rows, true, true⟩ : Diag R).pushAll
      (new.map (fun x => (x, none)))).1.disk = some (rows ++ new) := by
    intro rows new
    induction new generalizing rows with
    | nil => simp [Diag.pushAll]
    | cons x new ih =>
      simp only [List.map_cons, Diag.pushAll, Diag.push]
      have := ih (rows ++ [x])
      simpa using this
  have e : (old.restart false).push r none = (⟨some [r], true, true⟩, none) := by
    simp [Diag.push, Diag.restart]
  simp only [List.map_cons, Diag.pushAll, e]
  simpa using key [r] new

/-- C13 in 3D for callbacks evaluated at every time step (pushed without index): rows written
between the checkpoint and the crash stay in the file and the continued run's rows come after
them, so the time series repeats part of the time axis. -/
theorem C13_timestep_3d {R : Type} (old : Diag R) (rows : List R) (hd : old.disk = some rows)
    (new : List R) (hne : new ≠ []) :
    ((old.restart true).pushAll (new.map (fun x => (x, none)))).1.disk = some (rows ++ new) := by
  have key : ∀ (rows new : List R), ((⟨some rows, false, true⟩ : Diag R).pushAll
      (new.map (fun x => (x, none)))).1.disk = some (rows ++ new) := by
    intro rows new
    induction new generalizing rows with
    | nil => simp [Diag.pushAll]
    | cons x new ih =>
      simp only [List.map_cons, Diag.pushAll, Diag.push]
      have := ih (rows ++ [x])
      simpa using this
  obtain ⟨r, rest, rfl⟩ := List.exists_cons_of_ne_nil hne
  have e : (old.restart true).push r none = (⟨some (rows ++ [r]), false, true⟩, none) := by
    simp [Diag.push, Diag.restart, hd]
  simp only [List.map_cons, Diag.pushAll, e]
  simpa using key (rows ++ [r]) rest

/-- C13, 3D restart into another output directory: the file does not exist there, append mode does
not create it, and the first push fails. -/
theorem C13_newdir_3d_violated {R : Type} (r : R) (i : Option ℕ) (cn ini : Bool) :
    (((⟨none, cn, ini⟩ : Diag R).restart true).push r i).2 = some .keyError := by
  simp [Diag.push, Diag.restart]

/-! ### C14, accumulator part -/

/-- Trapezium sum of a list of samples with spacing `dt`. -/
def trapezium (dt : ℚ) : List ℚ → ℚ
  | [] => 0
  | [_] => 0
  | a :: b :: l => (a + b) / 2 * dt + trapezium dt (b :: l)

/-- C14: after any number of evaluations the accumulator holds the trapezium sum of all samples. -/
theorem C14_accumulator (dt : ℚ) (vs : List ℚ) :
    (vs.foldl (accumulate dt) (0, none)).1 = trapezium dt vs := by
  have key : ∀ (vs : List ℚ) (acc o : ℚ),
      (vs.foldl (accumulate dt) (acc, some o)).1 = acc + trapezium dt (o :: vs) := by
    intro vs
    induction vs with
    | nil => intro acc o; simp [trapezium]
    | cons v vs ih =>
      intro acc o
      rw [List.foldl_cons]
      have := ih (acc + 1 / 2 * (o + v) * dt) v
      simp only [accumulate] at this ⊢
      rw [this]
      simp only [trapezium]; ring
  cases vs with
  | nil => rfl
  | cons v vs =>
    rw [List.foldl_cons]
    have := key vs 0 v
    simp only [accumulate] at this ⊢
    rw [this, zero_add]

example : ([2, 4, 8].foldl (accumulate (1/2)) (0, none)).1 = 9/2 := by decide +kernel

end Verif.Callback
