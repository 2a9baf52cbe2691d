import Verif.Interp.Model
import Mathlib.Tactic.Linarith
import Mathlib.Tactic.Ring
import Mathlib.Tactic.FieldSimp
import Mathlib.Tactic.NormNum
import Mathlib.Tactic.Positivity
import Mathlib.Algebra.Order.BigOperators.Group.Finset
import Mathlib.Algebra.Order.BigOperators.Ring.Finset
import Mathlib.LinearAlgebra.Matrix.NonsingularInverse

/-!
Properties C15–C19.
-/

namespace Verif.Interp

/-! ### Search in a sorted list -/

theorem tol_pos : 0 < tol := by unfold tol; norm_num

theorem searchsorted_le (l : List ℚ) (v : ℚ) : searchsorted l v ≤ l.length := List.countP_le_length

theorem getElem_lt_iff (l : List ℚ) (hs : l.Pairwise (· ≤ ·)) (v : ℚ) (i : ℕ) (hi : i < l.length) :
    l[i] < v ↔ i < searchsorted l v := by
  induction l generalizing i with
  | nil => simp at hi
  | cons a l ih =>
    rw [List.pairwise_cons] at hs
    by_cases ha : a < v
    · have e : searchsorted (a :: l) v = searchsorted l v + 1 := by
        simp [searchsorted, ha]
      rw [e]
      cases i with
      | zero => simp [ha]
      | succ i =>
        have := ih hs.2 i (by simpa using hi)
        simp only [List.getElem_cons_succ, this]; omega
    · have e : searchsorted (a :: l) v = 0 := by
        unfold searchsorted
        rw [List.countP_eq_zero]
        intro x hx
        rcases List.mem_cons.1 hx with rfl | hx
        · simpa using ha
        · simpa using le_trans (not_lt.1 ha) (hs.1 x hx)
      rw [e]
      constructor
      · intro h
        exfalso
        have hm : (a :: l)[i] ∈ a :: l := List.getElem_mem _
        rcases List.mem_cons.1 hm with h1 | h1
        · rw [h1] at h; exact ha h
        · exact ha (lt_of_le_of_lt (hs.1 _ h1) h)
      · intro h; omega

theorem findTimeStamp_prev (l : List ℚ) (hs : l.Pairwise (· ≤ ·)) (t : ℚ) :
    (∀ k, findTimeStamp l t true = some k ↔
      ∃ hk : k < l.length, l[k] < t + tol ∧ ∀ j (hj : j < l.length), k < j → t + tol ≤ l[j]) ∧
    (findTimeStamp l t true = none ↔ ∀ x ∈ l, t + tol ≤ x) := by
  have hle := searchsorted_le l (t + tol)
  have hval : findTimeStamp l t true =
      if searchsorted l (t + tol) = 0 then none else some (searchsorted l (t + tol) - 1) := by
    unfold findTimeStamp
    simp only [if_true]
    by_cases h0 : searchsorted l (t + tol) = 0
    · rw [if_pos (by omega), if_pos h0]
    · rw [if_neg (by omega), if_neg (by omega), if_neg h0]
      congr 1; omega
  constructor
  · intro k
    rw [hval]
    constructor
    · intro h
      split at h
      · exact absurd h (by simp)
      · rename_i h0
        have hk : k = searchsorted l (t + tol) - 1 := (Option.some.inj h).symm
        refine ⟨by omega, (getElem_lt_iff l hs _ k (by omega)).2 (by omega), ?_⟩
        intro j hj hkj
        rw [← not_lt, getElem_lt_iff l hs _ j hj]; omega
    · rintro ⟨hk, h1, h2⟩
      have h3 := (getElem_lt_iff l hs _ k hk).1 h1
      have h4 : searchsorted l (t + tol) = k + 1 := by
        by_contra hne
        have hj : k + 1 < l.length := by omega
        have := h2 (k + 1) hj (by omega)
        rw [← not_lt, getElem_lt_iff l hs _ _ hj] at this
        omega
      rw [h4]; simp
  · rw [hval]
    constructor
    · intro h x hx
      split at h
      · rename_i h0
        obtain ⟨i, hi, rfl⟩ := List.getElem_of_mem hx
        rw [← not_lt, getElem_lt_iff l hs _ i hi]; omega
      · exact absurd h (by simp)
    · intro h
      rw [if_pos]
      unfold searchsorted
      rw [List.countP_eq_zero]
      intro x hx
      simpa using h x hx

theorem findTimeStamp_next (l : List ℚ) (hs : l.Pairwise (· ≤ ·)) (t : ℚ) :
    (∀ k, findTimeStamp l t false = some k ↔
      ∃ hk : k < l.length, t + tol ≤ l[k] ∧ ∀ j (hj : j < l.length), j < k → l[j] < t + tol) ∧
    (findTimeStamp l t false = none ↔ ∀ x ∈ l, x < t + tol) := by
  have hle := searchsorted_le l (t + tol)
  have hval : findTimeStamp l t false =
      if searchsorted l (t + tol) = l.length then none else some (searchsorted l (t + tol)) := by
    unfold findTimeStamp
    simp only [Bool.false_eq_true, if_false, sub_zero]
    by_cases h0 : searchsorted l (t + tol) = l.length
    · rw [if_neg (by omega), if_pos (by omega), if_pos h0]
    · rw [if_neg (by omega), if_neg (by omega), if_neg h0]
      congr 1
  constructor
  · intro k
    rw [hval]
    constructor
    · intro h
      split at h
      · exact absurd h (by simp)
      · rename_i h0
        have hk : searchsorted l (t + tol) = k := Option.some.inj h
        refine ⟨by omega, ?_, ?_⟩
        · rw [← not_lt, getElem_lt_iff l hs _ k (by omega)]; omega
        · intro j hj hkj
          rw [getElem_lt_iff l hs _ j hj]; omega
    · rintro ⟨hk, h1, h2⟩
      rw [← not_lt, getElem_lt_iff l hs _ k hk] at h1
      have h4 : searchsorted l (t + tol) = k := by
        by_contra hne
        have hj : searchsorted l (t + tol) < k := by omega
        have := h2 _ (by omega) hj
        rw [getElem_lt_iff l hs _ _ (by omega)] at this
        omega
      rw [h4, if_neg (by omega)]
  · rw [hval]
    constructor
    · intro h x hx
      split at h
      · rename_i h0
        obtain ⟨i, hi, rfl⟩ := List.getElem_of_mem hx
        rw [getElem_lt_iff l hs _ i hi]; omega
      · exact absurd h (by simp)
    · intro h
      rw [if_pos]
      unfold searchsorted
      rw [List.countP_eq_length]
      intro x hx
      simpa using h x hx

/-! ### C16 -/

/-- Stored times of a file are sorted and there is at least one. -/
def WellFormed (f : TFile) : Prop := f.times ≠ [] ∧ f.times.Pairwise (· < ·)

/-- All times of `f` precede all times of `g`. -/
def Before (f g : TFile) : Prop := ∀ a ∈ f.times, ∀ b ∈ g.times, a < b

/-- The key names a stored time stamp. -/
def Stored (all : List TFile) (k : Key) : Prop :=
  ∃ f ∈ all, f.name = k.1 ∧ f.times[k.2.1]? = some k.2.2

/-- `τ` is stored in some file. -/
def StoredTime (all : List TFile) (τ : ℚ) : Prop := ∃ f ∈ all, τ ∈ f.times

theorem start_mem (f : TFile) (h : f.times ≠ []) : f.start ∈ f.times := by
  unfold TFile.start
  cases hf : f.times with
  | nil => exact absurd hf h
  | cons a l => simp

theorem start_le (f : TFile) (h : WellFormed f) : ∀ x ∈ f.times, f.start ≤ x := by
  intro x hx
  obtain ⟨-, hp⟩ := h
  unfold TFile.start
  cases hf : f.times with
  | nil => rw [hf] at hx; simp at hx
  | cons a l =>
    rw [hf] at hx hp
    rw [List.pairwise_cons] at hp
    rcases List.mem_cons.1 hx with rfl | hx
    · simp
    · simpa using le_of_lt (hp.1 x hx)

/-- What a search must return. -/
def IsPrev (all : List TFile) (t : ℚ) (k : Key) : Prop :=
  Stored all k ∧ k.2.2 < t + tol ∧ ∀ τ, StoredTime all τ → τ < t + tol → τ ≤ k.2.2

def IsNext (all : List TFile) (t : ℚ) (k : Key) : Prop :=
  Stored all k ∧ t + tol ≤ k.2.2 ∧ ∀ τ, StoredTime all τ → t + tol ≤ τ → k.2.2 ≤ τ

section Sorted
variable (fs : List TFile) (hw : ∀ f ∈ fs, WellFormed f) (ho : fs.Pairwise Before)
include hw ho

theorem starts_sorted : (fs.map TFile.start).Pairwise (· ≤ ·) := by
  rw [List.pairwise_map]
  refine ho.imp_of_mem ?_
  intro a b ha hb hab
  exact le_of_lt (hab _ (start_mem a (hw a ha).1) _ (start_mem b (hw b hb).1))

theorem start_lt_iff (t : ℚ) (i : ℕ) (hi : i < fs.length) :
    fs[i].start < t + tol ↔ i < searchsorted (fs.map TFile.start) (t + tol) := by
  have := getElem_lt_iff _ (starts_sorted fs hw ho) (t + tol) i (by simpa using hi)
  simpa using this

omit hw ho in
theorem tryCandidate_eq (t : ℚ) (prev : Bool) (i : ℕ) (hi : i < fs.length) :
    tryCandidate fs t prev i =
      (findTimeStamp fs[i].times t prev).map (fun it => (fs[i].name, it, fs[i].times.getD it 0)) := by
  unfold tryCandidate
  rw [List.getElem?_eq_getElem hi]
  simp only
  cases findTimeStamp fs[i].times t prev <;> rfl

omit ho in
theorem times_sorted (i : ℕ) (hi : i < fs.length) : fs[i].times.Pairwise (· ≤ ·) :=
  (hw _ (List.getElem_mem hi)).2.imp le_of_lt

theorem findSorted_prev (t : ℚ) :
    (∀ k, findSorted fs t true = some k → IsPrev fs t k) ∧
    (findSorted fs t true = none → ∀ τ, StoredTime fs τ → t + tol ≤ τ) := by
  have hst : searchsorted (fs.map TFile.start) (t + tol) ≤ fs.length := by
    have := searchsorted_le (fs.map TFile.start) (t + tol); simpa using this
  unfold findSorted
  simp only
  generalize hix : searchsorted (fs.map TFile.start) (t + tol) = ix at hst
  by_cases h0 : 0 < ix
  · -- the last file starting before the query contains the answer
    have hlt : ix - 1 < fs.length := by omega
    have hs := (start_lt_iff fs hw ho t (ix - 1) hlt).2 (by omega)
    have hsome : ∃ it, findTimeStamp fs[ix - 1].times t true = some it := by
      by_contra hno
      have hnone : findTimeStamp fs[ix - 1].times t true = none := by
        cases h : findTimeStamp fs[ix - 1].times t true with
        | none => rfl
        | some v => exact absurd ⟨v, h⟩ hno
      have := (findTimeStamp_prev _ (times_sorted fs hw _ hlt) t).2.1 hnone _
        (start_mem _ (hw _ (List.getElem_mem hlt)).1)
      linarith
    obtain ⟨it, hit⟩ := hsome
    have hc : tryCandidate fs t true (ix - 1) =
        some (fs[ix - 1].name, it, fs[ix - 1].times.getD it 0) := by
      rw [tryCandidate_eq fs t true _ hlt, hit]; rfl
    rw [if_pos h0, List.findSome?_cons, hc]
    refine ⟨?_, fun h => absurd h (by simp)⟩
    intro k hk
    obtain rfl := Option.some.inj hk
    obtain ⟨hit', h1, h2⟩ := ((findTimeStamp_prev _ (times_sorted fs hw _ hlt) t).1 it).1 hit
    have hg : fs[ix - 1].times.getD it 0 = fs[ix - 1].times[it] := by simp [hit']
    refine ⟨⟨fs[ix - 1], List.getElem_mem hlt, rfl, ?_⟩, ?_, ?_⟩
    · simp only [hg]; exact List.getElem?_eq_getElem hit'
    · simp only [hg]; exact h1
    · rintro τ ⟨f, hf, hτ⟩ hlt'
      simp only [hg]
      obtain ⟨j, hj, rfl⟩ := List.getElem_of_mem hf
      rcases Nat.lt_trichotomy j (ix - 1) with hj' | hj' | hj'
      · exact le_of_lt (List.pairwise_iff_getElem.1 ho j (ix - 1) hj hlt hj' τ hτ _
          (List.getElem_mem _))
      · subst hj'
        obtain ⟨m, hm, rfl⟩ := List.getElem_of_mem hτ
        rcases Nat.lt_or_ge it m with h3 | h3
        · exact absurd (h2 m hm h3) (not_le.2 hlt')
        · rcases Nat.eq_or_lt_of_le h3 with rfl | h4
          · exact le_refl _
          · exact List.pairwise_iff_getElem.1 (times_sorted fs hw _ hlt) m it hm hit' h4
      · exfalso
        have h5 : ¬ fs[j].start < t + tol := by
          rw [start_lt_iff fs hw ho t j hj, hix]; omega
        have := start_le _ (hw _ (List.getElem_mem hj)) τ hτ
        linarith
  · have hz : ix = 0 := by omega
    have hall : ∀ j (hj : j < fs.length), ∀ x ∈ fs[j].times, t + tol ≤ x := by
      intro j hj x hx
      have h5 : ¬ fs[j].start < t + tol := by
        rw [start_lt_iff fs hw ho t j hj, hix]; omega
      exact le_trans (not_lt.1 h5) (start_le _ (hw _ (List.getElem_mem hj)) x hx)
    have hnone : ∀ j, tryCandidate fs t true j = none := by
      intro j
      by_cases hj : j < fs.length
      · rw [tryCandidate_eq fs t true j hj,
          (findTimeStamp_prev _ (times_sorted fs hw _ hj) t).2.2 (hall j hj)]; rfl
      · unfold tryCandidate; rw [List.getElem?_eq_none (by omega)]
    have hres : ∀ cs : List ℕ, cs.findSome? (tryCandidate fs t true) = none := by
      intro cs; rw [List.findSome?_eq_none_iff]; intro j _; exact hnone j
    rw [hres]
    refine ⟨fun k h => absurd h (by simp), fun _ => ?_⟩
    rintro τ ⟨f, hf, hτ⟩
    obtain ⟨j, hj, rfl⟩ := List.getElem_of_mem hf
    exact hall j hj τ hτ

theorem findSorted_next (t : ℚ) :
    (∀ k, findSorted fs t false = some k → IsNext fs t k) ∧
    (findSorted fs t false = none → ∀ τ, StoredTime fs τ → τ < t + tol) := by
  have hst : searchsorted (fs.map TFile.start) (t + tol) ≤ fs.length := by
    have := searchsorted_le (fs.map TFile.start) (t + tol); simpa using this
  unfold findSorted
  simp only
  generalize hix : searchsorted (fs.map TFile.start) (t + tol) = ix at hst
  -- a hit in file `c` is the answer if all earlier files end before the query
  have hit_ok : ∀ c (hc : c < fs.length) k, tryCandidate fs t false c = some k →
      (∀ j (hj : j < fs.length), j < c → ∀ x ∈ fs[j].times, x < t + tol) → IsNext fs t k := by
    intro c hc k hk hbefore
    rw [tryCandidate_eq fs t false c hc] at hk
    rw [Option.map_eq_some_iff] at hk
    obtain ⟨it, hit, rfl⟩ := hk
    obtain ⟨hit', h1, h2⟩ := ((findTimeStamp_next _ (times_sorted fs hw _ hc) t).1 it).1 hit
    have hg : fs[c].times.getD it 0 = fs[c].times[it] := by simp [hit']
    refine ⟨⟨fs[c], List.getElem_mem hc, rfl, ?_⟩, ?_, ?_⟩
    · simp only [hg]; exact List.getElem?_eq_getElem hit'
    · simp only [hg]; exact h1
    · rintro τ ⟨f, hf, hτ⟩ hlt'
      simp only [hg]
      obtain ⟨j, hj, rfl⟩ := List.getElem_of_mem hf
      rcases Nat.lt_trichotomy j c with hj' | hj' | hj'
      · exact absurd (hbefore j hj hj' τ hτ) (not_lt.2 hlt')
      · subst hj'
        obtain ⟨m, hm, rfl⟩ := List.getElem_of_mem hτ
        rcases Nat.lt_or_ge m it with h3 | h3
        · exact absurd (h2 m hm h3) (not_lt.2 hlt')
        · rcases Nat.eq_or_lt_of_le h3 with rfl | h4
          · exact le_refl _
          · exact List.pairwise_iff_getElem.1 (times_sorted fs hw _ hj) it m hit' hm h4
      · exact le_of_lt (List.pairwise_iff_getElem.1 ho c j hc hj hj' _ (List.getElem_mem _) τ hτ)
  -- the first file starting at or after the query has a hit
  have hit_ix : ∀ (h : ix < fs.length), ∃ k, tryCandidate fs t false ix = some k := by
    intro h
    rw [tryCandidate_eq fs t false ix h]
    cases hft : findTimeStamp fs[ix].times t false with
    | some v => exact ⟨_, rfl⟩
    | none =>
      exfalso
      have := (findTimeStamp_next _ (times_sorted fs hw _ h) t).2.1 hft _
        (start_mem _ (hw _ (List.getElem_mem h)).1)
      rw [start_lt_iff fs hw ho t ix h, hix] at this
      omega
  by_cases h0 : 0 < ix
  · have hlt : ix - 1 < fs.length := by omega
    have hs := (start_lt_iff fs hw ho t (ix - 1) hlt).2 (by omega)
    have hearly : ∀ j (hj : j < fs.length), j < ix - 1 → ∀ x ∈ fs[j].times, x < t + tol := by
      intro j hj hjx x hx
      have := List.pairwise_iff_getElem.1 ho j (ix - 1) hj hlt hjx x hx _
        (start_mem _ (hw _ (List.getElem_mem hlt)).1)
      linarith
    rw [if_pos h0, List.findSome?_cons]
    cases hc : tryCandidate fs t false (ix - 1) with
    | some k' =>
      refine ⟨?_, fun h => absurd h (by simp)⟩
      intro k hk
      obtain rfl := Option.some.inj hk
      exact hit_ok _ hlt _ hc hearly
    | none =>
      have hall : ∀ x ∈ fs[ix - 1].times, x < t + tol := by
        rw [tryCandidate_eq fs t false _ hlt, Option.map_eq_none_iff] at hc
        exact (findTimeStamp_next _ (times_sorted fs hw _ hlt) t).2.1 hc
      have hearly' : ∀ j (hj : j < fs.length), j < ix → ∀ x ∈ fs[j].times, x < t + tol := by
        intro j hj hjx
        rcases Nat.lt_or_ge j (ix - 1) with h | h
        · exact hearly j hj h
        · have : j = ix - 1 := by omega
          subst this; exact hall
      by_cases hb : ix < fs.length
      · obtain ⟨k', hk'⟩ := hit_ix hb
        simp only [List.findSome?_cons, hk']
        refine ⟨?_, fun h => absurd h (by simp)⟩
        intro k hk
        obtain rfl := Option.some.inj hk
        exact hit_ok _ hb _ hk' hearly'
      · have hn : tryCandidate fs t false ix = none := by
          unfold tryCandidate; rw [List.getElem?_eq_none (by omega)]
        simp only [List.findSome?_cons, hn, List.findSome?_nil]
        refine ⟨fun k h => absurd h (by simp), fun _ => ?_⟩
        rintro τ ⟨f, hf, hτ⟩
        obtain ⟨j, hj, rfl⟩ := List.getElem_of_mem hf
        exact hearly' j hj (by omega) τ hτ
  · have hz : ix = 0 := by omega
    rw [if_neg h0]
    by_cases hb : ix < fs.length
    · obtain ⟨k', hk'⟩ := hit_ix hb
      have hres : (if ix + 1 < fs.length then [ix, ix + 1] else [ix]).findSome?
          (tryCandidate fs t false) = some k' := by
        split <;> simp [hk']
      rw [hres]
      refine ⟨?_, fun h => absurd h (by simp)⟩
      intro k hk
      obtain rfl := Option.some.inj hk
      exact hit_ok _ hb _ hk' (fun j _ hj => by omega)
    · have hn : ∀ j, tryCandidate fs t false j = none := by
        intro j; unfold tryCandidate; rw [List.getElem?_eq_none (by omega)]
      have hres : ∀ cs : List ℕ, cs.findSome? (tryCandidate fs t false) = none := by
        intro cs; rw [List.findSome?_eq_none_iff]; intro j _; exact hn j
      rw [hres]
      refine ⟨fun k h => absurd h (by simp), fun _ => ?_⟩
      rintro τ ⟨f, hf, hτ⟩
      obtain ⟨j, hj, rfl⟩ := List.getElem_of_mem hf
      omega

end Sorted

theorem sortFiles_before (all : List TFile) (hw : ∀ f ∈ all, WellFormed f)
    (hd : all.Pairwise (fun f g => Before f g ∨ Before g f)) :
    (sortFiles all).Pairwise Before := by
  have hperm : (sortFiles all).Perm all := List.mergeSort_perm _ _
  have hsym : (sortFiles all).Pairwise (fun f g => Before f g ∨ Before g f) :=
    (hperm.pairwise_iff (fun {a b} h => h.symm)).2 hd
  have hsort : (sortFiles all).Pairwise (fun a b => a.start ≤ b.start) := by
    have := List.pairwise_mergeSort (le := fun a b : TFile => decide (a.start ≤ b.start))
      (by intro a b c; simp; exact le_trans) (by intro a b; simp; exact le_total _ _) all
    simpa [sortFiles] using this
  refine (hsym.and hsort).imp_of_mem ?_
  rintro a b ha hb ⟨h1, h2⟩
  rcases h1 with h1 | h1
  · exact h1
  · exfalso
    have := h1 _ (start_mem b (hw b (hperm.mem_iff.1 hb)).1) _ (start_mem a (hw a (hperm.mem_iff.1 ha)).1)
    linarith

theorem storedTime_perm {a b : List TFile} (h : a.Perm b) (τ : ℚ) :
    StoredTime a τ ↔ StoredTime b τ := by
  unfold StoredTime
  constructor <;> rintro ⟨f, hf, h'⟩
  · exact ⟨f, h.mem_iff.1 hf, h'⟩
  · exact ⟨f, h.mem_iff.2 hf, h'⟩

theorem stored_perm {a b : List TFile} (h : a.Perm b) (k : Key) : Stored a k ↔ Stored b k := by
  unfold Stored
  constructor <;> rintro ⟨f, hf, h'⟩
  · exact ⟨f, h.mem_iff.1 hf, h'⟩
  · exact ⟨f, h.mem_iff.2 hf, h'⟩

/-- C16: for files with disjoint time ranges, listed in any order, the search returns the last
stored time before `t + tol` (previous) or the first stored time from `t + tol` on (next) over all
files, and fails exactly when there is no such stored time. -/
theorem C16_search (all : List TFile) (hw : ∀ f ∈ all, WellFormed f)
    (hd : all.Pairwise (fun f g => Before f g ∨ Before g f)) (t : ℚ) :
    (∀ k, find all t true = some k → IsPrev all t k) ∧
    (find all t true = none ↔ ∀ τ, StoredTime all τ → t + tol ≤ τ) ∧
    (∀ k, find all t false = some k → IsNext all t k) ∧
    (find all t false = none ↔ ∀ τ, StoredTime all τ → τ < t + tol) := by
  have hperm : (sortFiles all).Perm all := List.mergeSort_perm _ _
  have hb := sortFiles_before all hw hd
  have hw' : ∀ f ∈ sortFiles all, WellFormed f := fun f hf => hw f (hperm.mem_iff.1 hf)
  have hp := findSorted_prev _ hw' hb t
  have hn := findSorted_next _ hw' hb t
  by_cases h0 : all.length = 0
  · have hnil : all = [] := List.length_eq_zero_iff.1 h0
    subst hnil
    simp [find, StoredTime]
  · have hf : ∀ b, find all t b = findSorted (sortFiles all) t b := by
      intro b; simp [find, h0]
    have prevOk : ∀ k, find all t true = some k → IsPrev all t k := by
      intro k hk
      obtain ⟨h1, h2, h3⟩ := hp.1 k (by rw [← hf]; exact hk)
      exact ⟨(stored_perm hperm k).1 h1, h2, fun τ hτ => h3 τ ((storedTime_perm hperm τ).2 hτ)⟩
    have nextOk : ∀ k, find all t false = some k → IsNext all t k := by
      intro k hk
      obtain ⟨h1, h2, h3⟩ := hn.1 k (by rw [← hf]; exact hk)
      exact ⟨(stored_perm hperm k).1 h1, h2, fun τ hτ => h3 τ ((storedTime_perm hperm τ).2 hτ)⟩
    refine ⟨prevOk, ⟨?_, ?_⟩, nextOk, ⟨?_, ?_⟩⟩
    · intro h τ hτ
      exact hp.2 (by rw [← hf]; exact h) τ ((storedTime_perm hperm τ).2 hτ)
    · intro h
      cases hk : find all t true with
      | none => rfl
      | some k =>
        exfalso
        obtain ⟨⟨f, hf', -, h2⟩, h1, -⟩ := prevOk k hk
        have := h k.2.2 ⟨f, hf', List.mem_of_getElem? h2⟩
        linarith
    · intro h τ hτ
      exact hn.2 (by rw [← hf]; exact h) τ ((storedTime_perm hperm τ).2 hτ)
    · intro h
      cases hk : find all t false with
      | none => rfl
      | some k =>
        exfalso
        obtain ⟨⟨f, hf', -, h2⟩, h1, -⟩ := nextOk k hk
        have := h k.2.2 ⟨f, hf', List.mem_of_getElem? h2⟩
        linarith

/-- Two files listed in reverse order with a gap; a query in the gap. -/
example : findSorted [⟨1, [0, 10]⟩, ⟨2, [20, 30]⟩] 15 true = some (1, 1, 10) ∧
    findSorted [⟨1, [0, 10]⟩, ⟨2, [20, 30]⟩] 15 false = some (2, 0, 20) ∧
    findSorted [⟨1, [0, 10]⟩, ⟨2, [20, 30]⟩] 30 false = none ∧
    findSorted [⟨1, [0, 10]⟩, ⟨2, [20, 30]⟩] (-1) true = none := by decide +kernel

/-- The hypotheses of `C16_search` hold for that family in reverse order. -/
example : let all : List TFile := [⟨2, [20, 30]⟩, ⟨1, [0, 10]⟩]
    (∀ f ∈ all, WellFormed f) ∧ all.Pairwise (fun f g => Before f g ∨ Before g f) := by
  constructor
  · intro f hf
    simp at hf
    rcases hf with rfl | rfl <;> exact ⟨by simp, by norm_num⟩
  · simp [Before]; norm_num

/-- The restriction to disjoint ranges is needed: with one file nested in another's range the
search misses the last stored time before the query. -/
theorem C16_overlap_needed :
    findSorted [⟨1, [0, 10, 40]⟩, ⟨2, [20, 30]⟩] 45 true = some (2, 1, 30) := by decide +kernel

/-! ### C18 -/

/-- C18: whatever the order of the files, the search returns the newest file dated before
`t + tol` (previous) or the oldest dated from `t + tol` on (next), always at time index 0, and
fails exactly when there is none. -/
theorem C18_daily (all : List (ℕ × ℚ)) (t : ℚ) :
    (∀ k, findDaily all t true = some k → (k.1, k.2.2) ∈ all ∧ k.2.1 = 0 ∧ k.2.2 < t + tol ∧
      ∀ f ∈ all, f.2 < t + tol → f.2 ≤ k.2.2) ∧
    (findDaily all t true = none ↔ ∀ f ∈ all, t + tol ≤ f.2) ∧
    (∀ k, findDaily all t false = some k → (k.1, k.2.2) ∈ all ∧ k.2.1 = 0 ∧ t + tol ≤ k.2.2 ∧
      ∀ f ∈ all, t + tol ≤ f.2 → k.2.2 ≤ f.2) ∧
    (findDaily all t false = none ↔ ∀ f ∈ all, f.2 < t + tol) := by
  by_cases h0 : all.length = 0
  · have hnil : all = [] := List.length_eq_zero_iff.1 h0
    subst hnil
    simp [findDaily]
  set files := all.mergeSort (fun a b => decide (a.2 ≤ b.2)) with hfiles
  have hperm : files.Perm all := List.mergeSort_perm _ _
  have hsort : (files.map (·.2)).Pairwise (· ≤ ·) := by
    have := List.pairwise_mergeSort (le := fun a b : ℕ × ℚ => decide (a.2 ≤ b.2))
      (by intro a b c; simp; exact le_trans) (by intro a b; simp; exact le_total _ _) all
    rw [List.pairwise_map]
    simpa [hfiles] using this
  set ix := searchsorted (files.map (·.2)) (t + tol) with hix
  have hixle : ix ≤ files.length := by
    have := searchsorted_le (files.map (·.2)) (t + tol); simpa using this
  have hlt : ∀ i (hi : i < files.length), files[i].2 < t + tol ↔ i < ix := by
    intro i hi
    have := getElem_lt_iff _ hsort (t + tol) i (by simpa using hi)
    simpa using this
  have hmono : ∀ i j (hi : i < files.length) (hj : j < files.length), i ≤ j →
      files[i].2 ≤ files[j].2 := by
    intro i j hi hj hij
    rcases Nat.eq_or_lt_of_le hij with rfl | h
    · exact le_refl _
    · have := List.pairwise_iff_getElem.1 hsort i j (by simpa using hi) (by simpa using hj) h
      simpa using this
  have hprev : findDaily all t true =
      if h : 0 < ix then some ((files[ix - 1]'(by omega)).1, 0, (files[ix - 1]'(by omega)).2)
      else none := by
    unfold findDaily
    rw [if_neg h0]
    simp only [← hfiles, ← hix, if_true]
    by_cases h : 0 < ix
    · rw [if_neg (by omega), dif_pos h]
      have e : ((ix : ℤ) - 1).toNat = ix - 1 := by omega
      rw [e, List.getElem?_eq_getElem (by omega)]
    · rw [if_pos (by omega), dif_neg h]
  have hnext : findDaily all t false =
      if h : ix < files.length then some ((files[ix]).1, 0, (files[ix]).2) else none := by
    unfold findDaily
    rw [if_neg h0]
    simp only [← hfiles, ← hix, Bool.false_eq_true, if_false]
    rw [if_neg (by omega), Int.toNat_natCast]
    by_cases h : ix < files.length
    · rw [dif_pos h, List.getElem?_eq_getElem h]
    · rw [dif_neg h, List.getElem?_eq_none (by omega)]
  have hget : ∀ f ∈ all, ∃ i, ∃ hi : i < files.length, files[i] = f := by
    intro f hf
    obtain ⟨i, hi, h⟩ := List.getElem_of_mem (hperm.mem_iff.2 hf)
    exact ⟨i, hi, h⟩
  refine ⟨?_, ?_, ?_, ?_⟩
  · intro k hk
    rw [hprev] at hk
    split at hk
    · rename_i h
      obtain rfl := Option.some.inj hk
      refine ⟨hperm.mem_iff.1 (List.getElem_mem _), rfl, (hlt _ _).2 (by omega), ?_⟩
      intro f hf hft
      obtain ⟨i, hi, rfl⟩ := hget f hf
      have := (hlt i hi).1 hft
      exact hmono i (ix - 1) hi (by omega) (by omega)
    · exact absurd hk (by simp)
  · rw [hprev]
    constructor
    · intro h f hf
      split at h
      · exact absurd h (by simp)
      · rename_i hz
        obtain ⟨i, hi, rfl⟩ := hget f hf
        rw [← not_lt, hlt i hi]; omega
    · intro h
      rw [dif_neg]
      intro hpos
      have := h _ (hperm.mem_iff.1 (List.getElem_mem (l := files) (n := 0) (by omega)))
      rw [← not_lt, hlt 0 (by omega)] at this
      omega
  · intro k hk
    rw [hnext] at hk
    split at hk
    · rename_i h
      obtain rfl := Option.some.inj hk
      refine ⟨hperm.mem_iff.1 (List.getElem_mem _), rfl, ?_, ?_⟩
      · simp only; rw [← not_lt, hlt]; omega
      · intro f hf hft
        obtain ⟨i, hi, rfl⟩ := hget f hf
        rw [← not_lt, hlt i hi] at hft
        exact hmono ix i (by omega) hi (by omega)
    · exact absurd hk (by simp)
  · rw [hnext]
    constructor
    · intro h f hf
      split at h
      · exact absurd h (by simp)
      · rename_i hz
        obtain ⟨i, hi, rfl⟩ := hget f hf
        rw [hlt i hi]; omega
    · intro h
      rw [dif_neg]
      intro hlt'
      have := h _ (hperm.mem_iff.1 (List.getElem_mem hlt'))
      rw [hlt] at this
      omega

/-! ### C15 -/

/-- Every cached entry is what the reader returns. -/
def CacheOk (reader : ℕ → ℕ → Option (List ℚ)) (c : Cache) : Prop :=
  ∀ e ∈ c, reader e.1.1 e.1.2.1 = some e.2

theorem getFromCache_spec (reader : ℕ → ℕ → Option (List ℚ)) (c : Cache) (h : CacheOk reader c)
    (k : Key) : (getFromCache reader c k).2 = reader k.1 k.2.1 ∧
      CacheOk reader (getFromCache reader c k).1 := by
  unfold getFromCache
  cases hg : c.get? k with
  | some v =>
    refine ⟨?_, h⟩
    unfold Cache.get? at hg
    rw [Option.map_eq_some_iff] at hg
    obtain ⟨e, he, rfl⟩ := hg
    have h1 := List.find?_some he
    have h2 := h e (List.mem_of_find?_eq_some he)
    simp only [decide_eq_true_eq] at h1
    rw [← h1, h2]
  | none =>
    cases hr : reader k.1 k.2.1 with
    | some v =>
      refine ⟨rfl, ?_⟩
      intro e he
      rcases List.mem_append.1 he with h1 | h1
      · exact h e h1
      · rw [List.mem_singleton] at h1; subst h1; exact hr
    | none => exact ⟨rfl, h⟩

theorem cleanCache_ok (reader : ℕ → ℕ → Option (List ℚ)) (c : Cache) (h : CacheOk reader c)
    (keep : List Key) : CacheOk reader (cleanCache c keep) :=
  fun e he => h e (List.mem_filter.1 he).1

/-- The value of a query, written without the cache. -/
def direct (search : ℚ → Bool → Option Key) (reader : ℕ → ℕ → Option (List ℚ)) (t : ℚ) :
    Option (List ℚ) := do
  let p ← search t true
  let n ← search t false
  let pv ← reader p.1 p.2.1
  let nv ← reader n.1 n.2.1
  if n.2.2 = p.2.2 then none
  else
    let w := (t - p.2.2) / (n.2.2 - p.2.2)
    if -relTol ≤ w ∧ w ≤ 1 + relTol then
      some (List.zipWith (fun a b => a + w * (b - a)) pv nv) else none

theorem interpolate_spec (search : ℚ → Bool → Option Key) (reader : ℕ → ℕ → Option (List ℚ))
    (c : Cache) (h : CacheOk reader c) (t : ℚ) :
    (interpolate search reader c t).2 = direct search reader t ∧
    CacheOk reader (interpolate search reader c t).1 := by
  unfold interpolate direct
  cases hp : search t true with
  | none => exact ⟨rfl, h⟩
  | some p =>
    cases hn : search t false with
    | none => exact ⟨rfl, h⟩
    | some n =>
      simp only
      obtain ⟨h1, h2⟩ := getFromCache_spec reader c h p
      rcases hg : getFromCache reader c p with ⟨c1, r1⟩
      rw [hg] at h1 h2
      simp only at h1 h2
      cases r1 with
      | none => simp [← h1, h2]
      | some pv =>
        obtain ⟨h3, h4⟩ := getFromCache_spec reader c1 h2 n
        rcases hg2 : getFromCache reader c1 n with ⟨c2, r2⟩
        rw [hg2] at h3 h4
        simp only at h3 h4
        cases r2 with
        | none => simp [← h3, hg2, h4]
        | some nv =>
          simp only [← h1, ← h3, hg2, Option.bind_eq_bind, Option.bind_some, sub_eq_zero, zero_sub,
            ge_iff_le]
          split
          · exact ⟨rfl, cleanCache_ok _ _ h4 _⟩
          · split
            · refine ⟨?_, cleanCache_ok _ _ h4 _⟩
              show some _ = some _
              congr 2
              funext a b; ring
            · exact ⟨rfl, cleanCache_ok _ _ h4 _⟩

theorem queries_ok (search : ℚ → Bool → Option Key) (reader : ℕ → ℕ → Option (List ℚ))
    (ts : List ℚ) : CacheOk reader (queries search reader ts) := by
  have key : ∀ (ts : List ℚ) (c : Cache), CacheOk reader c →
      CacheOk reader (ts.foldl (fun c t => (interpolate search reader c t).1) c) := by
    intro ts
    induction ts with
    | nil => intro c h; exact h
    | cons t ts ih => intro c h; exact ih _ (interpolate_spec search reader c h t).2
  cases ts with
  | nil => intro e he; simp [queries] at he
  | cons t ts => exact key (t :: ts) [] (fun e he => by simp at he)

/-- C15: the answer to a query does not depend on the earlier queries (including failing ones). -/
theorem C15_history_independent (search : ℚ → Bool → Option Key)
    (reader : ℕ → ℕ → Option (List ℚ)) (hist hist' : List ℚ) (t : ℚ) :
    (interpolate search reader (queries search reader hist) t).2 =
      (interpolate search reader (queries search reader hist') t).2 := by
  rw [(interpolate_spec search reader _ (queries_ok search reader hist) t).1,
    (interpolate_spec search reader _ (queries_ok search reader hist') t).1]

/-- C15: after a successful query the cache holds at most two time levels. -/
theorem C15_cache_bound (search : ℚ → Bool → Option Key)
    (reader : ℕ → ℕ → Option (List ℚ)) (c : Cache) (hc : (c.map (·.1)).Nodup) (t : ℚ)
    (v : List ℚ) (h : (interpolate search reader c t).2 = some v) :
    (interpolate search reader c t).1.length ≤ 2 ∧
    ((interpolate search reader c t).1.map (·.1)).Nodup := by
  have hget : ∀ (c : Cache) (k : Key), (c.map (·.1)).Nodup →
      ((getFromCache reader c k).1.map (·.1)).Nodup := by
    intro c k hn
    unfold getFromCache
    cases hg : c.get? k with
    | some v => exact hn
    | none =>
      cases reader k.1 k.2.1 with
      | none => exact hn
      | some v =>
        simp only [List.map_append, List.map_cons, List.map_nil]
        rw [List.nodup_append]
        refine ⟨hn, by simp, ?_⟩
        intro a ha b hb hab
        rw [List.mem_singleton] at hb
        subst hb; subst hab
        unfold Cache.get? at hg
        rw [Option.map_eq_none_iff, List.find?_eq_none] at hg
        obtain ⟨e, he, rfl⟩ := List.mem_map.1 ha
        exact hg e he (by simp)
  unfold interpolate at h ⊢
  cases hp : search t true with
  | none => simp [hp] at h
  | some p =>
    cases hn : search t false with
    | none => simp [hp, hn] at h
    | some n =>
      simp only [hp, hn] at h ⊢
      rcases hg : getFromCache reader c p with ⟨c1, r1⟩
      have n1 := hget c p hc
      rw [hg] at n1
      cases r1 with
      | none => simp [hg] at h
      | some pv =>
        simp only [hg] at h ⊢
        rcases hg2 : getFromCache reader c1 n with ⟨c2, r2⟩
        have n2 := hget c1 n n1
        rw [hg2] at n2
        cases r2 with
        | none => simp [hg2] at h
        | some nv =>
          simp only [hg2] at h ⊢
          have hclean : (cleanCache c2 [p, n]).length ≤ 2 ∧
              ((cleanCache c2 [p, n]).map (·.1)).Nodup := by
            have hnd : ((cleanCache c2 [p, n]).map (·.1)).Nodup := by
              refine n2.sublist ?_
              exact List.Sublist.map _ List.filter_sublist
            refine ⟨?_, hnd⟩
            have hsub : (cleanCache c2 [p, n]).map (·.1) ⊆ [p, n] := by
              intro k hk
              obtain ⟨e, he, rfl⟩ := List.mem_map.1 hk
              have := (List.mem_filter.1 he).2
              simpa using this
            have := (hnd.subperm hsub).length_le
            simpa using this
          split
          · exact hclean
          · split <;> exact hclean

/-- C15 over files: for files with disjoint time ranges and a query at least the search tolerance
away below any stored time, the answer is the straight-line value between the last stored time
`tp ≤ t` and the first stored time `tn > t`; at a stored time it is the stored value; each entry
lies between the two neighbouring values. -/
theorem C15_linear (all : List TFile) (hw : ∀ f ∈ all, WellFormed f)
    (hd : all.Pairwise (fun f g => Before f g ∨ Before g f))
    (reader : ℕ → ℕ → Option (List ℚ)) (hist : List ℚ) (t : ℚ) (p n : Key)
    (pv nv : List ℚ) (hp : find all t true = some p) (hn : find all t false = some n)
    (hpv : reader p.1 p.2.1 = some pv) (hnv : reader n.1 n.2.1 = some nv)
    (hgap : ∀ τ, StoredTime all τ → t < τ → t + tol ≤ τ) :
    p.2.2 ≤ t ∧ t < n.2.2 ∧ (∀ τ, StoredTime all τ → τ ≤ p.2.2 ∨ n.2.2 ≤ τ) ∧
    (interpolate (find all) reader (queries (find all) reader hist) t).2 =
      some (List.zipWith (fun a b => a + (t - p.2.2) / (n.2.2 - p.2.2) * (b - a)) pv nv) ∧
    (t = p.2.2 → pv.length = nv.length →
      (interpolate (find all) reader (queries (find all) reader hist) t).2 = some pv) ∧
    (∀ a b : ℚ, min a b ≤ a + (t - p.2.2) / (n.2.2 - p.2.2) * (b - a) ∧
      a + (t - p.2.2) / (n.2.2 - p.2.2) * (b - a) ≤ max a b) := by
  obtain ⟨c1, -, c2, -⟩ := C16_search all hw hd t
  obtain ⟨⟨f, hf, -, hfp⟩, p1, p2⟩ := c1 p hp
  obtain ⟨⟨g, hg, -, hgn⟩, n1, n2⟩ := c2 n hn
  have hptime : StoredTime all p.2.2 := ⟨f, hf, List.mem_of_getElem? hfp⟩
  have htol := tol_pos
  have hpt : p.2.2 ≤ t := by
    by_contra h
    have := hgap _ hptime (not_le.1 h)
    linarith
  have htn : t < n.2.2 := by linarith
  have hw0 : 0 ≤ (t - p.2.2) / (n.2.2 - p.2.2) := div_nonneg (by linarith) (by linarith)
  have hw1 : (t - p.2.2) / (n.2.2 - p.2.2) ≤ 1 := by
    rw [div_le_one (by linarith)]; linarith
  have hval : (interpolate (find all) reader (queries (find all) reader hist) t).2 =
      some (List.zipWith (fun a b => a + (t - p.2.2) / (n.2.2 - p.2.2) * (b - a)) pv nv) := by
    rw [(interpolate_spec _ reader _ (queries_ok _ reader hist) t).1]
    unfold direct
    rw [hp, hn]
    simp only [Option.bind_eq_bind, Option.bind_some, hpv, hnv]
    rw [if_neg (by linarith [show n.2.2 ≠ p.2.2 by intro h; linarith] |> fun h => h), if_pos]
    have : (0 : ℚ) < relTol := by unfold relTol; norm_num
    constructor <;> linarith
  refine ⟨hpt, htn, ?_, hval, ?_, ?_⟩
  · intro τ hτ
    rcases lt_or_ge τ (t + tol) with h | h
    · exact Or.inl (p2 τ hτ h)
    · exact Or.inr (n2 τ hτ h)
  · intro ht hlen
    rw [hval, ht]
    have : List.zipWith (fun a b => a + (p.2.2 - p.2.2) / (n.2.2 - p.2.2) * (b - a)) pv nv = pv := by
      apply List.ext_getElem
      · simp [hlen]
      · intro i h1 h2
        simp
    rw [this]
  · intro a b
    set w := (t - p.2.2) / (n.2.2 - p.2.2)
    rcases le_total a b with h | h
    · rw [min_eq_left h, max_eq_right h]
      constructor <;> nlinarith
    · rw [min_eq_right h, max_eq_left h]
      constructor <;> nlinarith

/-- A concrete series: values 1, 3, 7 at times 0, 10, 20 in one file; query 15 after others. -/
example : (interpolate (findSorted [⟨1, [0, 10, 20]⟩]) (fun _ i => some [[1, 3, 7].getD i 0])
    (queries (findSorted [⟨1, [0, 10, 20]⟩]) (fun _ i => some [[1, 3, 7].getD i 0]) [3, 25, 10]) 15).2
      = some [5] := by decide +kernel

/-- C15 is violated at the last stored time: the stored value exists but every query there fails,
for every family of files. -/
theorem C15_last_time_violated (all : List TFile) (hw : ∀ f ∈ all, WellFormed f)
    (hd : all.Pairwise (fun f g => Before f g ∨ Before g f))
    (reader : ℕ → ℕ → Option (List ℚ)) (c : Cache) (t : ℚ)
    (hlast : ∀ τ, StoredTime all τ → τ ≤ t) :
    (interpolate (find all) reader c t).2 = none := by
  have h := (C16_search all hw hd t).2.2.2.2
    (fun τ hτ => by have := hlast τ hτ; have := tol_pos; linarith)
  unfold interpolate
  cases find all t true with
  | none => rfl
  | some p => simp [h]

/-- C15: scaling factors multiply the interpolated values entry by entry. -/
theorem C15_scaled (s vals : List ℚ) (h : s.length = vals.length) (i : ℕ) (hi : i < vals.length) :
    (scaled (some s) vals)[i]? = some (s[i] * vals[i]) ∧ scaled none vals = vals := by
  constructor
  · simp [scaled, hi, h, mul_comm]
  · rfl

/-! ### C17 -/

/-- C17, provable part: some variable that matches at least one criterion is returned, an error is
raised exactly when none matches, and if the matching variables all have the same name the answer
does not depend on the file order.  The claimed precedence is violated, see below. -/
theorem C17_lookup_partial (vars : List NcVar) (std long var : List String) :
    (∀ n, getNcvarName vars std long var = some n →
      ∃ v ∈ vars, v.name = n ∧ ((∃ s ∈ v.standardName, s ∈ std) ∨ (∃ s ∈ v.longName, s ∈ long) ∨
        v.name ∈ var)) ∧
    (getNcvarName vars std long var = none ↔ ∀ v ∈ vars,
      ¬ ((∃ s ∈ v.standardName, s ∈ std) ∨ (∃ s ∈ v.longName, s ∈ long) ∨ v.name ∈ var)) ∧
    (∀ n, (∃ v ∈ vars, ncMatches std long var v) →
      (∀ v ∈ vars, ncMatches std long var v → v.name = n) →
      ∀ vars', vars'.Perm vars → getNcvarName vars' std long var = some n) := by
  have hm : ∀ v, ncMatches std long var v = true ↔
      ((∃ s ∈ v.standardName, s ∈ std) ∨ (∃ s ∈ v.longName, s ∈ long) ∨ v.name ∈ var) := by
    intro v
    unfold ncMatches
    cases h1 : v.standardName <;> cases h2 : v.longName <;> simp [or_assoc]
  refine ⟨?_, ?_, ?_⟩
  · intro n h
    unfold getNcvarName at h
    rw [Option.map_eq_some_iff] at h
    obtain ⟨v, hv, rfl⟩ := h
    exact ⟨v, List.mem_of_find?_eq_some hv, rfl, (hm v).1 (List.find?_some hv)⟩
  · unfold getNcvarName
    rw [Option.map_eq_none_iff, List.find?_eq_none]
    constructor
    · intro h v hv hc; exact h v hv ((hm v).2 hc)
    · intro h v hv hc; exact h v hv ((hm v).1 hc)
  · rintro n ⟨v, hv, hvm⟩ hall vars' hp
    unfold getNcvarName
    cases hf : vars'.find? (ncMatches std long var) with
    | none =>
      rw [List.find?_eq_none] at hf
      exact absurd hvm (hf v (hp.mem_iff.2 hv))
    | some w =>
      have := hall w (hp.mem_iff.1 (List.mem_of_find?_eq_some hf)) (List.find?_some hf)
      simp [this]

/-- C17 is violated: a variable matching only by long name is returned although a later variable
matches by standard name. -/
theorem C17_precedence_violated :
    getNcvarName [⟨"a", none, some "sea temperature"⟩,
      ⟨"b", some "sea_water_temperature", some "temp"⟩]
      ["sea_water_temperature"] ["sea temperature"] [] = some "a" := by decide +kernel

/-! ### C19 -/

section Grid
variable {d : ℕ}

theorem weights_sum (T : Matrix (Fin d) (Fin d) ℚ) (r x : Fin d → ℚ) :
    ∑ j, weights T r x j = 1 := by
  unfold weights
  rw [Fin.sum_univ_castSucc]
  simp

theorem weights_point (T : Matrix (Fin d) (Fin d) ℚ) (v : Fin (d + 1) → Fin d → ℚ)
    (hT : IsTransform T v) (x : Fin d → ℚ) (k : Fin d) :
    ∑ j, weights T (v (Fin.last d)) x j * v j k = x k := by
  set M : Matrix (Fin d) (Fin d) ℚ := Matrix.of (fun k j => v (Fin.castSucc j) k - v (Fin.last d) k)
    with hM
  have hMT : M * T = 1 := mul_eq_one_comm.1 hT
  have hx : M.mulVec (T.mulVec (x - v (Fin.last d))) = x - v (Fin.last d) := by
    rw [Matrix.mulVec_mulVec, hMT, Matrix.one_mulVec]
  have hk := congrFun hx k
  set b := T.mulVec (x - v (Fin.last d)) with hb
  have hk' : ∑ j, (v (Fin.castSucc j) k - v (Fin.last d) k) * b j = x k - v (Fin.last d) k := by
    simpa [Matrix.mulVec, dotProduct, hM] using hk
  unfold weights
  rw [Fin.sum_univ_castSucc]
  simp only [Fin.snoc_castSucc, Fin.snoc_last, ← hb]
  have e : ∑ j, (v (Fin.castSucc j) k - v (Fin.last d) k) * b j =
      ∑ j, b j * v (Fin.castSucc j) k - (∑ j, b j) * v (Fin.last d) k := by
    rw [Finset.sum_mul, ← Finset.sum_sub_distrib]
    exact Finset.sum_congr rfl (fun j _ => by ring)
  rw [e] at hk'
  linarith

/-- C19: inside the chosen simplex every affine field `c + Σ g_k x_k` is reproduced exactly, in any
dimension (2D and 3D in the code). -/
theorem C19_linear_exact (T : Matrix (Fin d) (Fin d) ℚ) (v : Fin (d + 1) → Fin d → ℚ)
    (hT : IsTransform T v) (x : Fin d → ℚ) (vtx : Fin (d + 1) → ℕ) (values : ℕ → ℚ) (fill : Fill)
    (hin : ∀ j, 0 ≤ weights T (v (Fin.last d)) x j) (c : ℚ) (g : Fin d → ℚ)
    (hval : ∀ j, values (vtx j) = c + ∑ k, g k * v j k) :
    gridInterp (some T) (v (Fin.last d)) x vtx values fill = c + ∑ k, g k * x k := by
  unfold gridInterp
  simp only
  rw [if_neg (by push Not; exact hin)]
  simp only [hval, add_mul, Finset.sum_add_distrib]
  rw [← Finset.mul_sum, weights_sum, mul_one]
  congr 1
  simp only [Finset.sum_mul]
  rw [Finset.sum_comm]
  refine Finset.sum_congr rfl (fun k _ => ?_)
  rw [← weights_point T v hT x k, Finset.mul_sum]
  exact Finset.sum_congr rfl (fun j _ => by ring)

/-- C19: inside, the result never exceeds the range of the values at the simplex vertices. -/
theorem C19_range (T : Matrix (Fin d) (Fin d) ℚ) (r x : Fin d → ℚ) (vtx : Fin (d + 1) → ℕ)
    (values : ℕ → ℚ) (fill : Fill) (hin : ∀ j, 0 ≤ weights T r x j) (lo hi : ℚ)
    (hval : ∀ j, lo ≤ values (vtx j) ∧ values (vtx j) ≤ hi) :
    lo ≤ gridInterp (some T) r x vtx values fill ∧ gridInterp (some T) r x vtx values fill ≤ hi := by
  unfold gridInterp
  simp only
  rw [if_neg (by push Not; exact hin)]
  have hs := weights_sum T r x
  constructor
  · calc lo = ∑ j, lo * weights T r x j := by rw [← Finset.mul_sum, hs, mul_one]
      _ ≤ _ := Finset.sum_le_sum (fun j _ => mul_le_mul_of_nonneg_right (hval j).1 (hin j))
  · calc _ ≤ ∑ j, hi * weights T r x j :=
          Finset.sum_le_sum (fun j _ => mul_le_mul_of_nonneg_right (hval j).2 (hin j))
      _ = hi := by rw [← Finset.mul_sum, hs, mul_one]

/-- C19: a point is interpolated (not filled) exactly when it is a convex combination of the
vertices of the simplex chosen for it. -/
theorem C19_inside_iff (T : Matrix (Fin d) (Fin d) ℚ) (v : Fin (d + 1) → Fin d → ℚ)
    (hT : IsTransform T v) (x : Fin d → ℚ) :
    (∀ j, 0 ≤ weights T (v (Fin.last d)) x j) ↔
      ∃ w : Fin (d + 1) → ℚ, (∀ j, 0 ≤ w j) ∧ ∑ j, w j = 1 ∧ ∀ k, ∑ j, w j * v j k = x k := by
  constructor
  · intro h
    exact ⟨_, h, weights_sum _ _ _, weights_point T v hT x⟩
  · rintro ⟨w, h0, h1, h2⟩
    -- barycentric coordinates are unique
    have hw : ∀ j : Fin d, T.mulVec (x - v (Fin.last d)) j = w (Fin.castSucc j) := by
      have hx : x - v (Fin.last d) =
          (Matrix.of (fun k j => v (Fin.castSucc j) k - v (Fin.last d) k)).mulVec
            (fun j => w (Fin.castSucc j)) := by
        funext k
        have := h2 k
        rw [Fin.sum_univ_castSucc] at this h1
        simp only [Matrix.mulVec, dotProduct, Matrix.of_apply, Pi.sub_apply]
        rw [← this]
        have e : ∑ j, (v (Fin.castSucc j) k - v (Fin.last d) k) * w (Fin.castSucc j) =
            ∑ j : Fin d, w (Fin.castSucc j) * v (Fin.castSucc j) k -
              (∑ j : Fin d, w (Fin.castSucc j)) * v (Fin.last d) k := by
          rw [Finset.sum_mul, ← Finset.sum_sub_distrib]
          exact Finset.sum_congr rfl (fun j _ => by ring)
        rw [e]
        have hl : w (Fin.last d) = 1 - ∑ j : Fin d, w (Fin.castSucc j) := by linarith
        rw [hl]; ring
      intro j
      rw [hx, Matrix.mulVec_mulVec, hT, Matrix.one_mulVec]
    intro j
    refine Fin.lastCases ?_ (fun i => ?_) j
    · unfold weights
      simp only [Fin.snoc_last, hw]
      rw [Fin.sum_univ_castSucc] at h1
      have := h0 (Fin.last d)
      linarith
    · unfold weights
      simp only [Fin.snoc_castSucc, hw]
      exact h0 _

/-- C19: points outside and degenerate simplices get the fill value or the nearest source value. -/
theorem C19_outside (T : Matrix (Fin d) (Fin d) ℚ) (r x : Fin d → ℚ) (vtx : Fin (d + 1) → ℕ)
    (values : ℕ → ℚ) (c : ℚ) (ix : ℕ) (hout : ∃ j, weights T r x j < 0) :
    gridInterp (some T) r x vtx values (.const c) = c ∧
    gridInterp (some T) r x vtx values (.nearest ix) = values ix ∧
    gridInterp none r x vtx values (.const c) = c ∧
    gridInterp none r x vtx values (.nearest ix) = values ix := by
  simp [gridInterp, hout]

/-- C19: with coordinates scaled by non-zero factors (`normalize=True`) affine fields of the
original coordinates are still reproduced. -/
theorem C19_normalised (a b : Fin d → ℚ) (ha : ∀ k, a k ≠ 0) (T : Matrix (Fin d) (Fin d) ℚ)
    (v : Fin (d + 1) → Fin d → ℚ) (hT : IsTransform T (fun j => normalise a b (v j)))
    (x : Fin d → ℚ) (vtx : Fin (d + 1) → ℕ) (values : ℕ → ℚ) (fill : Fill)
    (hin : ∀ j, 0 ≤ weights T (normalise a b (v (Fin.last d))) (normalise a b x) j) (c : ℚ)
    (g : Fin d → ℚ) (hval : ∀ j, values (vtx j) = c + ∑ k, g k * v j k) :
    gridInterp (some T) (normalise a b (v (Fin.last d))) (normalise a b x) vtx values fill =
      c + ∑ k, g k * x k := by
  have key : ∀ y : Fin d → ℚ, c + ∑ k, g k * y k =
      (c - ∑ k, g k / a k * b k) + ∑ k, g k / a k * normalise a b y k := by
    intro y
    have : ∑ k, g k / a k * normalise a b y k = ∑ k, g k * y k + ∑ k, g k / a k * b k := by
      rw [← Finset.sum_add_distrib]
      refine Finset.sum_congr rfl (fun k _ => ?_)
      unfold normalise
      have := ha k
      field_simp
    rw [this]; ring
  rw [key x]
  exact C19_linear_exact T (fun j => normalise a b (v j)) hT (normalise a b x) vtx values fill hin
    _ _ (fun j => by rw [hval j, key])

/-- A triangle with its transform and an interior point. -/
example : IsTransform (d := 2) !![1/2, 0; 0, 1/4] ![![2, 0], ![0, 4], ![0, 0]] ∧
    (∀ j, 0 ≤ weights (d := 2) !![1/2, 0; 0, 1/4] ![0, 0] ![1/2, 1] j) := by
  constructor
  · unfold IsTransform; decide +kernel
  · decide +kernel

end Grid

/-- C19: the parameters computed for one coordinate column map it into [0, 1], its smallest value to
0 and its largest to 1, by a non-degenerate map (so that `C19_normalised` applies). -/
theorem C19_norm_params (xs : List ℚ) (a b : ℚ) (h : normParams xs = some (a, b)) :
    0 < a ∧ (∀ x ∈ xs, 0 ≤ a * x + b ∧ a * x + b ≤ 1) ∧
    (∃ x ∈ xs, a * x + b = 0) ∧ ∃ x ∈ xs, a * x + b = 1 := by
  unfold normParams at h
  cases hlo : xs.min? with
  | none => simp [hlo] at h
  | some lo =>
    cases hhi : xs.max? with
    | none => simp [hlo, hhi] at h
    | some hi =>
      obtain ⟨hlom, hlole⟩ := List.min?_eq_some_iff.1 hlo
      obtain ⟨hhim, hhile⟩ := List.max?_eq_some_iff.1 hhi
      simp only [hlo, hhi] at h
      split_ifs at h with hz
      simp only [Option.some.injEq, Prod.mk.injEq] at h
      obtain ⟨rfl, rfl⟩ := h
      have hpos : 0 < hi - lo := lt_of_le_of_ne (by linarith [hlole hi hhim]) (Ne.symm hz)
      have e : ∀ x, 1 / (hi - lo) * x + -lo * (1 / (hi - lo)) = (x - lo) / (hi - lo) := by
        intro x; field_simp; ring
      refine ⟨by positivity, fun x hx => ?_, ⟨lo, hlom, ?_⟩, ⟨hi, hhim, ?_⟩⟩
      · rw [e]
        exact ⟨div_nonneg (by linarith [hlole x hx]) hpos.le,
          by rw [div_le_one hpos]; linarith [hhile x hx]⟩
      · rw [e]; simp
      · rw [e]; exact div_self hz

example : normParams [3, 1, 5] = some (1 / 4, -1 / 4) := by decide +kernel

/-- C19 is violated for `normalize=True` on two-dimensional data: the setup always accesses a third
coordinate column and fails. -/
theorem C19_normalize_2d_violated (xs ys : List ℚ) : normSetup [xs, ys] = none := rfl

end Verif.Interp
