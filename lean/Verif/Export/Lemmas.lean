import Verif.Export.Model
import Mathlib.Data.Nat.Digits.Lemmas
import Mathlib.Tactic.Ring
import Mathlib.Tactic.Linarith

/-! Helper lemmas for the export model. -/

namespace Verif.Export

theorem ofDigits_decimal (i : ℕ) : Nat.ofDigits 10 (decimal i).reverse = i := by
  unfold decimal
  split
  · subst i; rfl
  · rw [List.reverse_reverse, Nat.ofDigits_digits]

theorem decimal_lt (i d : ℕ) (h : d ∈ decimal i) : d < 10 := by
  unfold decimal at h
  split at h
  · simp at h; omega
  · rw [List.mem_reverse] at h
    exact Nat.digits_lt_base (by norm_num) h

theorem ofDigits_zeroPad (w i : ℕ) : Nat.ofDigits 10 (zeroPad w i).reverse = i := by
  unfold zeroPad
  rw [List.reverse_append, Nat.ofDigits_append, ofDigits_decimal, List.reverse_replicate]
  have : Nat.ofDigits 10 (List.replicate (w - (decimal i).length) 0) = 0 := by
    induction (w - (decimal i).length) with
    | zero => rfl
    | succ n ih => rw [List.replicate_succ, Nat.ofDigits_cons, ih]
  rw [this]; simp

theorem zeroPad_lt (w i d : ℕ) (h : d ∈ zeroPad w i) : d < 10 := by
  unfold zeroPad at h
  rw [List.mem_append] at h
  rcases h with h | h
  · rw [List.mem_replicate] at h; omega
  · exact decimal_lt i d h

theorem zeroPad_injective (w : ℕ) : Function.Injective (zeroPad w) := by
  intro i j h
  rw [← ofDigits_zeroPad w i, h, ofDigits_zeroPad]

theorem digitChar_inj {a b : ℕ} (ha : a < 10) (hb : b < 10) (h : digitChar a = digitChar b) :
    a = b := by
  have : ∀ a : Fin 10, ∀ b : Fin 10, digitChar a = digitChar b → a = b := by decide
  simpa using this ⟨a, ha⟩ ⟨b, hb⟩ h

theorem digitChar_ne_underscore {a : ℕ} (ha : a < 10) : digitChar a ≠ '_' := by
  have : ∀ a : Fin 10, digitChar a ≠ '_' := by decide
  exact this ⟨a, ha⟩

theorem map_digitChar_inj : ∀ {l l' : List ℕ}, (∀ d ∈ l, d < 10) → (∀ d ∈ l', d < 10) →
    l.map digitChar = l'.map digitChar → l = l'
  | [], [], _, _, _ => rfl
  | [], _ :: _, _, _, h => by simp at h
  | _ :: _, [], _, _, h => by simp at h
  | a :: l, b :: l', h1, h2, h => by
    simp only [List.map_cons, List.cons.injEq] at h
    rw [digitChar_inj (h1 a (by simp)) (h2 b (by simp)) h.1,
      map_digitChar_inj (fun d hd => h1 d (by simp [hd])) (fun d hd => h2 d (by simp [hd])) h.2]

/-- Splitting at the last underscore is unique. -/
theorem split_last {p p' s s' : List Char} (hs : '_' ∉ s) (hs' : '_' ∉ s')
    (h : p ++ '_' :: s = p' ++ '_' :: s') : p = p' ∧ s = s' := by
  rw [List.append_eq_append_iff] at h
  rcases h with ⟨a, h1, h2⟩ | ⟨a, h1, h2⟩
  · cases a with
    | nil => simp at h1 h2; exact ⟨h1.symm, h2⟩
    | cons c a =>
      simp only [List.cons_append, List.cons.injEq] at h2
      exfalso; apply hs; rw [h2.2]; simp
  · cases a with
    | nil => simp at h1 h2; exact ⟨h1, h2.symm⟩
    | cons c a =>
      simp only [List.cons_append, List.cons.injEq] at h2
      exfalso; apply hs'; rw [h2.2]; simp

theorem genFilename_inj (p p' : List Char) (legacy : Bool) (i j : ℕ)
    (h : genFilename p legacy i = genFilename p' legacy j) : p = p' ∧ i = j := by
  unfold genFilename at h
  have hmem : ∀ k, '_' ∉ (zeroPad 5 k).map digitChar ++
      (if legacy = true then [] else ['.', 'h', '5']) := by
    intro k hk
    rw [List.mem_append] at hk
    rcases hk with hk | hk
    · rw [List.mem_map] at hk
      obtain ⟨d, hd, he⟩ := hk
      exact digitChar_ne_underscore (zeroPad_lt 5 k d hd) he
    · cases legacy <;> simp at hk
  rw [List.append_assoc, List.append_assoc, List.cons_append, List.cons_append] at h
  obtain ⟨h1, h2⟩ := split_last (hmem i) (hmem j) h
  refine ⟨h1, ?_⟩
  have h3 := List.append_cancel_right h2
  exact zeroPad_injective 5 (map_digitChar_inj (zeroPad_lt 5 i) (zeroPad_lt 5 j) h3)

end Verif.Export
