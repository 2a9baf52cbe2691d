import Verif.Daily.Model
import Mathlib.Data.Nat.Digits.Lemmas
import Mathlib.Data.List.Induction
import Mathlib.Tactic.IntervalCases
import Mathlib.Tactic.NormNum
import Mathlib.Tactic.Ring

/-!
C153: daily files are dated from their names.
-/

namespace Verif.Daily

/-! ### Numbers -/

theorem digitChar_isDigit {d : ℕ} (h : d < 10) : (Nat.digitChar d).isDigit = true := by interval_cases d <;> decide

theorem digitChar_val {d : ℕ} (h : d < 10) : (Nat.digitChar d).toNat - '0'.toNat = d := by interval_cases d <;> decide

theorem val_lt {c : Char} (h : c.isDigit = true) : c.toNat - '0'.toNat < 10 := by
  have h1 := h
  simp only [Char.isDigit, Bool.and_eq_true, decide_eq_true_eq] at h1
  have h2 : c.toNat ≤ 57 := h1.2
  have h3 : '0'.toNat = 48 := rfl
  omega

theorem val_inj {c d : Char} (hc : c.isDigit = true) (hd : d.isDigit = true) (h : c.toNat - '0'.toNat = d.toNat - '0'.toNat) : c = d := by
  simp only [Char.isDigit, Bool.and_eq_true, decide_eq_true_eq] at hc hd
  have h1 : 48 ≤ c.toNat := hc.1
  have h2 : 48 ≤ d.toNat := hd.1
  have h3 : '0'.toNat = 48 := rfl
  have h4 : c.toNat = d.toNat := by omega
  exact Char.toNat_inj.1 h4

theorem toInt_snoc (l : List Char) (c : Char) : toInt (l ++ [c]) = 10 * toInt l + (c.toNat - '0'.toNat) := by
  simp [toInt, List.foldl_append]

theorem toInt_zeros (k : ℕ) (l : List Char) : toInt (List.replicate k '0' ++ l) = toInt l := by
  induction k with
  | zero => rfl
  | succ k ih => exact ih

theorem toInt_digits (l : List ℕ) (h : ∀ d ∈ l, d < 10) : toInt (l.reverse.map Nat.digitChar) = Nat.ofDigits 10 l := by
  induction l with
  | nil => rfl
  | cons d l ih =>
    rw [List.reverse_cons, List.map_append, List.map_singleton, toInt_snoc, ih fun x hx => h x (List.mem_cons_of_mem _ hx),
      digitChar_val (h d List.mem_cons_self), Nat.ofDigits_cons]
    ring

theorem toInt_pad (k n : ℕ) : toInt (pad k n) = n := by
  unfold pad
  rw [toInt_zeros, toInt_digits _ fun d hd => Nat.digits_lt_base (by norm_num) hd, Nat.ofDigits_digits]

theorem pad_length {k n : ℕ} (h : n < 10 ^ k) : (pad k n).length = k := by
  have := (Nat.digits_length_le_iff (b := 10) (by norm_num) n).2 h
  unfold pad
  simp only [List.length_append, List.length_replicate, List.length_map, List.length_reverse]
  omega

theorem pad_digits (k n : ℕ) : ∀ c ∈ pad k n, c.isDigit = true := by
  intro c hc
  unfold pad at hc
  rcases List.mem_append.1 hc with h | h
  · rw [List.eq_of_mem_replicate h]; rfl
  · obtain ⟨d, hd, rfl⟩ := List.mem_map.1 h
    exact digitChar_isDigit (Nat.digits_lt_base (by norm_num) (List.mem_reverse.1 hd))

theorem toInt_inj (l : List Char) : ∀ r : List Char, l.length = r.length → (∀ c ∈ l, c.isDigit = true) → (∀ c ∈ r, c.isDigit = true) →
    toInt l = toInt r → l = r := by
  induction l using List.reverseRecOn with
  | nil => intro r h _ _ _; exact (List.length_eq_zero_iff.1 h.symm).symm
  | append_singleton l c ih =>
    intro r
    induction r using List.reverseRecOn with
    | nil => intro h; simp at h
    | append_singleton r d _ =>
      intro h hl hr e
      rw [toInt_snoc, toInt_snoc] at e
      have hc := hl c (by simp)
      have hd := hr d (by simp)
      have h1 := val_lt hc
      have h2 := val_lt hd
      rw [ih r (by simpa using h) (fun x hx => hl x (by simp [hx])) (fun x hx => hr x (by simp [hx])) (by omega),
        val_inj hc hd (by omega)]

theorem toInt_lt (l : List Char) (h : ∀ c ∈ l, c.isDigit = true) : toInt l < 10 ^ l.length := by
  induction l using List.reverseRecOn with
  | nil => simp [toInt]
  | append_singleton l c ih =>
    have h1 := ih fun x hx => h x (by simp [hx])
    have h2 := val_lt (h c (by simp))
    rw [toInt_snoc, List.length_append, List.length_singleton, pow_succ]
    omega

theorem pad_toInt {k : ℕ} {l : List Char} (hk : l.length = k) (h : ∀ c ∈ l, c.isDigit = true) : pad k (toInt l) = l :=
  toInt_inj _ _ (by rw [pad_length (hk ▸ toInt_lt l h), hk]) (pad_digits _ _) h (toInt_pad _ _)

/-! ### Names -/

/-- The length of the names of a pattern. -/
def len (p : Pattern) : ℕ := (p.map fun
  | .lit _ => 1
  | .tag t => width t).sum

theorem width_le {p : Pattern} {t : Tag} (h : t ∈ labels p) : width t ≤ len p := by
  induction p with
  | nil => cases h
  | cons a p ih =>
    cases a with
    | lit c =>
      have e : len (.lit c :: p) = 1 + len p := rfl
      have := ih h
      omega
    | tag b =>
      have e : len (.tag b :: p) = width b + len p := rfl
      have e1 : labels (.tag b :: p) = b :: labels p := rfl
      rw [e1] at h
      rcases List.mem_cons.1 h with rfl | h
      · omega
      · have := ih h
        omega

/-- The values fit into the tags. -/
def Fits (x : Date) : Prop := ∀ t, x.get t < 10 ^ width t

theorem Date.Valid.fits {x : Date} (h : x.Valid) : Fits x := by
  obtain ⟨_, h2, _, h4, _, h6⟩ := h
  intro t
  cases t
  · show x.y < 10 ^ 4
    omega
  · show x.m < 10 ^ 2
    omega
  · show x.d < 10 ^ 2
    have : daysIn x.y x.m ≤ 31 := by unfold daysIn; split_ifs <;> omega
    omega

theorem fileName_length (p : Pattern) {x : Date} (h : Fits x) : (fileName p x).length = len p := by
  induction p with
  | nil => rfl
  | cons t p ih =>
    have e : fileName (t :: p) x = (match t with | .lit c => [c] | .tag t => pad (width t) (x.get t)) ++ fileName p x := rfl
    rw [e, List.length_append, ih]
    cases t with
    | lit c => rfl
    | tag t => simp only [pad_length (h t)]; rfl

theorem matchAt_fileName (p : Pattern) {x : Date} (h : Fits x) (r : List Char) :
    matchAt p (fileName p x ++ r) = some ((labels p).map x.get, r) := by
  induction p with
  | nil => rfl
  | cons t p ih =>
    cases t with
    | lit c =>
      have e : fileName (.lit c :: p) x ++ r = c :: (fileName p x ++ r) := rfl
      rw [e]
      simp only [matchAt, true_or, if_true]
      exact ih
    | tag t =>
      have e : fileName (.tag t :: p) x ++ r = pad (width t) (x.get t) ++ (fileName p x ++ r) := List.append_assoc _ _ _
      have hl := pad_length (h t)
      have e1 : (pad (width t) (x.get t) ++ (fileName p x ++ r)).take (width t) = pad (width t) (x.get t) := List.take_left' hl
      have e2 : (pad (width t) (x.get t) ++ (fileName p x ++ r)).drop (width t) = fileName p x ++ r := List.drop_left' hl
      rw [e]
      unfold matchAt
      rw [e1, e2, if_pos ⟨hl, List.all_eq_true.2 (pad_digits _ _)⟩, ih, toInt_pad]
      rfl

theorem matchAt_length (p : Pattern) : ∀ {s : List Char} {v : List ℕ} {r : List Char}, matchAt p s = some (v, r) → s.length = len p + r.length := by
  induction p with
  | nil => intro s v r h; simp only [matchAt, Option.some.injEq, Prod.mk.injEq] at h; rw [h.2]; simp [len]
  | cons t p ih =>
    intro s v r h
    cases t with
    | lit c =>
      cases s with
      | nil => simp [matchAt] at h
      | cons y s =>
        simp only [matchAt] at h
        split at h
        · have := ih h
          have e : len (.lit c :: p) = 1 + len p := rfl
          rw [e, List.length_cons, this]; omega
        · cases h
    | tag t =>
      unfold matchAt at h
      split at h
      · rename_i hc
        obtain ⟨⟨v', r'⟩, h1, h2⟩ := Option.map_eq_some_iff.1 h
        cases h2
        have := ih h1
        have e : len (.tag t :: p) = width t + len p := rfl
        have h3 := hc.1
        rw [List.length_take] at h3
        rw [List.length_drop] at this
        show s.length = len (.tag t :: p) + r'.length
        omega
      · cases h

/-- What a name looks like that matches a pattern without a dot. -/
theorem matchAt_values (p : Pattern) : ∀ {s : List Char} {v : List ℕ} {r : List Char}, (∀ c, Tok.lit c ∈ p → c ≠ '.') →
    matchAt p s = some (v, r) → v.length = (labels p).length ∧
    ∀ x : Date, v = (labels p).map x.get → s = fileName p x ++ r := by
  induction p with
  | nil =>
    intro s v r _ h
    simp only [matchAt, Option.some.injEq, Prod.mk.injEq] at h
    exact ⟨by rw [← h.1]; rfl, fun _ _ => h.2⟩
  | cons t p ih =>
    intro s v r hd h
    have hd' : ∀ c, Tok.lit c ∈ p → c ≠ '.' := fun c hc => hd c (List.mem_cons_of_mem _ hc)
    cases t with
    | lit c =>
      cases s with
      | nil => simp [matchAt] at h
      | cons y s =>
        simp only [matchAt] at h
        split at h
        · rename_i hc
          obtain ⟨h1, h2⟩ := ih hd' h
          refine ⟨h1, fun x hx => ?_⟩
          obtain rfl : c = y := hc.resolve_right fun h' => hd c List.mem_cons_self h'.1
          exact congrArg (c :: ·) (h2 x hx)
        · cases h
    | tag t =>
      unfold matchAt at h
      split at h
      · rename_i hc
        obtain ⟨⟨v', r'⟩, h1, h2⟩ := Option.map_eq_some_iff.1 h
        cases h2
        obtain ⟨h3, h4⟩ := ih hd' h1
        refine ⟨congrArg (· + 1) h3, fun x hx => ?_⟩
        have e : labels (.tag t :: p) = t :: labels p := rfl
        rw [e, List.map_cons, List.cons.injEq] at hx
        have h5 := h4 x hx.2
        have h6 : pad (width t) (x.get t) = s.take (width t) := by
          rw [← hx.1]
          exact pad_toInt hc.1 (List.all_eq_true.1 hc.2)
        have e2 : fileName (.tag t :: p) x ++ r' = pad (width t) (x.get t) ++ (fileName p x ++ r') := List.append_assoc _ _ _
        show s = fileName (.tag t :: p) x ++ r'
        rw [e2, h6, ← h5, List.take_append_drop]
      · cases h

theorem item_map (ls : List Tag) (f : Tag → ℕ) {t : Tag} (h : t ∈ ls) : item ls (ls.map f) t = some (f t) := by
  have h1 : ∀ ls : List Tag, ls.zip (ls.map f) = ls.map fun a => (a, f a) := by
    intro ls
    induction ls with
    | nil => rfl
    | cons a ls ih => exact congrArg ((a, f a) :: ·) ih
  unfold item
  rw [h1]
  have hne : ((ls.map fun a => (a, f a)).filter fun q => decide (q.1 = t)) ≠ [] :=
    List.ne_nil_of_mem (List.mem_filter.2 ⟨List.mem_map.2 ⟨t, h, rfl⟩, by simp⟩)
  rw [List.getLast?_eq_getLast_of_ne_nil hne]
  have hm := List.getLast_mem hne
  rw [List.mem_filter] at hm
  obtain ⟨a, ha, he⟩ := List.mem_map.1 hm.1
  have ht : a = t := by have := of_decide_eq_true hm.2; rw [← he] at this; exact this
  rw [← he, ht]
  rfl

theorem item_nodup : ∀ (ls : List Tag) (vs : List ℕ) (f : Tag → ℕ), ls.Nodup → vs.length = ls.length →
    (∀ t ∈ ls, item ls vs t = some (f t)) → vs = ls.map f
  | [], vs, f, _, hl, _ => List.length_eq_zero_iff.1 hl
  | a :: ls, [], f, _, hl, _ => by simp at hl
  | a :: ls, v :: vs, f, hn, hl, h => by
    obtain ⟨ha, hn'⟩ := List.nodup_cons.1 hn
    have h0 : ((ls.zip vs).filter fun q => decide (q.1 = a)) = [] := by
      rw [List.filter_eq_nil_iff]
      rintro ⟨b, w⟩ hb
      have := (List.of_mem_zip hb).1
      simp only [decide_eq_true_eq]
      rintro rfl
      exact ha this
    have h1 := h a List.mem_cons_self
    have h2 : item (a :: ls) (v :: vs) a = some v := by
      simp [item, h0]
    rw [h2] at h1
    have h3 : ∀ t ∈ ls, item ls vs t = some (f t) := fun t ht => by
      have h4 := h t (List.mem_cons_of_mem _ ht)
      have hne : a ≠ t := fun h => ha (h ▸ ht)
      have h5 : item (a :: ls) (v :: vs) t = item ls vs t := by
        simp [item, hne]
      rw [← h5]; exact h4
    rw [List.map_cons, ← item_nodup ls vs f hn' (by simpa using hl) h3]
    rw [Option.some.inj h1]

/-! ### Dates -/

/-- C153: a file named after the pattern gets the date it is named after, whatever the pattern, if year, month and day are in it; tags may
be used several times. -/
theorem C153_date {p : Pattern} (hp : plain p = true) (ht : ∀ t, t ∈ labels p) {x : Date} (hx : x.Valid) :
    parse p (fileName p x) = some x := by
  have h1 := matchAt_fileName p hx.fits []
  rw [List.append_nil] at h1
  have h2 : findAll p (fileName p x) = [(labels p).map x.get] := by
    unfold findAll
    cases hs : fileName p x with
    | nil =>
      exfalso
      have h3 := ht .year
      have h5 := fileName_length p hx.fits
      rw [hs] at h5
      have h6 := width_le h3
      have h7 : width .year = 4 := rfl
      have h8 : ([] : List Char).length = 0 := rfl
      omega
    | cons y s =>
      rw [hs] at h1
      show findN p (s.length + 1) (y :: s) = _
      simp only [findN, h1]
      cases s <;> rfl
  unfold parse
  rw [if_neg (by rw [hp]; decide), h2]
  simp only [item_map _ _ (ht _)]
  exact if_pos hx

/-- C153: and the search for files finds it. -/
theorem C153_found (p : Pattern) {x : Date} : Glob p (fileName p x) := by
  induction p with
  | nil => exact .nil
  | cons t p ih =>
    cases t with
    | lit c => exact .lit c ih
    | tag t =>
      refine .tag t (pad (width t) (x.get t)) (fun h => ?_) ih
      have := pad_digits _ _ _ h
      revert this
      decide

/-- C153: names of different dates are different. -/
theorem C153_injective {p : Pattern} (hp : plain p = true) (ht : ∀ t, t ∈ labels p) {x y : Date} (hx : x.Valid) (hy : y.Valid)
    (h : fileName p x = fileName p y) : x = y := by
  have h1 := C153_date hp ht hx
  rw [h, C153_date hp ht hy] at h1
  exact (Option.some.inj h1).symm

/-- C153: a name of the right length gets a date only if it is the name of that date, for patterns without a dot and with every tag once.
The length is what is missing: see `C153_other_violated`. -/
theorem C153_only_partial {p : Pattern} (hd : ∀ c, Tok.lit c ∈ p → c ≠ '.') (hn : (labels p).Nodup) {s : List Char} {x : Date}
    (hl : s.length = len p) (h : parse p s = some x) : x.Valid ∧ s = fileName p x := by
  have none_of : ∀ n (s : List Char), s.length < len p → findN p n s = [] := by
    intro n
    induction n with
    | zero => intro s _; rfl
    | succ n ih =>
      intro s hs
      cases s with
      | nil => rfl
      | cons y s =>
        simp only [findN]
        cases hm : matchAt p (y :: s) with
        | none => exact ih s (by rw [List.length_cons] at hs; omega)
        | some q =>
          have := matchAt_length p (v := q.1) (r := q.2) hm
          omega
  unfold parse at h
  split at h
  · cases h
  · cases hf : findAll p s with
    | nil => rw [hf] at h; cases h
    | cons v vs =>
      have hm : matchAt p s = some (v, []) := by
        unfold findAll at hf
        cases s with
        | nil => cases hf
        | cons y s =>
          simp only [List.length_cons, findN] at hf
          cases hm : matchAt p (y :: s) with
          | none =>
            rw [hm] at hf
            simp only at hf
            rw [none_of _ s (by rw [List.length_cons] at hl; omega)] at hf
            cases hf
          | some q =>
            rw [hm] at hf
            have h1 := matchAt_length p (v := q.1) (r := q.2) hm
            have h2 : q.2 = [] := List.length_eq_zero_iff.1 (by omega)
            have h3 : q.1 = v := (List.cons.inj hf).1
            rw [← h3, ← h2]
      rw [hf] at h
      cases vs with
      | cons => cases h
      | nil =>
        simp only at h
        split at h
        · rename_i y m d e1 e2 e3
          split at h
          · rename_i hv
            cases h
            refine ⟨hv, ?_⟩
            obtain ⟨h1, h2⟩ := matchAt_values p hd hm
            have h3 := h2 ⟨y, m, d⟩ (item_nodup _ _ _ hn h1 fun t _ => by cases t <;> assumption)
            rwa [List.append_nil] at h3
          · cases h
        · cases h

/-- C153: the files are sorted by date, each with its date, if all files that were found are named after dates; if these are different
there is only one such list. -/
theorem C153_sorted {p : Pattern} (hp : plain p = true) (ht : ∀ t, t ∈ labels p) {ds : List Date} (hv : ∀ x ∈ ds, x.Valid)
    {out : List (List Char × Date)} (h : Listing p (ds.map (fileName p)) out) :
    out.map Prod.fst = (out.map Prod.snd).map (fileName p) ∧ (out.map Prod.snd).Perm ds ∧ (out.map Prod.snd).Pairwise Date.le ∧
    ∀ out', Listing p (ds.map (fileName p)) out' → out' = out := by
  have key : ∀ out : List (List Char × Date), Listing p (ds.map (fileName p)) out →
      out = (out.map Prod.snd).map (fun x => (fileName p x, x)) ∧ (out.map Prod.snd).Perm ds ∧ (out.map Prod.snd).Pairwise Date.le := by
    intro out h
    have h1 : ∀ q ∈ out, q = (fileName p q.2, q.2) ∧ q.2.Valid := fun q hq => by
      have h2 : q.1 ∈ ds.map (fileName p) := h.2.1.subset (List.mem_map.2 ⟨q, hq, rfl⟩)
      obtain ⟨x, hx, e⟩ := List.mem_map.1 h2
      have h3 := h.2.2.1 q hq
      rw [← e, C153_date hp ht (hv x hx)] at h3
      have h4 := Option.some.inj h3
      exact ⟨Prod.ext (by rw [← e, h4]) rfl, h4 ▸ hv x hx⟩
    have h2 : out = (out.map Prod.snd).map (fun x => (fileName p x, x)) := by
      rw [List.map_map]
      exact (List.map_id out).symm.trans (List.map_congr_left fun q hq => (h1 q hq).1)
    refine ⟨h2, ?_, List.pairwise_map.2 h.2.2.2⟩
    have h5 := h.2.1.map (parse p)
    have h6 : (out.map Prod.fst).map (parse p) = (out.map Prod.snd).map some := by
      rw [List.map_map, List.map_map]
      exact List.map_congr_left fun q hq => h.2.2.1 q hq
    have h7 : (ds.map (fileName p)).map (parse p) = ds.map some := by
      rw [List.map_map]
      exact List.map_congr_left fun x hx => C153_date hp ht (hv x hx)
    rw [h6, h7] at h5
    exact (List.map_perm_map_iff (Option.some_injective _)).1 h5
  obtain ⟨h1, h2, h3⟩ := key out h
  refine ⟨?_, h2, h3, fun out' h' => ?_⟩
  · conv_lhs => rw [h1]
    rw [List.map_map]
    rfl
  · obtain ⟨h1', h2', h3'⟩ := key out' h'
    rw [h1, h1']
    congr 1
    refine List.Perm.eq_of_pairwise ?_ h3' h3 (h2'.trans h2.symm)
    intro a b _ _ hab hba
    rcases a with ⟨ay, am, ad⟩
    rcases b with ⟨by', bm, bd⟩
    simp only [Date.le] at hab hba
    simp only [Date.mk.injEq]
    omega

theorem daysIn_le (y m : ℕ) : daysIn y m ≤ 31 := by
  unfold daysIn
  split_ifs <;> omega

/-- C153: files are sorted by time: year before month before day, as the numbers YYYYMMDD are. -/
theorem C153_chronological {p : Pattern} (hp : plain p = true) (ht : ∀ t, t ∈ labels p) {ds : List Date} (hv : ∀ x ∈ ds, x.Valid)
    {out : List (List Char × Date)} (h : Listing p (ds.map (fileName p)) out) :
    out.Pairwise fun a b => 10000 * a.2.y + 100 * a.2.m + a.2.d ≤ 10000 * b.2.y + 100 * b.2.m + b.2.d := by
  obtain ⟨-, hperm, hs, -⟩ := C153_sorted hp ht hv h
  refine (List.pairwise_map.1 hs).imp_of_mem fun {a b} ha hb hab => ?_
  have va := hv _ (hperm.subset (List.mem_map.2 ⟨a, ha, rfl⟩))
  have vb := hv _ (hperm.subset (List.mem_map.2 ⟨b, hb, rfl⟩))
  have da := daysIn_le a.2.y a.2.m
  have db := daysIn_le b.2.y b.2.m
  unfold Date.Valid at va vb
  unfold Date.le at hab
  omega

/-- C153: files of any dates are listed, without an exception. -/
theorem C153_listed {p : Pattern} (hp : plain p = true) (ht : ∀ t, t ∈ labels p) {ds : List Date} (h0 : ds ≠ []) (hv : ∀ x ∈ ds, x.Valid) :
    ∃ out, Listing p (ds.map (fileName p)) out := by
  let r : Date → Date → Prop := fun a b => 10000 * a.y + 100 * a.m + a.d ≤ 10000 * b.y + 100 * b.m + b.d
  have : Std.Total r := ⟨fun a b => Nat.le_total _ _⟩
  have : IsTrans Date r := ⟨fun a b c h h' => Nat.le_trans h h'⟩
  have hperm := List.perm_insertionSort r ds
  refine ⟨(ds.insertionSort r).map fun x => (fileName p x, x), by simpa using h0, ?_, ?_, ?_⟩
  · rw [List.map_map]
    exact hperm.map _
  · intro q hq
    obtain ⟨x, hx, rfl⟩ := List.mem_map.1 hq
    exact C153_date hp ht (hv x (hperm.subset hx))
  · refine List.pairwise_map.2 ((List.pairwise_insertionSort r ds).imp_of_mem fun {a b} ha hb hab => ?_)
    have va := hv _ (hperm.subset ha)
    have vb := hv _ (hperm.subset hb)
    have da := daysIn_le a.y a.m
    have db := daysIn_le b.y b.m
    unfold Date.Valid at va vb
    have hab' : 10000 * a.y + 100 * a.m + a.d ≤ 10000 * b.y + 100 * b.m + b.d := hab
    show a.y < b.y ∨ a.y = b.y ∧ (a.m < b.m ∨ a.m = b.m ∧ a.d ≤ b.d)
    omega

/-- C153: with one file that has no date there is no list: the constructor fails. -/
theorem C153_refused {p : Pattern} {found : List (List Char)} {s : List Char} (hs : s ∈ found) (h : parse p s = none)
    (out : List (List Char × Date)) : ¬ Listing p found out := by
  intro hL
  obtain ⟨q, hq, e⟩ := List.mem_map.1 (hL.2.1.symm.subset hs)
  have := hL.2.2.1 q hq
  rw [e, h] at this
  cases this

/-- The pattern `{year:04d}{month:02d}{day:02d}.nc`. -/
def daily : Pattern := [.tag .year, .tag .month, .tag .day, .lit '.', .lit 'n', .lit 'c']

/-- C153: a file that is not named after the pattern is dated all the same: beside daily files, `2006010112.nc`, say the file of an hour,
is found by the search and taken for a file of the year 601, without an error. -/
theorem C153_other_violated :
    Glob daily "2006010112.nc".toList ∧ parse daily "2006010112.nc".toList = some ⟨601, 1, 12⟩ ∧
    ∀ x : Date, x.Valid → fileName daily x ≠ "2006010112.nc".toList := by
  refine ⟨?_, by decide, fun x hx h => ?_⟩
  · exact .tag .year "2006010112".toList (by decide) (.tag .month [] (by decide) (.tag .day [] (by decide)
      (.lit '.' (.lit 'n' (.lit 'c' .nil)))))
  · have h1 := fileName_length daily hx.fits
    rw [h] at h1
    revert h1
    decide

/-- The pattern of the documentation, with the year twice. -/
def doc : Pattern := ("ncom/".toList.map .lit) ++ [.tag .year] ++ ("/s3d.glb8_2f_".toList.map .lit) ++ [.tag .year, .tag .month, .tag .day] ++
  ("00.nc".toList.map .lit)

example : fileName daily ⟨2006, 5, 9⟩ = ['2', '0', '0', '6', '0', '5', '0', '9', '.', 'n', 'c'] := by
  simp [fileName, daily, pad, width, Date.get, Nat.digitChar]

example : parse doc (fileName doc ⟨2006, 5, 9⟩) = some ⟨2006, 5, 9⟩ :=
  C153_date (by decide) (fun t => by cases t <;> decide) (by decide)

/-- A name of the right length with a date, and one without. -/
example (x : Date) (h : parse [.tag .year, .lit '-', .tag .month, .lit '-', .tag .day] "2006-05-09".toList = some x) :
    x.Valid ∧ "2006-05-09".toList = fileName [.tag .year, .lit '-', .tag .month, .lit '-', .tag .day] x :=
  C153_only_partial (fun c hc => by simp at hc; rcases hc with rfl | rfl <;> decide) (by decide) (by decide) h

example : parse daily "20061309.nc".toList = none := by decide

/-- Two files found in the wrong order. -/
example : Listing daily [fileName daily ⟨2006, 12, 31⟩, fileName daily ⟨2006, 2, 1⟩]
    [(fileName daily ⟨2006, 2, 1⟩, ⟨2006, 2, 1⟩), (fileName daily ⟨2006, 12, 31⟩, ⟨2006, 12, 31⟩)] := by
  refine ⟨by simp, List.Perm.swap _ _ _, fun q hq => ?_, ?_⟩
  · simp only [List.mem_cons, List.not_mem_nil, or_false] at hq
    rcases hq with rfl | rfl <;> exact C153_date (by decide) (fun t => by cases t <;> decide) (by decide)
  · simp [Date.le]

end Verif.Daily
