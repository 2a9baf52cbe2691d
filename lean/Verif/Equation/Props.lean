import Verif.Equation.Model
import Mathlib.Algebra.BigOperators.Group.Finset.Basic
import Mathlib.Tactic.Abel

/-!
C60: the residual of an equation is the sum of its terms by label.
-/

namespace Verif.Equation

variable {T M : Type}

/-! ### What a history of registrations amounts to -/

mutual
/-- The keys in a nested collection. -/
def flat : Keys → List String
  | .one k => [k]
  | .many ks => flatAll ks

/-- The keys in a list of collections. -/
def flatAll : List Keys → List String
  | [] => []
  | k :: ks => flat k ++ flatAll ks
end

/-- The name under which a term is registered. -/
def name (cls : String) : Option String → String
  | none => cls
  | some s => cls ++ "_" ++ s

/-- The term registered last under name `k`, given what there was before. -/
def lastTerm (k : String) : List (Step T) → Option T → Option T
  | [], b => b
  | .add cls suffix term _ :: ss, b => lastTerm k ss (if name cls suffix = k then some term else b)
  | .label _ _ :: ss, b => lastTerm k ss b

/-- The label given last to name `k`, given what there was before. -/
def lastLabel (k : String) : List (Step T) → Option String → Option String
  | [], b => b
  | .add cls suffix _ l :: ss, b => lastLabel k ss (if name cls suffix = k then some l else b)
  | .label ks l :: ss, b => lastLabel k ss (if k ∈ flat ks then some l else b)

/-- The contribution of the name `k` for the labels `ls`, after the history `h`. -/
def contribution [AddCommMonoid M] (h : List (Step T)) (val : T → M) (ls : List String) (k : String) :
    M :=
  match lastTerm k h none, lastLabel k h none with
  | some t, some l => if l ∈ ls then val t else 0
  | _, _ => 0

/-! ### Lemmas -/

theorem keyOf_eq (cls : String) (s : Option String) : keyOf cls s = name cls s := by
  cases s with
  | none => rfl
  | some s => rfl

/-- Dictionary lookup. -/
def get (d : List (String × T)) (k : String) : Option T := (d.find? fun p => p.1 = k).map Prod.snd

theorem get_set (d : List (String × T)) (k x : String) (v : T) :
    get (dictSet d k v) x = if k = x then some v else get d x := by
  induction d with
  | nil => by_cases h : k = x <;> simp [dictSet, get, h]
  | cons p d ih =>
    obtain ⟨k', v'⟩ := p
    unfold dictSet
    by_cases hk : k' = k
    · subst hk
      by_cases h : k' = x <;> simp [get, h]
    · rw [if_neg hk]
      by_cases h : k' = x
      · subst h
        rw [if_neg (fun h => hk h.symm)]
        simp [get]
      · have h1 : get ((k', v') :: dictSet d k v) x = get (dictSet d k v) x := by simp [get, h]
        have h2 : get ((k', v') :: d) x = get d x := by simp [get, h]
        rw [h1, h2, ih]

theorem keys_set (d : List (String × T)) (k : String) (v : T) :
    (dictSet d k v).map Prod.fst = if k ∈ d.map Prod.fst then d.map Prod.fst
      else d.map Prod.fst ++ [k] := by
  induction d with
  | nil => simp [dictSet]
  | cons p d ih =>
    obtain ⟨k', v'⟩ := p
    unfold dictSet
    by_cases hk : k' = k
    · subst hk; simp
    · rw [if_neg hk]
      simp only [List.map_cons, ih, List.mem_cons]
      by_cases h : k ∈ d.map Prod.fst
      · rw [if_pos h, if_pos (Or.inr h)]
      · rw [if_neg h, if_neg (by rintro (rfl | h'); exacts [hk rfl, h h'])]
        rfl

theorem mem_keys_iff (d : List (String × T)) (k : String) :
    k ∈ d.map Prod.fst ↔ ∃ v, get d k = some v := by
  induction d with
  | nil => simp [get]
  | cons p d ih =>
    obtain ⟨k', v'⟩ := p
    by_cases h : k' = k
    · subst h; simp [get]
    · have h2 : get ((k', v') :: d) k = get d k := by simp [get, h]
      rw [h2, ← ih, List.map_cons, List.mem_cons]
      exact ⟨fun h' => h'.resolve_left fun h'' => h h''.symm, Or.inr⟩

/-- The invariant of the construction. -/
structure Inv (e : Eqn T) : Prop where
  nodup : (e.terms.map Prod.fst).Nodup
  labelled : ∀ k ∈ e.terms.map Prod.fst, ∃ l ∈ supported, e.labels k = some l

mutual
theorem labelTerm_spec (ks : Keys) (l : String) (e e' : Eqn T) (h : labelTerm ks l e = (e', true)) :
    e'.terms = e.terms ∧ (∀ k, e'.labels k = if k ∈ flat ks then some l else e.labels k) ∧
      (flat ks ≠ [] → l ∈ supported) ∧ ∀ k ∈ flat ks, k ∈ e.terms.map Prod.fst := by
  match ks with
  | .one k =>
    simp only [labelTerm] at h
    split at h
    · cases h
    · split at h
      · cases h
      · next h1 h2 =>
        cases h
        refine ⟨rfl, fun x => ?_, fun _ => not_not.1 h2, ?_⟩
        · simp [flat]
        · intro x hx; simp [flat] at hx; subst hx; exact not_not.1 h1
  | .many ks =>
    simp only [labelTerm] at h
    simp only [flat]
    exact labelAll_spec ks l e e' h

theorem labelAll_spec (ks : List Keys) (l : String) (e e' : Eqn T) (h : labelAll ks l e = (e', true)) :
    e'.terms = e.terms ∧ (∀ k, e'.labels k = if k ∈ flatAll ks then some l else e.labels k) ∧
      (flatAll ks ≠ [] → l ∈ supported) ∧ ∀ k ∈ flatAll ks, k ∈ e.terms.map Prod.fst := by
  match ks with
  | [] =>
    simp only [labelAll] at h
    cases h
    exact ⟨rfl, fun k => by simp [flatAll], fun h => absurd rfl h, fun k hk => by simp [flatAll] at hk⟩
  | k :: ks =>
    simp only [labelAll] at h
    rcases hr : labelTerm k l e with ⟨e1, b⟩
    rw [hr] at h
    cases b with
    | false => cases h
    | true =>
      have h1 := labelTerm_spec k l e e1 hr
      have h2 := labelAll_spec ks l e1 e' h
      refine ⟨h2.1.trans h1.1, fun x => ?_, fun hne => ?_, fun x hx => ?_⟩
      · rw [h2.2.1, h1.2.1]
        simp only [flatAll, List.mem_append]
        by_cases ha : x ∈ flat k <;> by_cases hb : x ∈ flatAll ks <;> simp [ha, hb]
      · by_cases ha : flat k = []
        · by_cases hb : flatAll ks = []
          · simp [flatAll, ha, hb] at hne
          · exact h2.2.2.1 hb
        · exact h1.2.2.1 ha
      · simp only [flatAll, List.mem_append] at hx
        rcases hx with hx | hx
        · exact h1.2.2.2 x hx
        · have := h2.2.2.2 x hx; rwa [h1.1] at this
end

theorem label_inv {ks : Keys} {l : String} {e e' : Eqn T} (hi : Inv e)
    (h : labelTerm ks l e = (e', true)) : Inv e' := by
  obtain ⟨h1, h2, h3, h4⟩ := labelTerm_spec ks l e e' h
  refine ⟨by rw [h1]; exact hi.nodup, fun k hk => ?_⟩
  rw [h1] at hk
  by_cases hm : k ∈ flat ks
  · exact ⟨l, h3 (List.ne_nil_of_mem hm), by rw [h2, if_pos hm]⟩
  · obtain ⟨l', hl', hl2⟩ := hi.labelled k hk
    exact ⟨l', hl', by rw [h2, if_neg hm, hl2]⟩

theorem add_spec {cls : String} {suffix : Option String} {t : T} {l : String} {e e' : Eqn T}
    (h : addTerm e cls t l suffix = (e', true)) :
    e'.terms = dictSet e.terms (name cls suffix) t ∧
      (∀ k, e'.labels k = if name cls suffix = k then some l else e.labels k) ∧ l ∈ supported := by
  unfold addTerm at h
  rw [keyOf_eq] at h
  obtain ⟨h1, h2, h3, _⟩ := labelTerm_spec _ l _ e' h
  refine ⟨h1, fun k => ?_, h3 (by simp [flat])⟩
  rw [h2]
  simp [flat, eq_comm]

theorem add_inv {cls : String} {suffix : Option String} {t : T} {l : String} {e e' : Eqn T}
    (hi : Inv e) (h : addTerm e cls t l suffix = (e', true)) : Inv e' := by
  obtain ⟨h1, h2, h3⟩ := add_spec h
  have hk := keys_set e.terms (name cls suffix) t
  refine ⟨?_, ?_⟩
  · rw [h1, hk]
    split
    · exact hi.nodup
    · next hn =>
      rw [List.nodup_append]
      refine ⟨hi.nodup, by simp, ?_⟩
      intro a ha b hb hab
      simp at hb
      subst hb hab
      exact hn ha
  · intro k hkm
    rw [h2]
    by_cases hkk : name cls suffix = k
    · exact ⟨l, h3, by rw [if_pos hkk]⟩
    · rw [if_neg hkk]
      apply hi.labelled
      rw [h1, hk] at hkm
      split at hkm
      · exact hkm
      · rcases List.mem_append.1 hkm with h | h
        · exact h
        · simp at h; exact absurd h.symm hkk

theorem build_spec (h : List (Step T)) (e e' : Eqn T) (hi : Inv e) (hb : build h e = some e') :
    Inv e' ∧ ∀ k, get e'.terms k = lastTerm k h (get e.terms k) ∧
      e'.labels k = lastLabel k h (e.labels k) := by
  induction h generalizing e with
  | nil => simp only [build] at hb; cases hb; exact ⟨hi, fun k => ⟨rfl, rfl⟩⟩
  | cons s ss ih =>
    cases s with
    | add cls suffix term label =>
      simp only [build] at hb
      rcases hr : addTerm e cls term label suffix with ⟨e1, b⟩
      rw [hr] at hb
      cases b with
      | false => cases hb
      | true =>
        obtain ⟨h1, h2⟩ := ih e1 (add_inv hi hr) hb
        obtain ⟨h3, h4, _⟩ := add_spec hr
        refine ⟨h1, fun k => ?_⟩
        rw [(h2 k).1, (h2 k).2, h3, h4, get_set]
        exact ⟨rfl, rfl⟩
    | label ks l =>
      simp only [build] at hb
      rcases hr : labelTerm ks l e with ⟨e1, b⟩
      rw [hr] at hb
      cases b with
      | false => cases hb
      | true =>
        obtain ⟨h1, h2⟩ := ih e1 (label_inv hi hr) hb
        obtain ⟨h3, h4, _⟩ := labelTerm_spec ks l e e1 hr
        refine ⟨h1, fun k => ?_⟩
        rw [(h2 k).1, (h2 k).2, h3, h4]
        exact ⟨rfl, rfl⟩

theorem inv_empty : Inv (empty : Eqn T) := ⟨by simp [empty], by simp [empty]⟩

theorem get_of_mem {d : List (String × T)} (hn : (d.map Prod.fst).Nodup) {p : String × T} (hp : p ∈ d) :
    get d p.1 = some p.2 := by
  induction d with
  | nil => cases hp
  | cons q d ih =>
    simp only [List.map_cons, List.nodup_cons] at hn
    rcases List.mem_cons.1 hp with rfl | h
    · simp [get]
    · have : q.1 ≠ p.1 := fun hh => hn.1 (hh ▸ List.mem_map_of_mem h)
      have h2 : get (q :: d) p.1 = get d p.1 := by simp [get, this]
      rw [h2, ih hn.2 h]

theorem foldl_sum [AddCommMonoid M] (ts : List T) (val : T → M) (a : M) :
    ts.foldl (fun f t => f + val t) a = a + (ts.map val).sum := by
  induction ts generalizing a with
  | nil => simp
  | cons t ts ih => rw [List.foldl_cons, ih, List.map_cons, List.sum_cons, add_assoc]

theorem select_spec [AddCommMonoid M] (labels : String → Option String) (val : T → M) (s : Sel)
    (d : List (String × T)) (hl : ∀ k ∈ d.map Prod.fst, ∃ l, labels k = some l) :
    ∃ ts, selectTerms ⟨d, labels⟩ s = some ts ∧
      (ts.map val).sum = (d.map fun p =>
        match labels p.1 with
        | some l => if l ∈ labelSet s then val p.2 else 0
        | none => 0).sum := by
  induction d with
  | nil => exact ⟨[], rfl, rfl⟩
  | cons p d ih =>
    obtain ⟨ts, h1, h2⟩ := ih (fun k hk => hl k (List.mem_cons_of_mem _ hk))
    obtain ⟨l, hlp⟩ := hl p.1 (by simp)
    unfold selectTerms at h1 ⊢
    rw [List.foldr_cons]
    dsimp only at h1 ⊢
    rw [h1]
    simp only [hlp, Option.map_some, List.map_cons, List.sum_cons]
    by_cases hm : l ∈ labelSet s
    · exact ⟨p.2 :: ts, by simp [hm], by simp [hm, h2]⟩
    · exact ⟨ts, by simp [hm], by simp [hm, h2]⟩

/-! ### The theorems -/

/-- The labels selected by the argument: all supported ones for `'all'`. -/
def selected : Sel → List String
  | .str l => if l = "all" then ["source", "explicit", "implicit", "nonlinear"] else [l]
  | .coll ls => ls

/-- C60: after any successful history of registrations, the residual (or Jacobian) for a label, a
collection of labels or `'all'` is the sum, over the registered names, each counted once, of the term
registered last under that name, if the label given last to that name is among the selected ones. -/
theorem C60_residual [AddCommMonoid M] (h : List (Step T)) (e : Eqn T) (hb : build h empty = some e)
    (val : T → M) (s : Sel) (names : List String) (hn : names.Nodup)
    (hnames : ∀ k, k ∈ names ↔ lastTerm k h none ≠ none) :
    residual e val s = some ((names.map (contribution h val (selected s))).sum) := by
  obtain ⟨hi, hs⟩ := build_spec h empty e inv_empty hb
  have hg : ∀ k, get (empty : Eqn T).terms k = none := fun k => rfl
  obtain ⟨ts, h1, h2⟩ := select_spec e.labels val s e.terms
    (fun k hk => by obtain ⟨l, _, hl⟩ := hi.labelled k hk; exact ⟨l, hl⟩)
  unfold residual
  rw [h1]
  simp only [foldl_sum, zero_add, h2, Option.some.injEq]
  have hperm : (e.terms.map Prod.fst).Perm names := by
    rw [List.perm_ext_iff_of_nodup hi.nodup hn]
    intro k
    rw [mem_keys_iff, hnames, (hs k).1, hg k]
    cases lastTerm k h none <;> simp
  rw [← (hperm.map (contribution h val (selected s))).sum_eq, List.map_map]
  congr 1
  apply List.map_congr_left
  intro p hp
  simp only [Function.comp, contribution]
  have h3 : lastTerm p.1 h none = some p.2 := by
    rw [← hg p.1, ← (hs p.1).1]; exact get_of_mem hi.nodup hp
  have h4 : lastLabel p.1 h none = e.labels p.1 := ((hs p.1).2).symm
  rw [h3, h4]
  have hsel : labelSet s = selected s := by cases s <;> rfl
  rw [hsel]
  cases e.labels p.1 <;> rfl

/-- C60: names with a term always have one. -/
theorem C60_names (h : List (Step T)) (e : Eqn T) (hb : build h empty = some e) :
    ∃ names : List String, names.Nodup ∧ ∀ k, k ∈ names ↔ lastTerm k h none ≠ none := by
  obtain ⟨hi, hs⟩ := build_spec h empty e inv_empty hb
  refine ⟨_, hi.nodup, fun k => ?_⟩
  rw [mem_keys_iff, (hs k).1]
  change (∃ v, lastTerm k h none = some v) ↔ _
  cases lastTerm k h none <;> simp

/-- C60: splitting the labels splits the residual. -/
theorem C60_split [AddCommMonoid M] (h : List (Step T)) (e : Eqn T) (hb : build h empty = some e)
    (val : T → M) (ls ms : List String) (hd : ∀ l ∈ ls, l ∉ ms) :
    ∃ a b, residual e val (.coll ls) = some a ∧ residual e val (.coll ms) = some b ∧
      residual e val (.coll (ls ++ ms)) = some (a + b) := by
  obtain ⟨names, hn, hk⟩ := C60_names h e hb
  refine ⟨_, _, C60_residual h e hb val _ names hn hk, C60_residual h e hb val _ names hn hk, ?_⟩
  rw [C60_residual h e hb val _ names hn hk, Option.some.injEq, ← List.sum_map_add]
  congr 1
  apply List.map_congr_left
  intro k _
  simp only [contribution, selected]
  cases lastTerm k h none with
  | none => simp
  | some t =>
    cases hl : lastLabel k h none with
    | none => simp
    | some l =>
      simp only [List.mem_append]
      by_cases h1 : l ∈ ls
      · simp [h1, hd l h1]
      · by_cases h2 : l ∈ ms <;> simp [h1, h2]

/-- C60: `'all'` selects every term, and is the sum of the four labels. -/
theorem C60_all [AddCommMonoid M] (h : List (Step T)) (e : Eqn T) (hb : build h empty = some e)
    (val : T → M) (names : List String) (hn : names.Nodup)
    (hnames : ∀ k, k ∈ names ↔ lastTerm k h none ≠ none) :
    residual e val (.str "all") = some ((names.map fun k =>
      match lastTerm k h none with | some t => val t | none => 0).sum) ∧
    ∃ a b c d, residual e val (.str "source") = some a ∧ residual e val (.str "explicit") = some b ∧
      residual e val (.str "implicit") = some c ∧ residual e val (.str "nonlinear") = some d ∧
      residual e val (.str "all") = some (a + b + c + d) := by
  obtain ⟨hi, hs⟩ := build_spec h empty e inv_empty hb
  have hall : ∀ k ∈ names, contribution h val (selected (.str "all")) k =
      match lastTerm k h none with | some t => val t | none => 0 := by
    intro k hk
    have hg : get e.terms k = lastTerm k h none := (hs k).1
    have hl : e.labels k = lastLabel k h none := (hs k).2
    have hmem : k ∈ e.terms.map Prod.fst := by
      rw [mem_keys_iff, hg]
      cases hh : lastTerm k h none with
      | none => exact absurd hh ((hnames k).1 hk)
      | some t => exact ⟨t, rfl⟩
    obtain ⟨l, hl1, hl2⟩ := hi.labelled k hmem
    rw [hl] at hl2
    unfold contribution
    rw [hl2]
    cases lastTerm k h none with
    | none => rfl
    | some t =>
      have : l ∈ selected (.str "all") := hl1
      simp [this]
  constructor
  · rw [C60_residual h e hb val _ names hn hnames]
    congr 2
    exact List.map_congr_left hall
  · refine ⟨_, _, _, _, C60_residual h e hb val _ names hn hnames,
      C60_residual h e hb val _ names hn hnames, C60_residual h e hb val _ names hn hnames,
      C60_residual h e hb val _ names hn hnames, ?_⟩
    rw [C60_residual h e hb val _ names hn hnames, Option.some.injEq, ← List.sum_map_add,
      ← List.sum_map_add, ← List.sum_map_add]
    congr 1
    apply List.map_congr_left
    intro k _
    unfold contribution
    cases lastTerm k h none with
    | none => simp
    | some t =>
      cases lastLabel k h none with
      | none => simp
      | some l =>
        by_cases h1 : l = "source"
        · subst h1; simp [selected]
        by_cases h2 : l = "explicit"
        · subst h2; simp [selected]
        by_cases h3 : l = "implicit"
        · subst h3; simp [selected]
        by_cases h4 : l = "nonlinear"
        · subst h4; simp [selected]
        simp [selected, h1, h2, h3, h4]

theorem lastTerm_append (k : String) (h g : List (Step T)) (b : Option T) :
    lastTerm k (h ++ g) b = lastTerm k g (lastTerm k h b) := by
  induction h generalizing b with
  | nil => rfl
  | cons s ss ih => cases s <;> simp [lastTerm, ih]

theorem lastLabel_append (k : String) (h g : List (Step T)) (b : Option String) :
    lastLabel k (h ++ g) b = lastLabel k g (lastLabel k h b) := by
  induction h generalizing b with
  | nil => rfl
  | cons s ss ih => cases s <;> simp [lastLabel, ih]

/-- C60: a term added under a name in use takes the place of the earlier one, label included. -/
theorem C60_replace [AddCommMonoid M] (h : List (Step T)) (e e' : Eqn T) (hb : build h empty = some e)
    (cls : String) (suffix : Option String) (t t0 : T) (l l0 : String)
    (hb' : build (h ++ [.add cls suffix t l]) empty = some e')
    (ht : lastTerm (name cls suffix) h none = some t0)
    (hl : lastLabel (name cls suffix) h none = some l0) (val : T → M) (s : Sel) :
    ∃ a b, residual e val s = some a ∧ residual e' val s = some b ∧
      b + (if l0 ∈ selected s then val t0 else 0) = a + (if l ∈ selected s then val t else 0) := by
  obtain ⟨names, hn, hk⟩ := C60_names h e hb
  have hk' : ∀ k, k ∈ names ↔ lastTerm k (h ++ [.add cls suffix t l]) none ≠ none := by
    intro k
    rw [hk, lastTerm_append]
    simp only [lastTerm]
    by_cases hkk : name cls suffix = k
    · subst hkk; simp [ht]
    · simp [hkk]
  refine ⟨_, _, C60_residual h e hb val s names hn hk, C60_residual _ e' hb' val s names hn hk', ?_⟩
  have hmem : name cls suffix ∈ names := (hk _).2 (by rw [ht]; simp)
  obtain ⟨xs, ys, hxy⟩ := List.append_of_mem hmem
  have hsame : ∀ k ∈ names, k ≠ name cls suffix →
      contribution (h ++ [.add cls suffix t l]) val (selected s) k = contribution h val (selected s) k := by
    intro k _ hne
    unfold contribution
    rw [lastTerm_append, lastLabel_append]
    simp [lastTerm, lastLabel, hne.symm]
  have hnew : contribution (h ++ [.add cls suffix t l]) val (selected s) (name cls suffix) =
      if l ∈ selected s then val t else 0 := by
    unfold contribution
    rw [lastTerm_append, lastLabel_append]
    simp [lastTerm, lastLabel]
  have hold : contribution h val (selected s) (name cls suffix) =
      if l0 ∈ selected s then val t0 else 0 := by
    unfold contribution
    rw [ht, hl]
  rw [hxy] at hsame hn
  have hx : xs.map (contribution (h ++ [.add cls suffix t l]) val (selected s)) =
      xs.map (contribution h val (selected s)) := by
    apply List.map_congr_left
    intro k hkx
    refine hsame k (List.mem_append_left _ hkx) ?_
    rintro rfl
    exact (List.nodup_append.1 hn).2.2 _ hkx _ List.mem_cons_self rfl
  have hy : ys.map (contribution (h ++ [.add cls suffix t l]) val (selected s)) =
      ys.map (contribution h val (selected s)) := by
    apply List.map_congr_left
    intro k hky
    refine hsame k (List.mem_append_right _ (List.mem_cons_of_mem _ hky)) ?_
    rintro rfl
    exact (List.nodup_cons.1 (List.nodup_append.1 hn).2.1).1 hky
  rw [hxy]
  simp only [List.map_append, List.map_cons, List.sum_append, List.sum_cons, hx, hy, hnew, hold]
  abel

theorem add_ok (e : Eqn T) (cls : String) (suffix : Option String) (t : T) (l : String)
    (hl : l ∈ supported) : (addTerm e cls t l suffix).2 = true := by
  have hmem : keyOf cls suffix ∈ (dictSet e.terms (keyOf cls suffix) t).map Prod.fst := by
    rw [keys_set]; split
    · assumption
    · simp
  unfold addTerm
  simp only [labelTerm]
  rw [if_neg (not_not.2 hmem), if_neg (not_not.2 hl)]

/-- C60: any list of terms with supported labels can be registered. -/
theorem C60_accept (h : List (String × Option String × T × String))
    (hl : ∀ p ∈ h, p.2.2.2 ∈ ["source", "explicit", "implicit", "nonlinear"]) :
    ∃ e, build (h.map fun p => Step.add p.1 p.2.1 p.2.2.1 p.2.2.2) empty = some e := by
  generalize (empty : Eqn T) = e0
  induction h generalizing e0 with
  | nil => exact ⟨e0, rfl⟩
  | cons p h ih =>
    have h1 := add_ok e0 p.1 p.2.1 p.2.2.1 p.2.2.2 (hl p List.mem_cons_self)
    rcases hr : addTerm e0 p.1 p.2.2.1 p.2.2.2 p.2.1 with ⟨e1, b⟩
    rw [hr] at h1
    cases h1
    obtain ⟨e, he⟩ := ih (fun q hq => hl q (List.mem_cons_of_mem _ hq)) e1
    exact ⟨e, by simp only [List.map_cons, build, hr]; exact he⟩

/-- C60: an unsupported label is refused. -/
theorem C60_refuse (e : Eqn T) (cls : String) (suffix : Option String) (t : T) (l : String)
    (hl : l ∉ ["source", "explicit", "implicit", "nonlinear"]) :
    (addTerm e cls t l suffix).2 = false := by
  have hl' : l ∉ supported := hl
  unfold addTerm
  simp only [labelTerm]
  rw [if_pos hl']
  split <;> rfl

/-- C60: a refused term stays in the equation without a label, and every later residual raises. -/
theorem C60_refused_stays_violated :
    (addTerm (empty : Eqn ℕ) "Drag" 5 "impl" none).2 = false ∧
    residual (addTerm (empty : Eqn ℕ) "Drag" 5 "impl" none).1 id (.str "all") = none ∧
    residual (addTerm (addTerm (empty : Eqn ℕ) "Drag" 5 "impl" none).1 "Adv" 3 "explicit" none).1 id
      (.str "explicit") = none := by decide +kernel

/-- C60: a misspelt label selects nothing without notice, and so does `'all'` inside a collection. -/
theorem C60_unknown_label_violated :
    residual (addTerm (empty : Eqn ℕ) "Drag" 5 "implicit" none).1 id (.str "implict") = some 0 ∧
    residual (addTerm (empty : Eqn ℕ) "Drag" 5 "implicit" none).1 id (.coll ["all"]) = some 0 := by
  decide +kernel

/-- A history with a replacement and a relabelling, used as an example. -/
def exHist : List (Step ℕ) :=
  [.add "Adv" none 1 "explicit", .add "Diff" (some "salt") 10 "explicit", .add "Src" none 100 "source",
    .add "Adv" none 2 "implicit", .label (.many [.one "Diff_salt"]) "implicit"]

example : (build exHist empty).isSome = true := by decide +kernel

example : ((build exHist empty).bind fun e => residual e id (.str "implicit")) = some 12 := by
  decide +kernel

example : ((build exHist empty).bind fun e => residual e id (.str "all")) = some 112 := by
  decide +kernel

end Verif.Equation
