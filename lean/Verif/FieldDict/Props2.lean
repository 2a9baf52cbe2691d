import Verif.FieldDict.Props

/-!
C154: fields that a user adds.
-/

namespace Verif.FieldDict

variable {W : World} {md md' : String → Option Entry} {s t : State} {o : ℕ} {label name filename unit : String} {shortname : Option String}

/-- C154: a function can be added if and only if the label is new and there are no spaces in label and file name. -/
theorem C154_addable {m : Bool} (hf : W.kind o = .function m) : (∃ md' t, AddField W md s o label name filename shortname unit md' t true) ↔
    md label = none ∧ ' ' ∉ label.toList ∧ ' ' ∉ filename.toList := by
  constructor
  · rintro ⟨md', t, h⟩
    cases h with
    | done _ h1 h2 h3 _ => exact ⟨h1, h2, h3⟩
  · rintro ⟨h1, h2, h3⟩
    refine ⟨_, _, .done hf h1 h2 h3 (.item ?_)⟩
    simp [Accepts, World.withMeta, hf]

/-- C154: an added field is found under its label, both ways, has it as name and the metadata given; other fields and metadata are as
before. -/
theorem C154_added (h : AddField W md s o label name filename shortname unit md' t true) :
    getItem t label = .object o ∧ getAttr W t label = .object o ∧ t.name o = label ∧
    (∃ x, md' label = some ⟨name, x, unit, filename⟩ ∧ ((shortname = none ∨ shortname = some "") → x = name) ∧
      ∀ y, shortname = some y → y ≠ "" → x = y) ∧
    (∀ k, k ≠ label → getItem t k = getItem s k ∧ md' k = md k) ∧ ∀ p, p ≠ o → t.name p = s.name p := by
  cases h with
  | done hf h1 h2 h3 hs =>
    cases hs with
    | item ha =>
      refine ⟨by simp [getItem, put], by simp [getAttr, put], by simp [put, rename, World.withMeta, hf], ⟨_, Function.update_self .., ?_, ?_⟩, ?_, ?_⟩
      · rintro (rfl | rfl) <;> simp [orName]
      · rintro y rfl hy
        simp [orName, hy]
      · intro k hk
        exact ⟨by simp [getItem, put, hk], Function.update_of_ne hk _ _⟩
      · intro p hp
        simp [put, rename, World.withMeta, hf, Function.update_of_ne hp]

/-- C154: a refused field leaves no trace, neither in the fields nor in the metadata. -/
theorem C154_notAdded (h : AddField W md s o label name filename shortname unit md' t false) : md' = md ∧ t = s := by
  cases h with
  | refused _ => exact ⟨rfl, rfl⟩

/-- C154: what is no function is refused, whatever the label. -/
theorem C154_noFunction {ok : Bool} (hk : ∀ m, W.kind o ≠ .function m)
    (h : AddField W md s o label name filename shortname unit md' t ok) : ok = false := by
  cases h with
  | done hf => exact (hk _ hf).elim
  | refused _ => rfl

/-- C154: a label is used up by the first field: another field is refused, whatever was assigned and deleted in between. -/
theorem C154_once {ops : List Op} {u v : State} {md'' : String → Option Entry} {o' : ℕ} {name' filename' unit' : String}
    {shortname' : Option String} {ok : Bool} (h : AddField W md s o label name filename shortname unit md' t true)
    (_ : Run (W.withMeta md') t ops u) (h2 : AddField W md' u o' label name' filename' shortname' unit' md'' v ok) : ok = false := by
  obtain ⟨x, hx, -⟩ := (C154_added h).2.2.2.1
  cases h2 with
  | done _ h1 => rw [hx] at h1; cases h1
  | refused _ => rfl

/-- C154: if all that is in the dictionary is a field with metadata or of a mixed space, then it is so with the added field. -/
theorem C154_adding (h : AddField W md s o label name filename shortname unit md' t true)
    (hs : ∀ key x, s.items key = some x → W.kind x ≠ .other ∧ (md key ≠ none ∨ W.kind x = .function true)) :
    ∀ key x, t.items key = some x → W.kind x ≠ .other ∧ (md' key ≠ none ∨ W.kind x = .function true) := by
  cases h with
  | done hf h1 h2 h3 hst =>
    cases hst with
    | item ha =>
      intro key x hx
      by_cases hk : key = label
      · subst hk
        simp only [put, Function.update_self, Option.some.injEq] at hx
        subst hx
        exact ⟨by simp [hf], .inl (by simp)⟩
      · simp only [put, Function.update_of_ne hk] at hx ⊢
        exact hs key x hx

/-- A tracer is added to an empty dictionary. -/
example : ∃ md' t, AddField demo (fun _ => none) blank 1 "tracer_3d" "Tracer" "Tracer3d" none "-" md' t true :=
  (C154_addable (m := false) (by simp [demo])).2 ⟨rfl, by decide, by decide⟩

/-- A label with a space is refused. -/
example : AddField demo (fun _ => none) blank 1 "my tracer" "Tracer" "Tracer3d" none "-" (fun _ => none) blank false :=
  .refused (.inr (.inr (.inl (by decide))))

end Verif.FieldDict
