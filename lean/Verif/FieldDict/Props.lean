import Verif.FieldDict.Model

/-!
C154: the fields of a solver are checked, named and found under one name.
-/

namespace Verif.FieldDict

variable {W : World}

/-- No `update`: operations that the class defines, and deletion. -/
def Op.Checked : Op → Prop
  | .update _ _ => False
  | _ => True

/-- The operation assigns `o` to `key`. -/
def Op.Assigns (key : String) (o : ℕ) : Op → Prop
  | .setItem k x => k = key ∧ x = o
  | .setAttr k x => k = key ∧ x = o
  | _ => False

/-- An empty dictionary. -/
def Empty (s : State) : Prop := ∀ k, s.items k = none

/-- C154: a field is found as an item if and only if it is found as an attribute, in every state. -/
theorem C154_agree (s : State) (key : String) (o : ℕ) : getItem s key = .object o ↔ getAttr W s key = .object o := by
  unfold getItem getAttr
  cases s.items key with
  | some x => rfl
  | none =>
    simp only
    split <;> simp

/-- C154: both ways of assignment have the same effect, and what was assigned is found. -/
theorem C154_ways {s t : State} {key : String} {o : ℕ} {ok : Bool} :
    (Step W s (.setItem key o) t ok ↔ Step W s (.setAttr key o) t ok) ∧
    (Step W s (.setItem key o) t true → getItem t key = .object o ∧ getAttr W t key = .object o ∧
      ∀ k, k ≠ key → getItem t k = getItem s k) := by
  refine ⟨⟨fun h => ?_, fun h => ?_⟩, fun h => ?_⟩
  · cases h with
    | item h => exact .attr h
    | itemFail h => exact .attrFail h
  · cases h with
    | attr h => exact .item h
    | attrFail h => exact .itemFail h
  · cases h with
    | item h => exact ⟨by simp [getItem, put], by simp [getAttr, put], fun k hk => by simp [getItem, put, hk]⟩

/-- C154: a deleted field is not found any more, either way, other fields are; what is not found cannot be deleted. -/
theorem C154_deleted {s t : State} {key : String} {ok : Bool} (h : Step W s (.del key) t ok) :
    getItem t key = .error ∧ (W.method key → getAttr W t key = .method) ∧ (¬ W.method key → getAttr W t key = .error) ∧
    (∀ k, k ≠ key → getItem t k = getItem s k) ∧ (ok = false ↔ getItem s key = .error) := by
  cases h with
  | del h =>
    refine ⟨by simp [getItem], fun hm => by simp [getAttr, hm], fun hm => by simp [getAttr, hm], fun k hk => by simp [getItem, hk], ?_⟩
    cases hs : s.items key with
    | none => exact (h hs).elim
    | some o => simp [getItem, hs]
  | delFail h => exact ⟨by simp [getItem, h], fun hm => by simp [getAttr, h, hm], fun hm => by simp [getAttr, h, hm], fun _ _ => rfl, by simp [getItem, h]⟩

/-- C154: a refused operation changes nothing, no name either. -/
theorem C154_refused {s t : State} {op : Op} (h : Step W s op t false) : t = s := by cases h <;> rfl

/-- C154: an assignment is refused if and only if the value is no field, or has no metadata and is not of a mixed space. -/
theorem C154_refuses {s t : State} {key : String} {o : ℕ} {ok : Bool} (h : Step W s (.setItem key o) t ok) :
    ok = false ↔ W.kind o = .other ∨ ¬ W.meta_ key ∧ W.kind o ≠ .function true := by
  have key' : Accepts W key o ↔ ¬ (W.kind o = .other ∨ ¬ W.meta_ key ∧ W.kind o ≠ .function true) := by
    unfold Accepts
    cases W.kind o with
    | other => simp
    | constant => simp
    | function m => cases m <;> simp
  cases h with
  | item h => simpa using key'.1 h
  | itemFail h => simpa using not_not.1 fun hn => h (key'.2 hn)

theorem run_induction {P : State → Prop} {s t : State} {ops : List Op} (h : Run W s ops t) (h0 : P s)
    (hs : ∀ a b op ok, op ∈ ops → P a → Step W a op b ok → P b) : P t := by
  induction h with
  | nil => exact h0
  | cons h1 _ ih => exact ih (hs _ _ _ _ List.mem_cons_self h0 h1) fun a b op ok hop => hs a b op ok (List.mem_cons_of_mem _ hop)

/-- C154: after any sequence of assignments and deletions all that is in the dictionary is a field with metadata or of a mixed space. -/
theorem C154_checked_partial {s t : State} {ops : List Op} (h0 : Empty s) (hc : ∀ op ∈ ops, op.Checked) (h : Run W s ops t) :
    ∀ key o, t.items key = some o → W.kind o ≠ .other ∧ (W.meta_ key ∨ W.kind o = .function true) := by
  refine run_induction (P := fun t => ∀ key o, t.items key = some o → W.kind o ≠ .other ∧ (W.meta_ key ∨ W.kind o = .function true)) h
    (fun key o hk => by rw [h0 key] at hk; cases hk) ?_
  intro a b op ok hop hP hstep
  have acc : ∀ {k x}, Accepts W k x → W.kind x ≠ .other ∧ (W.meta_ k ∨ W.kind x = .function true) := by
    intro k x hx
    unfold Accepts at hx
    cases hk : W.kind x with
    | other => rw [hk] at hx; exact hx.elim
    | constant => rw [hk] at hx; exact ⟨by simp, .inl hx⟩
    | function m =>
      rw [hk] at hx
      refine ⟨by simp, hx.elim (fun h => .inr ?_) .inl⟩
      rw [h]
  have new : ∀ {k x} {s' : State}, s'.items = a.items → Accepts W k x → ∀ key o, (put k x s').items key = some o →
      W.kind o ≠ .other ∧ (W.meta_ key ∨ W.kind o = .function true) := by
    intro k x s' hs' hx key o hk
    by_cases hkk : key = k
    · subst hkk
      simp only [put, Function.update_self, Option.some.injEq] at hk
      exact hk ▸ acc hx
    · simp only [put, Function.update_of_ne hkk, hs'] at hk
      exact hP key o hk
  cases hstep with
  | item h => exact new rfl h
  | attr h => exact new rfl h
  | itemFail h => exact hP
  | attrFail h => exact hP
  | delFail h => exact hP
  | del h =>
    rename_i k
    intro key o hk
    by_cases hkk : key = k
    · subst hkk; simp at hk
    · simp only [Function.update_of_ne hkk] at hk
      exact hP key o hk
  | update => exact (hc _ hop).elim

theorem named_aux {s t : State} {ops : List Op} (h0 : Empty s) (hc : ∀ op ∈ ops, op.Checked)
    (hone : ∀ op ∈ ops, ∀ op' ∈ ops, ∀ k k' o, op.Assigns k o → op'.Assigns k' o → k = k') (h : Run W s ops t) :
    ∀ key o, t.items key = some o → (∃ op ∈ ops, op.Assigns key o) ∧ ∀ m, W.kind o = .function m → t.name o = key := by
  refine run_induction (P := fun t => ∀ key o, t.items key = some o → (∃ op ∈ ops, op.Assigns key o) ∧
    ∀ m, W.kind o = .function m → t.name o = key) h (fun key o hk => by rw [h0 key] at hk; cases hk) ?_
  intro a b op ok hop hP hstep
  have new : ∀ k x, op.Assigns k x → ∀ key o, (put k x { a with name := rename W k x a.name }).items key = some o →
      (∃ op ∈ ops, op.Assigns key o) ∧ ∀ m, W.kind o = .function m → rename W k x a.name o = key := by
    intro k x hax key o hk
    by_cases hkk : key = k
    · subst hkk
      simp only [put, Function.update_self, Option.some.injEq] at hk
      subst hk
      exact ⟨⟨op, hop, hax⟩, fun m hm => by simp [rename, hm]⟩
    · simp only [put, Function.update_of_ne hkk] at hk
      obtain ⟨⟨op', hop', ha'⟩, hn⟩ := hP key o hk
      refine ⟨⟨op', hop', ha'⟩, fun m hm => ?_⟩
      have hne : o ≠ x := by
        rintro rfl
        exact hkk (hone op' hop' op hop key k o ha' hax)
      unfold rename
      cases W.kind x with
      | function m' => simpa [Function.update_of_ne hne] using hn m hm
      | constant => exact hn m hm
      | other => exact hn m hm
  cases hstep with
  | item h => exact new _ _ ⟨rfl, rfl⟩
  | attr h => exact new _ _ ⟨rfl, rfl⟩
  | itemFail h => exact hP
  | attrFail h => exact hP
  | delFail h => exact hP
  | del h =>
    rename_i k
    intro key o hk
    by_cases hkk : key = k
    · subst hkk; simp at hk
    · simp only [Function.update_of_ne hkk] at hk
      exact hP key o hk
  | update => exact (hc _ hop).elim

/-- C154: a function has the name of its key, if no function is assigned to two keys. -/
theorem C154_named_partial {s t : State} {ops : List Op} (h0 : Empty s) (hc : ∀ op ∈ ops, op.Checked)
    (hone : ∀ op ∈ ops, ∀ op' ∈ ops, ∀ k k' o, op.Assigns k o → op'.Assigns k' o → k = k') (h : Run W s ops t)
    {key : String} {o : ℕ} {m : Bool} (hk : t.items key = some o) (hm : W.kind o = .function m) : t.name o = key :=
  (named_aux h0 hc hone h key o hk).2 m hm

/-- All objects are functions but object 9; there is metadata of two keys. -/
def demo : World where
  kind o := if o = 9 then .other else .function false
  meta_ k := k = "uv_2d" ∨ k = "elev_2d"
  method k := k = "keys"

def blank : State := ⟨fun _ => none, fun _ => "f"⟩

theorem demo_accepts {k : String} (hk : k = "uv_2d" ∨ k = "elev_2d") {o : ℕ} (ho : o ≠ 9) : Accepts demo k o := by
  simp [Accepts, demo, ho, hk]

/-- C154: a function assigned to two keys, the second of which gets another function, has the name of a key that holds that other
function: two fields have one name. -/
theorem C154_named_violated : ∃ (W : World) (s t : State) (ops : List Op), Empty s ∧ (∀ op ∈ ops, op.Checked) ∧ Run W s ops t ∧
    t.items "uv_2d" = some 1 ∧ t.items "elev_2d" = some 2 ∧ t.name 1 = "elev_2d" ∧ t.name 2 = "elev_2d" := by
  refine ⟨demo, blank, _, [.setItem "uv_2d" 1, .setItem "elev_2d" 1, .setItem "elev_2d" 2], fun _ => rfl, by simp [Op.Checked],
    .cons (.item (demo_accepts (.inl rfl) (by decide))) (.cons (.item (demo_accepts (.inr rfl) (by decide)))
      (.cons (.item (demo_accepts (.inr rfl) (by decide))) .nil)), ?_, ?_, ?_, ?_⟩ <;>
    simp [put, rename, demo, blank, Function.update]

/-- C154: `update` stores what an assignment to the same key refuses. -/
theorem C154_update_violated : ∃ (W : World) (s t : State) (key : String) (o : ℕ), Empty s ∧ Run W s [.update key o] t ∧
    getItem t key = .object o ∧ W.kind o = .other ∧ ¬ W.meta_ key ∧ ∀ u ok, Step W s (.setItem key o) u ok → ok = false := by
  refine ⟨demo, blank, _, "x", 9, fun _ => rfl, .cons .update .nil, by simp [getItem, put], by simp [demo], by simp [demo], ?_⟩
  intro u ok h
  exact (C154_refuses h).2 (.inl (by simp [demo]))

/-- The hypotheses of the theorems on sequences can be met: two fields, one assigned each way. -/
example : ∃ t, Run demo blank [.setItem "uv_2d" 1, .setAttr "elev_2d" 2, .setItem "x" 1, .del "y"] t ∧
    t.items "uv_2d" = some 1 ∧ t.items "elev_2d" = some 2 ∧ t.name 1 = "uv_2d" ∧ t.name 2 = "elev_2d" := by
  refine ⟨_, .cons (.item (demo_accepts (.inl rfl) (by decide))) (.cons (.attr (demo_accepts (.inr rfl) (by decide)))
    (.cons (.itemFail (by simp [Accepts, demo])) (.cons (.delFail (by simp [put, blank])) .nil))), ?_, ?_, ?_, ?_⟩ <;>
    simp [put, rename, demo, blank, Function.update]

/-- Here no function is assigned to two keys. -/
example : ∀ op ∈ [Op.setItem "uv_2d" 1, .setAttr "elev_2d" 2], ∀ op' ∈ [Op.setItem "uv_2d" 1, .setAttr "elev_2d" 2],
    ∀ k k' o, op.Assigns k o → op'.Assigns k' o → k = k' := by
  intro op hop op' hop' k k' o h h'
  simp only [List.mem_cons, List.not_mem_nil, or_false] at hop hop'
  rcases hop with rfl | rfl <;> rcases hop' with rfl | rfl <;> obtain ⟨rfl, rfl⟩ := h <;> obtain ⟨rfl, h'⟩ := h' <;>
    first | rfl | cases h'

end Verif.FieldDict
