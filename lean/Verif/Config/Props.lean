import Verif.Config.Model
import Mathlib.Tactic.Linarith
import Mathlib.Tactic.NormNum
import Mathlib.Data.List.Nodup
import Mathlib.Order.WithBot

/-!
Properties C32 (frozen objects), C33 (validated options), C34 (paired options), C35 (tracer
registration), C36 (setting all time stepper types).
-/

namespace Verif.Config

/-! ### C32 -/

section C32

variable {K V : Type} [DecidableEq K]

/-- Result of a program according to the specification. -/
structure SpecResult (K V : Type) where
  attrs : K → Option V
  /-- an exception left the program -/
  raised : Bool
  /-- somewhere an exception left a decorated method -/
  escaped : Bool

/-- Specification by lexical nesting: `n` is the number of decorated methods the code is inside of;
a new attribute may be created exactly when `n ≠ 0`. -/
def specExec : ℕ → Prog K V → (K → Option V) → SpecResult K V
  | _, .done, a => ⟨a, false, false⟩
  | _, .raise, a => ⟨a, true, false⟩
  | n, .set k v rest, a =>
    if n = 0 ∧ a k = none then ⟨a, true, false⟩ else specExec n rest (assign a k v)
  | n, .call body rest, a =>
    let b := specExec (n + 1) body a
    if b.raised then ⟨b.attrs, true, true⟩
    else
      let r := specExec n rest b.attrs
      ⟨r.attrs, r.raised, b.escaped || r.escaped⟩
  | n, .attempt body rest, a =>
    let b := specExec n body a
    let r := specExec n rest b.attrs
    ⟨r.attrs, r.raised, b.escaped || r.escaped⟩

/-- C32, provable part: whatever the nesting of calls and caught exceptions, if no exception leaves
a decorated method the object accepts a new attribute exactly inside decorated methods, raises and
changes nothing outside, and is frozen again exactly when the outermost decorated method has
returned.  Missing: programs in which an exception leaves a decorated method, where the property is
false (`C32_exception_violated`). -/
theorem C32_frozen_partial (p : Prog K V) (n : ℕ) (a : K → Option V)
    (h : (specExec n p a).escaped = false) :
    exec p ⟨decide (n = 0), n, a⟩ =
      (⟨decide (n = 0), n, (specExec n p a).attrs⟩, (specExec n p a).raised) := by
  induction p generalizing n a with
  | done => simp [exec, specExec]
  | raise => simp [exec, specExec]
  | set k v rest ih =>
    by_cases hc : n = 0 ∧ a k = none
    · simp [exec, specExec, Obj.setattr, hc]
    · have hs : specExec n (.set k v rest) a = specExec n rest (assign a k v) := by
        simp only [specExec]; rw [if_neg hc]
      rw [hs] at h ⊢
      have : (decide (n = 0) && (a k).isNone) = false := by
        rw [Bool.and_eq_false_iff]
        by_cases hn : n = 0
        · right
          cases hak : a k with
          | none => exact absurd ⟨hn, hak⟩ hc
          | some x => rfl
        · left; simp [hn]
      simp only [exec, Obj.setattr, this]
      exact ih n _ h
  | call body rest ihb ihr =>
    have henter : Obj.enter (⟨decide (n = 0), n, a⟩ : Obj K V) =
        ⟨decide (n + 1 = 0), ((n + 1 : ℕ) : ℤ), a⟩ := by
      simp [Obj.enter]
    simp only [specExec] at h ⊢
    simp only [exec, henter]
    by_cases hb : (specExec (n + 1) body a).raised = true
    · rw [if_pos hb] at h; simp at h
    · rw [if_neg hb] at h ⊢
      simp only [Bool.or_eq_false_iff] at h
      have hb' : (specExec (n + 1) body a).raised = false := by simpa using hb
      rw [ihb (n + 1) a h.1, hb']
      have hleave : Obj.leave (⟨decide (n + 1 = 0), ((n + 1 : ℕ) : ℤ),
          (specExec (n + 1) body a).attrs⟩ : Obj K V) =
          ⟨decide (n = 0), n, (specExec (n + 1) body a).attrs⟩ := by
        simp [Obj.leave]
      simp only [hleave]
      exact ihr n _ h.2
  | attempt body rest ihb ihr =>
    simp only [specExec, Bool.or_eq_false_iff] at h ⊢
    simp only [exec]
    rw [ihb n a h.1]
    exact ihr n _ h.2

/-- Non-vacuity: nested decorated calls, a caught refusal outside them. -/
example : let p : Prog String ℕ :=
      .call (.call (.set "x" 1 .done) (.set "y" 2 .done)) (.attempt (.set "z" 3 .done) (.set "x" 5 .done))
    (specExec 0 p (fun _ => none)).escaped = false ∧
    (exec p ⟨true, 0, fun _ => none⟩).1.attrs "x" = some 5 ∧
    (exec p ⟨true, 0, fun _ => none⟩).1.attrs "y" = some 2 ∧
    (exec p ⟨true, 0, fun _ => none⟩).1.attrs "z" = none := by decide

/-- Undecorated code: no call of a decorated method. -/
def Prog.plain : Prog K V → Bool
  | .done => true
  | .raise => true
  | .set _ _ rest => rest.plain
  | .call _ _ => false
  | .attempt body rest => body.plain && rest.plain

/-- C32: code that calls no decorated method never changes which attributes a frozen object has,
and leaves it frozen, also when it raises. -/
theorem C32_no_new_attribute (p : Prog K V) (hp : p.plain = true) (o : Obj K V)
    (ho : o.frozen = true) :
    (exec p o).1.frozen = true ∧ (exec p o).1.depth = o.depth ∧
    ∀ k, ((exec p o).1.attrs k = none ↔ o.attrs k = none) := by
  induction p generalizing o with
  | done => simp [exec, ho]
  | raise => simp [exec, ho]
  | call => simp [Prog.plain] at hp
  | set k v rest ih =>
    simp only [Prog.plain] at hp
    simp only [exec, Obj.setattr, ho, Bool.true_and]
    by_cases hk : (o.attrs k).isNone = true
    · rw [if_pos hk]; simp [ho]
    · rw [if_neg hk]
      obtain ⟨h1, h2, h3⟩ := ih hp { frozen := true, depth := o.depth, attrs := assign o.attrs k v } rfl
      simp only
      refine ⟨h1, h2, fun x => ?_⟩
      rw [h3 x]
      simp only [assign]
      by_cases hx : x = k
      · subst hx
        simp only [if_true, reduceCtorEq, false_iff]
        intro hcon; simp [hcon] at hk
      · simp [hx]
  | attempt body rest ihb ihr =>
    simp only [Prog.plain, Bool.and_eq_true] at hp
    obtain ⟨h1, h2, h3⟩ := ihb hp.1 o ho
    obtain ⟨h1', h2', h3'⟩ := ihr hp.2 _ h1
    exact ⟨h1', h2'.trans h2, fun k => (h3' k).trans (h3 k)⟩

/-- C32: assigning an unknown attribute of a frozen object raises and changes nothing. -/
theorem C32_unknown_attribute (o : Obj K V) (ho : o.frozen = true) (k : K) (v : V)
    (hk : o.attrs k = none) (rest : Prog K V) : exec (.set k v rest) o = (o, true) := by
  simp [exec, Obj.setattr, ho, hk]

/-- C32: a constructor decorated with `unfrozen` that returns normally leaves a frozen object. -/
theorem C32_constructor (body : Prog K V) (a : K → Option V)
    (h : (specExec 1 body a).escaped = false) (hr : (specExec 1 body a).raised = false) :
    (exec (.call body .done) (unborn a)).1 = ⟨true, 0, (specExec 1 body a).attrs⟩ := by
  have henter : Obj.enter (unborn a : Obj K V) = ⟨decide ((1 : ℕ) = 0), ((1 : ℕ) : ℤ), a⟩ := by
    simp [Obj.enter, unborn]
  simp only [exec, henter]
  rw [C32_frozen_partial body 1 a h, hr]
  simp [Obj.leave]

theorem leak (p : Prog K V) (m : ℤ) (hm : 1 ≤ m) (o : Obj K V) (hf : o.frozen = false)
    (hd : m ≤ o.depth) : (exec p o).1.frozen = false ∧ m ≤ (exec p o).1.depth := by
  induction p generalizing o m with
  | done => simp [exec, hf, hd]
  | raise => simp [exec, hf, hd]
  | set k v rest ih =>
    simp only [exec, Obj.setattr, hf, Bool.false_and]
    exact ih m hm _ rfl hd
  | call body rest ihb ihr =>
    have hb := ihb (m + 1) (by linarith) o.enter rfl (by simp [Obj.enter]; linarith)
    simp only [exec]
    match hx : exec body o.enter with
    | (o', true) => rw [hx] at hb; exact ⟨hb.1, by linarith [hb.2]⟩
    | (o', false) =>
      rw [hx] at hb
      refine ihr m hm o'.leave ?_ ?_
      · have : o'.depth - 1 ≠ 0 := by have := hb.2; intro hc; simp only at this; linarith
        simp [Obj.leave, this]
      · have := hb.2; simp only at this; simp only [Obj.leave]; linarith
  | attempt body rest ihb ihr =>
    have hb := ihb m hm o hf hd
    exact ihr m hm _ hb.1 hb.2

/-- C32 is violated: once an exception has left a decorated method (and was caught by the user),
the object is never frozen again, whatever is called afterwards. -/
theorem C32_exception_violated (body rest : Prog K V) (o : Obj K V) (hd : 0 ≤ o.depth)
    (h : (exec body o.enter).2 = true) :
    (exec (.attempt (.call body .done) rest) o).1.frozen = false := by
  have h1 := leak body 1 le_rfl o.enter rfl (by simp [Obj.enter]; exact hd)
  have h2 : exec (.call body .done) o = ((exec body o.enter).1, true) := by
    simp only [exec]
    match hx : exec body o.enter with
    | (o', true) => rfl
    | (o', false) => rw [hx] at h; simp at h
  have h3 : exec (.attempt (.call body .done) rest) o =
      exec rest (exec (.call body .done) o).1 := rfl
  rw [h3, h2]
  exact (leak rest 1 le_rfl _ h1.1 h1.2).1

/-- The consequence a user sees: a misspelt attribute is accepted. -/
example : (exec (.attempt (.call .raise .done) (.call .done (.set "mispelt" 1 .done)))
    (⟨true, 0, fun _ => none⟩ : Obj String ℕ)).1.attrs "mispelt" = some 1 := by decide

end C32

/-! ### C33 -/

/-- A finite rational as an extended one. -/
abbrev ext (q : ℚ) : WithBot (WithTop ℚ) := WithBot.some (WithTop.some q)

/-- Numeric value of a Python value as an element of the extended rationals; `none` for NaN and
non-numbers. -/
def PyVal.num : PyVal → Option (WithBot (WithTop ℚ))
  | .bool b => some (ext (if b then 1 else 0))
  | .int n => some (ext n)
  | .float (.fin x) => some (ext x)
  | .float .posInf => some ⊤
  | .float .negInf => some ⊥
  | .float .nan => Option.none
  | .none => Option.none
  | .other _ => Option.none

/-- The declared range: lower bound, whether it is strict, optional upper bound. -/
def Kind.InRange (k : Kind) (x : WithBot (WithTop ℚ)) : Prop :=
  match k with
  | .positiveInteger | .positiveFloat => ext 0 < x
  | .nonNegativeInteger | .nonNegativeFloat => ext 0 ≤ x
  | .boundedInteger lo hi | .boundedFloat lo hi => ext lo ≤ x ∧ x ≤ ext hi

/-- Whether the trait is an integer trait. -/
def Kind.integral : Kind → Bool
  | .positiveInteger | .nonNegativeInteger | .boundedInteger _ _ => true
  | _ => false

/-- Specification of an admissible value: `None` where allowed, otherwise a number (an integer or
Boolean for integer traits) within the declared range. -/
def Trait.Admits (t : Trait) (v : PyVal) : Prop :=
  (v = .none ∧ t.allowNone = true) ∨
  ((∃ x, v.num = some x ∧ t.kind.InRange x) ∧
    (t.kind.integral = true → (∃ n, v = .int n) ∨ ∃ b, v = .bool b))

theorem validate_iff (k : Kind) (v : PyVal) :
    k.validate v = true ↔ (∃ x, v.num = some x ∧ k.InRange x) ∧
      (k.integral = true → (∃ n, v = .int n) ∨ ∃ b, v = .bool b) := by
  have e1 : ∀ q r : ℚ, (ext q < ext r ↔ q < r) := fun q r => by
    simp only [ext, WithBot.coe_lt_coe, WithTop.coe_lt_coe]
  have e2 : ∀ q r : ℚ, (ext q ≤ ext r ↔ q ≤ r) := fun q r => by
    simp only [ext, WithBot.coe_le_coe, WithTop.coe_le_coe]
  have e3 : ∀ q : ℚ, ext q < ⊤ := fun q => by
    have : (⊤ : WithBot (WithTop ℚ)) = WithBot.some (⊤ : WithTop ℚ) := rfl
    rw [this, WithBot.coe_lt_coe]; exact WithTop.coe_lt_top q
  have e4 : ∀ q : ℚ, ⊥ < ext q := fun q => WithBot.bot_lt_coe _
  have e5 : ∀ q : ℚ, ¬ (⊤ ≤ ext q) := fun q => not_le.2 (e3 q)
  have e6 : ∀ q : ℚ, ¬ (ext q ≤ ⊥) := fun q => not_le.2 (e4 q)
  have e7 : ∀ q : ℚ, ¬ (ext q < ⊥) := fun q => not_lt.2 (e4 q).le
  cases v with
  | none => cases k <;> simp [Kind.validate, PyVal.num, PyVal.isInt, PyVal.isFloat]
  | other n => cases k <;> simp [Kind.validate, PyVal.num, PyVal.isInt, PyVal.isFloat]
  | bool b =>
    cases k <;>
      simp only [Kind.validate, PyVal.num, PyVal.isInt, PyVal.isFloat, Kind.InRange, PyVal.gt,
        PyVal.ge, PyVal.le, Kind.integral, Option.some.injEq, exists_eq_left', Bool.true_and,
        decide_eq_true_eq, Bool.and_eq_true, e1, e2] <;>
      simp
  | int n =>
    cases k <;>
      simp only [Kind.validate, PyVal.num, PyVal.isInt, PyVal.isFloat, Kind.InRange, PyVal.gt,
        PyVal.ge, PyVal.le, Kind.integral, Option.some.injEq, exists_eq_left', Bool.true_and,
        decide_eq_true_eq, Bool.and_eq_true, e1, e2] <;>
      simp
  | float x =>
    cases x <;> cases k <;>
      simp only [Kind.validate, PyVal.num, PyVal.isInt, PyVal.isFloat, Kind.InRange, PyVal.gt,
        PyVal.ge, PyVal.le, Kind.integral, Option.some.injEq, exists_eq_left', Bool.true_and,
        decide_eq_true_eq, Bool.and_eq_true, e1, e2, e3, e5, e6, e7, (e3 _).le, (e4 _).le] <;>
      simp

/-- C33: an assignment succeeds exactly when the option exists and the value is admissible; then
exactly that option takes exactly that value; otherwise nothing changes. -/
theorem C33_assignment (traits : String → Option Trait) (vals : String → PyVal) (k : String)
    (v : PyVal) :
    ((∃ t, traits k = some t ∧ t.Admits v) ∧
        setOption traits vals k v = (Function.update vals k v, .ok)) ∨
    ((¬ ∃ t, traits k = some t ∧ t.Admits v) ∧
        (setOption traits vals k v).1 = vals ∧ (setOption traits vals k v).2 ≠ .ok) := by
  have hu : (fun x => if x = k then v else vals x) = Function.update vals k v := by
    funext x; by_cases hx : x = k
    · subst hx; simp
    · simp [hx]
  cases ht : traits k with
  | none => right; simp [setOption, ht]
  | some t =>
    by_cases ha : (v = .none ∧ t.allowNone = true) ∨ t.kind.validate v = true
    · left
      refine ⟨⟨t, rfl, ?_⟩, ?_⟩
      · rcases ha with ha | ha
        · exact Or.inl ha
        · exact Or.inr ((validate_iff _ _).1 ha)
      · simp only [setOption, ht]; rw [if_pos ha, hu]
    · right
      refine ⟨?_, ?_⟩
      · rintro ⟨t', ht', had⟩
        cases ht'
        apply ha
        rcases had with h | h
        · exact Or.inl h
        · exact Or.inr ((validate_iff _ _).2 h)
      · simp only [setOption, ht]; rw [if_neg ha]; simp

/-- Any sequence of assignments, successful or not. -/
def assignments (traits : String → Option Trait) (vals : String → PyVal)
    (l : List (String × PyVal)) : String → PyVal :=
  l.foldl (fun vs kv => (setOption traits vs kv.1 kv.2).1) vals

/-- C33: after any sequence of successful or failing assignments every option holds an admissible
value, if it did at the start. -/
theorem C33_always_in_range (traits : String → Option Trait) (vals : String → PyVal)
    (h0 : ∀ k t, traits k = some t → t.Admits (vals k)) (l : List (String × PyVal))
    (k : String) (t : Trait) (hk : traits k = some t) :
    t.Admits (assignments traits vals l k) := by
  induction l generalizing vals with
  | nil => exact h0 k t hk
  | cons kv l ih =>
    simp only [assignments, List.foldl_cons]
    refine ih (setOption traits vals kv.1 kv.2).1 ?_
    intro k' t' hk'
    rcases C33_assignment traits vals kv.1 kv.2 with ⟨⟨t1, ht1, had⟩, hs⟩ | ⟨-, hs, -⟩
    · rw [hs]
      by_cases hx : k' = kv.1
      · subst hx
        rw [ht1] at hk'; cases hk'
        simpa using had
      · simpa [hx] using h0 k' t' hk'
    · rw [hs]; exact h0 k' t' hk'

/-- C33: the same for bulk updates from a dictionary: admissible values are kept, and the values
that a failing update leaves behind are those of a prefix of the dictionary. -/
theorem C33_update (traits : String → Option Trait) (l : List (String × PyVal))
    (vals : String → PyVal) :
    ∃ pre, pre <+: l ∧ (updateOptions traits l vals).1 = assignments traits vals pre ∧
      ((updateOptions traits l vals).2 = .ok → pre = l) := by
  induction l generalizing vals with
  | nil => exact ⟨[], List.prefix_refl _, rfl, fun _ => rfl⟩
  | cons kv l ih =>
    obtain ⟨k, v⟩ := kv
    rcases C33_assignment traits vals k v with ⟨-, hs⟩ | ⟨-, hs, hne⟩
    · obtain ⟨pre, h1, h2, h3⟩ := ih (Function.update vals k v)
      refine ⟨(k, v) :: pre, List.cons_prefix_cons.2 ⟨rfl, h1⟩, ?_, ?_⟩
      · simp only [updateOptions, hs, h2, assignments, List.foldl_cons]
      · intro h; simp only [updateOptions, hs] at h; rw [h3 h]
    · refine ⟨[], List.nil_prefix, ?_, ?_⟩
      · simp only [updateOptions]
        split
        · rename_i heq; rw [heq] at hne; exact absurd rfl hne
        · exact hs
      · intro h; simp only [updateOptions] at h
        split at h
        · rename_i heq; rw [heq] at hne; exact absurd rfl hne
        · exact absurd h hne

/-- C33: every shipped default is admissible, so the hypothesis of `C33_always_in_range` holds for
the shipped option classes (the whole table of validated numeric options). -/
theorem C33_shipped_defaults : ∀ e ∈ shippedDefaults, e.2.1.Admits e.2.2 := by
  have : ∀ e ∈ shippedDefaults,
      (e.2.2 = .none ∧ e.2.1.allowNone = true) ∨ e.2.1.kind.validate e.2.2 = true := by
    decide +kernel
  intro e he
  rcases this e he with h | h
  · exact Or.inl h
  · exact Or.inr ((validate_iff _ _).1 h)

/-- Non-vacuity: the theta parameter accepts 1, refuses 0.25 and NaN. -/
example : let t : Trait := ⟨.boundedFloat (1/2) 1, false⟩
    t.kind.validate (.int 1) = true ∧ t.kind.validate (.float (.fin (1/4))) = false ∧
    t.kind.validate (.float .nan) = false := by decide +kernel

/-! ### C34 -/

section C34

variable {T C S : Type} [DecidableEq T]

/-- The class of the attached options belongs to the current choice. -/
def Matches (d : PairDecl T C S) (p : Paired T C S) : Prop :=
  ∃ o, (d.read p).2 = some o ∧ d.pairedDefaults p.type = some o.cls

/-- Every whole-object assignment in the sequence is of the class of the choice at that moment. -/
def Fits (d : PairDecl T C S) : Paired T C S → List (PairOp T C S) → Prop
  | _, [] => True
  | p, op :: ops =>
    (match op with
      | .setOpts o => d.pairedDefaults p.type = some o.cls
      | _ => True) ∧ Fits d (d.step p op).1 ops

/-- Well formed declaration: the default choice is admissible. -/
def Declared (d : PairDecl T C S) : Prop := ∃ c, d.pairedDefaults d.dflt = some c

/-- Reachable states: options not built yet only while the choice is the default one. -/
def Sane (d : PairDecl T C S) (p : Paired T C S) : Prop :=
  (p.opts = none → p.type = d.dflt) ∧
  (∀ o, p.opts = some o → d.pairedDefaults p.type = some o.cls)

omit [DecidableEq T] in
theorem sane_matches (d : PairDecl T C S) (hd : Declared d) (p : Paired T C S) (h : Sane d p) :
    Matches d p := by
  obtain ⟨c, hc⟩ := hd
  cases ho : p.opts with
  | none =>
    refine ⟨⟨c, d.fresh c⟩, ?_, ?_⟩
    · simp [PairDecl.read, ho, PairDecl.build, hc]
    · rw [h.1 ho, hc]
  | some o => exact ⟨o, by simp [PairDecl.read, ho], h.2 o ho⟩

theorem sane_step (d : PairDecl T C S) (p : Paired T C S) (h : Sane d p)
    (op : PairOp T C S) (hop : match op with
      | .setOpts o => d.pairedDefaults p.type = some o.cls
      | _ => True) : Sane d (d.step p op).1 := by
  cases op with
  | setType t =>
    simp only [PairDecl.step]
    cases hb : d.build t with
    | none => exact h
    | some o =>
      by_cases ht : t = p.type
      · simpa [ht] using h
      · simp only [ht, if_false]
        refine ⟨by simp, ?_⟩
        intro o' ho'
        simp only [Option.some.injEq] at ho'
        subst ho'
        simp only [PairDecl.build, Option.map_eq_some_iff] at hb
        obtain ⟨c, hc, rfl⟩ := hb
        exact hc
  | setOpts o =>
    simp only [PairDecl.step]
    split
    · refine ⟨by simp, ?_⟩
      intro o' ho'
      simp only [Option.some.injEq] at ho'
      subst ho'
      exact hop
    · exact h
  | modify f =>
    simp only [PairDecl.step]
    cases hr : (d.read p).2 with
    | none => exact h
    | some o =>
      refine ⟨by simp, ?_⟩
      intro o' ho'
      simp only [Option.some.injEq] at ho'
      subst ho'
      show d.pairedDefaults p.type = some o.cls
      cases ho : p.opts with
      | none =>
        simp only [PairDecl.read, ho] at hr
        rw [h.1 ho]
        simp only [PairDecl.build, Option.map_eq_some_iff] at hr
        obtain ⟨c, hc, rfl⟩ := hr
        exact hc
      | some o2 =>
        simp only [PairDecl.read, ho, Option.some.injEq] at hr
        subst hr
        exact h.2 _ ho

theorem sane_run (d : PairDecl T C S) (ops : List (PairOp T C S)) :
    ∀ p, Sane d p → Fits d p ops → Sane d (d.run p ops) := by
  induction ops with
  | nil => intro p h _; exact h
  | cons op ops ih =>
    intro p h hf
    exact ih _ (sane_step d p h op hf.1) hf.2

/-- C34, provable part: for every sequence of choices and customisations in which whole options
objects are only replaced by objects of the matching class, the attached options always are of
the class that belongs to the current choice.  Missing: assignments of options objects of another
class, which are accepted (`C34_mismatch_violated`). -/
theorem C34_class_matches_partial (d : PairDecl T C S) (hd : Declared d) (ops : List (PairOp T C S))
    (hf : Fits d d.new ops) : Matches d (d.run d.new ops) := by
  exact sane_matches d hd _ (sane_run d ops d.new ⟨fun _ => rfl, by simp [PairDecl.new]⟩ hf)

/-- C34: re-selecting the current choice keeps the attached options with all customised values. -/
theorem C34_reselect (d : PairDecl T C S) (p : Paired T C S) :
    (d.step p (.setType p.type)).1 = p := by
  simp only [PairDecl.step]
  split <;> simp

/-- C34: a refused operation changes nothing. -/
theorem C34_refused (d : PairDecl T C S) (p : Paired T C S) (op : PairOp T C S)
    (h : (d.step p op).2 = true) : (d.step p op).1 = p := by
  cases op with
  | setType t =>
    simp only [PairDecl.step] at h ⊢
    split at h
    · rfl
    · split at h <;> simp at h
  | setOpts o => simp only [PairDecl.step] at h ⊢; split at h <;> simp_all
  | modify f =>
    simp only [PairDecl.step] at h ⊢
    split at h
    · simp at h
    · rfl

/-- C34: options of a class that the trait does not accept are refused, and hence never stored:
along every sequence of operations the stored options are of an accepted class. -/
theorem C34_foreign_refused (d : PairDecl T C S) (p : Paired T C S) :
    (∀ o : OptObj C S, d.isInst o.cls = false → d.step p (.setOpts o) = (p, true)) ∧
    ((∀ t c, d.pairedDefaults t = some c → d.isInst c = true) →
      (∀ o, p.opts = some o → d.isInst o.cls = true) →
      ∀ ops, ∀ o, (d.run p ops).opts = some o → d.isInst o.cls = true) := by
  refine ⟨fun o h => by simp [PairDecl.step, h], fun hd h0 ops => ?_⟩
  have hb : ∀ t o, d.build t = some o → d.isInst o.cls = true := by
    intro t o h
    simp only [PairDecl.build, Option.map_eq_some_iff] at h
    obtain ⟨c, hc, rfl⟩ := h
    exact hd t c hc
  induction ops generalizing p with
  | nil => exact h0
  | cons op ops ih =>
    refine ih _ fun o ho => ?_
    cases op with
    | setType t =>
      simp only [PairDecl.step] at ho
      split at ho
      · exact h0 o ho
      · rename_i o' h'
        split at ho
        · exact h0 o ho
        · simp only [Option.some.injEq] at ho
          subst ho
          exact hb t _ h'
    | setOpts o' =>
      simp only [PairDecl.step] at ho
      split at ho
      · rename_i hi
        simp only [Option.some.injEq] at ho
        subst ho; exact hi
      · exact h0 o ho
    | modify f =>
      simp only [PairDecl.step] at ho
      split at ho
      · rename_i o' h'
        simp only [Option.some.injEq] at ho
        subst ho
        simp only
        unfold PairDecl.read at h'
        split at h'
        · rename_i o2 h2
          simp only [Option.some.injEq] at h'
          subst h'; exact h0 _ h2
        · exact hb _ _ h'
      · exact h0 o ho

/-- C34: customising the attached options changes exactly their values. -/
theorem C34_modify (d : PairDecl T C S) (p : Paired T C S) (f : S → S) (o : OptObj C S)
    (h : (d.read p).2 = some o) :
    (d.step p (.modify f)).1.type = p.type ∧
    (d.read (d.step p (.modify f)).1).2 = some ⟨o.cls, f o.vals⟩ := by
  simp only [PairDecl.step, h]
  exact ⟨trivial, rfl⟩

/-- C34 is violated: assigning an options object of any accepted class is allowed whatever the
current choice is, and then the class does not match. -/
theorem C34_mismatch_violated (d : PairDecl T C S) (p : Paired T C S) (o : OptObj C S)
    (hi : d.isInst o.cls = true) (hm : d.pairedDefaults p.type ≠ some o.cls) :
    ¬ Matches d (d.step p (.setOpts o)).1 := by
  rintro ⟨o', h1, h2⟩
  simp only [PairDecl.step, hi, if_true, PairDecl.read, Option.some.injEq] at h1 h2
  subst h1
  exact hm h2

/-- C34 is violated for bulk updates: if the entry for the options comes before an entry that
really changes the choice, the options given by the user are thrown away; in the other order they
are kept. -/
theorem C34_update_order_violated (d : PairDecl T C S) (p : Paired T C S) (t : T) (c : C)
    (o : OptObj C S) (ht : d.pairedDefaults t = some c) (hne : t ≠ p.type)
    (hi : d.isInst o.cls = true) :
    d.run p [.setOpts o, .setType t] = ⟨t, some ⟨c, d.fresh c⟩⟩ ∧
    d.run p [.setType t, .setOpts o] = ⟨t, some o⟩ := by
  simp [PairDecl.run, PairDecl.step, PairDecl.build, ht, hne, hi]

/-- C34, provable part for bulk updates: the order does not matter when the entry for the choice
re-states the current one.  Missing: real changes (`C34_update_order_violated`). -/
theorem C34_update_order_partial (d : PairDecl T C S) (p : Paired T C S) (c : C) (o : OptObj C S)
    (ht : d.pairedDefaults p.type = some c) :
    d.run p [.setOpts o, .setType p.type] = d.run p [.setType p.type, .setOpts o] := by
  by_cases hi : d.isInst o.cls = true <;>
    simp [PairDecl.run, PairDecl.step, PairDecl.build, ht, hi]

end C34

/-- The shipped pair `turbulence_model_type`/`turbulence_model_options` (options.py:1052-1059) with
one customisable number. -/
def turbulencePair : PairDecl String String ℚ where
  pairedDefaults := fun t => if t = "gls" then some "GLSModelOptions"
    else if t = "pacanowski" then some "PacanowskiPhilanderModelOptions" else none
  dflt := "gls"
  fresh := fun c => if c = "GLSModelOptions" then 3 else 10
  isInst := fun c => c = "GLSModelOptions" ∨ c = "PacanowskiPhilanderModelOptions"

/-- Non-vacuity of `C34_class_matches_partial` and of the violations. -/
example : Declared turbulencePair ∧
    Fits turbulencePair turbulencePair.new
      [.modify (· + 1), .setType "pacanowski", .setType "bogus",
        .setOpts ⟨"PacanowskiPhilanderModelOptions", 42⟩, .modify (· * 2), .setType "pacanowski"] ∧
    turbulencePair.run turbulencePair.new
      [.modify (· + 1), .setType "pacanowski", .setType "bogus",
        .setOpts ⟨"PacanowskiPhilanderModelOptions", 42⟩, .modify (· * 2), .setType "pacanowski"] =
      ⟨"pacanowski", some ⟨"PacanowskiPhilanderModelOptions", 84⟩⟩ := by
  refine ⟨⟨"GLSModelOptions", rfl⟩, ?_, ?_⟩
  · simp [Fits, PairDecl.step, PairDecl.build, turbulencePair, PairDecl.new, PairDecl.read]
  · simp [PairDecl.run, PairDecl.step, PairDecl.build, turbulencePair, PairDecl.new, PairDecl.read]
    norm_num

example : turbulencePair.isInst "PacanowskiPhilanderModelOptions" = true ∧
    turbulencePair.pairedDefaults "gls" ≠ some "PacanowskiPhilanderModelOptions" := by
  simp [turbulencePair]

/-! ### C35 -/

section C35

variable {F : Type}

/-- Labels that a registration call asks for. -/
def RegOp.labels : RegOp F → List (List Char)
  | .tracer a => [a.label]
  | .system as _ _ => as.map TracerArgs.label

theorem dictSet_fresh {α β : Type} [DecidableEq α] (k : α) (v : β) (d : List (α × β))
    (h : k ∉ d.map Prod.fst) : dictSet k v d = d ++ [(k, v)] := by
  induction d with
  | nil => rfl
  | cons e d ih =>
    obtain ⟨k', v'⟩ := e
    simp only [List.map_cons, List.mem_cons, not_or] at h
    simp [dictSet, Ne.symm h.1, ih h.2]

/-- Success of one tracer registration. -/
theorem addTracer_ok (s s' : Tracers F) (a : TracerArgs F) (mixed : Bool)
    (h : addTracer s a mixed = (s', none)) :
    a.label ∉ s.tracer.map Prod.fst ∧ ',' ∉ a.label ∧ ' ' ∉ a.label ∧ a.validArgs = true ∧
    s'.tracer = s.tracer ++ [(a.label, a.function)] ∧
    s'.fields = if mixed then s.fields else dictSet a.label a.function s.fields := by
  simp only [addTracer] at h
  split at h
  · simp at h
  · split at h
    · simp at h
    · split at h
      · simp at h
      · split at h
        · simp at h
        · split at h
          · rename_i h1 h2 h3 h4 h5
            simp only [Prod.mk.injEq, and_true] at h
            refine ⟨h1, h3, h2, h5, ?_, ?_⟩
            · rw [← h]; split <;> simp [h5]
            · rw [← h]; split <;> simp
          · simp at h

theorem addTracers_ok (as : List (TracerArgs F)) (s s' : Tracers F)
    (h : addTracers s as = (s', none)) :
    s'.fields = s.fields ∧ (∀ a ∈ as, ',' ∉ a.label) ∧
    (∀ a ∈ as, a.label ∉ s.tracer.map Prod.fst) ∧
    s'.tracer = s.tracer ++ as.map (fun a => (a.label, a.function)) ∧
    ((s.tracer.map Prod.fst).Nodup → (s'.tracer.map Prod.fst).Nodup) := by
  induction as generalizing s with
  | nil =>
    simp only [addTracers, Prod.mk.injEq, and_true] at h
    subst h; simp
  | cons a as ih =>
    simp only [addTracers] at h
    split at h
    · rename_i s1 hs1
      obtain ⟨h1, h2, -, h4, h5, h6⟩ := addTracer_ok s s1 a true hs1
      obtain ⟨i1, i2, i3, i4, i5⟩ := ih s1 h
      simp only [if_true] at h6
      refine ⟨i1.trans h6, ?_, ?_, ?_, ?_⟩
      · intro x hx
        rcases List.mem_cons.1 hx with rfl | hx
        · exact h2
        · exact i2 x hx
      · intro x hx
        rcases List.mem_cons.1 hx with rfl | hx
        · exact h1
        · have := i3 x hx
          rw [h5] at this
          simp only [List.map_append, List.mem_append, not_or] at this
          exact this.1
      · rw [i4, h5]; simp
      · intro hn
        apply i5
        rw [h5, List.map_append, List.nodup_append]
        refine ⟨hn, by simp, ?_⟩
        intro x hx y hy
        simp only [List.map_cons, List.map_nil, List.mem_singleton] at hy
        subst hy
        rintro rfl
        exact h1 hx
    · rename_i hx
      rw [h] at hx
      exact absurd rfl (hx s')

/-- Invariant of the registry: `sys` are the systems registered so far. -/
structure RegInv (s : Tracers F) (sys : List (List (List Char))) : Prop where
  keys : s.fields.map Prod.fst = sys.map joinLabels
  labels : s.tracer.map Prod.fst = sys.flatten
  nodup : (s.tracer.map Prod.fst).Nodup
  nonempty : ∀ l ∈ sys, l ≠ []
  nocomma : ∀ l ∈ sys, ∀ x ∈ l, ',' ∉ x

theorem split_join (ls : List (List Char)) (h : ∀ x ∈ ls, ',' ∉ x) (hne : ls ≠ []) :
    (joinLabels ls).splitOn ',' = ls := List.splitOn_intercalate ',' h hne

theorem fresh_key (s : Tracers F) (sys : List (List (List Char))) (hi : RegInv s sys)
    (ls : List (List Char)) (hne : ls ≠ []) (hc : ∀ x ∈ ls, ',' ∉ x)
    (hf : ∀ x ∈ ls, x ∉ s.tracer.map Prod.fst) : joinLabels ls ∉ s.fields.map Prod.fst := by
  rw [hi.keys]
  intro hmem
  obtain ⟨l, hl, hj⟩ := List.mem_map.1 hmem
  have : l = ls := by
    rw [← split_join l (hi.nocomma l hl) (hi.nonempty l hl), hj, split_join ls hc hne]
  subst this
  obtain ⟨x, hx⟩ := List.exists_mem_of_ne_nil l hne
  apply hf x hx
  rw [hi.labels]
  exact List.mem_flatten.2 ⟨l, hl, hx⟩

theorem regStep_inv (s s' : Tracers F) (sys : List (List (List Char))) (hi : RegInv s sys)
    (op : RegOp F) (hne : op.labels ≠ []) (h : regStep s op = (s', none)) :
    RegInv s' (sys ++ [op.labels]) := by
  have main : ∀ (ls : List (List Char)), ls ≠ [] → (∀ x ∈ ls, ',' ∉ x) →
      s'.fields.map Prod.fst = s.fields.map Prod.fst ++ [joinLabels ls] →
      s'.tracer.map Prod.fst = s.tracer.map Prod.fst ++ ls →
      (s'.tracer.map Prod.fst).Nodup → RegInv s' (sys ++ [ls]) := by
    intro ls h1 h2 h3 h4 h5
    refine ⟨?_, ?_, h5, ?_, ?_⟩
    · rw [h3, hi.keys]; simp
    · rw [h4, hi.labels]; simp
    · intro l hl
      rcases List.mem_append.1 hl with hl | hl
      · exact hi.nonempty l hl
      · simp only [List.mem_singleton] at hl; subst hl; exact h1
    · intro l hl
      rcases List.mem_append.1 hl with hl | hl
      · exact hi.nocomma l hl
      · simp only [List.mem_singleton] at hl; subst hl; exact h2
  cases op with
  | tracer a =>
    simp only [regStep] at h
    obtain ⟨h1, h2, -, -, h5, h6⟩ := addTracer_ok s s' a false h
    have hk : joinLabels [a.label] = a.label := by simp [joinLabels]
    have hfr : a.label ∉ s.fields.map Prod.fst := by
      have := fresh_key s sys hi [a.label] (by simp) (by simpa using h2) (by simpa using h1)
      rwa [hk] at this
    simp only [Bool.false_eq_true, if_false] at h6
    rw [dictSet_fresh _ _ _ hfr] at h6
    refine main [a.label] (by simp) (by simpa using h2) ?_ ?_ ?_
    · rw [h6, hk]; simp
    · rw [h5]; simp
    · rw [h5, List.map_append, List.nodup_append]
      refine ⟨hi.nodup, by simp, ?_⟩
      intro x hx y hy
      simp only [List.map_cons, List.map_nil, List.mem_singleton] at hy
      subst hy
      rintro rfl
      exact h1 hx
  | system as f kw =>
    simp only [regStep, addSystem] at h
    split at h
    · obtain ⟨h1, h2, h3, h4, h5⟩ := addTracers_ok as _ s' h
      have hl : ∀ x ∈ as.map TracerArgs.label, ',' ∉ x := by
        intro x hx; obtain ⟨a, ha, rfl⟩ := List.mem_map.1 hx; exact h2 a ha
      have hfr := fresh_key s sys hi (as.map TracerArgs.label) hne hl (by
        intro x hx; obtain ⟨a, ha, rfl⟩ := List.mem_map.1 hx; exact h3 a ha)
      rw [dictSet_fresh _ _ _ hfr] at h1
      refine main _ hne hl ?_ ?_ (h5 hi.nodup)
      · rw [h1]; simp [RegOp.labels]
      · rw [h4]; simp [Function.comp_def, RegOp.labels]
    · simp at h

theorem regRun_inv (ops : List (RegOp F)) (hne : ∀ op ∈ ops, op.labels ≠ []) (s s' : Tracers F)
    (sys : List (List (List Char))) (hi : RegInv s sys) (h : regRun s ops = some s') :
    RegInv s' (sys ++ ops.map RegOp.labels) := by
  induction ops generalizing s sys with
  | nil => simp only [regRun, Option.some.injEq] at h; subst h; simpa using hi
  | cons op ops ih =>
    simp only [regRun] at h
    split at h
    · rename_i s1 hs1
      have := ih (fun o ho => hne o (by simp [ho])) s1 (sys ++ [op.labels])
        (regStep_inv s s1 sys hi op (hne op (by simp)) hs1) h
      simpa using this
    · simp at h

/-- C35: after any sequence of successful registrations (of tracers and of non-empty systems) every
label is listed exactly once, and the systems solved are exactly the ones registered, in
registration order; so every label is in exactly one solved system.  The registration of an empty
system is excluded, see `C35_empty_system_violated`. -/
theorem C35_registry_partial (ops : List (RegOp F)) (hne : ∀ op ∈ ops, op.labels ≠ [])
    (s : Tracers F) (h : regRun ⟨[], []⟩ ops = some s) :
    solvedSystems s = ops.map RegOp.labels ∧
    s.tracer.map Prod.fst = (ops.map RegOp.labels).flatten ∧
    (s.tracer.map Prod.fst).Nodup ∧
    ∀ l ∈ s.tracer.map Prod.fst, ∃! i : Fin (solvedSystems s).length, l ∈ (solvedSystems s)[i] := by
  have hi := regRun_inv ops hne ⟨[], []⟩ s []
    ⟨rfl, rfl, List.nodup_nil, by simp, by simp⟩ h
  simp only [List.nil_append] at hi
  have hs : solvedSystems s = ops.map RegOp.labels := by
    have : solvedSystems s = (s.fields.map Prod.fst).map (fun k => k.splitOn ',') := by
      simp [solvedSystems, Function.comp_def]
    rw [this, hi.keys, List.map_map]
    have h1 : ∀ l ∈ ops.map RegOp.labels,
        ((fun k : List Char => k.splitOn ',') ∘ joinLabels) l = id l :=
      fun l hl => split_join l (hi.nocomma l hl) (hi.nonempty l hl)
    rw [List.map_congr_left h1, List.map_id]
  refine ⟨hs, hi.labels, hi.nodup, ?_⟩
  have hnd : (solvedSystems s).flatten.Nodup := by rw [hs, ← hi.labels]; exact hi.nodup
  rw [hi.labels, ← hs]
  intro l hl
  rw [List.nodup_flatten] at hnd
  obtain ⟨sy, hsy, hmem⟩ := List.mem_flatten.1 hl
  obtain ⟨i, hi', rfl⟩ := List.getElem_of_mem hsy
  refine ⟨⟨i, hi'⟩, hmem, ?_⟩
  rintro ⟨j, hj⟩ hjm
  by_contra hcon
  have hne' : j ≠ i := fun e => hcon (by simp [e])
  have hp := hnd.2
  rw [List.pairwise_iff_getElem] at hp
  rcases lt_or_gt_of_ne hne' with hlt | hlt
  · exact hp j i hj hi' hlt hjm hmem
  · exact hp i j hi' hj hlt hmem hjm

/-- Tracer with given label. -/
def mkTracer (l : String) : TracerArgs ℕ := ⟨l.toList, l.toList, none, true⟩

/-- Non-vacuity: two tracers and a system of two. -/
example : ∃ s, regRun (⟨[], []⟩ : Tracers ℕ)
    [.tracer (mkTracer "a"), .system [mkTracer "b", mkTracer "c"] (some 7) true,
      .tracer (mkTracer "d")] = some s ∧
    solvedSystems s = ["a".toList] :: ["b".toList, "c".toList] :: [["d".toList]] := by
  refine ⟨_, rfl, ?_⟩
  decide +kernel

/-- C35, provable part of the refusal clause: a refused single registration with arguments of the
right types changes nothing; neither does a system refused because of its keyword arguments.
Missing: the cases of the violations below. -/
theorem C35_refused_partial (s : Tracers F) (a : TracerArgs F) (hv : a.validArgs = true)
    (mixed : Bool) (e : RegErr) (h : (addTracer s a mixed).2 = some e) :
    (addTracer s a mixed).1 = s := by
  simp only [addTracer, hv] at h ⊢
  split at h
  · rename_i h1; rw [if_pos h1]
  · rename_i h1; rw [if_neg h1]
    split at h
    · rename_i h2; rw [if_pos h2]
    · rename_i h2; rw [if_neg h2]
      split at h
      · rename_i h3; rw [if_pos h3]
      · rename_i h3; rw [if_neg h3]
        split at h
        · rename_i h4; rw [if_pos h4]
        · simp at h

example : (addTracer (⟨[("a".toList, none)], [("a".toList, none)]⟩ : Tracers ℕ)
    (mkTracer "a") false).2 = some .assertion := by decide +kernel

/-- C35 is violated: a system refused because one of its labels exists already stays registered as
a system to be solved, so that the existing label is solved twice. -/
theorem C35_refused_system_violated :
    let s : Tracers ℕ := ⟨[("a".toList, none)], [("a".toList, none)]⟩
    let r := addSystem s [mkTracer "b", mkTracer "a"] none true
    r.2 = some .assertion ∧
    solvedSystems r.1 = [["a".toList], ["b".toList, "a".toList]] ∧
    r.1.tracer.map Prod.fst = ["a".toList, "b".toList] := by
  decide +kernel

/-- C35 is violated: refusing to re-register an existing tracer as a system of one replaces the
function it is solved for. -/
theorem C35_refused_overwrites_violated :
    let s : Tracers ℕ := ⟨[("a".toList, some 1)], [("a".toList, some 1)]⟩
    let r := addSystem s [mkTracer "a"] (some 2) true
    r.2 = some .assertion ∧ r.1.fields = [("a".toList, some 2)] ∧
      r.1.tracer = [("a".toList, some 1)] := by
  decide +kernel

/-- C35 is violated: a tracer refused because of an argument of the wrong type is listed but in no
solved system. -/
theorem C35_refused_argument_violated :
    let r := addTracer (⟨[], []⟩ : Tracers ℕ) { mkTracer "a" with validArgs := false } false
    r.2 = some .traitError ∧ r.1.tracer.map Prod.fst = ["a".toList] ∧ solvedSystems r.1 = [] := by
  decide +kernel

/-- C35 is violated for the empty system: it succeeds and the solver is asked to solve for a label
(the empty one) that is not registered. -/
theorem C35_empty_system_violated :
    ∃ s, regRun (⟨[], []⟩ : Tracers ℕ) [.system [] none true] = some s ∧
      solvedSystems s = [[[]]] ∧ s.tracer = [] := by
  refine ⟨_, rfl, ?_, rfl⟩
  decide +kernel

end C35

/-! ### C36 -/

/-- The steppers of the components that are switched on (the shallow water and tracer steppers
always are). -/
def StepperTypes.active (o : StepperTypes) : List Stepper :=
  [o.swe, o.tracer] ++ (if o.solveSediment then [o.sediment] else []) ++
    (if o.solveExner then [o.exner] else []) ++ (if o.solveNh then [o.freeSurface] else [])

/-- The components that are switched off keep their type, and the switches do not change. -/
def SameInactive (o o' : StepperTypes) : Prop :=
  o'.solveSediment = o.solveSediment ∧ o'.solveExner = o.solveExner ∧ o'.solveNh = o.solveNh ∧
  (o.solveSediment = false → o'.sediment = o.sediment) ∧
  (o.solveExner = false → o'.exner = o.exner) ∧
  (o.solveNh = false → o'.freeSurface = o.freeSurface)

/-- All or nothing: without an error every active component has the new type, with an error
nothing has changed. -/
def AllOrNothing (o : StepperTypes) (t : Stepper) : Prop :=
  ((setStepperType o t).2 = false ∧ (∀ x ∈ (setStepperType o t).1.active, x = t)) ∨
  ((setStepperType o t).2 = true ∧ (setStepperType o t).1 = o)

/-- C36, provable part: setting a type that all components support, or one that no component
supports, is all or nothing; components that are switched off are not touched.  Missing: types
supported by some components only (`C36_partly_supported_violated`). -/
theorem C36_all_or_nothing_partial (o : StepperTypes) (t : Stepper)
    (h : t ∈ otherAllowed ∨ t ∉ sweAllowed) :
    AllOrNothing o t ∧ SameInactive o (setStepperType o t).1 := by
  obtain ⟨a, b, c, d, e, s1, s2, s3⟩ := o
  rcases h with h | h
  · have h1 : t ∈ sweAllowed := by simp only [otherAllowed, sweAllowed, List.mem_cons] at h ⊢; tauto
    have h2 : t ∈ tracerAllowed := by
      simp only [otherAllowed, tracerAllowed, List.mem_cons] at h ⊢; tauto
    constructor
    · left
      cases s1 <;> cases s2 <;> cases s3 <;> simp [setStepperType, h, h1, h2, StepperTypes.active]
    · cases s1 <;> cases s2 <;> cases s3 <;> simp [setStepperType, h, h1, h2, SameInactive]
  · constructor
    · right; simp [setStepperType, h]
    · simp [setStepperType, h, SameInactive]

/-- C36: the steady state stepper is all or nothing when none of the optional components is on. -/
theorem C36_steady_state (o : StepperTypes) (h1 : o.solveSediment = false)
    (h2 : o.solveExner = false) (h3 : o.solveNh = false) : AllOrNothing o .steadyState := by
  left
  simp [setStepperType, h1, h2, h3, sweAllowed, tracerAllowed, StepperTypes.active]

/-- C36 is violated: for every type that only the shallow water equations support, an error is
raised after their type has been changed. -/
theorem C36_partly_supported_violated (o : StepperTypes) (t : Stepper) (h1 : t ∈ sweAllowed)
    (h2 : t ∉ tracerAllowed) (hne : o.swe ≠ t) : ¬ AllOrNothing o t := by
  rintro (⟨h, -⟩ | ⟨-, h⟩)
  · simp [setStepperType, h1, h2] at h
  · have := congrArg StepperTypes.swe h
    simp only [setStepperType, h1, h2, not_true, if_false, not_false_eq_true, if_true] at this
    exact hne this.symm

example : Stepper.sspimex ∈ sweAllowed ∧ Stepper.sspimex ∉ tracerAllowed ∧
    Stepper.crankNicolson ∈ otherAllowed := by decide

/-- The two types that only the shallow water equations support are affected. -/
theorem C36_sspimex_violated (o : StepperTypes) (t : Stepper)
    (ht : t = .sspimex ∨ t = .pressureProjectionPicard) (hne : o.swe ≠ t) : ¬ AllOrNothing o t :=
  C36_partly_supported_violated o t (by rcases ht with rfl | rfl <;> decide)
    (by rcases ht with rfl | rfl <;> decide) hne

/-- C36: an error is raised exactly when some active component does not support the type; hence
after a call without error no active component has an unsupported type. -/
theorem C36_error_iff (o : StepperTypes) (t : Stepper) :
    (setStepperType o t).2 = true ↔
      t ∉ sweAllowed ∨ t ∉ tracerAllowed ∨
      ((o.solveSediment = true ∨ o.solveExner = true ∨ o.solveNh = true) ∧ t ∉ otherAllowed) := by
  obtain ⟨a, b, c, d, e, s1, s2, s3⟩ := o
  by_cases h1 : t ∈ sweAllowed <;> by_cases h2 : t ∈ tracerAllowed <;>
    by_cases h3 : t ∈ otherAllowed <;> cases s1 <;> cases s2 <;> cases s3 <;>
    simp [setStepperType, h1, h2, h3]

example : (setStepperType ⟨.crankNicolson, .crankNicolson, .crankNicolson, .crankNicolson,
    .crankNicolson, false, false, true⟩ .steadyState).2 = true := by decide

end Verif.Config
