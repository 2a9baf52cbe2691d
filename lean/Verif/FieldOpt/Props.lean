import Verif.FieldOpt.Model
import Mathlib.Data.Fintype.Basic
import Mathlib.Tactic.FinCases

/-!
C157: options that are fields hold what the equations need.
-/

namespace Verif.FieldOpt

variable {K : Type} [DecidableEq K]

/-- What is guaranteed of the value of an option. -/
def Holds (t : Trait) (v : Obj) : Prop :=
  (t.allowNone = true ∧ v = .none) ∨ match t.kind with
    | .constant => ∃ sh n i, v = .expr .constant sh n i
    | .coefficient => ∃ c sh n i, c ≠ .other ∧ v = .expr c sh n i
    | .scalar => ∃ c n i, v = .expr c [] n i
    | .vector => ∃ c m sh n i, v = .expr c (m :: sh) n i
    | .date => ∃ i, v = .date true i
    | .solver => ∃ i, v = .dict i

theorem accepts_iff (t : Trait) (v : Obj) : accepts t v = true ↔ Holds t v := by
  obtain ⟨k, a⟩ := t
  cases k <;> cases v <;> cases a <;> simp [accepts, Holds, validate]
  all_goals (rename_i c sh _ _; cases c <;> cases sh <;> simp [isScalar])

/-- C157: an assignment takes exactly the values that fit; it then stores that object under that name and changes nothing else, and
otherwise raises an exception and changes nothing. -/
theorem C157_assignment (traits : K → Option Trait) (vals : K → Obj) (k : K) (v : Obj) :
    ((∃ t, traits k = some t ∧ Holds t v) ∧ (assign traits vals k v).2 = false ∧ (assign traits vals k v).1 k = v ∧
      ∀ j, j ≠ k → (assign traits vals k v).1 j = vals j) ∨
    ((¬ ∃ t, traits k = some t ∧ Holds t v) ∧ assign traits vals k v = (vals, true)) := by
  unfold assign
  cases ht : traits k with
  | none => right; simp
  | some t =>
    by_cases h : accepts t v = true
    · left
      refine ⟨⟨t, rfl, (accepts_iff t v).1 h⟩, ?_⟩
      simp only [h, if_true, Function.update_self, true_and]
      exact fun j hj => Function.update_of_ne hj _ _
    · right
      refine ⟨?_, by simp [h]⟩
      rintro ⟨t', e, h'⟩
      cases e
      exact h ((accepts_iff t v).2 h')

theorem assign_holds {traits : K → Option Trait} {vals : K → Obj} (h : ∀ k t, traits k = some t → Holds t (vals k)) (k : K) (v : Obj) :
    ∀ j t, traits j = some t → Holds t ((assign traits vals k v).1 j) := by
  intro j t ht
  rcases C157_assignment traits vals k v with ⟨⟨t', ht', hv⟩, -, h1, h2⟩ | ⟨-, e⟩
  · by_cases hj : j = k
    · subst hj
      rw [h1]
      rw [ht'] at ht
      cases ht
      exact hv
    · rw [h2 j hj]
      exact h j t ht
  · rw [e]
    exact h j t ht

theorem update_holds {traits : K → Option Trait} : ∀ (l : List (K × Obj)) {vals : K → Obj},
    (∀ k t, traits k = some t → Holds t (vals k)) → ∀ j t, traits j = some t → Holds t ((update traits l vals).1 j)
  | [], _, h => h
  | (k, v) :: l, vals, h => by
    have h1 := assign_holds h k v
    unfold update
    generalize assign traits vals k v = r at h1 ⊢
    rcases r with ⟨vals', _ | _⟩
    · exact update_holds l h1
    · exact h1

/-- C157: whatever users assign, in single assignments or updates and with exceptions in between, every option holds a value that fits:
scalar options scalars, vector options no scalars, dates a time zone. -/
theorem C157_history_partial {traits : K → Option Trait} : ∀ (us : List (List (K × Obj))) {vals : K → Obj},
    (∀ k t, traits k = some t → Holds t (vals k)) → ∀ k t, traits k = some t → Holds t (history traits us vals k)
  | [], _, h => h
  | l :: us, vals, h => by
    show ∀ k t, traits k = some t → Holds t (history traits us (update traits l vals).1 k)
    exact C157_history_partial us (update_holds l h)

/-- C157: an update stores every item, the last one of each name, if all fit, and otherwise those before the first that does not. -/
theorem C157_update (traits : K → Option Trait) : ∀ (l : List (K × Obj)) (vals : K → Obj),
    ((∀ p ∈ l, ∃ t, traits p.1 = some t ∧ Holds t p.2) ∧
      update traits l vals = (l.foldl (fun f p => Function.update f p.1 p.2) vals, false)) ∨
    ∃ a p b, l = a ++ p :: b ∧ (∀ q ∈ a, ∃ t, traits q.1 = some t ∧ Holds t q.2) ∧ (¬ ∃ t, traits p.1 = some t ∧ Holds t p.2) ∧
      update traits l vals = (a.foldl (fun f p => Function.update f p.1 p.2) vals, true)
  | [], vals => Or.inl ⟨by simp, rfl⟩
  | (k, v) :: l, vals => by
    rcases C157_assignment traits vals k v with ⟨hk, h1, h2, h3⟩ | ⟨hk, e⟩
    · have e : assign traits vals k v = (Function.update vals k v, false) := by
        refine Prod.ext (funext fun j => ?_) h1
        by_cases hj : j = k
        · subst hj
          simp [h2]
        · simp [h3 j hj, hj]
      have eu : update traits ((k, v) :: l) vals = update traits l (Function.update vals k v) := by
        rw [update, e]
      rw [eu]
      rcases C157_update traits l (Function.update vals k v) with ⟨hl, hu⟩ | ⟨a, p, b, rfl, ha, hp, hu⟩
      · exact Or.inl ⟨List.forall_mem_cons.2 ⟨hk, hl⟩, hu⟩
      · exact Or.inr ⟨(k, v) :: a, p, b, rfl, List.forall_mem_cons.2 ⟨hk, ha⟩, hp, hu⟩
    · exact Or.inr ⟨[], (k, v), l, rfl, by simp, hk, by rw [update, e]; rfl⟩

/-- C157: after an update in which all fits the options hold its items, and what they held before under other names. -/
theorem C157_last (traits : K → Option Trait) (us : List (List (K × Obj))) (l : List (K × Obj)) (vals : K → Obj)
    (h : ∀ p ∈ l, ∃ t, traits p.1 = some t ∧ Holds t p.2) :
    history traits (us ++ [l]) vals = l.foldl (fun f p => Function.update f p.1 p.2) (history traits us vals) := by
  have e : history traits (us ++ [l]) vals = (update traits l (history traits us vals)).1 := by simp [history]
  rw [e]
  rcases C157_update traits l (history traits us vals) with ⟨-, hu⟩ | ⟨a, p, b, rfl, -, hp, -⟩
  · rw [hu]
  · exact absurd (h p (by simp)) hp

/-- C157: an expression fits either scalar or vector options. -/
theorem C157_either (a b : Bool) (c : Cls) (sh : List ℕ) (n i : ℕ) :
    (accepts ⟨.scalar, a⟩ (.expr c sh n i) = true) ↔ ¬ (accepts ⟨.vector, b⟩ (.expr c sh n i) = true) := by
  cases sh <;> simp [accepts, validate, isScalar]

/-- C157: numbers are refused by all these options: they have to be wrapped in constants. -/
theorem C157_number (t : Trait) (i : ℕ) : accepts t (.number i) = false := by
  obtain ⟨k, a⟩ := t
  cases k <;> simp [accepts, validate]

/-- C157: dates without time zone are refused. -/
theorem C157_naive (t : Trait) (i : ℕ) : accepts t (.date false i) = false := by
  obtain ⟨k, a⟩ := t
  cases k <;> simp [accepts, validate]

/-- C157 is violated for options of the class for constants, such as the scaling factor of Lax-Friedrichs terms, and for coefficients, such
as porosity: both take constants of any shape. -/
theorem C157_constant_violated (traits : K → Option Trait) (vals : K → Obj) (k : K) (t : Trait) (ht : traits k = some t)
    (hk : t.kind = .constant ∨ t.kind = .coefficient) (sh : List ℕ) (i : ℕ) :
    (assign traits vals k (.expr .constant sh 0 i)).2 = false ∧ (assign traits vals k (.expr .constant sh 0 i)).1 k = .expr .constant sh 0 i := by
  have : accepts t (.expr .constant sh 0 i) = true := by
    rcases hk with h | h <;> simp [accepts, h, validate]
  simp [assign, ht, this]

/-- C157 is violated for coefficients that are functions, too: those of vector spaces are taken. -/
theorem C157_function_violated (traits : K → Option Trait) (vals : K → Obj) (k : K) (t : Trait) (ht : traits k = some t)
    (hk : t.kind = .coefficient) (sh : List ℕ) (i : ℕ) :
    (assign traits vals k (.expr .function sh 0 i)).2 = false ∧ (assign traits vals k (.expr .function sh 0 i)).1 k = .expr .function sh 0 i := by
  have : accepts t (.expr .function sh 0 i) = true := by simp [accepts, hk, validate]
  simp [assign, ht, this]

/-- C157 is violated for vector options, such as the wind stress: vectors of any length and tensors of any rank are taken. -/
theorem C157_vector_violated (traits : K → Option Trait) (vals : K → Obj) (k : K) (t : Trait) (ht : traits k = some t)
    (hk : t.kind = .vector) (c : Cls) (m : ℕ) (sh : List ℕ) (i : ℕ) :
    (assign traits vals k (.expr c (m :: sh) 0 i)).2 = false ∧ (assign traits vals k (.expr c (m :: sh) 0 i)).1 k = .expr c (m :: sh) 0 i := by
  have : accepts t (.expr c (m :: sh) 0 i) = true := by simp [accepts, hk, validate, isScalar]
  simp [assign, ht, this]

/-- C157 is violated for scalar options: expressions with free indices are taken. -/
theorem C157_indices_violated (traits : K → Option Trait) (vals : K → Obj) (k : K) (t : Trait) (ht : traits k = some t)
    (hk : t.kind = .scalar) (c : Cls) (n i : ℕ) :
    (assign traits vals k (.expr c [] n i)).2 = false ∧ (assign traits vals k (.expr c [] n i)).1 k = .expr c [] n i := by
  have : accepts t (.expr c [] n i) = true := by simp [accepts, hk, validate, isScalar]
  simp [assign, ht, this]

/-! ### Examples -/

/-- Coriolis frequency, wind stress, scaling factor and initial date, options.py:610-640, 720-723. -/
def some4 : Fin 4 → Option Trait
  | 0 => some ⟨.scalar, true⟩
  | 1 => some ⟨.vector, true⟩
  | 2 => some ⟨.constant, false⟩
  | 3 => some ⟨.date, true⟩

/-- Their defaults. -/
def dflt4 : Fin 4 → Obj
  | 2 => .expr .constant [] 0 0
  | _ => .none

theorem dflt4_holds : ∀ k t, some4 k = some t → Holds t (dflt4 k) := by
  intro k t h
  rw [← accepts_iff]
  fin_cases k <;> cases h <;> rfl

example (us : List (List (Fin 4 × Obj))) : Holds ⟨.scalar, true⟩ (history some4 us dflt4 0) :=
  C157_history_partial us dflt4_holds 0 _ rfl

/-- A number is refused, the rest of the update is left out, and the next update goes on from there. -/
example : history some4 [[(1, .expr .function [2] 0 1), (0, .number 2), (3, .date true 3)], [(3, .date false 4)],
    [(0, .expr .constant [] 0 5)]] dflt4 =
    (fun k => if k = 0 then .expr .constant [] 0 5 else if k = 1 then .expr .function [2] 0 1 else dflt4 k) := by
  funext k
  fin_cases k <;> rfl

end Verif.FieldOpt
