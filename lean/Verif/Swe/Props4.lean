import Verif.Swe.Props3
import Mathlib.Data.List.Perm.Basic

/-!
C81: boundary dictionaries of the shallow water equations.
-/

namespace Verif.Swe

open Verif.Dg

variable {m : Mesh 2}

/-- The entry has one of the four keys `elev`, `uv`, `un`, `flux`. -/
def Entry.IsOpen : Entry m → Prop
  | .elev _ | .uv _ | .un _ | .flux _ => True
  | .drag _ | .other _ => False

/-- The entry has the key `drag`. -/
def Entry.IsDrag : Entry m → Prop
  | .drag _ => True
  | _ => False

/-- C81: a boundary is closed if and only if it has no dictionary or one with nothing but `drag`. -/
theorem C81_closed (f : Option (Funcs m)) :
    imposeDynamic f = .ok false ↔ ∀ l, f = some l → ∀ e ∈ l, e.IsDrag := by
  cases f with
  | none => simp [imposeDynamic]
  | some l =>
    simp only [imposeDynamic, Option.some.injEq]
    constructor
    · intro h l' hl e he
      subst hl
      obtain ⟨d, rfl⟩ := imposeLoop_false l h e he
      trivial
    · intro h
      refine imposeLoop_closed l fun e he => ?_
      have := h l rfl e he
      cases e with
      | drag d => exact ⟨d, rfl⟩
      | elev _ => exact this.elim
      | uv _ => exact this.elim
      | un _ => exact this.elim
      | flux _ => exact this.elim
      | other _ => exact this.elim

/-- C81: it is open if and only if the first key other than `drag` is one of the four. -/
theorem C81_open (f : Option (Funcs m)) :
    imposeDynamic f = .ok true ↔
      ∃ pre e post, f = some (pre ++ e :: post) ∧ (∀ x ∈ pre, x.IsDrag) ∧ e.IsOpen := by
  cases f with
  | none => simp [imposeDynamic]
  | some l =>
    simp only [imposeDynamic, Option.some.injEq]
    constructor
    · intro h
      induction l with
      | nil => simp [imposeLoop] at h
      | cons e l ih =>
        cases e with
        | drag d =>
          obtain ⟨pre, e, post, h1, h2, h3⟩ := ih h
          refine ⟨.drag d :: pre, e, post, by rw [h1]; rfl, ?_, h3⟩
          intro x hx
          rcases List.mem_cons.1 hx with rfl | hx
          · trivial
          · exact h2 x hx
        | other k => simp [imposeLoop] at h
        | elev x => exact ⟨[], _, l, rfl, by simp, trivial⟩
        | uv x => exact ⟨[], _, l, rfl, by simp, trivial⟩
        | un x => exact ⟨[], _, l, rfl, by simp, trivial⟩
        | flux x => exact ⟨[], _, l, rfl, by simp, trivial⟩
    · rintro ⟨pre, e, post, rfl, h2, h3⟩
      induction pre with
      | nil => cases e <;> first | rfl | exact h3.elim
      | cons x pre ih =>
        have hx := h2 x (by simp)
        cases x with
        | drag d => exact ih fun y hy => h2 y (by simp [hy])
        | elev _ => exact hx.elim
        | uv _ => exact hx.elim
        | un _ => exact hx.elim
        | flux _ => exact hx.elim
        | other _ => exact hx.elim

/-- C81: an exception names the unknown key, which is the first key other than `drag`. -/
theorem C81_error (f : Option (Funcs m)) (k : String) :
    imposeDynamic f = .error k ↔
      ∃ pre post, f = some (pre ++ .other k :: post) ∧ ∀ x ∈ pre, x.IsDrag := by
  cases f with
  | none => simp [imposeDynamic]
  | some l =>
    simp only [imposeDynamic, Option.some.injEq]
    constructor
    · intro h
      induction l with
      | nil => simp [imposeLoop] at h
      | cons e l ih =>
        cases e with
        | drag d =>
          obtain ⟨pre, post, h1, h2⟩ := ih h
          refine ⟨.drag d :: pre, post, by rw [h1]; rfl, ?_⟩
          intro x hx
          rcases List.mem_cons.1 hx with rfl | hx
          · trivial
          · exact h2 x hx
        | other k' =>
          simp only [imposeLoop, Except.error.injEq] at h
          subst h
          exact ⟨[], l, rfl, by simp⟩
        | elev x => simp [imposeLoop] at h
        | uv x => simp [imposeLoop] at h
        | un x => simp [imposeLoop] at h
        | flux x => simp [imposeLoop] at h
    · rintro ⟨pre, post, rfl, h2⟩
      induction pre with
      | nil => rfl
      | cons x pre ih =>
        have hx := h2 x (by simp)
        cases x with
        | drag d => exact ih fun y hy => h2 y (by simp [hy])
        | elev _ => exact hx.elim
        | uv _ => exact hx.elim
        | un _ => exact hx.elim
        | flux _ => exact hx.elim
        | other _ => exact hx.elim

/-- C81 (violated): unknown keys are reported, but only if they come before the first of the four keys: the same
dictionary is accepted or refused depending on the order of its keys. -/
theorem C81_order_violated (e : m.B → ℝ) :
    ∃ a b : Funcs m, a.Perm b ∧ imposeDynamic (some a) = .ok true ∧ imposeDynamic (some b) = .error "uvel" :=
  ⟨[.elev e, .other "uvel"], [.other "uvel", .elev e], List.Perm.swap _ _ _, rfl, rfl⟩

/-- C81: an open boundary always has external values. -/
theorem C81_defined (T : Term m) (f : Option (Funcs m)) (l : Funcs m) (h : f = some l) (ho : imposeDynamic f = .ok true)
    (k : ℕ) (b : m.B) (eta : ℝ) (uv : Fin 2 → ℝ) : ∃ r, bndFunctions T l k b eta uv = some r := by
  subst h
  have := imposeLoop_true l ho
  unfold bndFunctions
  rcases e1 : l.elev with _ | f1 <;> rcases e2 : l.uv with _ | f2 <;> rcases e3 : l.un with _ | f3 <;>
    rcases e4 : l.flux with _ | f4 <;> simp_all

/-- C81: the external elevation is the prescribed one, or the interior one; the external velocity is the prescribed
vector, or the prescribed normal velocity or flux along the outward normal, or the interior one.  The flux is divided by
the boundary length and by the depth at the external elevation. -/
theorem C81_values (T : Term m) (l : Funcs m) (k : ℕ) (b : m.B) (eta : ℝ) (uv : Fin 2 → ℝ) (r : ℝ × (Fin 2 → ℝ))
    (h : bndFunctions T l k b eta uv = some r) :
    (∀ f, l.elev = some f → r.1 = f b) ∧ (l.elev = none → r.1 = eta) ∧
    (∀ f, l.uv = some f → r.2 = f b) ∧
    (∀ f, l.uv = none → l.un = some f → r.2 = fun i => f b * m.nb b i) ∧
    (∀ f, l.uv = none → l.un = none → l.flux = some f →
      r.2 = fun i => f b / (depthAt T (.bnd b) r.1 * T.blen k) * m.nb b i) ∧
    (l.uv = none → l.un = none → l.flux = none → r.2 = uv) := by
  unfold bndFunctions at h
  rcases e1 : l.elev with _ | f1 <;> rcases e2 : l.uv with _ | f2 <;> rcases e3 : l.un with _ | f3 <;>
    rcases e4 : l.flux with _ | f4 <;> simp only [e1, e2, e3, e4] at h <;> cases h <;> simp

/-- Of an elevation at sea and an inflow given as flux 6 on a boundary of length 2: the velocity for the depth. -/
example (b : square.B) : bndFunctions { exTerm with blen := fun _ => 2 } [.flux fun _ => 6, .elev fun _ => 1] 1 b 0 (fun _ => 0) =
    some (1, fun i => 6 / (10 * 2) * square.nb b i) := by
  have : depthAt { exTerm with blen := fun _ => 2 } (.bnd b) 1 = 10 := depthAt_linear _ rfl _ _
  simp only [bndFunctions, Funcs.elev, Funcs.uv, Funcs.un, Funcs.flux, List.findSome?, this]

/-- C81 (violated): two velocities on one boundary are accepted, and the terms do not agree on which one holds: the
viscosity term uses `un` while all other terms use `uv`. -/
theorem C81_conflict_violated (T : Term m) (eta : Sc m) (uv : Vc m) (k : ℕ) (b : m.B) (U : Fin 2 → ℝ) (a : ℝ) :
    let l : Funcs m := [.uv fun _ => U, .un fun _ => a]
    imposeDynamic (some l) = .ok true ∧
    bndFunctions T l k b (eta (.bnd b)).v (atB uv b) = some ((eta (.bnd b)).v, U) ∧
    deltaUv T (fun _ => some l) uv eta k b = some fun i => ((∑ j, (uv j (.bnd b)).v * m.nb b j) - a) * m.nb b i :=
  ⟨rfl, rfl, rfl⟩

/-- C81: where a dictionary gives one velocity the viscosity term takes the difference to it: the normal part for `un`,
the whole vector for `uv` and `flux`, and nothing for an elevation alone. -/
theorem C81_viscosity (T : Term m) (bc : ℕ → Option (Funcs m)) (uv : Vc m) (eta : Sc m) (k : ℕ) (b : m.B) (l : Funcs m)
    (hl : bc k = some l) (ho : imposeDynamic (bc k) = .ok true) :
    (∀ f, l.un = some f → deltaUv T bc uv eta k b = some fun i => ((∑ j, (uv j (.bnd b)).v * m.nb b j) - f b) * m.nb b i) ∧
    (∀ r, l.un = none → (l.uv.isSome ∨ l.flux.isSome) → bndFunctions T l k b (eta (.bnd b)).v (atB uv b) = some r →
      deltaUv T bc uv eta k b = some fun i => (uv i (.bnd b)).v - r.2 i) ∧
    (l.uv = none → l.un = none → l.flux = none → deltaUv T bc uv eta k b = none) := by
  have hop : openFuncs (bc k) = some l := by
    unfold openFuncs; rw [ho, hl]
  unfold deltaUv
  rw [hop]
  refine ⟨fun f hf => by simp only [hf, normalAt], fun r h1 h2 h3 => ?_, fun h1 h2 h3 => by simp [h1, h2, h3]⟩
  simp only [h1, Bool.or_eq_true, h2, if_true, bndF, h3, Option.getD_some, atB]

end Verif.Swe
