import Verif.Optim.Model

/-!
C59: callbacks of a reduced functional return what the optimiser expects and run in order.
-/

namespace Verif.Optim

variable {α σ ε : Type}

/-! ### Order -/

/-- The callbacks that are not lists, in the order in which they are written down. -/
inductive Leaves : Cb α σ ε → List (Act α σ ε) → Prop
  | leaf (act : Act α σ ε) : Leaves (.leaf act) [act]
  | nil : Leaves (.list []) []
  | cons {cb : Cb α σ ε} {cbs : List (Cb α σ ε)} {as bs : List (Act α σ ε)} :
      Leaves cb as → Leaves (.list cbs) bs → Leaves (.list (cb :: cbs)) (as ++ bs)

/-- Executing actions one after the other until one of them raises. -/
inductive Runs (args : List α) : List (Act α σ ε) → σ → σ → Option ε → Prop
  | nil (s : σ) : Runs args [] s s none
  | ok {a : Act α σ ε} {as : List (Act α σ ε)} {s s' s'' : σ} {e : Option ε} :
      a args s = (s', none) → Runs args as s' s'' e → Runs args (a :: as) s s'' e
  | err {a : Act α σ ε} {as : List (Act α σ ε)} {s s' : σ} {e : ε} :
      a args s = (s', some e) → Runs args (a :: as) s s' (some e)

theorem Runs.append_none {args : List α} {as bs : List (Act α σ ε)} {s s' s'' : σ} {e : Option ε}
    (h : Runs args as s s' none) (h2 : Runs args bs s' s'' e) : Runs args (as ++ bs) s s'' e := by
  generalize hn : (none : Option ε) = n at h
  induction h with
  | nil s => exact h2
  | ok ha _ ih => exact .ok ha (ih h2 hn)
  | err ha => cases hn

theorem Runs.append_some {args : List α} {as : List (Act α σ ε)} (bs : List (Act α σ ε)) {s s' : σ}
    {e : ε} (h : Runs args as s s' (some e)) : Runs args (as ++ bs) s s' (some e) := by
  generalize hn : (some e : Option ε) = n at h
  induction h with
  | nil s => cases hn
  | ok ha _ ih => exact .ok ha (ih hn)
  | err ha => exact .err ha

theorem returned_ok {args : List α} (h : args ≠ []) : ∃ v, (returned args : Except (Err ε) α) = .ok v := by
  match args, h with
  | [a], _ => exact ⟨a, rfl⟩
  | a :: b :: r, _ => exact ⟨b, by simp [returned]⟩

theorem run_runs {args : List α} (h : args ≠ []) {cb : Cb α σ ε} {as : List (Act α σ ε)}
    (hl : Leaves cb as) : ∀ s, ∃ e, Runs args as s (run cb args s).1 e ∧
      (run cb args s).2 = e.map Err.user := by
  obtain ⟨v, hv⟩ := returned_ok (ε := ε) h
  induction hl with
  | leaf act =>
    intro s
    refine ⟨(act args s).2, ?_, by simp [run]⟩
    cases ha : (act args s).2 with
    | none => exact .ok (s' := (act args s).1) (by rw [← ha]) (by simpa [run] using Runs.nil _)
    | some e =>
      have : (run (.leaf act) args s).1 = (act args s).1 := by simp [run]
      rw [this]
      exact .err (by rw [← ha])
  | nil => intro s; exact ⟨none, by simpa [run, runAll] using Runs.nil _, by simp [run, runAll]⟩
  | @cons cb cbs as bs _ _ ih1 ih2 =>
    intro s
    obtain ⟨e, h1, h2⟩ := ih1 s
    cases e with
    | some e =>
      refine ⟨some e, ?_, ?_⟩
      · have : (run (.list (cb :: cbs)) args s).1 = (run cb args s).1 := by
          simp only [run, runAll]
          rcases hr : run cb args s with ⟨s', o⟩
          rw [hr] at h2
          simp at h2
          subst h2
          rfl
        rw [this]
        exact Runs.append_some bs h1
      · simp only [run, runAll]
        rcases hr : run cb args s with ⟨s', o⟩
        rw [hr] at h2
        simp at h2
        subst h2
        rfl
    | none =>
      obtain ⟨e', h3, h4⟩ := ih2 (run cb args s).1
      have : run (.list (cb :: cbs)) args s = run (.list cbs) args (run cb args s).1 := by
        simp only [run, runAll]
        rcases hr : run cb args s with ⟨s', o⟩
        rw [hr] at h2
        simp at h2
        subst h2
        simp [hv]
      rw [this]
      exact ⟨e', Runs.append_none h1 h3, h4⟩

theorem leaves_exists : (∀ cb : Cb α σ ε, ∃ as, Leaves cb as) := by
  intro cb
  refine Cb.rec (motive_1 := fun cb => ∃ as, Leaves cb as)
    (motive_2 := fun cbs => ∃ as, Leaves (.list cbs) as) ?_ ?_ ?_ ?_ cb
  · intro act; exact ⟨[act], .leaf act⟩
  · intro cbs h; exact h
  · exact ⟨[], .nil⟩
  · rintro cb cbs ⟨as, h1⟩ ⟨bs, h2⟩; exact ⟨as ++ bs, .cons h1 h2⟩

theorem Runs.det {args : List α} {as : List (Act α σ ε)} {s s1 s2 : σ} {e1 e2 : Option ε}
    (h1 : Runs args as s s1 e1) (h2 : Runs args as s s2 e2) : s1 = s2 ∧ e1 = e2 := by
  induction h1 with
  | nil s => cases h2; exact ⟨rfl, rfl⟩
  | ok ha _ ih =>
    cases h2 with
    | ok hb h => rw [ha] at hb; cases hb; exact ih h
    | err hb => rw [ha] at hb; cases hb
  | err ha =>
    cases h2 with
    | ok hb h => rw [ha] at hb; cases hb
    | err hb => rw [ha] at hb; cases hb; exact ⟨rfl, rfl⟩

/-- C59: calling a callback, however deeply its lists are nested, has the effect of running the callbacks
written down in it one after the other, each once, with the same arguments, up to the first exception,
which reaches the optimiser; without an exception a value is returned. -/
theorem C59_order {args : List α} (h : args ≠ []) {cb : Cb α σ ε} {as : List (Act α σ ε)}
    (hl : Leaves cb as) (s s' : σ) (e : Option ε) (hr : Runs args as s s' e) :
    (call cb args s).1 = s' ∧
      (∀ x, e = some x → (call cb args s).2 = .error (.user x)) ∧
      (e = none → ∃ v, (call cb args s).2 = .ok v) := by
  obtain ⟨e', h1, h2⟩ := run_runs h hl s
  obtain ⟨rfl, rfl⟩ := h1.det hr
  obtain ⟨v, hv⟩ := returned_ok (ε := ε) h
  unfold call
  rcases hrun : run cb args s with ⟨s1, o⟩
  rw [hrun] at h2
  simp only at h2
  subst h2
  cases e' with
  | none => exact ⟨rfl, fun x hx => (by cases hx), fun _ => ⟨v, hv⟩⟩
  | some x => exact ⟨rfl, fun y hy => (by cases hy; rfl), fun hx => (by cases hx)⟩

/-- C59: two callbacks with the same callbacks in the same order act alike, whatever the nesting. -/
theorem C59_nesting {args : List α} (h : args ≠ []) {cb cb' : Cb α σ ε} {as : List (Act α σ ε)}
    (hl : Leaves cb as) (hl' : Leaves cb' as) (s : σ) : call cb args s = call cb' args s := by
  obtain ⟨e, h1, h2⟩ := run_runs h hl s
  obtain ⟨e', h1', h2'⟩ := run_runs h hl' s
  obtain ⟨h3, rfl⟩ := h1.det h1'
  have : run cb args s = run cb' args s := Prod.ext h3 (h2.trans h2'.symm)
  unfold call
  rw [this]

/-- Callbacks that append a number to the state. -/
def push (n : ℕ) : Act ℕ (List ℕ) String := fun _ s => (s ++ [n], none)

/-- A callback that raises. -/
def boom : Act ℕ (List ℕ) String := fun _ s => (s, some "boom")

example : Leaves (.list [.leaf (push 1), .list [.leaf (push 2), .leaf (push 3)]])
    [push 1, push 2, push 3] :=
  .cons (.leaf _) (.cons (as := [push 2, push 3]) (.cons (.leaf _) (.cons (.leaf _) .nil)) .nil)

example : (call (.list [.leaf (push 1), .list [.leaf (push 2), .leaf (push 3)]]) [7, 8] []).1
    = [1, 2, 3] := by decide +kernel

example : (call (.list [.leaf (push 1), .leaf boom, .leaf (push 3)]) [7] [])
    = ([1], .error (.user "boom")) := by rfl

/-! ### What the optimiser gets back -/

/-- C59: whatever the callbacks do, unless one of them raises, a callback before an evaluation, a
derivative or a Hessian returns the controls it was called with. -/
theorem C59_pre (cb : Cb α σ ε) (controls : α) (s : σ) (v : α)
    (h : (call cb [controls] s).2 = .ok v) : v = controls := by
  unfold call at h
  rcases hr : run cb [controls] s with ⟨s', o⟩
  rw [hr] at h
  cases o with
  | none => simp [returned] at h; exact h.symm
  | some e => cases h

/-- C59: a callback after a derivative or a Hessian returns the derivative. -/
theorem C59_post (cb : Cb α σ ε) (functional derivative controls : α) (s : σ) (v : α)
    (h : (call cb [functional, derivative, controls] s).2 = .ok v) : v = derivative := by
  unfold call at h
  rcases hr : run cb [functional, derivative, controls] s with ⟨s', o⟩
  rw [hr] at h
  cases o with
  | none => simp [returned] at h; exact h.symm
  | some e => cases h

/-- C59: a callback after an evaluation returns the controls. -/
theorem C59_eval_post (cb : Cb α σ ε) (functional controls : α) (s : σ) (v : α)
    (h : (call cb [functional, controls] s).2 = .ok v) : v = controls := by
  unfold call at h
  rcases hr : run cb [functional, controls] s with ⟨s', o⟩
  rw [hr] at h
  cases o with
  | none => simp [returned] at h; exact h.symm
  | some e => cases h

/-- C59: callbacks that do not raise always let the optimiser continue, with a value that depends on the
arguments only. -/
theorem C59_transparent {args : List α} (h : args ≠ []) {cb : Cb α σ ε} {as : List (Act α σ ε)}
    (hl : Leaves cb as) (hok : ∀ a ∈ as, ∀ s, (a args s).2 = none) (s : σ) :
    (call cb args s).2 = (call (.list [] : Cb α σ ε) args s).2 ∧
      ∃ v, (call cb args s).2 = .ok v := by
  have hruns : ∀ (bs : List (Act α σ ε)), (∀ a ∈ bs, ∀ s, (a args s).2 = none) →
      ∀ s, ∃ s', Runs args bs s s' none := by
    intro bs
    induction bs with
    | nil => intro _ s; exact ⟨s, .nil s⟩
    | cons b bs ih =>
      intro hb s
      obtain ⟨s', h'⟩ := ih (fun a ha => hb a (List.mem_cons_of_mem _ ha)) (b args s).1
      exact ⟨s', .ok (Prod.ext rfl (hb b List.mem_cons_self s)) h'⟩
  obtain ⟨s', hs'⟩ := hruns as hok s
  obtain ⟨v, hv⟩ := (C59_order h hl s s' none hs').2.2 rfl
  refine ⟨?_, v, hv⟩
  have h0 : (call (.list [] : Cb α σ ε) args s).2 = returned args := by simp [call, run, runAll]
  rw [h0]
  unfold call at hv ⊢
  rcases hr : run cb args s with ⟨s1, o⟩
  rw [hr] at hv
  cases o with
  | none => rfl
  | some e => cases hv

example : (call (.list [.leaf (push 1)]) [7, 8, 9] []).2 = .ok 8 := by rfl

/-- C59: a list of callbacks put together from two runs the first one and then, if it did not raise, the
second one. -/
theorem C59_append {args : List α} (h : args ≠ []) (xs ys : List (Cb α σ ε)) (s : σ) :
    call (.list (xs ++ ys)) args s =
      match call (.list xs) args s with
      | (s', .error e) => (s', .error e)
      | (s', .ok _) => call (.list ys) args s' := by
  obtain ⟨v, hv⟩ := returned_ok (ε := ε) h
  have key : run (.list (xs ++ ys)) args s =
      match run (.list xs) args s with
      | (s', some e) => (s', some e)
      | (s', none) => run (.list ys) args s' := by
    simp only [run]
    induction xs generalizing s with
    | nil => simp [runAll]
    | cons x xs ih =>
      simp only [List.cons_append, runAll]
      rcases hr : run x args s with ⟨s', o⟩
      cases o with
      | some e => rfl
      | none => simp only [hv]; exact ih s'
  unfold call
  rw [key]
  rcases hr : run (.list xs) args s with ⟨s', o⟩
  cases o with
  | some e => rfl
  | none => simp [hv]

/-! ### Recorded values -/

/-- C59: after an evaluation or a derivative the functional callback records the functional value, in the
log and in the file. -/
theorem C59_functional {R : Type} (toLog toFile : Bool) (j c : DArg R) (rest : List (DArg R))
    (s : List (DArg R) × List (DArg R)) :
    diagnostic toLog toFile functionalValues (j :: c :: rest) s =
      ((if toLog then s.1 ++ [j] else s.1, if toFile then s.2 ++ [j] else s.2), none) := by
  simp [diagnostic, functionalValues]

/-- C59: the functional callback is meant for use after an evaluation only, but the check is never met:
used before an evaluation it records the controls in place of the functional value. -/
theorem C59_functional_pre_violated :
    ∃ (controls : DArg ℕ), diagnostic true false functionalValues [controls] ([], [])
      = (([controls], []), none) ∧ controls = .nums [3, 4] :=
  ⟨.nums [3, 4], rfl, rfl⟩

/-- C59: the control callback records the controls, which are the last argument, in each of the six
roles; it raises if their number is not the announced one. -/
theorem C59_controls {R : Type} (n : ℕ) (before : List (DArg R)) (xs : List R)
    (s : List (List R) × List (List R)) :
    (xs.length = n → diagnostic true true (controlValues n) (before ++ [.nums xs]) s =
      ((s.1 ++ [xs], s.2 ++ [xs]), none)) ∧
    (xs.length ≠ n → diagnostic true true (controlValues n) (before ++ [.nums xs]) s =
      (s, some .valueError)) := by
  constructor
  · intro h; simp [diagnostic, controlValues, h]
  · intro h; simp [diagnostic, controlValues, h.symm]

/-- C59: the derivative callback records the derivatives, and raises in the roles that have none. -/
theorem C59_derivatives {R : Type} (n : ℕ) (j c : DArg R) (ds : List R)
    (s : List (List R) × List (List R)) :
    (ds.length = n → diagnostic true true (derivativeValues n) [j, .nums ds, c] s =
      ((s.1 ++ [ds], s.2 ++ [ds]), none)) ∧
    (ds.length ≠ n → diagnostic true true (derivativeValues n) [j, .nums ds, c] s =
      (s, some .valueError)) ∧
    diagnostic true true (derivativeValues n) [j, c] s = (s, some .typeError) ∧
    diagnostic true true (derivativeValues n) [c] s = (s, some .typeError) := by
  refine ⟨fun h => ?_, fun h => ?_, ?_, ?_⟩
  · simp [diagnostic, derivativeValues, h]
  · simp [diagnostic, derivativeValues, h.symm]
  · simp [diagnostic, derivativeValues]
  · simp [diagnostic, derivativeValues]

example : (diagnostic true true (derivativeValues 2) [.num 1, .nums [5, 6], .nums [7, 8]] ([], []))
    = (([[5, 6]], [[5, 6]]), none) := by rfl

end Verif.Optim
