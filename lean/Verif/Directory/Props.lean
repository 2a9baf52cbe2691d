import Verif.Directory.Model
import Mathlib.Logic.Relation
import Mathlib.Algebra.BigOperators.Fin
import Mathlib.Algebra.Order.BigOperators.Group.Finset

/-!
C158: directories for output exist on all processes before any of them goes on.
-/

namespace Verif.Directory

open Relation

variable {n : ℕ} {p : Path}

theorem makedirs_some {fs fs' : Fs} (h : makedirs fs p = some fs') : fs' p = some .dir ∧ ∀ q v, fs q = some v → q ≠ p → fs' q = some v := by
  unfold makedirs at h
  split at h
  · cases h
  split at h
  · cases h
  · rename_i h1 h2
    cases h
    refine ⟨by simp, fun q v hq _ => ?_⟩
    by_cases hm : q ∈ p.inits
    · simp only [hm, if_true]
      cases v
      · exact absurd ⟨q, hm, hq⟩ h2
      · rfl
    · simp [hm, hq]

/-- Processes of this run and other programs. -/
def Any (p : Path) (s s' : State n) : Prop := Step p s s' ∨ Grow s s'

structure Inv (p : Path) (s : State n) : Prop where
  root : s.root = .waiting ∨ s.root = .gone → s.fs p = some .dir
  others : ∀ i, s.others i = .gone → s.root = .waiting ∨ s.root = .gone

theorem inv_any {s s' : State n} (h : Inv p s) (st : Any p s s') : Inv p s' := by
  rcases st with st | ⟨h1, h2, h3⟩
  · cases st with
    | found hr hp => exact ⟨fun _ => hp, fun i hi => Or.inl rfl⟩
    | clash hr hp => exact ⟨by simp, fun i hi => by have := h.others i hi; simp [hr] at this⟩
    | missing hr hp => exact ⟨by simp, fun i hi => by have := h.others i hi; simp [hr] at this⟩
    | made hr hm => exact ⟨fun _ => (makedirs_some hm).1, fun i hi => Or.inl rfl⟩
    | failed hr hp => exact ⟨by simp, fun i hi => by have := h.others i hi; simp [hr] at this⟩
    | arrive i hi =>
      refine ⟨h.root, fun j hj => ?_⟩
      by_cases e : j = i
      · subst e
        simp at hj
      · simp only [Function.update_of_ne e] at hj
        exact h.others j hj
    | leaveRoot hr hm => exact ⟨fun _ => h.root (Or.inl hr), fun _ _ => Or.inr rfl⟩
    | leave i hi hm => exact ⟨h.root, fun _ _ => hm.1⟩
  · refine ⟨fun hr => h3 _ _ (h.root (h1 ▸ hr)), fun i hi => ?_⟩
    rw [h1]
    exact h.others i (h2 ▸ hi)

theorem inv_reach {s s' : State n} (h : Inv p s) (st : ReflTransGen (Any p) s s') : Inv p s' := by
  induction st with
  | refl => exact h
  | tail _ st ih => exact inv_any ih st

theorem inv_begin (fs : Fs) : Inv p (begin fs : State n) := ⟨by simp [begin], by simp [begin]⟩

/-- C158: in every schedule, also with other programs, the directory exists as soon as one process has returned. -/
theorem C158_before (fs : Fs) {s : State n} (h : ReflTransGen (Any p) (begin fs) s)
    (hg : s.root = .gone ∨ ∃ i, s.others i = .gone) : s.fs p = some .dir := by
  have hi := inv_reach (inv_begin fs) h
  rcases hg with hg | ⟨i, hg⟩
  · exact hi.root (Or.inr hg)
  · exact hi.root (hi.others i hg)

/-- C158: no process returns before all have called the function. -/
theorem C158_together (fs : Fs) {s : State n} (h : ReflTransGen (Any p) (begin fs) s)
    (hg : s.root = .gone ∨ ∃ i, s.others i = .gone) : ∀ j, s.others j ≠ .start := by
  induction h with
  | refl => simp [begin] at hg
  | @tail b c _ st ih =>
    rcases st with st | ⟨h1, h2, -⟩
    · cases st with
      | arrive i hi =>
        exact absurd hi (ih (hg.imp id fun ⟨j, hj⟩ => ⟨j, by
          by_cases e : j = i
          · subst e
            simp at hj
          · simpa [Function.update_of_ne e] using hj⟩) i)
      | leaveRoot hr hm => exact hm.2
      | leave i hi hm =>
        intro j
        by_cases e : j = i
        · subst e
          simp
        · simpa [Function.update_of_ne e] using hm.2 j
      | found => exact ih (hg.imp (by simp) id)
      | clash => exact ih (hg.imp (by simp) id)
      | missing => exact ih (hg.imp (by simp) id)
      | made => exact ih (hg.imp (by simp) id)
      | failed => exact ih (hg.imp (by simp) id)
    · rw [h2] at hg ⊢
      rw [h1] at hg
      exact ih hg

/-- C158 is violated for solvers on a part of the processes: exporters (exporter.py:50), log files (solver.py:658) and inversions
(inversion_tools.py:206-207, 961) leave out the communicator of the solver, so that the barrier is that of all processes.  As long as one of
them does not call the function, nobody returns, and once those that do are at the barrier there is no step left but that call. -/
theorem C158_world_violated (fs : Fs) {s : State n} (h : ReflTransGen (Any p) (begin fs) s) {j : Fin n} (hj : s.others j = .start) :
    s.root ≠ .gone ∧ (∀ i, s.others i ≠ .gone) ∧
      (s.root = .waiting → ∀ s', Step p s s' → ∃ i, s.others i = .start ∧ s'.others i = .waiting) := by
  refine ⟨fun hg => C158_together fs h (Or.inl hg) j hj, fun i hg => C158_together fs h (Or.inr ⟨i, hg⟩) j hj, fun hr s' st => ?_⟩
  cases st with
  | arrive i hi => exact ⟨i, hi, by simp⟩
  | leaveRoot _ hm => exact absurd hj (hm.2 j)
  | leave _ _ hm => exact absurd hj (hm.2 j)
  | found h => simp [hr] at h
  | clash h => simp [hr] at h
  | missing h => simp [hr] at h
  | made h => simp [hr] at h
  | failed h => simp [hr] at h

/-- C158: missing parents are created, too. -/
theorem C158_parents (fs : Fs) (hp : fs p = none) {s : State n} (h : ReflTransGen (Step p) (begin fs) s)
    (hg : s.root = .waiting ∨ s.root = .gone) (q r : Path) (hq : p = q ++ r) : s.fs q = some .dir := by
  have : (s.root = .start → s.fs = fs) ∧ (s.root = .waiting ∨ s.root = .gone → s.fs q = some .dir) := by
    clear hg
    induction h with
    | refl => exact ⟨fun _ => rfl, by simp [begin]⟩
    | tail _ st ih =>
      cases st with
      | found hr hd =>
        rw [ih.1 hr, hp] at hd
        cases hd
      | clash => exact ⟨by simp, by simp⟩
      | missing => exact ⟨by simp, by simp⟩
      | made hr hm =>
        refine ⟨by simp, fun _ => ?_⟩
        unfold makedirs at hm
        split at hm
        · cases hm
        split at hm
        · cases hm
        · cases hm
          simp [hq]
      | failed => exact ⟨by simp, by simp⟩
      | arrive i hi => exact ih
      | leaveRoot hr hm => exact ⟨by simp, fun _ => ih.2 (Or.inl hr)⟩
      | leave i hi hm => exact ih
  exact this.2 hg

/-- C158: files and directories that were there are still there, as they were. -/
theorem C158_kept (fs : Fs) {s : State n} (h : ReflTransGen (Any p) (begin fs) s) : ∀ q v, fs q = some v → s.fs q = some v := by
  induction h with
  | refl => exact fun q v h => h
  | tail _ st ih =>
    intro q v hq
    have h1 := ih q v hq
    rcases st with st | ⟨-, -, h3⟩
    · cases st with
      | made hr hm =>
        refine (makedirs_some hm).2 q v h1 ?_
        rintro rfl
        simp [makedirs, h1] at hm
      | _ => exact h1
    · exact h3 q v h1

/-- Steps that a process has left at most. -/
def Root.left : Root → ℕ
  | .start => 3
  | .absent => 2
  | .waiting => 1
  | .gone => 0
  | .raised => 0

def Other.left : Other → ℕ
  | .start => 2
  | .waiting => 1
  | .gone => 0

def State.left (s : State n) : ℕ := s.root.left + ∑ i, (s.others i).left

theorem sum_update (f : Fin n → Other) (i : Fin n) (a : Other) (h : a.left < (f i).left) :
    ∑ j, (Function.update f i a j).left < ∑ j, (f j).left := by
  refine Finset.sum_lt_sum (fun j _ => ?_) ⟨i, Finset.mem_univ _, by simpa using h⟩
  by_cases e : j = i
  · subst e
    simpa using h.le
  · simp [Function.update_of_ne e]

theorem step_left {s s' : State n} (st : Step p s s') : s'.left < s.left := by
  cases st with
  | arrive i hi => exact Nat.add_lt_add_left (sum_update _ _ _ (by simp [hi, Other.left])) _
  | leave i hi hm => exact Nat.add_lt_add_left (sum_update _ _ _ (by simp [hi, Other.left])) _
  | found hr => simp [State.left, hr, Root.left]
  | clash hr => simp [State.left, hr, Root.left]
  | missing hr => simp [State.left, hr, Root.left]
  | made hr => simp [State.left, hr, Root.left]
  | failed hr => simp [State.left, hr, Root.left]
  | leaveRoot hr => simp [State.left, hr, Root.left]

/-- C158: the function ends in every schedule: with `n` other processes there are at most `2 n + 3` steps. -/
theorem C158_ends (fs : Fs) (run : ℕ → State n) (h0 : run 0 = begin fs) (k : ℕ) (h : ∀ j < k, Step p (run j) (run (j + 1))) :
    k ≤ 2 * n + 3 := by
  have : ∀ j ≤ k, (run j).left + j ≤ 2 * n + 3 := by
    intro j
    induction j with
    | zero =>
      intro _
      rw [h0]
      simp [State.left, begin, Root.left, Other.left]
      omega
    | succ j ih =>
      intro hj
      have h1 := ih (by omega)
      have h2 := step_left (h j (by omega))
      omega
  have := this k le_rfl
  omega

/-- Nothing is in the way. -/
def Free (fs : Fs) (p : Path) : Prop := fs p = some .dir ∨ (fs p = none ∧ ∀ q ∈ p.inits, fs q ≠ some .file)

theorem free_makedirs {fs : Fs} (h : fs p = none) (h' : ∀ q ∈ p.inits, fs q ≠ some .file) : makedirs fs p ≠ none := by
  unfold makedirs
  rw [if_neg (by simp [h]), if_neg (fun ⟨q, hq, e⟩ => h' q hq e)]
  simp

structure Going (fs : Fs) (p : Path) (s : State n) : Prop where
  root : s.root ≠ .raised
  start : s.root = .start → s.fs = fs
  absent : s.root = .absent → s.fs = fs ∧ fs p = none

theorem going_step {fs : Fs} (hf : Free fs p) {s s' : State n} (h : Going fs p s) (st : Step p s s') : Going fs p s' := by
  cases st with
  | found hr hp => exact ⟨by simp, by simp, by simp⟩
  | clash hr hp =>
    rw [h.start hr] at hp
    rcases hf with hf | ⟨hf, -⟩ <;> simp [hf] at hp
  | missing hr hp => exact ⟨by simp, by simp, fun _ => ⟨h.start hr, h.start hr ▸ hp⟩⟩
  | made hr hm => exact ⟨by simp, by simp, by simp⟩
  | failed hr hp =>
    obtain ⟨e, e'⟩ := h.absent hr
    rw [e] at hp
    rcases hf with hf | ⟨-, hf⟩
    · simp [hf] at e'
    · exact absurd hp (free_makedirs e' hf)
  | arrive i hi => exact ⟨h.root, h.start, h.absent⟩
  | leaveRoot hr hm => exact ⟨by simp, by simp, by simp⟩
  | leave i hi hm => exact ⟨h.root, h.start, h.absent⟩

/-- Where all stand still, all other processes have come to the barrier. -/
theorem still_others {s : State n} (hs : ∀ s', ¬ Step p s s') (i : Fin n) : s.others i ≠ .start :=
  fun hi => hs _ (.arrive i hi)

theorem still_root {s : State n} (hs : ∀ s', ¬ Step p s s') : s.root = .gone ∨ s.root = .raised := by
  have ho := still_others hs
  cases hr : s.root with
  | start =>
    cases hp : s.fs p with
    | none => exact absurd (.missing hr hp) (hs _)
    | some v =>
      cases v
      · exact absurd (.clash hr hp) (hs _)
      · exact absurd (.found hr hp) (hs _)
  | absent =>
    cases hm : makedirs s.fs p with
    | none => exact absurd (.failed hr hm) (hs _)
    | some fs => exact absurd (.made hr hm) (hs _)
  | waiting => exact absurd (.leaveRoot hr ⟨Or.inl hr, ho⟩) (hs _)
  | gone => exact Or.inl rfl
  | raised => exact Or.inr rfl

/-- C158: if there is the directory, or nothing and no file among its parents, and no other program interferes, all processes return. -/
theorem C158_all_partial (fs : Fs) (hf : Free fs p) {s : State n} (h : ReflTransGen (Step p) (begin fs) s) (hs : ∀ s', ¬ Step p s s') :
    s.root = .gone ∧ (∀ i, s.others i = .gone) ∧ s.fs p = some .dir := by
  have hg : Going fs p s := by
    clear hs
    induction h with
    | refl => exact ⟨by simp [begin], fun _ => rfl, by simp [begin]⟩
    | tail _ st ih => exact going_step hf ih st
  have hr := (still_root hs).resolve_right hg.root
  refine ⟨hr, fun i => ?_, (inv_reach (inv_begin fs) (ReflTransGen.mono (fun _ _ st => Or.inl st) _ _ h)).root (Or.inr hr)⟩
  cases hi : s.others i with
  | start => exact absurd hi (still_others hs i)
  | waiting => exact absurd (.leave i hi ⟨Or.inr hr, still_others hs⟩) (hs _)
  | gone => rfl

/-- What holds when something is in the way. -/
structure Stuck (fs : Fs) (s : State n) : Prop where
  fs : s.fs = fs
  root : s.root ≠ .waiting ∧ s.root ≠ .gone
  others : ∀ i, s.others i ≠ .gone

theorem blocked_makedirs {fs : Fs} (hf : ¬ Free fs p) (h : fs p = none) : makedirs fs p = none := by
  unfold makedirs
  rw [if_neg (by simp [h]), if_pos]
  by_contra hc
  exact hf (Or.inr ⟨h, fun q hq e => hc ⟨q, hq, e⟩⟩)

theorem stuck_step {fs : Fs} (hf : ¬ Free fs p) {s s' : State n} (h : Stuck fs s) (ha : s.root = .absent → fs p = none) (st : Step p s s') :
    Stuck fs s' ∧ (s'.root = .absent → fs p = none) := by
  cases st with
  | found hr hp => exact absurd (Or.inl (h.fs ▸ hp)) hf
  | clash hr hp => exact ⟨⟨h.fs, by simp, h.others⟩, by simp⟩
  | missing hr hp => exact ⟨⟨h.fs, by simp, h.others⟩, fun _ => h.fs ▸ hp⟩
  | made hr hm =>
    rw [h.fs, blocked_makedirs hf (ha hr)] at hm
    cases hm
  | failed hr hp => exact ⟨⟨h.fs, by simp, h.others⟩, by simp⟩
  | arrive i hi =>
    refine ⟨⟨h.fs, h.root, fun j => ?_⟩, ha⟩
    by_cases e : j = i
    · subst e
      simp
    · simpa [Function.update_of_ne e] using h.others j
  | leaveRoot hr hm => exact absurd hr h.root.1
  | leave i hi hm => exact absurd hm.1 (by simp [h.root.1, h.root.2])

/-- C158 is violated if there is a file at the path or among its parents: process 0 raises its exception, and all others stay at the barrier
for ever, in every schedule. -/
theorem C158_hang_violated (fs : Fs) (hf : ¬ Free fs p) {s : State n} (h : ReflTransGen (Step p) (begin fs) s) :
    (∀ i, s.others i ≠ .gone) ∧ ((∀ s', ¬ Step p s s') → s.root = .raised ∧ ∀ i, s.others i = .waiting) := by
  have hg : Stuck fs s ∧ (s.root = .absent → fs p = none) := by
    induction h with
    | refl => exact ⟨⟨rfl, by simp [begin], by simp [begin]⟩, by simp [begin]⟩
    | tail _ st ih => exact stuck_step hf ih.1 ih.2 st
  refine ⟨hg.1.others, fun hs => ⟨(still_root hs).resolve_left hg.1.root.2, fun i => ?_⟩⟩
  cases hi : s.others i with
  | start => exact absurd hi (still_others hs i)
  | waiting => rfl
  | gone => exact absurd hi (hg.1.others i)

/-- C158 is violated if another program creates the directory after process 0 has looked for it: process 0 raises an exception although the
directory is there. -/
theorem C158_race_violated (fs : Fs) (hp : fs p = none) :
    ∃ s : State n, ReflTransGen (Any p) (begin fs) s ∧ s.fs p = some .dir ∧ s.root = .raised := by
  have h1 : Any p (begin fs : State n) ⟨fs, .absent, fun _ => .start⟩ := Or.inl (.missing rfl hp)
  have h2 : Any p (⟨fs, .absent, fun _ => .start⟩ : State n) ⟨Function.update fs p (some .dir), .absent, fun _ => .start⟩ := by
    refine Or.inr ⟨rfl, rfl, fun q v hq => ?_⟩
    have : q ≠ p := by
      rintro rfl
      simp [hp] at hq
    simpa [Function.update_of_ne this] using hq
  have h3 : Any p (⟨Function.update fs p (some .dir), .absent, fun _ => .start⟩ : State n)
      ⟨Function.update fs p (some .dir), .raised, fun _ => .start⟩ :=
    Or.inl (.failed rfl (by simp [makedirs]))
  exact ⟨_, ((ReflTransGen.single h1).tail h2).tail h3, by simp, rfl⟩

/-! ### Examples -/

/-- A root directory with one file, `1`. -/
def disk : Fs
  | [] => some .dir
  | [1] => some .file
  | _ => none

/-- `2/3` can be made, `1` and `1/3` cannot. -/
theorem disk_free : Free disk [2, 3] ∧ ¬ Free disk [1] ∧ ¬ Free disk [1, 3] := by
  refine ⟨Or.inr ⟨rfl, by simp [List.inits, disk]⟩, ?_, ?_⟩
  · rintro (h | ⟨h, -⟩) <;> cases h
  · rintro (h | ⟨-, h⟩)
    · cases h
    · exact h [1] (by simp [List.inits]) rfl

/-- With one other process, `2/3` and its parent are made. -/
example : ∃ s : State 1, ReflTransGen (Step [2, 3]) (begin disk) s ∧ s.root = .waiting ∧ s.fs [2] = some .dir ∧ s.fs [2, 3] = some .dir ∧
    s.fs [1] = some .file := by
  have h1 : Step [2, 3] (begin disk : State 1) ⟨disk, .absent, fun _ => .start⟩ := .missing rfl rfl
  have h2 := Step.made (p := [2, 3]) (s := (⟨disk, .absent, fun _ => .start⟩ : State 1))
    (fs := fun q => if q ∈ [2, 3].inits then some .dir else disk q) rfl (by simp [makedirs, disk, List.inits])
  exact ⟨_, (ReflTransGen.single h1).tail h2, rfl, by simp, by simp, by simp [disk, List.inits]⟩

/-- Process 0 at the barrier for the root directory, the other not there: process 0 stays. -/
example : ∃ s : State 1, ReflTransGen (Any []) (begin disk) s ∧ s.root = .waiting ∧ s.others 0 = .start :=
  ⟨_, ReflTransGen.single (Or.inl (.found rfl rfl)), rfl, rfl⟩

example {s : State 3} (h : ReflTransGen (Step [1]) (begin disk) s) (i : Fin 3) : s.others i ≠ .gone :=
  (C158_hang_violated disk disk_free.2.1 h).1 i

example {s : State 3} (h : ReflTransGen (Step [2, 3]) (begin disk) s) (hs : ∀ s', ¬ Step [2, 3] s s') : s.root = .gone :=
  (C158_all_partial disk disk_free.1 h hs).1

end Verif.Directory
