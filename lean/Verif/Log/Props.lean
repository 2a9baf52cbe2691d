import Verif.Log.Model
import Mathlib.Data.List.Induction

/-!
Property C51.
-/

namespace Verif.Log

/-- The lines among calls. -/
def lines (es : List Ev) : List Line :=
  es.filterMap fun e => match e with | .msg l => some l | .dir _ _ => none

theorem lines_append (a b : List Ev) : lines (a ++ b) = lines a ++ lines b := by
  simp [lines, List.filterMap_append]

/-! ### Invariant of rank 0 -/

/-- Handlers of both loggers before and after a directory is set. -/
structure Inv (s : State) : Prop where
  before : s.filename = none → ∀ n, s.handlers n = [.stream, .buffer]
  after : ∀ f, s.filename = some f → (s.files f).isSome ∧ ∀ n, s.handlers n = [.stream, .file f]

theorem inv_start (files : String → Option (List Line)) : Inv (setLoggers true (fresh files)) :=
  ⟨fun _ _ => rfl, fun f h => by simp [setLoggers, fresh] at h⟩

/-- A message before a directory is set goes to the console and to the buffer. -/
theorem message_before (s : State) (h : Inv s) (hf : s.filename = none) (l : Line) :
    message l s = { s with console := s.console ++ [l], mem := s.mem ++ [l] } := by
  simp [message, h.before hf, emit]

/-- Afterwards to the console and to the file. -/
theorem message_after (s : State) (h : Inv s) (f : String) (hf : s.filename = some f) (l : Line) :
    message l s = { s with console := s.console ++ [l],
                           files := fun q => if q = f then some (((s.files f).getD []) ++ [l])
                             else s.files q } := by
  simp [message, (h.after f hf).2, emit]

theorem inv_message (s : State) (h : Inv s) (l : Line) : Inv (message l s) := by
  cases hf : s.filename with
  | none =>
    rw [message_before s h hf]
    exact ⟨fun _ => h.before hf, fun f h' => by simp [hf] at h'⟩
  | some f =>
    rw [message_after s h f hf]
    refine ⟨fun h' => by simp [hf] at h', fun g hg => ?_⟩
    have : f = g := by simpa [hf] using hg
    subst this
    exact ⟨by simp, (h.after f hf).2⟩

theorem setDir_same (root : Bool) (s : State) (d : String) (w : Bool)
    (hf : s.filename = some (logPath d)) : setDir root d w s = s := by
  simp [setDir, hf]

theorem setDir_first (s : State) (h : Inv s) (hf : s.filename = none) (d : String) (w : Bool) :
    let r := setDir true d w s
    Inv r ∧ r.filename = some (logPath d) ∧ r.mem = s.mem ∧ r.console = s.console ∧
      r.files (logPath d) = some s.mem ∧ ∀ q, q ≠ logPath d → r.files q = s.files q := by
  have hh := h.before hf
  intro r
  have hr : r = setDir true d w s := rfl
  unfold setDir at hr
  simp only [hf, reduceCtorEq, if_false, Option.isSome_none, Bool.false_eq_true, if_true, and_true] at hr
  rw [hr]
  refine ⟨⟨fun h' => by simp at h', fun f hf' => ?_⟩, rfl, ?_, ?_, ?_, ?_⟩
  · have : logPath d = f := by simpa using hf'
    subst this
    constructor
    · simp
    · intro n
      split_ifs <;> simp [hh n, rmLoop, Handler.isBuffer]
  · split_ifs <;> rfl
  · split_ifs <;> rfl
  · split_ifs <;> simp
  · intro q hq
    split_ifs <;> simp [hq]

theorem setDir_change (s : State) (h : Inv s) (o d : String) (w : Bool) (hf : s.filename = some o)
    (hne : o ≠ logPath d) :
    let r := setDir true d w s
    Inv r ∧ r.filename = some (logPath d) ∧ r.mem = s.mem ∧
      r.console = s.console ++ [changeWarning (logPath d) o] ∧
      r.files (logPath d) = some (s.mem ++ [changeWarning (logPath d) o]) ∧
      ∀ q, q ≠ logPath d → r.files q = s.files q := by
  have hh := (h.after o hf).2
  have hne' : ¬ (some o = some (logPath d)) := by simpa using hne
  intro r
  -- the state just before the warning
  obtain ⟨t, ht, hI, h1, h2, h3, h4, h5⟩ : ∃ t : State,
      r = message (changeWarning (logPath d) o) t ∧ Inv t ∧ t.filename = some (logPath d) ∧
      t.mem = s.mem ∧ t.console = s.console ∧ t.files (logPath d) = some s.mem ∧
      ∀ q, q ≠ logPath d → t.files q = s.files q := by
    have hr : r = setDir true d w s := rfl
    unfold setDir at hr
    simp only [hf, if_neg hne', Option.isSome_some, if_true, and_true] at hr
    refine ⟨_, hr, ⟨fun h' => by simp at h', fun f hf' => ?_⟩, rfl, ?_, ?_, ?_, ?_⟩
    · have : logPath d = f := by simpa using hf'
      subst this
      constructor
      · simp
      · intro n
        split_ifs <;> simp [hh n, rmLoop, Handler.isBuffer, Handler.isFile]
    · split_ifs <;> rfl
    · split_ifs <;> rfl
    · split_ifs <;> simp
    · intro q hq
      split_ifs <;> simp [hq]
  rw [ht]
  refine ⟨inv_message t hI _, ?_⟩
  rw [message_after t hI _ h1]
  refine ⟨h1, h2, by simp [h3], by simp [h4], fun q hq => by simp [hq, h5 q hq]⟩

/-! ### Whole programs -/

theorem run_snoc (root : Bool) (files : String → Option (List Line)) (es : List Ev) (e : Ev) :
    run root files (es ++ [e]) = step root (run root files es) e := by
  simp [run, List.foldl_append]

theorem inv_run (files : String → Option (List Line)) (es : List Ev) : Inv (run true files es) := by
  induction es using List.reverseRecOn with
  | nil => exact inv_start files
  | append_singleton es e ih =>
    rw [run_snoc]
    cases e with
    | msg l => exact inv_message _ ih l
    | dir d w =>
      show Inv (setDir true d w (run true files es))
      cases hf : (run true files es).filename with
      | none => exact (setDir_first _ ih hf d w).1
      | some o =>
        by_cases ho : o = logPath d
        · rw [setDir_same _ _ _ _ (by rw [hf, ho])]; exact ih
        · exact (setDir_change _ ih o d w hf ho).1

/-- No directory yet: nothing but messages. -/
theorem run_msgs (files : String → Option (List Line)) (es : List Ev)
    (h : ∀ e ∈ es, ∃ l, e = .msg l) :
    (run true files es).filename = none ∧ (run true files es).mem = lines es ∧
      (run true files es).files = files := by
  induction es using List.reverseRecOn with
  | nil => exact ⟨rfl, rfl, rfl⟩
  | append_singleton es e ih =>
    obtain ⟨i1, i2, i3⟩ := ih fun x hx => h x (List.mem_append_left _ hx)
    obtain ⟨l, rfl⟩ := h e (by simp)
    rw [run_snoc, step, message_before _ (inv_run files es) i1, lines_append]
    exact ⟨i1, by simp [i2, lines], i3⟩

/-- The memory buffer does not change once a directory is set. -/
theorem mem_const (s : State) (h : Inv s) (f : String) (hf : s.filename = some f) (e : Ev) :
    (step true s e).mem = s.mem ∧ ∃ g, (step true s e).filename = some g := by
  cases e with
  | msg l => rw [step, message_after s h f hf]; exact ⟨rfl, f, hf⟩
  | dir d w =>
    show (setDir true d w s).mem = _ ∧ _
    by_cases ho : f = logPath d
    · have : setDir true d w s = s := setDir_same _ _ _ _ (by rw [hf, ho])
      exact ⟨by rw [this], f, by rw [step, this, hf]⟩
    · have := setDir_change s h f d w hf ho
      exact ⟨this.2.2.1, _, this.2.1⟩

theorem mem_after (files : String → Option (List Line)) (es : List Ev) (d : String) (w : Bool)
    (hes : ∀ e ∈ es, ∃ l, e = .msg l) (rest : List Ev) :
    (run true files (es ++ .dir d w :: rest)).mem = lines es ∧
      ∃ g, (run true files (es ++ .dir d w :: rest)).filename = some g := by
  induction rest using List.reverseRecOn with
  | nil =>
    obtain ⟨i1, i2, -⟩ := run_msgs files es hes
    have := setDir_first _ (inv_run files es) i1 d w
    rw [run_snoc]
    exact ⟨by rw [step, this.2.2.1, i2], _, this.2.1⟩
  | append_singleton rest e ih =>
    obtain ⟨i1, g, i2⟩ := ih
    have := mem_const _ (inv_run files _) g i2 e
    rw [show es ++ .dir d w :: (rest ++ [e]) = (es ++ .dir d w :: rest) ++ [e] by simp, run_snoc]
    exact ⟨this.1.trans i1, this.2⟩

/-- C51: with one directory (set any number of times), the log file of the first process holds every
message of the program exactly once and in order: those before the directory was set and those
after. -/
theorem C51_complete (files : String → Option (List Line)) (d : String) (w : Bool)
    (before after : List Ev) (hb : ∀ e ∈ before, ∃ l, e = .msg l)
    (ha : ∀ e ∈ after, (∃ l, e = .msg l) ∨ ∃ w', e = .dir d w') :
    (run true files (before ++ .dir d w :: after)).files (logPath d)
      = some (lines before ++ lines after) := by
  suffices h : (run true files (before ++ .dir d w :: after)).filename = some (logPath d) ∧
      (run true files (before ++ .dir d w :: after)).files (logPath d)
        = some (lines before ++ lines after) from h.2
  induction after using List.reverseRecOn with
  | nil =>
    obtain ⟨i1, i2, -⟩ := run_msgs files before hb
    have := setDir_first _ (inv_run files before) i1 d w
    rw [run_snoc]
    exact ⟨this.2.1, by rw [step, this.2.2.2.2.1, i2]; simp [lines]⟩
  | append_singleton rest e ih =>
    obtain ⟨i1, i2⟩ := ih fun x hx => ha x (List.mem_append_left _ hx)
    rw [show before ++ .dir d w :: (rest ++ [e]) = (before ++ .dir d w :: rest) ++ [e] by simp, run_snoc]
    rcases ha e (by simp) with ⟨l, rfl⟩ | ⟨w', rfl⟩
    · rw [step, message_after _ (inv_run files _) _ i1]
      refine ⟨i1, ?_⟩
      simp [i2, lines]
    · rw [step, setDir_same _ _ _ _ i1]
      exact ⟨i1, by rw [i2]; simp [lines]⟩

/-- C51: after a change of directory the new file holds the messages before the first directory, the
warning about the change and the messages since; the previous files are left as they were. -/
theorem C51_change (files : String → Option (List Line)) (d0 d : String) (w0 w : Bool)
    (before mid after : List Ev) (hb : ∀ e ∈ before, ∃ l, e = .msg l)
    (ha : ∀ e ∈ after, (∃ l, e = .msg l) ∨ ∃ w', e = .dir d w') (o : String)
    (ho : (run true files (before ++ .dir d0 w0 :: mid)).filename = some o) (hne : o ≠ logPath d) :
    let r := run true files (before ++ .dir d0 w0 :: mid ++ .dir d w :: after)
    r.files (logPath d) = some (lines before ++ [changeWarning (logPath d) o] ++ lines after) ∧
    ∀ q, q ≠ logPath d → r.files q = (run true files (before ++ .dir d0 w0 :: mid)).files q := by
  intro r
  suffices h : r.filename = some (logPath d) ∧
      r.files (logPath d) = some (lines before ++ [changeWarning (logPath d) o] ++ lines after) ∧
      ∀ q, q ≠ logPath d → r.files q = (run true files (before ++ .dir d0 w0 :: mid)).files q from h.2
  have hm := (mem_after files before d0 w0 hb mid).1
  show (run true files (before ++ .dir d0 w0 :: mid ++ .dir d w :: after)).filename = _ ∧
    (run true files (before ++ .dir d0 w0 :: mid ++ .dir d w :: after)).files _ = _ ∧
    ∀ q, q ≠ logPath d → (run true files (before ++ .dir d0 w0 :: mid ++ .dir d w :: after)).files q = _
  generalize before ++ .dir d0 w0 :: mid = pre at *
  induction after using List.reverseRecOn with
  | nil =>
    have := setDir_change _ (inv_run files pre) o d w ho hne
    rw [run_snoc]
    exact ⟨this.2.1, by rw [step, this.2.2.2.2.1, hm]; simp [lines], this.2.2.2.2.2⟩
  | append_singleton rest e ih =>
    obtain ⟨i1, i2, i3⟩ := ih fun x hx => ha x (List.mem_append_left _ hx)
    rw [show pre ++ .dir d w :: (rest ++ [e]) = (pre ++ .dir d w :: rest) ++ [e] by simp, run_snoc]
    rcases ha e (by simp) with ⟨l, rfl⟩ | ⟨w', rfl⟩
    · rw [step, message_after _ (inv_run files _) _ i1]
      refine ⟨i1, ?_, fun q hq => by simp [hq, i3 q hq]⟩
      simp [i2, lines]
    · rw [step, setDir_same _ _ _ _ i1]
      exact ⟨i1, by rw [i2]; simp [lines], i3⟩

/-- C51: the warning names the new file and then the old one. -/
theorem C51_warning : ∃ p q r : String, ∀ new old, changeWarning new old = ⟨.thetis, p ++ new ++ q ++ old ++ r⟩ :=
  ⟨_, _, _, fun _ _ => rfl⟩

/-- C51: every message also goes to the console of the first process exactly once, in order (one
directory). -/
theorem C51_console (files : String → Option (List Line)) (d : String) (w : Bool)
    (before after : List Ev) (hb : ∀ e ∈ before, ∃ l, e = .msg l)
    (ha : ∀ e ∈ after, (∃ l, e = .msg l) ∨ ∃ w', e = .dir d w') :
    (run true files (before ++ .dir d w :: after)).console = lines before ++ lines after := by
  have hbefore : (run true files before).console = lines before := by
    induction before using List.reverseRecOn with
    | nil => rfl
    | append_singleton es e ih =>
      have h' : ∀ x ∈ es, ∃ l, x = Ev.msg l := fun x hx => hb x (List.mem_append_left _ hx)
      obtain ⟨l, rfl⟩ := hb e (by simp)
      rw [run_snoc, step, message_before _ (inv_run files es) (run_msgs files es h').1, lines_append]
      simp [ih h', lines]
  suffices h : (run true files (before ++ .dir d w :: after)).filename = some (logPath d) ∧
      (run true files (before ++ .dir d w :: after)).console = lines before ++ lines after from h.2
  induction after using List.reverseRecOn with
  | nil =>
    obtain ⟨i1, i2, -⟩ := run_msgs files before hb
    have := setDir_first _ (inv_run files before) i1 d w
    rw [run_snoc]
    exact ⟨this.2.1, by rw [step, this.2.2.2.1, hbefore]; simp [lines]⟩
  | append_singleton rest e ih =>
    obtain ⟨i1, i2⟩ := ih fun x hx => ha x (List.mem_append_left _ hx)
    rw [show before ++ .dir d w :: (rest ++ [e]) = (before ++ .dir d w :: rest) ++ [e] by simp, run_snoc]
    rcases ha e (by simp) with ⟨l, rfl⟩ | ⟨w', rfl⟩
    · rw [step, message_after _ (inv_run files _) _ i1]
      refine ⟨i1, ?_⟩
      simp [i2, lines]
    · rw [step, setDir_same _ _ _ _ i1]
      exact ⟨i1, by rw [i2]; simp [lines]⟩

/-! ### Other processes -/

theorem rmLoop_none (p : Handler → Bool) (l : List Handler) (h : ∀ x ∈ l, p x = false) :
    rmLoop p l = l := by
  induction l with
  | nil => rfl
  | cons a l ih =>
    have ha := h a (by simp)
    have hl := ih fun x hx => h x (List.mem_cons_of_mem _ hx)
    cases l with
    | nil => simp [rmLoop, ha]
    | cons b l => simp [rmLoop, ha, hl]

theorem message_null (l : Line) (s : State) (h : ∀ n, ∀ x ∈ s.handlers n, x = .null) :
    message l s = s := by
  have hl := h l.logger
  unfold message
  generalize s.handlers l.logger = hs at hl
  induction hs with
  | nil => rfl
  | cons a hs ih =>
    rw [List.foldl_cons, hl a (by simp)]
    exact ih fun x hx => hl x (List.mem_cons_of_mem _ hx)

/-- C51: only the first process writes: no other process changes a file or prints, whatever it
calls. -/
theorem C51_one_writer (files : String → Option (List Line)) (es : List Ev) :
    (run false files es).files = files ∧ (run false files es).console = [] := by
  suffices h : ((run false files es).files = files ∧ (run false files es).console = []) ∧
      ∀ n, ∀ x ∈ (run false files es).handlers n, x = Handler.null from h.1
  induction es using List.reverseRecOn with
  | nil => exact ⟨⟨rfl, rfl⟩, fun n x hx => by simpa [run, setLoggers, fresh, rmLoop] using hx⟩
  | append_singleton es e ih =>
    obtain ⟨⟨i1, i2⟩, i3⟩ := ih
    rw [run_snoc]
    generalize run false files es = s at *
    cases e with
    | msg l => rw [step, message_null l s i3]; exact ⟨⟨i1, i2⟩, i3⟩
    | dir d w =>
      have hrm : ∀ p : Handler → Bool, p .null = false → ∀ n, rmLoop p (s.handlers n) = s.handlers n :=
        fun p hp n => rmLoop_none p _ fun x hx => by rw [i3 n x hx, hp]
      by_cases hf : s.filename = some (logPath d)
      · rw [step, setDir_same _ _ _ _ hf]; exact ⟨⟨i1, i2⟩, i3⟩
      · have hh : ∀ n, ∀ x ∈ s.handlers n ++ [Handler.null], x = Handler.null := by
          intro n x hx
          rcases List.mem_append.1 hx with h | h
          · exact i3 n x h
          · simpa using h
        rw [step]
        unfold setDir
        simp only [if_neg hf, Bool.false_eq_true, and_false, if_false]
        cases ho : s.filename with
        | none =>
          simp only [Option.isSome_none, Bool.false_eq_true, if_false, hrm Handler.isBuffer rfl]
          exact ⟨⟨i1, i2⟩, hh⟩
        | some o =>
          simp only [Option.isSome_some, if_true, hrm Handler.isFile rfl, hrm Handler.isBuffer rfl]
          rw [message_null _ _ hh]
          exact ⟨⟨i1, i2⟩, hh⟩

/-! ### Violations -/

/-- C51 is violated for `keep_log=True` (mode 'a', "append to an existing log file"): the previous
content of the file is lost. -/
theorem C51_keep_log_violated (files : String → Option (List Line)) (d : String) (old : List Line)
    (_h : files (logPath d) = some old) (es : List Ev) (hes : ∀ e ∈ es, ∃ l, e = .msg l) :
    (run true files (es ++ [.dir d false])).files (logPath d) = some (lines es) := by
  have := C51_complete files d false es [] hes (by simp)
  simpa [lines] using this

/-- C51 is violated if `set_thetis_loggers` is called again before the directory is set: the old buffer
handler is skipped by the removal loop, and later messages are written twice to the log. -/
theorem C51_second_setup_violated (files : String → Option (List Line)) (l : Line) (d : String)
    (w : Bool) :
    (setDir true d w (message l (setLoggers true (run true files [])))).files (logPath d)
      = some [l, l] := by
  obtain ⟨n, t⟩ := l
  cases w <;> cases hf : files (logPath d) <;>
    simp [run, setLoggers, fresh, rmLoop, Handler.isStream, message, emit, setDir, hf]

/-- C51 is violated if it is called twice after the directory is set: the file handler is removed, and
later messages are missing in the log even if the same directory is set again. -/
theorem C51_lost_file_violated (files : String → Option (List Line)) (l : Line) (d : String)
    (w : Bool) :
    (message l (setDir true d w
      (setLoggers true (setLoggers true (run true files [.dir d w]))))).files (logPath d)
      = some [] := by
  obtain ⟨n, t⟩ := l
  cases w <;> cases hf : files (logPath d) <;>
    simp [run, step, setLoggers, fresh, rmLoop, Handler.isStream, Handler.isBuffer, message, emit,
      setDir, hf]

end Verif.Log
