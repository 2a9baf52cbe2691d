import Verif.Twin.Model
import Verif.Probe.Props

/-!
C156: the time series that a run writes are the observations that an inversion reads.
-/

namespace Verif.Twin

open Verif.Probe (Str)

variable {ι : Type} [DecidableEq ι] {cb : ι → Station}

/-- What the theorems ask of callbacks: they differ in location or short names of fields, names have no spaces and fields no dashes, and the
short names of a callback are different and not `time`. -/
structure Named (cb : ι → Station) : Prop where
  loc : ∀ i, ' ' ∉ (cb i).loc
  field : ∀ i, ∀ f ∈ (cb i).fields, ' ' ∉ f ∧ '-' ∉ f
  any : ∀ i, (cb i).fields ≠ []
  nodup : ∀ i, ((cb i).fields.map fun f => f.takeWhile (· ≠ '_')).Nodup
  time : ∀ i, ∀ f ∈ (cb i).fields, f.takeWhile (· ≠ '_') ≠ "time".toList
  inj : ∀ i j, (cb i).loc = (cb j).loc →
    ((cb i).fields.map fun f => f.takeWhile (· ≠ '_')) = ((cb j).fields.map fun f => f.takeWhile (· ≠ '_')) → i = j

theorem fileName_id {n : Str} (h : ' ' ∉ n) : Probe.fileName n = n := by
  unfold Probe.fileName
  conv_rhs => rw [← List.map_id n]
  refine List.map_congr_left fun c hc => if_neg ?_
  rintro rfl
  exact h hc

theorem fileName_no (n : Str) : ' ' ∉ Probe.fileName n := by
  unfold Probe.fileName
  intro h
  obtain ⟨c, -, hc⟩ := List.mem_map.1 h
  split_ifs at hc with h'
  · exact absurd hc (by decide)
  · exact h' hc

theorem fieldStr_space {fields : List Str} (h : ∀ f ∈ fields, ' ' ∉ f) : ' ' ∉ Probe.fieldStr fields := by
  have hs : ∀ f, ' ' ∉ f → ' ' ∉ Probe.short f := fun f hf hm => hf ((List.takeWhile_prefix _).subset hm)
  unfold Probe.fieldStr
  induction fields with
  | nil => simp [List.intercalate]
  | cons a l ih =>
    cases l with
    | nil => simpa [List.intercalate] using hs a (h a List.mem_cons_self)
    | cons b l =>
      rw [List.map_cons, List.map_cons, Probe.intercalate_cons]
      intro hm
      rcases List.mem_append.1 hm with hm | hm
      · exact hs a (h a List.mem_cons_self) hm
      · rcases List.mem_cons.1 hm with hm | hm
        · exact absurd hm (by decide)
        · exact ih (fun f hf => h f (List.mem_cons_of_mem _ hf)) hm

theorem name_space {c : Station} (hl : ' ' ∉ c.loc) (hf : ∀ f ∈ c.fields, ' ' ∉ f) : ' ' ∉ Probe.name base c.loc c.fields := by
  unfold Probe.name
  intro h
  rcases List.mem_append.1 h with h | h
  · exact absurd h (by decide)
  rcases List.mem_cons.1 h with h | h
  · exact absurd h (by decide)
  rcases List.mem_append.1 h with h | h
  · exact hl h
  rcases List.mem_cons.1 h with h | h
  · exact absurd h (by decide)
  · exact fieldStr_space hf h

omit [DecidableEq ι] in
theorem Named.written_inj (N : Named cb) {i j : ι} (h : written (cb i) = written (cb j)) : i = j := by
  have h1 := Probe.C108_files _ _ (name_space (N.loc i) fun f hf => (N.field i f hf).1) (name_space (N.loc j) fun f hf => (N.field j f hf).1) h
  obtain ⟨e1, e2⟩ := Probe.C108_names _ _ _ _ _ h1
  exact N.inj i j e1 (e2 (N.any i) (N.any j) (fun f hf => (N.field i f hf).2) fun f hf => (N.field j f hf).2)

omit [DecidableEq ι] in
theorem Named.created (N : Named cb) (i : ι) : ∃ l, Probe.createFile ((cb i).fields.map Probe.short) = some l :=
  ⟨_, Probe.C108_created _ (N.nodup i) fun h => by
    obtain ⟨f, hf, e⟩ := List.mem_map.1 h
    exact N.time i f hf e⟩

/-- The rows that belong to a callback. -/
def rowsOf (cb : ι → Station) (i : ι) (es : List (Event ι)) : List (ℚ × List ℚ) := (es.filter fun e => e.who = i).map (row (cb i))

/-- The state after the evaluations `es`. -/
def Inv (cb : ι → Station) (s : State ι) (es : List (Event ι)) : Prop :=
  ∀ i, (s.init i = true ↔ ∃ e ∈ es, e.who = i) ∧
    (s.init i = true → s.disk (written (cb i)) = some ⟨(cb i).x, (cb i).y, (cb i).fields.map Probe.short, rowsOf cb i es⟩)

theorem push_inv (N : Named cb) {s : State ι} {es : List (Event ι)} (h : Inv cb s es) (e : Event ι) :
    ∃ s', push cb s e = some s' ∧ Inv cb s' (es ++ [e]) := by
  obtain ⟨s1, h1, hd, hi⟩ : ∃ s1, opened cb e.who s = some s1 ∧
      (∀ i, (s1.init i = true ↔ i = e.who ∨ ∃ x ∈ es, x.who = i)) ∧
      ∀ i, s1.init i = true → s1.disk (written (cb i)) = some ⟨(cb i).x, (cb i).y, (cb i).fields.map Probe.short, rowsOf cb i es⟩ := by
    by_cases hin : s.init e.who = true
    · refine ⟨s, by simp [opened, hin], fun i => ?_, fun i => (h i).2⟩
      rw [(h i).1]
      refine ⟨.inr, ?_⟩
      rintro (rfl | hx)
      · exact (h _).1.1 hin
      · exact hx
    · obtain ⟨l, hl⟩ := N.created e.who
      refine ⟨_, by simp only [opened, if_neg hin, hl]; rfl, fun i => ?_, fun i hi => ?_⟩
      · by_cases hie : i = e.who
        · subst hie; simp
        · simp only [Function.update_of_ne hie, hie, false_or]
          exact (h i).1
      · by_cases hie : i = e.who
        · subst hie
          have hempty : rowsOf cb e.who es = [] := by
            unfold rowsOf
            rw [List.map_eq_nil_iff, List.filter_eq_nil_iff]
            intro x hx hxe
            exact hin ((h _).1.2 ⟨x, hx, by simpa using hxe⟩)
          simp [hempty]
        · have hw : written (cb i) ≠ written (cb e.who) := fun hw => hie (N.written_inj hw)
          simp only [Function.update_of_ne hie] at hi
          simp only [Function.update_of_ne hw]
          exact (h i).2 hi
  have hf := hi e.who ((hd _).2 (.inl rfl))
  refine ⟨_, by simp only [push, h1, hf]; rfl, fun i => ⟨?_, fun hii => ?_⟩⟩
  · show s1.init i = true ↔ _
    rw [hd i]
    simp only [List.mem_append, List.mem_singleton]
    constructor
    · rintro (rfl | ⟨x, hx, rfl⟩)
      · exact ⟨e, .inr rfl, rfl⟩
      · exact ⟨x, .inl hx, rfl⟩
    · rintro ⟨x, hx | rfl, rfl⟩
      · exact .inr ⟨x, hx, rfl⟩
      · exact .inl rfl
  · by_cases hie : i = e.who
    · subst hie
      simp [rowsOf]
    · have hw : written (cb i) ≠ written (cb e.who) := fun hw => hie (N.written_inj hw)
      have : rowsOf cb i (es ++ [e]) = rowsOf cb i es := by simp [rowsOf, Ne.symm hie]
      simp only [Function.update_of_ne hw, this]
      exact hi i hii

theorem run_inv (N : Named cb) : ∀ (es : List (Event ι)) (s : State ι) (done : List (Event ι)), Inv cb s done →
    ∃ s', run cb s es = some s' ∧ Inv cb s' (done ++ es)
  | [], s, done, h => ⟨s, rfl, by simpa using h⟩
  | e :: es, s, done, h => by
    obtain ⟨s1, h1, h2⟩ := push_inv N h e
    obtain ⟨s2, h3, h4⟩ := run_inv N es s1 _ h2
    exact ⟨s2, by simp only [run, h1, h3], by simpa using h4⟩

/-- C156: the run raises no exception, whatever files were there before and in whatever order callbacks are evaluated; afterwards the
inversion finds, for any stations with one field of the short name `var` that were evaluated, in the order asked for: their coordinates,
the times of their evaluations and the values of the field at these times, and nothing of other stations. -/
theorem C156_twin_partial (N : Named cb) {s : State ι} (h0 : ∀ i, s.init i = false) (es : List (Event ι)) :
    ∃ s', run cb s es = some s' ∧ ∀ (var : Str) (sel : List ι) (fld : ι → Str),
      (∀ i ∈ sel, (cb i).fields = [fld i] ∧ (fld i).takeWhile (· ≠ '_') = var ∧ ∃ e ∈ es, e.who = i) →
      load s'.disk var (sel.map fun i => (cb i).loc) = some (sel.map fun i =>
        ⟨(cb i).x, (cb i).y, (es.filter fun e => e.who = i).map (·.time), (es.filter fun e => e.who = i).map (·.value (fld i))⟩) := by
  obtain ⟨s', hr, hi⟩ := run_inv N es s [] fun i => ⟨by simp [h0 i], fun h => by rw [h0 i] at h; cases h⟩
  refine ⟨s', hr, fun var sel fld => ?_⟩
  induction sel with
  | nil => intro _; rfl
  | cons i sel ih =>
    intro hs
    obtain ⟨hf, hv, e, he, hw⟩ := hs i List.mem_cons_self
    have hd := (hi i).2 ((hi i).1.2 ⟨e, by simpa using he, hw⟩)
    have hname : written (cb i) = wanted (cb i).loc var := by
      unfold written
      rw [fileName_id (name_space (N.loc i) fun f hf => (N.field i f hf).1), hf, ← hv]
      simp [Probe.name, Probe.fieldStr, Probe.short, wanted, List.intercalate]
    have hshort : (cb i).fields.map Probe.short = [var] := by
      rw [hf, ← hv]; rfl
    have h1 : loadOne s'.disk var (cb i).loc = some ⟨(cb i).x, (cb i).y, (es.filter fun e => e.who = i).map (·.time),
        (es.filter fun e => e.who = i).map (·.value (fld i))⟩ := by
      unfold loadOne
      rw [← hname, hd, hshort]
      simp [rowsOf, row, hf, Function.comp_def]
    simp only [List.map_cons, load, h1, ih fun j hj => hs j (List.mem_cons_of_mem _ hj)]

theorem push_other {s s' : State ι} {e : Event ι} {i : ι} (h : push cb s e = some s') (hi : s.init i = false) (hne : e.who ≠ i) :
    s'.init i = false := by
  unfold push at h
  split at h
  · cases h
  · next s2 h2 =>
    split at h
    · cases h
    · cases h
      unfold opened at h2
      split_ifs at h2
      · cases h2; exact hi
      · split at h2
        · cases h2
        · cases h2
          simp only [Function.update_of_ne (Ne.symm hne)]
          exact hi

/-- C156: a callback with two fields of one short name, or with one that is called `time`, stops the run when it is evaluated, whatever
files are there. -/
theorem C156_stopped {i : ι} (hc : ¬ ((cb i).fields.map fun f => f.takeWhile (· ≠ '_')).Nodup ∨
    "time".toList ∈ (cb i).fields.map fun f => f.takeWhile (· ≠ '_')) : ∀ (es : List (Event ι)) (s : State ι), s.init i = false →
    (∃ e ∈ es, e.who = i) → run cb s es = none
  | [], _, _, h => by simp at h
  | e :: es, s, hs, h => by
    have hcf : Probe.createFile ((cb i).fields.map Probe.short) = none := by
      unfold Probe.createFile
      refine if_neg fun hn => ?_
      rw [List.nodup_cons] at hn
      exact hc.elim (fun h => h hn.2) hn.1
    by_cases hw : e.who = i
    · have : push cb s e = none := by
        have ho : opened cb e.who s = none := by
          rw [hw]
          simp [opened, hs, hcf]
        simp [push, ho]
      simp [run, this]
    · simp only [run]
      cases hp : push cb s e with
      | none => rfl
      | some s' =>
        refine C156_stopped hc es s' (push_other hp hs hw) ?_
        obtain ⟨x, hx, hxi⟩ := h
        rcases List.mem_cons.1 hx with rfl | hx
        · exact absurd hxi hw
        · exact ⟨x, hx, hxi⟩

/-- Two velocities have one short name. -/
example (s : State Unit) (hs : s.init () = false) (e : Event Unit) :
    run (fun _ => ⟨['A'], [['u', 'v', '_', '2', 'd'], ['u', 'v', '_', 'd', 'a', 'v']], 0, 0⟩) s [e] = none :=
  C156_stopped (i := ()) (.inl (by decide)) _ s hs ⟨e, List.mem_cons_self, rfl⟩

/-- C156: what is found has as many times as values. -/
theorem C156_lengths {disk : Str → Option File} {var : Str} : ∀ {names : List Str} {os : List Obs}, load disk var names = some os →
    os.length = names.length ∧ ∀ o ∈ os, o.time.length = o.data.length
  | [], os, h => by cases h; simp
  | s :: ss, os, h => by
    simp only [load] at h
    split at h
    · next o os' h1 h2 =>
      cases h
      obtain ⟨e1, e2⟩ := C156_lengths h2
      refine ⟨by simp [e1], fun o' ho' => ?_⟩
      rcases List.mem_cons.1 ho' with rfl | ho'
      · unfold loadOne at h1
        split at h1
        · cases h1
        · split_ifs at h1
          cases h1
          simp
      · exact e2 o' ho'
    · cases h

/-- C156: a station without a file is an error, whatever the others are. -/
theorem C156_missing {disk : Str → Option File} {var s : Str} (h : disk (wanted s var) = none) : ∀ {names : List Str}, s ∈ names →
    load disk var names = none
  | a :: ss, hs => by
    rcases List.mem_cons.1 hs with rfl | hs
    · simp [load, loadOne, h]
    · simp only [load, C156_missing h hs]
      cases loadOne disk var a <;> rfl

/-- Only files of callbacks are written. -/
theorem run_files (P : Str → Prop) (hP : ∀ i, ¬ P (written (cb i))) : ∀ (es : List (Event ι)) {s s' : State ι},
    (∀ n, P n → s.disk n = none) → run cb s es = some s' → ∀ n, P n → s'.disk n = none
  | [], s, s', h, hr => by cases hr; exact h
  | e :: es, s, s', h, hr => by
    have ne : ∀ n, P n → n ≠ written (cb e.who) := fun n hn => by
      rintro rfl
      exact hP _ hn
    simp only [run] at hr
    split at hr
    · cases hr
    · next s1 h1 =>
      refine run_files P hP es (fun n hn => ?_) hr
      unfold push at h1
      split at h1
      · cases h1
      · next s2 h2 =>
        split at h1
        · cases h1
        · cases h1
          simp only [Function.update_of_ne (ne n hn)]
          unfold opened at h2
          split_ifs at h2
          · cases h2; exact h n hn
          · split at h2
            · cases h2
            · cases h2
              simp only [Function.update_of_ne (ne n hn)]
              exact h n hn

/-- C156 is violated for stations with a space in the name: the run writes the file under another name than the inversion reads. -/
theorem C156_space_violated {s s' : State ι} (h0 : ∀ n, s.disk n = none) {es : List (Event ι)} (h : run cb s es = some s') {var a : Str}
    (ha : ' ' ∈ a) {names : List Str} (hn : a ∈ names) : load s'.disk var names = none := by
  refine C156_missing (run_files (fun n => ' ' ∈ n) (fun i => fileName_no _) es (fun n _ => h0 n) h _ ?_) hn
  unfold wanted
  simp [ha]

/-- C156 is violated for callbacks with several fields: none of them can be read. -/
theorem C156_several_violated {s s' : State ι} (h0 : ∀ n, s.disk n = none) (hsev : ∀ i, 2 ≤ (cb i).fields.length) {es : List (Event ι)}
    (h : run cb s es = some s') {var : Str} (hv : '-' ∉ var ∧ '_' ∉ var) (hsp : ∀ i, ' ' ∉ (cb i).loc ∧ ∀ f ∈ (cb i).fields, ' ' ∉ f)
    {a : Str} {names : List Str} (hn : a ∈ names) : load s'.disk var names = none := by
  refine C156_missing (run_files (fun n => n = wanted a var) (fun i hi => ?_) es (fun n _ => h0 n) h _ rfl) hn
  unfold written at hi
  rw [fileName_id (name_space (hsp i).1 (hsp i).2)] at hi
  unfold Probe.name wanted at hi
  have hi := List.append_cancel_left hi
  simp only [List.cons.injEq, true_and] at hi
  obtain ⟨-, e⟩ := Probe.split_last '_' _ _ _ _ hi (Probe.fieldStr_no _) hv.2
  refine hv.1 (e ▸ ?_)
  have h2 := hsev i
  unfold Probe.fieldStr
  match (cb i).fields, h2 with
  | f :: g :: l, _ =>
    rw [List.map_cons, List.map_cons, Probe.intercalate_cons]
    simp

/-! ### Examples -/

/-- Two stations and one field. -/
def gauges : Bool → Station := fun i => ⟨[if i then 'A' else 'B'], [['e', 'l', 'e', 'v', '_', '2', 'd']], if i then 1 else 2, 0⟩

theorem gauges_named : Named gauges where
  loc := by decide
  field := by decide
  any := by decide
  nodup := by decide
  time := by decide
  inj := by decide

/-- Two evaluations of the first, one of the second in between. -/
def evs {ι : Type} (a b : ι) : List (Event ι) := [⟨a, 0, fun _ => 5⟩, ⟨b, 0, fun _ => 7⟩, ⟨a, 60, fun _ => 6⟩]

example : ∃ s', run gauges ⟨fun _ => none, fun _ => false⟩ (evs true false) = some s' ∧
    load s'.disk ['e', 'l', 'e', 'v'] [['B'], ['A']] = some [⟨2, 0, [0], [7]⟩, ⟨1, 0, [0, 60], [5, 6]⟩] := by
  obtain ⟨s', h, hl⟩ := C156_twin_partial gauges_named (s := ⟨fun _ => none, fun _ => false⟩) (fun _ => rfl) (evs true false)
  refine ⟨s', h, ?_⟩
  have := hl ['e', 'l', 'e', 'v'] [false, true] (fun _ => ['e', 'l', 'e', 'v', '_', '2', 'd']) (by
    intro i _
    refine ⟨rfl, by decide, ?_⟩
    cases i
    · exact ⟨_, List.mem_cons_of_mem _ List.mem_cons_self, rfl⟩
    · exact ⟨_, List.mem_cons_self, rfl⟩)
  simpa [gauges, evs] using this

/-- Stations whose names differ in a space and an underscore. -/
def twins : Bool → Station := fun i => ⟨['A', if i then ' ' else '_', 'B'], [['e', 'l', 'e', 'v', '_', '2', 'd']], if i then 1 else 2, 0⟩

/-- C156 is violated for such stations: the run raises no exception, and what is read for one station are values of both. -/
theorem C156_mixed_violated : ∃ s', run twins ⟨fun _ => none, fun _ => false⟩ (evs true false) = some s' ∧
    load s'.disk ['e', 'l', 'e', 'v'] [['A', '_', 'B']] = some [⟨2, 0, [0, 60], [7, 6]⟩] := by
  refine ⟨_, rfl, ?_⟩
  decide +kernel

/-- The station with the space cannot be read at all. -/
example : ∃ s', run twins ⟨fun _ => none, fun _ => false⟩ (evs true false) = some s' ∧
    load s'.disk ['e', 'l', 'e', 'v'] [['A', ' ', 'B']] = none :=
  ⟨_, rfl, C156_space_violated (s := ⟨fun _ => none, fun _ => false⟩) (cb := twins) (es := evs true false) (fun _ => rfl) rfl
    (a := ['A', ' ', 'B']) (by decide) List.mem_cons_self⟩

/-- One station with two fields. -/
def both : Unit → Station := fun _ => ⟨['A'], [['e', 'l', 'e', 'v', '_', '2', 'd'], ['s', 'a', 'l', 't', '_', '2', 'd']], 1, 0⟩

example : ∃ s', run both ⟨fun _ => none, fun _ => false⟩ (evs () ()) = some s' ∧ load s'.disk ['e', 'l', 'e', 'v'] [['A']] = none := by
  obtain ⟨s', h⟩ : ∃ s', run both ⟨fun _ => none, fun _ => false⟩ (evs () ()) = some s' := Option.isSome_iff_exists.1 (by decide +kernel)
  exact ⟨s', h, C156_several_violated (fun _ => rfl) (by decide) h (by decide) (by decide) List.mem_cons_self⟩

end Verif.Twin
