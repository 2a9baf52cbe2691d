import Verif.Invert.Model
import Mathlib.Tactic.Linarith
import Mathlib.Data.List.Induction

/-!
Properties C55 and C57.
-/

namespace Verif.Invert

/-! ### C55: the division of the lists among the controls -/

/-- One call of `add_control`: the controls and, for a masked combination, the masks. -/
abbrev Call := List ℕ × Option (List ℕ)

/-- A sequence of calls of `add_control` with lists. -/
def addAll (isReal : ℕ → Bool) : List Call → Reg → Option Reg
  | [], r => some r
  | c :: cs, r => (addControl isReal r false c.1 c.2).bind (addAll isReal cs)

theorem add_none (isReal : ℕ → Bool) (fs : List ℕ) (r : Reg) :
    fs.foldl (fun r f => (⟨r.managers ++ [⟨[f], none, !isReal f⟩], r.wrapped ++ [f]⟩ : Reg)) r
      = ⟨r.managers ++ fs.map fun f => ⟨[f], none, !isReal f⟩, r.wrapped ++ fs⟩ := by
  induction fs generalizing r with
  | nil => simp
  | cons f fs ih => simp [ih]

/-- The managers that one call adds. -/
def managersOf (isReal : ℕ → Bool) (c : Call) : List CM :=
  match c.2 with
  | some ms => [⟨c.1, some ms, false⟩]
  | none => c.1.map fun f => ⟨[f], none, !isReal f⟩

theorem addAll_eq (isReal : ℕ → Bool) (cs : List Call) (r r' : Reg)
    (h : addAll isReal cs r = some r') :
    r'.managers = r.managers ++ cs.flatMap (managersOf isReal) ∧
      r'.wrapped = r.wrapped ++ cs.flatMap Prod.fst := by
  induction cs generalizing r with
  | nil => simp only [addAll, Option.some.injEq] at h; simp [h]
  | cons c cs ih =>
    obtain ⟨fs, ms⟩ := c
    simp only [addAll, Option.bind_eq_some_iff] at h
    obtain ⟨r1, h1, h2⟩ := h
    obtain ⟨ha, hb⟩ := ih r1 h2
    cases ms with
    | none =>
      simp only [addControl, add_none, Option.some.injEq] at h1
      subst h1
      simp [ha, hb, managersOf]
    | some ms =>
      simp only [addControl] at h1
      split at h1
      · simp at h1
      · simp only [Option.some.injEq] at h1
        subst h1
        simp [ha, hb, managersOf]

/-- C55: whatever controls are added, the list given to the optimiser has the same functions in the
same order as `control_coeff_list`, that is the order of the calls. -/
theorem C55_order (isReal : ℕ → Bool) (cs : List Call) (r : Reg)
    (h : addAll isReal cs ⟨[], []⟩ = some r) :
    r.wrapped = coeffList r ∧ r.wrapped = cs.flatMap Prod.fst := by
  obtain ⟨ha, hb⟩ := addAll_eq isReal cs _ _ h
  have hm : ∀ c : Call, (managersOf isReal c).flatMap (fun cm => cm.controls) = c.1 := by
    rintro ⟨fs, ms⟩
    cases ms <;> simp [managersOf, List.flatMap_map]
  refine ⟨?_, by simpa using hb⟩
  rw [coeffList, ha, hb]
  simp only [List.nil_append, List.flatMap_assoc]
  exact (List.flatMap_congr fun c _ => hm c).symm

theorem slices_append {α : Type*} (l : List α) (a b : List CM) (ref : ℕ) :
    slices l (a ++ b) ref = slices l a ref ++ slices l b (ref + (a.map numControls).sum) := by
  induction a generalizing ref with
  | nil => simp [slices]
  | cons c a ih => simp [slices, ih, Nat.add_assoc]

theorem slices_length {α : Type*} (l : List α) (a : List CM) (ref : ℕ) :
    (slices l a ref).length = a.length := by
  induction a generalizing ref with
  | nil => rfl
  | cons c a ih => simp [slices, ih]

theorem slices_flatten {α : Type*} (l : List α) (a : List CM) (ref : ℕ) :
    (slices l a ref).flatten = (l.drop ref).take (a.map numControls).sum := by
  induction a generalizing ref with
  | nil => simp [slices]
  | cons c a ih =>
    simp only [slices, List.flatten_cons, ih, List.map_cons, List.sum_cons]
    rw [List.take_add, List.drop_drop]

/-- The calls are as documented: as many masks as controls. -/
def Matching (cs : List Call) : Prop := ∀ c ∈ cs, ∀ ms, c.2 = some ms → ms.length = c.1.length

theorem num_managersOf (isReal : ℕ → Bool) (c : Call) (h : ∀ ms, c.2 = some ms → ms.length = c.1.length) :
    ((managersOf isReal c).map numControls).sum = c.1.length := by
  obtain ⟨fs, ms⟩ := c
  cases ms with
  | none => simp [managersOf, numControls, Function.comp_def]
  | some ms => simpa [managersOf, numControls] using h ms rfl

/-- C55: the slices put one after the other are the whole list: no value is lost and none is used
twice; there is one slice for each manager. -/
theorem C55_slices {α : Type*} (isReal : ℕ → Bool) (cs : List Call) (r : Reg) (l : List α)
    (hcs : Matching cs) (h : addAll isReal cs ⟨[], []⟩ = some r) (hl : l.length = r.wrapped.length) :
    (slices l r.managers 0).flatten = l ∧ (slices l r.managers 0).length = r.managers.length := by
  obtain ⟨ha, hb⟩ := addAll_eq isReal cs _ _ h
  refine ⟨?_, slices_length _ _ _⟩
  rw [slices_flatten, List.drop_zero]
  apply List.take_of_length_le
  rw [hl, hb, ha]
  simp only [List.nil_append]
  apply le_of_eq
  clear h hl ha hb
  induction cs with
  | nil => rfl
  | cons c cs ih =>
    rw [List.flatMap_cons, List.flatMap_cons, List.map_append, List.sum_append, List.length_append,
      num_managersOf isReal c (hcs c (by simp)), ih fun c' hc' => hcs c' (by simp [hc'])]

/-- What has to be written for one call: for plain controls the values of each, for a masked
combination the sum of the products of each control with its own mask. -/
def wanted {ι : Type*} (mask val : ℕ → ι → ℝ) (c : Call) : List (Option (ι → ℝ)) :=
  match c.2 with
  | some ms => [some fun x => ((c.1.zip ms).map fun p => val p.1 x * mask p.2 x).sum]
  | none => c.1.map fun f => some (val f)

theorem export_call {ι : Type*} (isReal : ℕ → Bool) (mask val : ℕ → ι → ℝ) (c : Call)
    (pre post : List (ι → ℝ)) (h : ∀ ms, c.2 = some ms → ms.length = c.1.length) :
    List.zipWith (exported mask) (managersOf isReal c)
      (slices (pre ++ c.1.map val ++ post) (managersOf isReal c) pre.length) = wanted mask val c := by
  obtain ⟨fs, ms⟩ := c
  cases ms with
  | some ms =>
    have hl := h ms rfl
    simp only [managersOf, slices, numControls, List.zipWith_cons_cons, List.zipWith_nil_left, wanted,
      exported, List.append_assoc, List.drop_left]
    rw [hl, List.take_left' (by simp)]
    simp [List.zipWith_map_left, List.zip, List.map_zipWith]
  | none =>
    clear h
    simp only [managersOf, wanted]
    induction fs generalizing pre with
    | nil => rfl
    | cons f fs ih =>
      have := ih (pre ++ [val f])
      simp only [List.append_assoc, List.length_append, List.length_singleton, List.nil_append,
        List.cons_append] at this
      simp only [List.map_cons, slices, numControls, List.zipWith_cons_cons, List.append_assoc,
        List.cons_append, List.drop_left, List.take_succ_cons, List.take_zero]
      rw [this]
      cases hr : isReal f <;> simp [exported]

/-- C55: with the values of the controls in the optimiser's order, what is written for each call of
`add_control` is made of the values of its own controls, in the order of the calls. -/
theorem C55_own {ι : Type*} (isReal : ℕ → Bool) (cs : List Call) (r : Reg) (mask val : ℕ → ι → ℝ)
    (hcs : Matching cs) (h : addAll isReal cs ⟨[], []⟩ = some r) :
    exportAll mask r.managers (r.wrapped.map val) = cs.flatMap (wanted mask val) := by
  obtain ⟨ha, hb⟩ := addAll_eq isReal cs _ _ h
  rw [exportAll, ha, hb]
  simp only [List.nil_append]
  clear h ha hb
  have key : ∀ (cs : List Call) (pre : List (ι → ℝ)), Matching cs →
      List.zipWith (exported mask) (cs.flatMap (managersOf isReal))
        (slices (pre ++ (cs.flatMap Prod.fst).map val) (cs.flatMap (managersOf isReal)) pre.length)
        = cs.flatMap (wanted mask val) := by
    intro cs
    induction cs with
    | nil => intros; rfl
    | cons c cs ih =>
      intro pre hcs
      rw [List.flatMap_cons, List.flatMap_cons, List.flatMap_cons, slices_append,
        List.zipWith_append (by rw [slices_length]), List.map_append, ← List.append_assoc,
        export_call isReal mask val c pre _ (hcs c (by simp)),
        num_managersOf isReal c (hcs c (by simp))]
      congr 1
      have := ih (pre ++ c.1.map val) fun c' hc' => hcs c' (by simp [hc'])
      rwa [List.length_append, List.length_map] at this
  simpa using key cs [] hcs

/-- The hypotheses of `C55_own` are met. -/
example : ∃ r, addAll (fun _ => false) [([0], none), ([1, 2], some [0, 1])] ⟨[], []⟩ = some r ∧
    Matching [([0], none), ([1, 2], some [0, 1])] := by
  refine ⟨_, rfl, ?_⟩
  intro c hc ms hms
  simp at hc
  rcases hc with rfl | rfl
  · simp at hms
  · simp at hms; simp [← hms]

/-- C55 is violated if the numbers of masks and controls differ, which nothing checks: with two controls
and one mask, the next control gets the values of the second one; with two controls and three masks, the
next control gets no value and the export fails. -/
theorem C55_mismatch_violated {ι : Type*} (mask val : ℕ → ι → ℝ) :
    (∃ r, addAll (fun _ => false) [([0, 1], some [0]), ([2], none)] ⟨[], []⟩ = some r ∧
      (exportAll mask r.managers (r.wrapped.map val))[1]? = some (some (val 1))) ∧
    ∃ r, addAll (fun _ => false) [([0, 1], some [0, 1, 2]), ([2], none)] ⟨[], []⟩ = some r ∧
      (exportAll mask r.managers (r.wrapped.map val))[1]? = some none := by
  constructor
  · exact ⟨_, rfl, rfl⟩
  · exact ⟨_, rfl, rfl⟩

/-- C55 is violated for masked controls given as a tuple, which the documentation allows: they are
refused. -/
theorem C55_tuple_violated (isReal : ℕ → Bool) (r : Reg) (cs ms : List ℕ) :
    addControl isReal r true cs (some ms) = none := by
  simp [addControl]

/-! ### C55: the progress lists -/

/-- All lists have one entry per iteration (the controls are stored in the real case only). -/
def Lengths (s : St) : Prop :=
  s.JP.length = s.i ∧ s.JregP.length = s.i ∧ s.JmisP.length = s.i ∧ s.dJP.length = s.i ∧
    s.mP.length = if s.real then s.i else 0

theorem lengths_evalCb {j : ℝ} {tape : List Block} {s s' : St} (h : evalCb j tape s = some s')
    (hs : Lengths s) : Lengths s' := by
  simp only [evalCb, Option.map_eq_some_iff] at h
  obtain ⟨_, -, rfl⟩ := h
  exact hs

theorem lengths_update {s s' : St} (h : updateProgress s = some s') (hs : Lengths s) : Lengths s' := by
  unfold updateProgress at h
  obtain ⟨h1, h2, h3, h4, h5⟩ := hs
  split at h
  · simp at h
  · simp at h
  · simp only [Option.some.injEq] at h
    subst h
    simp only [Lengths, List.length_append, List.length_singleton, h1, h2, h3, h4, true_and]
    by_cases hr : s.real = true <;> simp_all

theorem lengths_dump {s s' : St} (h : dump s = some s') (hs : Lengths s) : Lengths s' := by
  unfold dump at h
  split at h
  · simp only [Option.some.injEq] at h; subst h; exact hs
  · simp at h

theorem lengths_step (e : Ev) {s s' : St} (h : step e s = some s') (hs : Lengths s) : Lengths s' := by
  cases e with
  | eval j tape => exact lengths_evalCb h hs
  | grad dj m =>
    simp only [step, Option.some.injEq] at h; subst h; exact hs
  | accept =>
    simp only [step, accept, Option.bind_eq_some_iff] at h
    obtain ⟨s1, h1, h2⟩ := h
    have := lengths_update h1 hs
    split at h2
    · simp only [Option.some.injEq] at h2; subst h2; exact this
    · exact lengths_dump h2 this
  | start j tape dj m =>
    simp only [step, start, Option.bind_eq_some_iff] at h
    obtain ⟨s1, h1, s2, h2, h3⟩ := h
    have hs1 : Lengths s1 := lengths_evalCb h1 hs
    have hs2 : Lengths s2 := lengths_update h2 hs1
    split at h3
    · simp only [Option.some.injEq] at h3; subst h3; exact hs2
    · simp only [Option.bind_eq_some_iff] at h3
      obtain ⟨soms, -, h4⟩ := h3
      exact lengths_dump h4 hs2

/-- C55: after any sequence of evaluations, gradients, accepted steps and restarts, every progress list
has exactly one entry per iteration. -/
theorem C55_lengths (real noExports : Bool) (vars : List String) (es : List Ev) (s : St)
    (h : run es (fresh real noExports vars) = some s) :
    s.JP.length = s.i ∧ s.JregP.length = s.i ∧ s.JmisP.length = s.i ∧ s.dJP.length = s.i ∧
      s.mP.length = if real then s.i else 0 := by
  have key : ∀ (es : List Ev) (s0 s : St), Lengths s0 → run es s0 = some s →
      Lengths s ∧ s.real = s0.real := by
    intro es
    induction es with
    | nil => intro s0 s h0 h; simp only [run, Option.some.injEq] at h; subst h; exact ⟨h0, rfl⟩
    | cons e es ih =>
      intro s0 s h0 h
      simp only [run, Option.bind_eq_some_iff] at h
      obtain ⟨s1, h1, h2⟩ := h
      obtain ⟨ha, hb⟩ := ih s1 s (lengths_step e h1 h0) h2
      refine ⟨ha, hb.trans ?_⟩
      have hu : ∀ {a b : St}, updateProgress a = some b → b.real = a.real := by
        intro a b hab
        unfold updateProgress at hab
        split at hab <;> simp at hab
        subst hab; rfl
      have hd : ∀ {a b : St}, dump a = some b → b.real = a.real := by
        intro a b hab
        unfold dump at hab
        split at hab <;> simp at hab
        subst hab; rfl
      have hev : ∀ {j tape} {a b : St}, evalCb j tape a = some b → b.real = a.real := by
        intro j tape a b hab
        simp only [evalCb, Option.map_eq_some_iff] at hab
        obtain ⟨_, -, rfl⟩ := hab; rfl
      cases e with
      | eval j tape => exact hev h1
      | grad dj m => simp only [step, Option.some.injEq] at h1; subst h1; rfl
      | accept =>
        simp only [step, accept, Option.bind_eq_some_iff] at h1
        obtain ⟨s2, h3, h4⟩ := h1
        split at h4
        · simp only [Option.some.injEq] at h4; subst h4; exact hu h3
        · exact (hd h4).trans (hu h3)
      | start j tape dj m =>
        simp only [step, start, Option.bind_eq_some_iff] at h1
        obtain ⟨s2, h3, s3, h4, h5⟩ := h1
        have e0 := hev h3
        have e1 : s3.real = s0.real := (hu h4).trans e0
        split at h5
        · simp only [Option.some.injEq] at h5; subst h5; exact e1
        · simp only [Option.bind_eq_some_iff] at h5
          obtain ⟨soms, -, h6⟩ := h5
          exact (hd h6).trans e1
  have h0 : Lengths (fresh real noExports vars) := by
    refine ⟨rfl, rfl, rfl, rfl, ?_⟩
    cases real <;> rfl
  obtain ⟨⟨h1, h2, h3, h4, h5⟩, hr⟩ := key es _ s h0 h
  have : s.real = real := hr
  exact ⟨h1, h2, h3, h4, by rw [h5, this]⟩

/-! ### C57: the stored series -/

/-- The entry that a manager has to store for a tape: the values of its variable. -/
def entry (tape : List Block) (v : String) : List (List ℝ) := select (v ++ " observation") tape

/-- An event of a line search: an evaluation or a gradient. -/
def IsSearch : Ev → Prop
  | .eval _ _ => True
  | .grad _ _ => True
  | _ => False

/-- One iteration: any search, a last evaluation, gradients only, and the acceptance. -/
structure Iter where
  search : List Ev
  j : ℝ
  tape : List Block
  grads : List (List ℝ × List ℝ)

/-- The events of an iteration. -/
def Iter.events (it : Iter) : List Ev :=
  it.search ++ [.eval it.j it.tape] ++ it.grads.map (fun g => .grad g.1 g.2) ++ [.accept]

/-- `done v` are the finished entries of the manager of `v`; at most one more entry is in work. -/
def Inv (vars : List String) (done : String → List (List (List ℝ))) (s : St) : Prop :=
  ∃ (E : String → List (List (List ℝ))) (L : ℤ),
    s.soms = vars.map (fun v => ⟨v, done v ++ E v, L⟩) ∧
      ((L < s.i ∧ ∀ v, E v = []) ∨ (L = s.i ∧ ∀ v, (E v).length = 1))

theorem collectAll_eq (it : ℤ) (tape : List Block) (vars : List String)
    (S : String → List (List (List ℝ))) (L : ℤ) (soms : List Som)
    (h : collectAll it tape (vars.map fun v => ⟨v, S v, L⟩) = some soms) :
    soms = vars.map fun v =>
      ⟨v, (if it = L then (S v).dropLast else S v) ++ [entry tape v], it⟩ := by
  induction vars generalizing soms with
  | nil => simp [collectAll] at h; simp [← h]
  | cons v vs ih =>
    simp only [List.map_cons, collectAll] at h
    split at h
    · simp at h
    · rename_i s' hs'
      simp only [Option.map_eq_some_iff] at h
      obtain ⟨rest, hrest, rfl⟩ := h
      rw [ih rest hrest]
      simp only [List.map_cons, List.cons.injEq, and_true]
      unfold collect at hs'
      simp only at hs'
      split at hs'
      · simp at hs'
      · split at hs'
        · rename_i hit
          split at hs'
          · simp at hs'
          · simp only [Option.some.injEq] at hs'
            rw [← hs', if_pos hit]; rfl
        · rename_i hit
          simp only [Option.some.injEq] at hs'
          rw [← hs', if_neg hit]; rfl

/-- After an evaluation the entry in work is that of its tape. -/
theorem inv_evalCb {vars : List String} {done : String → List (List (List ℝ))} {j : ℝ}
    {tape : List Block} {s s' : St} (hs : Inv vars done s) (h : evalCb j tape s = some s') :
    s'.soms = vars.map (fun v => ⟨v, done v ++ [entry tape v], (s.i : ℤ)⟩) ∧ s'.i = s.i ∧
      s'.JP = s.JP ∧ s'.J = j ∧ s'.noExports = s.noExports ∧ s'.dumps = s.dumps ∧ s'.tape = tape := by
  simp only [evalCb, Option.map_eq_some_iff] at h
  obtain ⟨soms, hc, rfl⟩ := h
  obtain ⟨E, L, hE, hcase⟩ := hs
  rw [hE] at hc
  have := collectAll_eq _ _ _ _ _ _ hc
  refine ⟨?_, rfl, rfl, rfl, rfl, rfl, rfl⟩
  simp only
  rw [this]
  apply List.map_congr_left
  intro v _
  rcases hcase with ⟨hL, h0⟩ | ⟨hL, h1⟩
  · rw [if_neg (by omega), h0 v, List.append_nil]
  · rw [if_pos hL.symm]
    obtain ⟨x, hx⟩ := List.length_eq_one_iff.1 (h1 v)
    rw [hx, List.dropLast_concat]

theorem inv_search {vars : List String} {done : String → List (List (List ℝ))} (es : List Ev)
    {s s' : St} (he : ∀ e ∈ es, IsSearch e) (hs : Inv vars done s) (h : run es s = some s') :
    Inv vars done s' ∧ s'.i = s.i ∧ s'.JP = s.JP ∧ s'.noExports = s.noExports ∧ s'.dumps = s.dumps := by
  induction es generalizing s with
  | nil => simp only [run, Option.some.injEq] at h; subst h; exact ⟨hs, rfl, rfl, rfl, rfl⟩
  | cons e es ih =>
    simp only [run, Option.bind_eq_some_iff] at h
    obtain ⟨s1, h1, h2⟩ := h
    have he' := he e (by simp)
    cases e with
    | eval j tape =>
      obtain ⟨ha, hb, hc, -, hd, hdu, -⟩ := inv_evalCb hs h1
      have hi : Inv vars done s1 :=
        ⟨fun v => [entry tape v], s.i, ha, Or.inr ⟨by rw [hb], fun _ => rfl⟩⟩
      obtain ⟨q, q1, q2, q3, q4⟩ := ih (fun e h => he e (by simp [h])) hi h2
      exact ⟨q, q1.trans hb, q2.trans hc, q3.trans hd, q4.trans hdu⟩
    | grad dj m =>
      simp only [step, Option.some.injEq] at h1; subst h1
      have hs' : Inv vars done (gradCb dj m s) := hs
      have := ih (s := gradCb dj m s) (fun e h => he e (by simp [h])) hs' h2
      exact this
    | accept => exact absurd he' (by simp [IsSearch])
    | start => exact absurd he' (by simp [IsSearch])

theorem run_append (a b : List Ev) (s : St) : run (a ++ b) s = (run a s).bind (run b) := by
  induction a generalizing s with
  | nil => rfl
  | cons e a ih =>
    simp only [List.cons_append, run]
    cases step e s with
    | none => rfl
    | some s1 => exact ih s1

theorem run_grads (gs : List (List ℝ × List ℝ)) (s s' : St)
    (h : run (gs.map fun g => Ev.grad g.1 g.2) s = some s') :
    s'.soms = s.soms ∧ s'.i = s.i ∧ s'.JP = s.JP ∧ s'.J = s.J ∧ s'.noExports = s.noExports ∧
      s'.dumps = s.dumps := by
  induction gs generalizing s with
  | nil => simp only [List.map_nil, run, Option.some.injEq] at h; subst h; simp
  | cons g gs ih =>
    simp only [List.map_cons, run, step, Option.bind_some] at h
    obtain ⟨h1, h2, h3, h4, h5, h6⟩ := ih _ h
    exact ⟨h1, h2, h3, h4, h5, h6⟩

theorem update_fields {s s' : St} (h : updateProgress s = some s') :
    s'.soms = s.soms ∧ s'.i = s.i + 1 ∧ s'.JP = s.JP ++ [s.J] ∧ s'.noExports = s.noExports ∧
      s'.dumps = s.dumps ∧ s'.tape = s.tape := by
  unfold updateProgress at h
  split at h
  · simp at h
  · simp at h
  · simp only [Option.some.injEq] at h; subst h; exact ⟨rfl, rfl, rfl, rfl, rfl, rfl⟩

theorem dump_fields {s s' : St} (h : dump s = some s') :
    s'.soms = s.soms ∧ s'.i = s.i ∧ s'.JP = s.JP ∧ s'.noExports = s.noExports ∧
      s'.dumps = s.dumps ++ [s.soms.map Som.series] := by
  unfold dump at h
  split at h
  · simp only [Option.some.injEq] at h; subst h; exact ⟨rfl, rfl, rfl, rfl, rfl⟩
  · simp at h

/-- One iteration finishes one entry. -/
theorem iter_inv {vars : List String} {done : String → List (List (List ℝ))} (it : Iter) {s s' : St}
    (he : ∀ e ∈ it.search, IsSearch e) (hs : Inv vars done s) (h : run it.events s = some s') :
    s'.soms = vars.map (fun v => ⟨v, done v ++ [entry it.tape v], (s.i : ℤ)⟩) ∧ s'.i = s.i + 1 ∧
      s'.JP = s.JP ++ [it.j] ∧ s'.noExports = s.noExports ∧
      (s.noExports = false →
        s'.dumps = s.dumps ++ [vars.map fun v => done v ++ [entry it.tape v]]) := by
  rw [Iter.events, run_append, run_append, run_append] at h
  simp only [Option.bind_eq_some_iff] at h
  obtain ⟨s3, ⟨s2, ⟨s1, h1, h2⟩, h3⟩, h4⟩ := h
  obtain ⟨ia, ib, ic, id, ie⟩ := inv_search it.search he hs h1
  simp only [run, step, Option.bind_eq_some_iff] at h2
  obtain ⟨s2', h2, h2'⟩ := h2
  simp only [Option.some.injEq] at h2'
  subst h2'
  obtain ⟨ea, eb, ec, ed, ee, ef, -⟩ := inv_evalCb ia h2
  obtain ⟨ga, gb, gc, gd, ge, gf⟩ := run_grads _ _ _ h3
  simp only [run, step, accept, Option.bind_eq_some_iff] at h4
  obtain ⟨s5, ⟨s4, h5, h6⟩, h7⟩ := h4
  simp only [Option.some.injEq] at h7
  subst h7
  obtain ⟨ua, ub, uc, ud, ue, -⟩ := update_fields h5
  have hsoms : s4.soms = vars.map (fun v => ⟨v, done v ++ [entry it.tape v], (s.i : ℤ)⟩) := by
    rw [ua, ga, ea, ib]
  have hi : s4.i = s.i + 1 := by rw [ub, gb, eb, ib]
  have hJ : s4.JP = s.JP ++ [it.j] := by rw [uc, gc, ec, ic, gd, ed]
  have hn : s4.noExports = s.noExports := by rw [ud, ge, ee, id]
  have hdu : s4.dumps = s.dumps := by rw [ue, gf, ef, ie]
  split at h6
  · rename_i hne
    simp only [Option.some.injEq] at h6; subst h6
    refine ⟨hsoms, hi, hJ, hn, ?_⟩
    intro hf; rw [hn, hf] at hne; simp at hne
  · obtain ⟨da, db, dc, dd, de⟩ := dump_fields h6
    refine ⟨da.trans hsoms, db.trans hi, dc.trans hJ, dd.trans hn, ?_⟩
    intro _
    rw [de, hdu, hsoms]
    simp [List.map_map, Function.comp_def]

/-- After the first part of `minimize`. -/
theorem start_inv {vars : List String} {done : String → List (List (List ℝ))} (j : ℝ)
    (tape : List Block) (dj m : List ℝ) {s s' : St} (hs : Inv vars done s)
    (h : start j tape dj m s = some s') :
    Inv vars (fun v => done v ++ [entry tape v]) s' ∧ s'.i = s.i + 1 ∧ s'.JP = s.JP ++ [j] ∧
      s'.noExports = s.noExports ∧
      s'.soms.map Som.series = vars.map (fun v => done v ++
        if s.noExports then [entry tape v] else [entry tape v, entry tape v]) ∧
      (s.noExports = false → s'.dumps = s.dumps ++
        [vars.map fun v => done v ++ [entry tape v, entry tape v]]) := by
  simp only [start, Option.bind_eq_some_iff] at h
  obtain ⟨s1, h1, s2, h2, h3⟩ := h
  have hs0 : Inv vars done { s with grads := 0 } := hs
  obtain ⟨ea, eb, ec, ed, ee, ef, et⟩ := inv_evalCb hs0 h1
  obtain ⟨ua, ub, uc, ud, ue, ut⟩ := update_fields h2
  have hsoms : s2.soms = vars.map (fun v => ⟨v, done v ++ [entry tape v], (s.i : ℤ)⟩) := ua.trans ea
  have hi : s2.i = s.i + 1 := by rw [ub]; exact congrArg (· + 1) eb
  have hJ : s2.JP = s.JP ++ [j] := by rw [uc]; exact congrArg (· ++ [j]) ec
  have hn : s2.noExports = s.noExports := ud.trans ee
  have ht : s2.tape = tape := ut.trans et
  split at h3
  · rename_i hne
    simp only [Option.some.injEq] at h3
    subst h3
    rw [hn] at hne
    refine ⟨⟨fun _ => [], s.i, by simpa using hsoms, Or.inl ⟨by rw [hi]; push_cast; omega,
      fun _ => rfl⟩⟩, hi, hJ, hn, ?_, ?_⟩
    · rw [hsoms, hne]; simp [Function.comp_def]
    · intro hf; rw [hf] at hne; simp at hne
  · rename_i hne
    rw [hn] at hne
    have hne' : s.noExports = false := by simpa using hne
    simp only [Option.bind_eq_some_iff] at h3
    obtain ⟨soms, hc, h4⟩ := h3
    rw [hsoms, ht, hi] at hc
    have hq := collectAll_eq _ _ _ _ _ _ hc
    obtain ⟨da, db, dc, dd, de⟩ := dump_fields h4
    have hlist : soms = vars.map (fun v =>
        ⟨v, (done v ++ [entry tape v]) ++ [entry tape v], ((s.i + 1 : ℕ) : ℤ)⟩) := by
      rw [hq]
      apply List.map_congr_left
      intro v _
      rw [if_neg (by push_cast; omega)]
    have hser : soms.map Som.series = vars.map fun v => done v ++ [entry tape v, entry tape v] := by
      rw [hlist]; simp [Function.comp_def]
    refine ⟨⟨fun v => [entry tape v], ((s.i + 1 : ℕ) : ℤ), da.trans hlist,
      Or.inr ⟨by rw [db]; exact congrArg _ hi.symm, fun _ => rfl⟩⟩, db.trans hi, dc.trans hJ,
      dd.trans hn, ?_, ?_⟩
    · rw [da, hne']
      simpa using hser
    · intro _
      rw [de, ue, hser]
      exact congrArg (· ++ _) ef

/-- The start of an optimisation, with any evaluations before it (consistency and Taylor tests). -/
def opening (pre : List Ev) (j : ℝ) (tape : List Block) (dj m : List ℝ) : List Ev :=
  pre ++ [.start j tape dj m]

theorem iters_inv {vars : List String} (its : List Iter) {done : String → List (List (List ℝ))}
    {s s' : St} (he : ∀ it ∈ its, ∀ e ∈ it.search, IsSearch e) (hs : Inv vars done s)
    (h : run (its.flatMap Iter.events) s = some s') :
    Inv vars (fun v => done v ++ its.map fun it => entry it.tape v) s' ∧ s'.i = s.i + its.length ∧
      s'.JP = s.JP ++ its.map Iter.j ∧ s'.noExports = s.noExports ∧
      (its ≠ [] → s'.soms.map Som.series = vars.map fun v => done v ++ its.map fun it => entry it.tape v) ∧
      (s.noExports = false → its ≠ [] → s'.dumps.getLast? =
        some (vars.map fun v => done v ++ its.map fun it => entry it.tape v)) := by
  induction its generalizing s done with
  | nil =>
    simp only [List.flatMap_nil, run, Option.some.injEq] at h
    subst h
    simpa using hs
  | cons it its ih =>
    rw [List.flatMap_cons, run_append] at h
    simp only [Option.bind_eq_some_iff] at h
    obtain ⟨s1, h1, h2⟩ := h
    obtain ⟨ia, ib, ic, id, ie⟩ := iter_inv it (he it (by simp)) hs h1
    have hi : Inv vars (fun v => done v ++ [entry it.tape v]) s1 :=
      ⟨fun _ => [], s.i, by simpa using ia, Or.inl ⟨by rw [ib]; push_cast; omega, fun _ => rfl⟩⟩
    obtain ⟨ja, jb, jc, jd, je, jf⟩ := ih (fun i hi => he i (by simp [hi])) hi h2
    refine ⟨by simpa using ja, by rw [jb, ib, List.length_cons]; omega, by rw [jc, ic]; simp,
      jd.trans id, ?_, ?_⟩
    · intro _
      cases its with
      | nil =>
        simp only [List.flatMap_nil, run, Option.some.injEq] at h2
        subst h2
        rw [ia]
        simp [Function.comp_def]
      | cons a b => simpa using je (by simp)
    · intro hne _
      cases its with
      | nil =>
        simp only [List.flatMap_nil, run, Option.some.injEq] at h2
        subst h2
        rw [ie hne]
        simp
      | cons a b => simpa using jf (id.trans hne) (by simp)

theorem fresh_inv (real noExports : Bool) (vars : List String) :
    Inv vars (fun _ => []) (fresh real noExports vars) :=
  ⟨fun _ => [], -1, by simp [fresh], Or.inl ⟨by simp [fresh], fun _ => rfl⟩⟩

/-- C57: after the first evaluation and at least one iteration, however many evaluations each search
took, every manager has exactly one entry for the start and one for each iteration, each that of the
last evaluation; their number is that of the progress list of the cost function, whose entries belong to
the same evaluations.  This is also what the last file contains. -/
theorem C57_series (real noExports : Bool) (vars : List String) (pre : List Ev) (j : ℝ)
    (tape : List Block) (dj m : List ℝ) (its : List Iter) (s : St)
    (hpre : ∀ e ∈ pre, IsSearch e) (hits : ∀ it ∈ its, ∀ e ∈ it.search, IsSearch e)
    (hne : its ≠ [])
    (h : run (opening pre j tape dj m ++ its.flatMap Iter.events) (fresh real noExports vars) = some s) :
    s.soms.map Som.series
        = vars.map (fun v => entry tape v :: its.map fun it => entry it.tape v) ∧
      s.JP = j :: its.map Iter.j ∧ s.i = its.length + 1 ∧
      (real = false → noExports = false → s.dumps.getLast? =
        some (vars.map fun v => entry tape v :: its.map fun it => entry it.tape v)) := by
  rw [opening, run_append, run_append] at h
  simp only [Option.bind_eq_some_iff] at h
  obtain ⟨s2, ⟨s1, h1, h2⟩, h3⟩ := h
  obtain ⟨pa, pb, pc, pd, pe⟩ := inv_search pre hpre (fresh_inv real noExports vars) h1
  simp only [run, Option.bind_eq_some_iff] at h2
  obtain ⟨s2', h2, h2'⟩ := h2
  simp only [Option.some.injEq] at h2'
  subst h2'
  obtain ⟨sa, sb, sc, sd, -, -⟩ := start_inv j tape dj m pa h2
  obtain ⟨ia, ib, ic, id, ie, ig⟩ := iters_inv its hits sa h3
  refine ⟨by simpa using ie hne, ?_, ?_, ?_⟩
  · rw [ic, sc, pc]; rfl
  · rw [ib, sb, pb]; simp [fresh]; omega
  · intro hr hn
    have : s2'.noExports = false := by rw [sd, pd, hr, hn]; rfl
    simpa using ig this hne

/-- C57 without exports: the same already holds before the first iteration. -/
theorem C57_series_start (real : Bool) (vars : List String) (pre : List Ev) (j : ℝ)
    (tape : List Block) (dj m : List ℝ) (s : St) (hpre : ∀ e ∈ pre, IsSearch e)
    (h : run (opening pre j tape dj m) (fresh real true vars) = some s) :
    s.soms.map Som.series = vars.map (fun v => [entry tape v]) ∧ s.JP = [j] := by
  rw [opening, run_append] at h
  simp only [Option.bind_eq_some_iff] at h
  obtain ⟨s1, h1, h2⟩ := h
  obtain ⟨pa, pb, pc, pd, pe⟩ := inv_search pre hpre (fresh_inv real true vars) h1
  simp only [run, Option.bind_eq_some_iff] at h2
  obtain ⟨s2', h2, h2'⟩ := h2
  simp only [Option.some.injEq] at h2'
  subst h2'
  obtain ⟨sa, sb, sc, sd, se, -⟩ := start_inv j tape dj m pa h2
  rw [pd] at se
  refine ⟨by simpa [fresh] using se, by rw [sc, pc]; rfl⟩

/-- C57 is violated with exports before the first iteration: the start is stored and written twice,
while the progress list of the cost function has one entry.  It stays so if the optimiser accepts no
step. -/
theorem C57_start_violated (vars : List String) (pre : List Ev) (j : ℝ)
    (tape : List Block) (dj m : List ℝ) (s : St) (hpre : ∀ e ∈ pre, IsSearch e)
    (h : run (opening pre j tape dj m) (fresh false false vars) = some s) :
    s.soms.map Som.series = vars.map (fun v => [entry tape v, entry tape v]) ∧ s.JP = [j] ∧
      s.dumps = [vars.map fun v => [entry tape v, entry tape v]] := by
  rw [opening, run_append] at h
  simp only [Option.bind_eq_some_iff] at h
  obtain ⟨s1, h1, h2⟩ := h
  obtain ⟨pa, pb, pc, pd, pe⟩ := inv_search pre hpre (fresh_inv false false vars) h1
  simp only [run, Option.bind_eq_some_iff] at h2
  obtain ⟨s2', h2, h2'⟩ := h2
  simp only [Option.some.injEq] at h2'
  subst h2'
  obtain ⟨sa, sb, sc, sd, se, sf⟩ := start_inv j tape dj m pa h2
  rw [pd] at se sf
  refine ⟨by simpa [fresh] using se, by rw [sc, pc]; rfl, ?_⟩
  have := sf (by simp [fresh])
  rw [this, pe]
  simp [fresh]

/-- The runs of `C57_series` and `C57_start_violated` exist. -/
example : ∃ s, run (opening [] 2 [("elev observation", [1])] [1] [0] ++
    [⟨[.eval 3 [("elev observation", [5])]], 1, [("elev observation", [4])], [([1], [0])]⟩].flatMap
      Iter.events) (fresh false false ["elev"]) = some s := by
  exact Option.isSome_iff_exists.1 rfl

theorem tag_inj (v w : String) (h : v ++ " observation" = w ++ " observation") : v = w := by
  have := congrArg String.toList h
  simp only [String.toList_append, List.append_cancel_right_eq] at this
  exact String.toList_injective this

theorem tag_ne (v w : String) (hw : w.toList.getLast? ≠ some 'n') : v ++ " observation" ≠ w := by
  rintro rfl
  apply hw
  rw [String.toList_append, List.getLast?_append_of_ne_nil _ (by decide)]
  decide

theorem filter_one (v : String) (mgrs : List (String × (ℕ → List ℝ) × (ℕ → ℝ))) (t : ℕ)
    (hn : (mgrs.map Prod.fst).Nodup) (g : String × (ℕ → List ℝ) × (ℕ → ℝ)) (hg : g ∈ mgrs)
    (hv : g.1 = v) :
    (mgrs.flatMap fun g => ([(g.1 ++ " observation", g.2.1 t), ("misfit_eval", [g.2.2 t])] :
      List Block)).filter (fun b => b.1 == v ++ " observation") = [(v ++ " observation", g.2.1 t)] := by
  have hm : ("misfit_eval" == v ++ " observation") = false := by
    rw [beq_eq_false_iff_ne]; exact (tag_ne v _ (by decide)).symm
  induction mgrs with
  | nil => simp at hg
  | cons a as ih =>
    rw [List.map_cons, List.nodup_cons] at hn
    rw [List.flatMap_cons, List.filter_append]
    simp only [List.filter_cons, List.filter_nil, hm, Bool.false_eq_true, if_false]
    rcases List.mem_cons.1 hg with rfl | hg'
    · rw [hv]
      simp only [beq_self_eq_true, if_true]
      have : (as.flatMap fun g => ([(g.1 ++ " observation", g.2.1 t), ("misfit_eval", [g.2.2 t])] :
          List Block)).filter (fun b => b.1 == v ++ " observation") = [] := by
        rw [List.filter_eq_nil_iff]
        intro b hb
        simp only [List.mem_flatMap, List.mem_cons, List.not_mem_nil, or_false] at hb
        obtain ⟨g', hg', rfl | rfl⟩ := hb
        · simp only [beq_iff_eq]
          intro he
          have := tag_inj _ _ he
          apply hn.1
          rw [hv, ← this]
          exact List.mem_map_of_mem hg'
        · simp [hm]
      rw [this]; rfl
    · have hne : (a.1 ++ " observation" == v ++ " observation") = false := by
        rw [beq_eq_false_iff_ne]
        intro he
        have := tag_inj _ _ he
        apply hn.1
        rw [this, ← hv]
        exact List.mem_map_of_mem hg'
      simp only [hne, Bool.false_eq_true, if_false, List.nil_append]
      exact ih hn.2 hg'

/-- C57: if the managers observe different variables, the entry that a manager stores is that of its own
stations, one row for each evaluation of the cost function. -/
theorem C57_own (regs : List ℝ) (mgrs : List (String × (ℕ → List ℝ) × (ℕ → ℝ))) (n : ℕ)
    (hn : (mgrs.map Prod.fst).Nodup) (g : String × (ℕ → List ℝ) × (ℕ → ℝ)) (hg : g ∈ mgrs) :
    entry (forwardTape regs mgrs n) g.1 = (List.range n).map g.2.1 := by
  have hr : ("reg_eval" == g.1 ++ " observation") = false := by
    rw [beq_eq_false_iff_ne]; exact (tag_ne g.1 _ (by decide)).symm
  rw [entry, select, forwardTape, List.filter_append, List.map_append]
  have h1 : (regs.map fun r => (("reg_eval", [r]) : Block)).filter
      (fun b => b.1 == g.1 ++ " observation") = [] := by
    rw [List.filter_eq_nil_iff]
    intro b hb
    simp only [List.mem_map] at hb
    obtain ⟨r, -, rfl⟩ := hb
    simp [hr]
  rw [h1, List.map_nil, List.nil_append, List.filter_flatMap]
  rw [List.flatMap_congr (fun t _ => filter_one g.1 mgrs t hn g hg rfl)]
  generalize List.range n = l
  induction l with
  | nil => rfl
  | cons a l ih => rw [List.flatMap_cons, List.map_append, ih]; rfl

/-- C57 is violated if two managers observe the same variable at different stations: each stores the
rows of both. -/
theorem C57_shared_violated (a b : ℕ → List ℝ) (p q : ℕ → ℝ) :
    entry (forwardTape [] [("elev", a, p), ("elev", b, q)] 1) "elev" = [a 0, b 0] := by
  rfl

/-- ... and an error follows if the numbers of stations differ. -/
theorem C57_shared_error_violated (x y z : ℝ) (p q : ℕ → ℝ) :
    collect 0 (forwardTape [] [("elev", fun _ => [x], p), ("elev", fun _ => [y, z], q)] 1)
      ⟨"elev", [], -1⟩ = none := by
  have : select ("elev" ++ " observation")
      (forwardTape [] [("elev", fun _ => [x], p), ("elev", fun _ => [y, z], q)] 1) = [[x], [y, z]] := rfl
  simp only [collect, this]
  simp

end Verif.Invert
