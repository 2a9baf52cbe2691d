import Verif.Invert.Props

/-!
Properties C55 and C57: values stored for an iteration, and absence of errors.
-/

namespace Verif.Invert

/-- What the three parts of the state depend on after a search: only its last evaluation and its last
gradient. -/
theorem run_grads_all (gs : List (List ℝ × List ℝ)) (s s' : St)
    (h : run (gs.map fun g => Ev.grad g.1 g.2) s = some s') :
    s' = { s with
      dJ := match gs.getLast? with | some g => some g.1 | none => s.dJ,
      m := match gs.getLast? with | some g => g.2 | none => s.m,
      grads := s.grads + gs.length } := by
  induction gs generalizing s with
  | nil => simp only [List.map_nil, run, Option.some.injEq] at h; subst h; simp
  | cons g gs ih =>
    simp only [List.map_cons, run, step, Option.bind_some] at h
    rw [ih _ h]
    cases gs with
    | nil => simp [gradCb]
    | cons a b =>
      simp only [gradCb, List.getLast?_cons_cons, List.length_cons]
      have : (a :: b).getLast? = some ((a :: b).getLast (by simp)) := List.getLast?_eq_some_getLast _
      rw [this]
      simp only [St.mk.injEq, true_and, and_true]
      omega

theorem run_search_keep (es : List Ev) (s s' : St) (he : ∀ e ∈ es, IsSearch e)
    (h : run es s = some s') :
    s'.JregP = s.JregP ∧ s'.JmisP = s.JmisP ∧ s'.dJP = s.dJP ∧ s'.mP = s.mP ∧ s'.real = s.real ∧
      s'.JP = s.JP := by
  induction es generalizing s with
  | nil => simp only [run, Option.some.injEq] at h; subst h; simp
  | cons e es ih =>
    simp only [run, Option.bind_eq_some_iff] at h
    obtain ⟨s1, h1, h2⟩ := h
    have := ih s1 (fun e h => he e (by simp [h])) h2
    cases e with
    | eval j tape =>
      simp only [step, evalCb, Option.map_eq_some_iff] at h1
      obtain ⟨soms, -, rfl⟩ := h1
      exact this
    | grad dj m => simp only [step, Option.some.injEq] at h1; subst h1; exact this
    | accept => exact absurd (he .accept (by simp)) (by simp [IsSearch])
    | start j t d m => exact absurd (he (.start j t d m) (by simp)) (by simp [IsSearch])

/-- C55: an iteration appends to each progress list the value that belongs to its last evaluation (the
cost and its parts) and to its last gradient (the norms and, in the real case, the controls), whatever
the search before. -/
theorem C55_values (it : Iter) (g : List ℝ × List ℝ) (gs : List (List ℝ × List ℝ)) (s s' : St)
    (he : ∀ e ∈ it.search, IsSearch e) (hg : it.grads = gs ++ [g]) (h : run it.events s = some s') :
    s'.JP = s.JP ++ [it.j] ∧
    s'.JregP = s.JregP ++ [((select "reg_eval" it.tape).map List.sum).sum] ∧
    s'.JmisP = s.JmisP ++ [((select "misfit_eval" it.tape).map List.sum).sum] ∧
    s'.dJP = s.dJP ++ [g.1] ∧ s'.mP = (if s.real then s.mP ++ [g.2] else s.mP) ∧ s'.grads = 0 := by
  rw [Iter.events, run_append, run_append, run_append] at h
  simp only [Option.bind_eq_some_iff] at h
  obtain ⟨s3, ⟨s2, ⟨s1, h1, h2⟩, h3⟩, h4⟩ := h
  obtain ⟨k1, k2, k3, k4, k5, k6⟩ := run_search_keep _ _ _ he h1
  simp only [run, step, Option.bind_eq_some_iff] at h2
  obtain ⟨s2', h2, h2'⟩ := h2
  simp only [Option.some.injEq] at h2'
  subst h2'
  simp only [evalCb, Option.map_eq_some_iff] at h2
  obtain ⟨soms, -, h2⟩ := h2
  have h3' := run_grads_all _ _ _ h3
  rw [hg, List.getLast?_concat] at h3'
  simp only [run, step, accept, Option.bind_eq_some_iff] at h4
  obtain ⟨s5, ⟨s4, h5, h6⟩, h7⟩ := h4
  simp only [Option.some.injEq] at h7
  subst h7
  have hd : s5.JP = s4.JP ∧ s5.JregP = s4.JregP ∧ s5.JmisP = s4.JmisP ∧ s5.dJP = s4.dJP ∧
      s5.mP = s4.mP ∧ s5.grads = s4.grads := by
    split at h6
    · simp only [Option.some.injEq] at h6; subst h6; simp
    · unfold dump at h6
      split at h6
      · simp only [Option.some.injEq] at h6; subst h6; simp
      · simp at h6
  unfold updateProgress at h5
  rw [h3', ← h2] at h5
  simp only at h5
  split at h5
  · simp at h5
  · simp at h5
  · rename_i dj _ hdj
    simp only [Option.some.injEq] at hdj h5
    obtain ⟨e1, e2, e3, e4, e5, e6⟩ := hd
    rw [e1, e2, e3, e4, e5, e6, ← h5]
    simp only
    refine ⟨by rw [k6], by rw [k1], by rw [k2], by rw [k3, hdj], ?_, trivial⟩
    rw [k5, k4]

/-! ### C57: no errors -/

/-- The rows of the tape for each variable have the same length (the number of stations). -/
def Even (vars : List String) (tape : List Block) : Prop :=
  ∀ v ∈ vars, ∀ a ∈ entry tape v, ∀ b ∈ entry tape v, a.length = b.length

theorem collectAll_some (it : ℤ) (tape : List Block) (vars : List String)
    (S : String → List (List (List ℝ))) (L : ℤ) (hev : Even vars tape)
    (hS : it = L → ∀ v, S v ≠ []) :
    ∃ soms, collectAll it tape (vars.map fun v => ⟨v, S v, L⟩) = some soms := by
  induction vars with
  | nil => exact ⟨_, rfl⟩
  | cons v vs ih =>
    obtain ⟨soms, hsoms⟩ := ih fun w hw => hev w (by simp [hw])
    have h1 : ∃ s, collect it tape ⟨v, S v, L⟩ = some s := by
      unfold collect
      simp only
      rw [if_neg]
      · split
        · rename_i hit
          rw [if_neg (hS hit v)]
          exact ⟨_, rfl⟩
        · exact ⟨_, rfl⟩
      · rw [not_not]
        exact hev v (by simp)
    obtain ⟨s, hs⟩ := h1
    refine ⟨s :: soms, ?_⟩
    simp only [List.map_cons, collectAll, hs, hsoms, Option.map_some]

theorem evalCb_some {vars : List String} {done : String → List (List (List ℝ))} (j : ℝ)
    (tape : List Block) (s : St) (hs : Inv vars done s) (hev : Even vars tape) :
    ∃ s', evalCb j tape s = some s' := by
  obtain ⟨E, L, hE, hcase⟩ := hs
  have : ∃ soms, collectAll s.i tape s.soms = some soms := by
    rw [hE]
    apply collectAll_some _ _ _ _ _ hev
    intro hL v
    rcases hcase with ⟨h1, -⟩ | ⟨-, h2⟩
    · omega
    · have := h2 v
      intro h0
      simp only [List.append_eq_nil_iff] at h0
      rw [h0.2] at this
      simp at this
  obtain ⟨soms, hsoms⟩ := this
  exact ⟨_, by rw [evalCb, hsoms]; rfl⟩

/-- An event of a search that causes no error: rows of equal length, and at least one derivative. -/
def Fine (vars : List String) : Ev → Prop
  | .eval _ tape => Even vars tape
  | .grad dj _ => dj ≠ []
  | _ => False

theorem search_some {vars : List String} {done : String → List (List (List ℝ))} (es : List Ev)
    (s : St) (hs : Inv vars done s) (he : ∀ e ∈ es, Fine vars e) (hd : s.dJ ≠ some []) :
    ∃ s', run es s = some s' ∧ s'.dJ ≠ some [] ∧ (s.dJ ≠ none → s'.dJ ≠ none) := by
  induction es generalizing s with
  | nil => exact ⟨s, rfl, hd, id⟩
  | cons e es ih =>
    have hf := he e (by simp)
    have he' : ∀ e ∈ es, Fine vars e := fun e h => he e (by simp [h])
    cases e with
    | eval j tape =>
      obtain ⟨s1, h1⟩ := evalCb_some j tape s hs hf
      obtain ⟨ha, hb, -⟩ := inv_evalCb hs h1
      have hi : Inv vars done s1 :=
        ⟨fun v => [entry tape v], s.i, ha, Or.inr ⟨by rw [hb], fun _ => rfl⟩⟩
      have hdj : s1.dJ = s.dJ := by
        simp only [evalCb, Option.map_eq_some_iff] at h1
        obtain ⟨_, -, rfl⟩ := h1; rfl
      obtain ⟨s', h2, h3, h4⟩ := ih s1 hi he' (by rw [hdj]; exact hd)
      refine ⟨s', ?_, h3, fun h => h4 (by rw [hdj]; exact h)⟩
      rw [run]
      simp only [step, h1, Option.bind_some, h2]
    | grad dj m =>
      have hi : Inv vars done (gradCb dj m s) := hs
      obtain ⟨s', h2, h3, h4⟩ := ih (gradCb dj m s) hi he' (by
        simp only [gradCb, ne_eq, Option.some.injEq]; exact hf)
      exact ⟨s', h2, h3, fun _ => h4 (by simp [gradCb])⟩
    | accept => exact absurd hf (by simp [Fine])
    | start => exact absurd hf (by simp [Fine])

theorem dump_some (s : St) (h : ∀ m ∈ s.soms, 0 ≤ m.last) : ∃ s', dump s = some s' := by
  have hall : s.soms.all (fun m => decide (0 ≤ m.last)) = true := by
    rw [List.all_eq_true]
    intro m hm
    simpa using h m hm
  rw [dump, if_pos hall]
  exact ⟨_, rfl⟩

theorem update_some (s : St) (h : s.dJ ≠ none) (h' : s.dJ ≠ some []) :
    ∃ s', updateProgress s = some s' ∧ s'.dJ = s.dJ := by
  unfold updateProgress
  split
  · rename_i hd; exact absurd hd h
  · rename_i hd; exact absurd hd h'
  · exact ⟨_, rfl, rfl⟩

theorem fine_search {vars : List String} {e : Ev} (h : Fine vars e) : IsSearch e := by
  cases e <;> simp_all [Fine, IsSearch]

theorem dump_dJ {s s' : St} (h : dump s = some s') : s'.dJ = s.dJ := by
  unfold dump at h
  split at h
  · simp only [Option.some.injEq] at h; subst h; rfl
  · simp at h

theorem iter_some {vars : List String} {done : String → List (List (List ℝ))} (it : Iter) (s : St)
    (hs : Inv vars done s) (he : ∀ e ∈ it.search, Fine vars e) (hev : Even vars it.tape)
    (hg : ∀ g ∈ it.grads, g.1 ≠ []) (hd : s.dJ ≠ some []) (hn : s.dJ ≠ none) :
    ∃ s', run it.events s = some s' ∧ s'.dJ ≠ some [] ∧ s'.dJ ≠ none := by
  have hall : ∀ e ∈ it.search ++ [.eval it.j it.tape] ++ it.grads.map (fun g => .grad g.1 g.2),
      Fine vars e := by
    intro e h
    simp only [List.mem_append, List.mem_singleton, List.mem_map] at h
    rcases h with (h | rfl) | ⟨g, hg', rfl⟩
    · exact he e h
    · exact hev
    · exact hg g hg'
  obtain ⟨s1, h1, h2, h3⟩ := search_some _ s hs hall hd
  have h3 := h3 hn
  have hi : Inv vars (fun v => done v) s1 := (inv_search _ (fun e h => fine_search (hall e h)) hs h1).1
  have hlast : ∀ m ∈ s1.soms, 0 ≤ m.last := by
    rw [run_append] at h1
    simp only [Option.bind_eq_some_iff] at h1
    obtain ⟨s0, h4, h5⟩ := h1
    rw [run_append] at h4
    simp only [Option.bind_eq_some_iff] at h4
    obtain ⟨s00, h6, h7⟩ := h4
    have hi0 := (inv_search _ (fun e h => fine_search (he e h)) hs h6).1
    simp only [run, step, Option.bind_eq_some_iff] at h7
    obtain ⟨sx, h7, h8⟩ := h7
    simp only [Option.some.injEq] at h8
    subst h8
    have ha := (inv_evalCb hi0 h7).1
    have hb := (run_grads _ _ _ h5).1
    rw [hb, ha]
    intro m hm
    simp only [List.mem_map] at hm
    obtain ⟨v, -, rfl⟩ := hm
    exact Int.natCast_nonneg _
  obtain ⟨s2, h4, h5⟩ := update_some s1 h3 h2
  have hsoms : s2.soms = s1.soms := (update_fields h4).1
  rw [Iter.events, run_append, h1, Option.bind_some]
  simp only [run, step, accept, h4, Option.bind_some]
  split
  · exact ⟨s2, rfl, by rw [h5]; exact h2, by rw [h5]; exact h3⟩
  · obtain ⟨s3, h6⟩ := dump_some s2 (by rw [hsoms]; exact hlast)
    refine ⟨s3, by rw [h6]; rfl, ?_, ?_⟩
    · rw [dump_dJ h6, h5]; exact h2
    · rw [dump_dJ h6, h5]; exact h3

/-- C57: if the rows of each variable have equal length on every tape and there is at least one control,
the whole optimisation runs without an error, with and without exports. -/
theorem C57_success (real noExports : Bool) (vars : List String) (pre : List Ev) (j : ℝ)
    (tape : List Block) (dj m : List ℝ) (its : List Iter)
    (hpre : ∀ e ∈ pre, Fine vars e) (htape : Even vars tape) (hdj : dj ≠ [])
    (hits : ∀ it ∈ its, (∀ e ∈ it.search, Fine vars e) ∧ Even vars it.tape ∧ ∀ g ∈ it.grads, g.1 ≠ []) :
    ∃ s, run (opening pre j tape dj m ++ its.flatMap Iter.events) (fresh real noExports vars)
      = some s := by
  obtain ⟨s1, h1, -, -⟩ := search_some pre (fresh real noExports vars)
    (fresh_inv real noExports vars) hpre (by simp [fresh])
  have hi1 : Inv vars (fun _ => []) s1 :=
    (inv_search pre (fun e h => fine_search (hpre e h)) (fresh_inv real noExports vars) h1).1
  have hi1' : Inv vars (fun _ => []) { s1 with grads := 0 } := hi1
  have hstart : ∃ s2, start j tape dj m s1 = some s2 ∧ s2.dJ = some dj := by
    obtain ⟨sa, ha⟩ := evalCb_some j tape _ hi1' htape
    obtain ⟨ea, eb, -, -, -, -, et⟩ := inv_evalCb hi1' ha
    obtain ⟨sb, hb, hb'⟩ := update_some { gradCb dj m sa with J := j } (by simp [gradCb])
      (by simp [gradCb]; exact hdj)
    obtain ⟨ua, ub, -, -, -, ut⟩ := update_fields hb
    have hsoms : sb.soms = vars.map (fun v => ⟨v, [] ++ [entry tape v], (s1.i : ℤ)⟩) := ua.trans ea
    have hi : sb.i = s1.i + 1 := by rw [ub]; exact congrArg (· + 1) eb
    have ht : sb.tape = tape := ut.trans et
    unfold start
    rw [ha, Option.bind_some, hb, Option.bind_some]
    split
    · exact ⟨sb, rfl, hb'⟩
    · obtain ⟨soms, hc⟩ := collectAll_some (sb.i : ℤ) tape vars (fun v => [] ++ [entry tape v]) s1.i htape
        (by intro h; rw [hi] at h; push_cast at h; omega)
      have hc' : collectAll sb.i sb.tape sb.soms = some soms := by rw [ht, hsoms]; exact hc
      have hq := collectAll_eq _ _ _ _ _ _ hc
      obtain ⟨s3, h6⟩ := dump_some { sb with soms := soms } (by
        simp only
        rw [hq]
        intro x hx
        simp only [List.mem_map] at hx
        obtain ⟨v, -, rfl⟩ := hx
        exact Int.natCast_nonneg _)
      exact ⟨s3, by rw [hc', Option.bind_some, h6], (dump_dJ h6).trans hb'⟩
  obtain ⟨s2, h2, h3⟩ := hstart
  have hi2 := (start_inv j tape dj m hi1 h2).1
  have hiters : ∀ (its : List Iter) (done : String → List (List (List ℝ))) (s : St),
      (∀ it ∈ its, (∀ e ∈ it.search, Fine vars e) ∧ Even vars it.tape ∧ ∀ g ∈ it.grads, g.1 ≠ []) →
      Inv vars done s → s.dJ ≠ some [] → s.dJ ≠ none →
      ∃ s', run (its.flatMap Iter.events) s = some s' := by
    intro its
    induction its with
    | nil => intro _ s _ _ _ _; exact ⟨s, rfl⟩
    | cons it its ih =>
      intro done s hits hs hd hn
      obtain ⟨a, b, c⟩ := hits it (by simp)
      obtain ⟨s3, h5, h6, h7⟩ := iter_some it s hs a b c hd hn
      obtain ⟨ia, ib, -⟩ := iter_inv it (fun e h => fine_search (a e h)) hs h5
      have hi : Inv vars (fun v => done v ++ [entry it.tape v]) s3 :=
        ⟨fun _ => [], s.i, by simpa using ia, Or.inl ⟨by rw [ib]; push_cast; omega, fun _ => rfl⟩⟩
      obtain ⟨s', h8⟩ := ih _ s3 (fun i hi => hits i (by simp [hi])) hi h6 h7
      exact ⟨s', by rw [List.flatMap_cons, run_append, h5, Option.bind_some, h8]⟩
  obtain ⟨s', h'⟩ := hiters its _ s2 hits hi2 (by rw [h3]; simpa using hdj) (by rw [h3]; simp)
  refine ⟨s', ?_⟩
  rw [opening, run_append, run_append, h1, Option.bind_some]
  simp only [run, step, h2, Option.bind_some, h']

/-- The hypotheses of `C57_success` are met. -/
example : Even ["elev"] [("elev observation", [1, 2]), ("misfit_eval", [0]), ("elev observation", [3, 4])] := by
  intro v hv a ha b hb
  simp only [List.mem_singleton] at hv
  subst hv
  have e : entry [("elev observation", [1, 2]), ("misfit_eval", [0]), ("elev observation", [3, 4])] "elev"
      = ([[1, 2], [3, 4]] : List (List ℝ)) := rfl
  rw [e] at ha hb
  simp only [List.mem_cons, List.not_mem_nil, or_false] at ha hb
  rcases ha with rfl | rfl <;> rcases hb with rfl | rfl <;> rfl

end Verif.Invert
