import Verif.Optim.Model
import Mathlib.Data.List.Forall2

/-!
C70: exports of user functions, controls and derivatives.  C71: export managers and each other's
preprocessing functions.
-/

namespace Verif.Optim

theorem lookup_rev {β : Type} {d : List (String × β)} (hn : (d.map Prod.fst).Nodup) {k : String} {v : β}
    (h : (k, v) ∈ d) : lookup d.reverse k = some v := by
  unfold lookup
  have : d.reverse.find? (fun p => p.1 = k) = some (k, v) := by
    rw [List.find?_eq_some_iff_append]
    refine ⟨by simp, ?_⟩
    obtain ⟨as, bs, hab⟩ := List.append_of_mem (List.mem_reverse.2 h)
    refine ⟨as, bs, hab, ?_⟩
    intro a ha
    have hr : ((d.reverse).map Prod.fst).Nodup := by
      rw [List.map_reverse]; exact List.nodup_reverse.2 hn
    rw [hab, List.map_append, List.nodup_append] at hr
    have := hr.2.2 a.1 (List.mem_map_of_mem ha) k (by simp)
    simpa using this
  rw [this]; rfl

theorem exporters_nodup (files : List (String × String)) (short : String → String)
    (dict : List (String × ℕ)) (f : String → String) (ix : String → ℕ) :
    ∀ (ks : List String) (acc : List Entry), ks.Nodup → (∀ k ∈ ks, k ∉ acc.map Entry.key) →
      (∀ k ∈ ks, lookup dict k = some (ix k)) → (∀ k ∈ ks, lookup files k = some (f k)) →
      exporters files short dict ks acc = some (acc ++ ks.map fun k => ⟨k, short k, f k, ix k⟩) := by
  intro ks
  induction ks with
  | nil => intro acc _ _ _ _; simp [exporters]
  | cons k ks ih =>
    intro acc hn hd h1 h2
    rw [List.nodup_cons] at hn
    have hk := hd k List.mem_cons_self
    simp only [exporters, h1 k List.mem_cons_self, h2 k List.mem_cons_self]
    rw [if_neg hk, ih _ hn.2 _ (fun x hx => h1 x (List.mem_cons_of_mem _ hx))
      (fun x hx => h2 x (List.mem_cons_of_mem _ hx))]
    · simp
    · intro x hx
      simp only [List.map_append, List.map_cons, List.map_nil, List.mem_append, List.mem_singleton]
      rintro (h | h)
      · exact hd x (List.mem_cons_of_mem _ hx) h
      · subst h; exact hn.1 hx

theorem fieldDict_lookup {ns : List String} (hn : ns.Nodup) {k : String} (hk : k ∈ ns) :
    lookup (fieldDict ns ns.length) k = some (ns.idxOf k) := by
  unfold fieldDict
  apply lookup_rev
  · rw [List.map_fst_zip (by simp)]; exact hn
  · have hlt := List.idxOf_lt_length_iff.2 hk
    rw [List.mem_iff_getElem]
    refine ⟨ns.idxOf k, by simpa using hlt, ?_⟩
    simp

/-- Expected file of a function: the standard file name of a standard field, the name otherwise. -/
def stdFile (known : String → Option (String × String)) (pre n : String) : String :=
  pre ++ ((known n).map Prod.snd).getD n

/-- Expected short name. -/
def stdShort (known : String → Option (String × String)) (n : String) : String :=
  ((known n).map Prod.fst).getD n

theorem userExport_nodup (known : String → Option (String × String)) (names : List String)
    (pre : String) (hn : names.Nodup) :
    userExport known names none pre none =
      some (names.map fun n => ⟨n, stdShort known n, stdFile known pre n, names.idxOf n⟩) := by
  have hd : ∀ k ∈ names, lookup (fieldDict names names.length) k = some (names.idxOf k) :=
    fun k hk => fieldDict_lookup hn hk
  unfold userExport
  simp only [Option.getD_none, fileDict]
  rw [if_pos (fun k hk => by rw [hd k hk]; rfl)]
  dsimp only
  rw [exporters_nodup _ _ _ (fun n => stdFile known pre n) (fun n => names.idxOf n) names [] hn
    (by simp) hd]
  · simp only [List.nil_append, Option.some.injEq]
    apply List.map_congr_left
    intro n _
    simp only [Entry.mk.injEq, true_and, and_true]
    cases h : known n <;> simp [shortOf, stdShort, h]
  · intro k hk
    apply lookup_rev
    · rw [List.map_map]
      exact (List.map_id names).symm ▸ hn
    · rw [List.mem_map]
      refine ⟨k, hk, ?_⟩
      cases h : known k <;> simp [stdFile, h]

/-- C70: functions with different names are each exported once, in the given order, under the standard
short name and file name of a standard field and under their own name otherwise, the file name with the
prefix. -/
theorem C70_user_names (known : String → Option (String × String)) (names : List String)
    (pre : String) (hn : names.Nodup) :
    ∃ es, userExport known names none pre none = some es ∧ es.length = names.length ∧
      ∀ (i : ℕ) (n : String), names[i]? = some n →
        es[i]? = some ⟨n, stdShort known n, stdFile known pre n, i⟩ := by
  refine ⟨_, userExport_nodup known names pre hn, by simp, ?_⟩
  intro i n h
  obtain ⟨hlt, rfl⟩ := List.getElem?_eq_some_iff.1 h
  simp [hlt, hn.idxOf_getElem]

/-- C70: short names and file names given by the user are used as they are. -/
theorem C70_user_given (known : String → Option (String × String)) (names shorts files : List String)
    (pre : String) (hn : shorts.Nodup) (hs : shorts.length = names.length)
    (hf : files.length = names.length) :
    ∃ es, userExport known names (some files) pre (some shorts) = some es ∧
      es.length = names.length ∧
      ∀ (i : ℕ) (s f : String), shorts[i]? = some s → files[i]? = some f → es[i]? = some ⟨s, s, f, i⟩ := by
  have hd : ∀ k ∈ shorts, lookup (fieldDict shorts names.length) k = some (shorts.idxOf k) := by
    intro k hk; rw [← hs]; exact fieldDict_lookup hn hk
  have hfl : ∀ k ∈ shorts, lookup (shorts.zip files).reverse k =
      some (files.getD (shorts.idxOf k) "") := by
    intro k hk
    apply lookup_rev
    · rw [List.map_fst_zip (by omega)]; exact hn
    · have hlt := List.idxOf_lt_length_iff.2 hk
      rw [List.mem_iff_getElem]
      refine ⟨shorts.idxOf k, by simp; omega, ?_⟩
      have : shorts.idxOf k < files.length := by omega
      simp [List.getD, this]
  refine ⟨shorts.map fun k => ⟨k, k, files.getD (shorts.idxOf k) "", shorts.idxOf k⟩, ?_, by simp [hs], ?_⟩
  · unfold userExport
    simp only [Option.getD_some, fileDict]
    rw [if_pos (fun p hp => by rw [hd p.1 (List.of_mem_zip hp).1]; rfl)]
    dsimp only
    rw [exporters_nodup _ _ _ (fun k => files.getD (shorts.idxOf k) "") (fun n => shorts.idxOf n)
      shorts [] hn (by simp) hd hfl]
    simp [shortOf]
  · intro i s f h1 h2
    obtain ⟨hlt, rfl⟩ := List.getElem?_eq_some_iff.1 h1
    obtain ⟨hlt2, rfl⟩ := List.getElem?_eq_some_iff.1 h2
    simp [hlt, hn.idxOf_getElem, hlt2]

example : userExport (fun _ => none) ["a", "b"] none "p_" none =
    some [⟨"a", "a", "p_a", 0⟩, ⟨"b", "b", "p_b", 1⟩] := by decide +kernel

example : userExport (fun _ => none) ["a", "b"] (some ["x", "y"]) "p_" (some ["S", "T"]) =
    some [⟨"S", "S", "x", 0⟩, ⟨"T", "T", "y", 1⟩] := by decide +kernel

/-- C70: functions with different names that are not names of standard fields go to different files. -/
theorem C70_user_files (known : String → Option (String × String)) (names : List String)
    (pre : String) (hn : names.Nodup) (hk : ∀ n ∈ names, known n = none) (es : List Entry)
    (h : userExport known names none pre none = some es) : (es.map Entry.file).Nodup := by
  rw [userExport_nodup known names pre hn] at h
  cases h
  rw [List.map_map]
  apply List.Nodup.map_on _ hn
  intro x hx y hy hxy
  simp only [Function.comp, stdFile, hk x hx, hk y hy, Option.map_none, Option.getD_none] at hxy
  exact String.append_right_inj pre |>.1 hxy

/-- C70: two functions of the same name: only the later one is exported. -/
theorem C70_same_name_violated :
    userExport (fun _ => none) ["turbine", "turbine"] none "" none =
      some [⟨"turbine", "turbine", "turbine", 1⟩] := by decide +kernel

/-- C70: a standard field and a function that bears its file name overwrite each other. -/
theorem C70_same_file_violated :
    userExport (fun n => if n = "elev_2d" then some ("Elevation", "Elevation2d") else none)
      ["elev_2d", "Elevation2d"] none "" none =
      some [⟨"elev_2d", "Elevation", "Elevation2d", 0⟩,
        ⟨"Elevation2d", "Elevation2d", "Elevation2d", 1⟩] := by decide +kernel

/-- C70: with fewer short names than functions the remaining functions are not exported; with fewer file
names the construction raises; with more short names it raises as well. -/
theorem C70_short_lists_violated :
    userExport (fun _ => none) ["a", "b"] none "" (some ["S"]) = some [⟨"S", "S", "S", 0⟩] ∧
    userExport (fun _ => none) ["a", "b"] (some ["x"]) "" none = none ∧
    userExport (fun _ => none) ["a"] none "" (some ["S", "T"]) = none := by decide +kernel

/-! ### Deferred exports -/

variable {V : Type}

theorem assignAll_same {gs fs : List (Fn V)} (h : gs.map Fn.space = fs.map Fn.space) :
    ∃ r, assignAll gs fs = some r ∧ r.map Fn.name = gs.map Fn.name ∧
      r.map Fn.space = gs.map Fn.space ∧ r.map Fn.val = fs.map Fn.val := by
  induction gs generalizing fs with
  | nil =>
    cases fs with
    | nil => exact ⟨[], rfl, rfl, rfl, rfl⟩
    | cons f fs => cases h
  | cons g gs ih =>
    cases fs with
    | nil => cases h
    | cons f fs =>
      simp only [List.map_cons, List.cons.injEq] at h
      obtain ⟨r, h1, h2, h3, h4⟩ := ih h.2
      refine ⟨⟨g.name, g.space, f.val⟩ :: r, ?_, ?_, ?_, ?_⟩
      · simp [assignAll, h.1, h1]
      · simp [h2]
      · simp [h3]
      · simp [h4]

/-- The expected output of one call: each file with the value of its function. -/
def expected (files : List String) (fs : List (Fn V)) : List (String × V) :=
  files.zip (fs.map Fn.val)

theorem written_eq {gs fs : List (Fn V)} {names : List String} {sh fl : String → String}
    (hn : names.Nodup) (hl : names.length = gs.length) (hv : gs.map Fn.val = fs.map Fn.val) :
    written (V := V) ⟨gs, names.map fun n => ⟨n, sh n, fl n, names.idxOf n⟩⟩ =
      expected (names.map fl) fs := by
  unfold written expected
  rw [← hv]
  apply List.ext_getElem?
  intro i
  have : (names.map fun n => (⟨n, sh n, fl n, names.idxOf n⟩ : Entry)).filterMap
      (fun e => (gs[e.idx]?).map fun f => (e.file, f.val)) =
      (names.map fl).zip (gs.map Fn.val) := by
    rw [List.filterMap_map]
    have h2 : ∀ (l : List String) (k : ℕ) (hk : names.drop k = l),
        l.filterMap ((fun e : Entry => (gs[e.idx]?).map fun f => (e.file, f.val)) ∘
          fun n => ⟨n, sh n, fl n, names.idxOf n⟩) = (l.map fl).zip ((gs.drop k).map Fn.val) := by
      intro l
      induction l with
      | nil => intro k _; simp
      | cons n l ih =>
        intro k hk
        have hlt : k < names.length := by
          by_contra hc
          rw [List.drop_eq_nil_of_le (by omega)] at hk
          cases hk
        have hlt2 : k < gs.length := by omega
        rw [List.drop_eq_getElem_cons hlt, List.cons.injEq] at hk
        rw [List.drop_eq_getElem_cons hlt2]
        have hix : names.idxOf n = k := by rw [← hk.1, hn.idxOf_getElem]
        rw [List.filterMap_cons]
        simp only [Function.comp, hix, List.getElem?_eq_getElem hlt2, Option.map_some]
        rw [List.map_cons, List.map_cons, List.zip_cons_cons]
        congr 1
        exact ih (k + 1) hk.2
    simpa using h2 names 0 rfl
  rw [this]

theorem later_runs (known : String → Option (String × String)) (kw : Kw) (zero : V)
    {names : List String} {sh fl : String → String} (hn : names.Nodup) (spaces : List ℕ)
    (hls : names.length = spaces.length) :
    ∀ (calls : List (List (Fn V) × Option (List String))) (gs : List (Fn V)),
      gs.map Fn.space = spaces →
      (∀ c ∈ calls, c.1.map Fn.space = spaces) →
      deferredRuns known kw zero (some ⟨gs, names.map fun n => ⟨n, sh n, fl n, names.idxOf n⟩⟩)
        (calls.map fun c => (FArg.list c.1, c.2)) =
        some (calls.map fun c => expected (names.map fl) c.1) := by
  intro calls
  induction calls with
  | nil => intro gs _ _; simp [deferredRuns]
  | cons c cs ih =>
    intro gs hg hc
    obtain ⟨r, h1, _, h3, h4⟩ := assignAll_same (gs := gs) (fs := c.1)
      (hg.trans (hc c List.mem_cons_self).symm)
    have hlen : names.length = r.length := by
      have := congrArg List.length (h3.trans hg)
      rw [List.length_map] at this
      omega
    simp only [List.map_cons, deferredRuns, deferred, enlist, h1]
    rw [ih r (h3.trans hg) (fun x hx => hc x (List.mem_cons_of_mem _ hx))]
    rw [written_eq hn hlen h4]
    simp

theorem deferred_all (known : String → Option (String × String)) (zero : V) (pre : String)
    (sug : List (Fn V) → Option (List String)) (spaces : List ℕ)
    (c : List (Fn V)) (cs : List (List (Fn V) × Option (List String))) (names : List String)
    (hsug : sug c = none ∧ names = c.map Fn.name ∨ sug c = some names ∧ names.length = c.length)
    (hn : names.Nodup) (hsp : c.map Fn.space = spaces) (hcs : ∀ x ∈ cs, x.1.map Fn.space = spaces) :
    deferredRuns known ⟨none, pre, none⟩ zero none
        ((FArg.list c, sug c) :: cs.map fun x => (FArg.list x.1, x.2)) =
      some ((expected (names.map (stdFile known pre)) c) ::
        cs.map fun x => expected (names.map (stdFile known pre)) x.1) := by
  have hcreate : ∃ gs : List (Fn V), gs.map Fn.space = spaces ∧
      create known ⟨none, pre, none⟩ zero c (sug c) = some ⟨gs, names.map fun n =>
        ⟨n, stdShort known n, stdFile known pre n, names.idxOf n⟩⟩ := by
    rcases hsug with ⟨h1, h2⟩ | ⟨h1, h2⟩
    · refine ⟨c.map fun f => ⟨f.name, f.space, zero⟩, ?_, ?_⟩
      · rw [← hsp, List.map_map]; rfl
      · unfold create
        rw [h1]
        dsimp only
        have : List.map Fn.name (c.map fun f => (⟨f.name, f.space, zero⟩ : Fn V)) = names := by
          rw [h2, List.map_map]; rfl
        rw [this, userExport_nodup known names pre hn]
    · refine ⟨(c.zip names).map fun p => ⟨p.2, p.1.space, zero⟩, ?_, ?_⟩
      · rw [← hsp, List.map_map]
        have : (Fn.space ∘ fun p : Fn V × String => (⟨p.2, p.1.space, zero⟩ : Fn V)) =
            Fn.space ∘ Prod.fst := rfl
        rw [this, ← List.map_map, List.map_fst_zip (by omega)]
      · unfold create
        rw [h1]
        dsimp only
        have : List.map Fn.name ((c.zip names).map fun p => (⟨p.2, p.1.space, zero⟩ : Fn V)) = names := by
          rw [List.map_map]
          have : (Fn.name ∘ fun p : Fn V × String => (⟨p.2, p.1.space, zero⟩ : Fn V)) = Prod.snd := rfl
          rw [this, List.map_snd_zip (by omega)]
        rw [this, userExport_nodup known names pre hn]
  obtain ⟨gs, hg, hcr⟩ := hcreate
  have hlen : names.length = spaces.length := by
    rw [← hsp, List.length_map]
    rcases hsug with ⟨_, h2⟩ | ⟨_, h2⟩
    · rw [h2, List.length_map]
    · exact h2
  have hl := later_runs known ⟨none, pre, none⟩ zero (sh := stdShort known) (fl := stdFile known pre)
    hn spaces hlen ((c, sug c) :: cs) gs hg (by
      intro x hx
      rcases List.mem_cons.1 hx with rfl | hx
      · exact hsp
      · exact hcs x hx)
  have hstep : deferredRuns known ⟨none, pre, none⟩ zero none
        ((FArg.list c, sug c) :: cs.map fun x => (FArg.list x.1, x.2)) =
      deferredRuns known ⟨none, pre, none⟩ zero
        (some ⟨gs, names.map fun n => ⟨n, stdShort known n, stdFile known pre n, names.idxOf n⟩⟩)
        ((FArg.list c, sug c) :: cs.map fun x => (FArg.list x.1, x.2)) := by
    simp only [deferredRuns, deferred, enlist, hcr]
  rw [hstep]
  simpa using hl

theorem mapM_getLast (f : List (Fn V) → List (FArg V)) (hf : ∀ c, (f c).getLast? = some (.list c)) :
    ∀ calls : List (List (Fn V)),
      (calls.map f).mapM (fun args => args.getLast?) = some (calls.map fun c => FArg.list c)
  | [] => rfl
  | c :: cs => by
    rw [List.map_cons, List.mapM_cons, mapM_getLast f hf cs, hf c]
    rfl

/-- C70: every call of the control export writes, for each control, the value at that call to the file of
that control, which is named after the control at the first call.  The controls may be other functions
at every call, in the same spaces, and other arguments may precede them. -/
theorem C70_controls (known : String → Option (String × String)) (zero : V) (spaces : List ℕ)
    (before : List (Fn V) → List (FArg V))
    (c : List (Fn V)) (cs : List (List (Fn V))) (hn : (c.map Fn.name).Nodup)
    (hsp : ∀ x ∈ c :: cs, x.map Fn.space = spaces) :
    controlsExport known zero ((c :: cs).map fun x => before x ++ [.list x]) =
      some ((c :: cs).map fun x =>
        (c.map fun f => stdFile known "control_" f.name).zip (x.map Fn.val)) := by
  unfold controlsExport
  rw [mapM_getLast (fun x => before x ++ [FArg.list x]) (fun x => by simp)]
  dsimp only
  have := deferred_all known zero "control_" (fun _ => none) spaces c (cs.map fun x => (x, none))
    (c.map Fn.name) (.inl ⟨rfl, rfl⟩) hn (hsp c List.mem_cons_self) (by
      intro x hx
      obtain ⟨y, hy, rfl⟩ := List.mem_map.1 hx
      exact hsp y (List.mem_cons_of_mem _ hy))
  simp only [List.map_map, List.map_cons] at this ⊢
  exact this

theorem mapM_deriv : ∀ calls : List (List (Fn V) × List (Fn V)),
      (calls.map fun p => some (FArg.list p.1, FArg.list p.2)).mapM derivativeCall =
        some (calls.map fun p => (FArg.list p.1, some (p.2.map Fn.name)))
  | [] => rfl
  | c :: cs => by
    rw [List.map_cons, List.mapM_cons, mapM_deriv cs]
    rfl

/-- C70: the derivative export writes at every call the derivatives of that call, each to the file named
after the control it belongs to. -/
theorem C70_derivatives (known : String → Option (String × String)) (zero : V) (spaces : List ℕ)
    (c : List (Fn V) × List (Fn V)) (cs : List (List (Fn V) × List (Fn V)))
    (hn : (c.2.map Fn.name).Nodup) (hl : c.2.length = c.1.length)
    (hsp : ∀ x ∈ c :: cs, x.1.map Fn.space = spaces) :
    derivativesExport known zero ((c :: cs).map fun x => some (.list x.1, .list x.2)) =
      some ((c :: cs).map fun x =>
        (c.2.map fun f => stdFile known "derivative_" f.name).zip (x.1.map Fn.val)) := by
  unfold derivativesExport
  rw [mapM_deriv]
  dsimp only
  have := deferred_all known zero "derivative_" (fun _ => some (c.2.map Fn.name)) spaces c.1
    (cs.map fun x => (x.1, some (x.2.map Fn.name)))
    (c.2.map Fn.name) (.inr ⟨rfl, by rw [List.length_map]; exact hl⟩) hn
    (hsp c List.mem_cons_self) (by
      intro x hx
      obtain ⟨y, hy, rfl⟩ := List.mem_map.1 hx
      exact hsp y (List.mem_cons_of_mem _ hy))
  simp only [List.map_map, List.map_cons] at this ⊢
  exact this

example : controlsExport (V := ℕ) (fun _ => none) 0
    [[.list [⟨"u", 1, 5⟩, ⟨"v", 2, 6⟩]], [.list [⟨"x", 1, 7⟩, ⟨"y", 2, 8⟩]]] =
    some [[("control_u", 5), ("control_v", 6)], [("control_u", 7), ("control_v", 8)]] := by
  decide +kernel

example : derivativesExport (V := ℕ) (fun _ => none) 0
    [some (.list [⟨"w", 1, 5⟩], .list [⟨"u", 1, 9⟩])] = some [[("derivative_u", 5)]] := by
  decide +kernel

/-- C70: a single scalar function may be given in place of a list of one. -/
theorem C70_single (known : String → Option (String × String)) (kw : Kw) (zero : V)
    (st : Option (Def V)) (f : Fn V) (sug : Option (List String)) :
    deferred known kw zero st (.scalar f) sug = deferred known kw zero st (.list [f]) sug := rfl

/-- C70: a single vector function is taken for the list of its components, and the export raises. -/
theorem C70_single_vector_violated (known : String → Option (String × String)) (zero : V) (f : Fn V)
    (before : List (FArg V)) : controlsExport known zero [before ++ [.vector f]] = none := by
  simp [controlsExport, deferredRuns, deferred, enlist]

/-- C70: a function in another space than at the first call is refused. -/
theorem C70_space (known : String → Option (String × String)) (kw : Kw) (zero : V) (d : Def V)
    (fs : List (Fn V)) (sug : Option (List String)) (i : ℕ) (g f : Fn V)
    (hg : d.funcs[i]? = some g) (hf : fs[i]? = some f) (h : g.space ≠ f.space) :
    deferred known kw zero (some d) (.list fs) sug = none := by
  have : ∀ (gs fs : List (Fn V)) (i : ℕ), gs[i]? = some g → fs[i]? = some f →
      assignAll gs fs = none := by
    intro gs
    induction gs with
    | nil => intro fs i h1 _; simp at h1
    | cons a gs ih =>
      intro fs i h1 h2
      cases fs with
      | nil => simp at h2
      | cons b fs =>
        cases i with
        | zero =>
          simp at h1 h2
          subst h1 h2
          simp [assignAll, h]
        | succ i =>
          simp at h1 h2
          simp [assignAll, ih fs i h1 h2]
  simp [deferred, enlist, this d.funcs fs i hg hf]

/-- C70: with fewer functions than at the first call the values of the missing ones are written again
without notice, and functions in excess are dropped. -/
theorem C70_stale_violated :
    controlsExport (V := ℕ) (fun _ => none) 0
      [[.list [⟨"u", 1, 5⟩, ⟨"v", 2, 6⟩]], [.list [⟨"u", 1, 7⟩]],
        [.list [⟨"u", 1, 8⟩, ⟨"v", 2, 9⟩, ⟨"w", 3, 4⟩]]] =
    some [[("control_u", 5), ("control_v", 6)], [("control_u", 7), ("control_v", 6)],
      [("control_u", 8), ("control_v", 9)]] := by
  decide +kernel

/-- C70: of two controls of the same name the first is never exported. -/
theorem C70_controls_same_name_violated :
    controlsExport (V := ℕ) (fun _ => none) 0 [[.list [⟨"c", 1, 5⟩, ⟨"c", 1, 6⟩]]] =
    some [[("control_c", 6)]] := by
  decide +kernel

/-! ### Preprocessing functions -/

/-- C71: adding a field with a preprocessing function to one export manager does not change which
functions another one calls, if they were not given the same dictionary. -/
theorem C71_independent (w : World) (m n : ℕ) (gm gn : Mgr) (hm : w.mgrs[m]? = some gm)
    (hn : w.mgrs[n]? = some gn) (hd : gm.dict ≠ gn.dict) (key : String) (pre : Option ℕ) :
    preprocCalled (addExport w m key pre) n = preprocCalled w n := by
  have hne : m ≠ n := by rintro rfl; rw [hm] at hn; cases hn; exact hd rfl
  unfold preprocCalled addExport
  rw [hm]
  simp only [hn, List.getElem?_set_ne hne]
  cases pre with
  | none => rfl
  | some p =>
    apply List.filterMap_congr
    intro k _
    simp [hd.symm]

/-- C71: the manager the function was added to calls it, once, before the export of that field. -/
theorem C71_called (w : World) (m : ℕ) (g : Mgr) (hm : w.mgrs[m]? = some g) (key : String) (p : ℕ)
    (hk : key ∉ g.keys) :
    preprocCalled (addExport w m key (some p)) m = preprocCalled w m ++ [p] := by
  have hlt := (List.getElem?_eq_some_iff.1 hm).1
  unfold preprocCalled addExport
  rw [hm]
  simp only [List.getElem?_set_self hlt, if_neg hk, List.filterMap_append]
  congr 1
  · apply List.filterMap_congr
    intro k hk'
    have : k ≠ key := by rintro rfl; exact hk hk'
    simp [this]
  · simp

/-- C71: two managers made without the argument share one dictionary, so the second one calls the
preprocessing function added to the first. -/
theorem C71_shared_default_violated :
    let w : World := newMgr (newMgr ⟨[], fun _ _ => none⟩ [] none) ["vorticity"] none
    preprocCalled w 1 = [] ∧ preprocCalled (addExport w 0 "vorticity" (some 7)) 1 = [7] := by
  decide +kernel

/-- C71: what a manager made later calls depends on what was added to an earlier one that is no longer in
use. -/
theorem C71_shared_later_violated :
    let w : World := addExport (newMgr ⟨[], fun _ _ => none⟩ [] none) 0 "vorticity" (some 7)
    preprocCalled (newMgr w ["vorticity"] none) 1 = [7] := by
  decide +kernel

example : preprocCalled (addExport (newMgr (newMgr ⟨[], fun _ _ => none⟩ [] (some 1)) ["a"] (some 2))
    0 "a" (some 7)) 1 = [] := by decide +kernel

end Verif.Optim
