import Verif.Detect.Model
import Mathlib.Tactic.Linarith
import Mathlib.Tactic.NormNum

/-!
Property C50.
-/

namespace Verif.Detect

open Real

/-! ### The reduction -/

theorem firstIsMin_trans : ∀ a b c : List ℝ, a.length = b.length → b.length = c.length →
    firstIsMin a b = true → firstIsMin b c = true → firstIsMin a c = true
  | [], _, _, _, _, _, _ => by simp [firstIsMin]
  | x :: a, [], _, h, _, _, _ => by simp at h
  | x :: a, y :: b, [], _, h, _, _ => by simp at h
  | x :: a, y :: b, z :: c, h1, h2, h3, h4 => by
    simp only [List.length_cons, Nat.add_right_cancel_iff] at h1 h2
    simp only [firstIsMin] at h3 h4 ⊢
    split_ifs at h3 h4 ⊢ <;> first | rfl | (exfalso; linarith) | skip
    exact firstIsMin_trans a b c h1 h2 h3 h4

theorem firstIsMin_antisymm : ∀ a b : List ℝ, a.length = b.length →
    firstIsMin a b = true → firstIsMin b a = true → a = b
  | [], [], _, _, _ => rfl
  | [], y :: b, h, _, _ => by simp at h
  | x :: a, [], h, _, _ => by simp at h
  | x :: a, y :: b, h, h1, h2 => by
    simp only [List.length_cons, Nat.add_right_cancel_iff] at h
    simp only [firstIsMin] at h1 h2
    split_ifs at h1 h2 with h3 h4 h5
    · linarith
    · rw [firstIsMin_antisymm a b h h1 h2, le_antisymm (not_lt.1 h5) (not_lt.1 h3)]

theorem firstIsMin_total : ∀ a b : List ℝ, firstIsMin a b = true ∨ firstIsMin b a = true
  | [], _ => by simp [firstIsMin]
  | x :: a, [] => by simp [firstIsMin]
  | x :: a, y :: b => by
    simp only [firstIsMin]
    split_ifs with h1 h2 <;> first | (left; rfl) | (right; rfl) | exact firstIsMin_total a b

/-- Any bracketing gives an operand that is smallest. -/
theorem Reduces.spec {n : ℕ} {l : List (List ℝ)} {r : List ℝ} (h : Reduces l r)
    (hn : ∀ a ∈ l, a.length = n) : r ∈ l ∧ ∀ a ∈ l, firstIsMin r a = true := by
  induction h with
  | one a =>
    refine ⟨by simp, fun b hb => ?_⟩
    rw [List.mem_singleton.1 hb]
    exact (firstIsMin_total a a).elim id id
  | @op l l' a b h1 h2 ih1 ih2 =>
    obtain ⟨m1, s1⟩ := ih1 fun x hx => hn x (List.mem_append_left _ hx)
    obtain ⟨m2, s2⟩ := ih2 fun x hx => hn x (List.mem_append_right _ hx)
    have la : a.length = n := hn a (List.mem_append_left _ m1)
    have lb : b.length = n := hn b (List.mem_append_right _ m2)
    unfold minLexsort
    by_cases hab : firstIsMin a b = true
    · rw [if_pos hab]
      refine ⟨List.mem_append_left _ m1, fun x hx => ?_⟩
      rcases List.mem_append.1 hx with h | h
      · exact s1 x h
      · exact firstIsMin_trans a b x (la.trans lb.symm) (lb.trans (hn x hx).symm) hab (s2 x h)
    · have hba : firstIsMin b a = true := (firstIsMin_total a b).resolve_left hab
      rw [if_neg hab]
      refine ⟨List.mem_append_right _ m2, fun x hx => ?_⟩
      rcases List.mem_append.1 hx with h | h
      · exact firstIsMin_trans b a x (lb.trans la.symm) (la.trans (hn x hx).symm) hba (s1 x h)
      · exact s2 x h

/-- C50: the reduction does not depend on the bracketing. -/
theorem C50_bracketing {n : ℕ} {l : List (List ℝ)} {r r' : List ℝ} (hn : ∀ a ∈ l, a.length = n)
    (h : Reduces l r) (h' : Reduces l r') : r = r' := by
  obtain ⟨m, s⟩ := h.spec hn
  obtain ⟨m', s'⟩ := h'.spec hn
  exact firstIsMin_antisymm r r' ((hn r m).trans (hn r' m').symm) (s r' m') (s' r m)

/-! ### One process -/

theorem firstMin_spec (f : Pt → ℝ) (l : List Pt) (hl : l ≠ []) :
    ∃ c, firstMin f l = some c ∧ c ∈ l ∧ ∀ x ∈ l, f c ≤ f x := by
  induction l with
  | nil => exact absurd rfl hl
  | cons a l ih =>
    rcases eq_or_ne l [] with rfl | h
    · exact ⟨a, by simp [firstMin], by simp, by simp⟩
    · obtain ⟨b, h1, h2, h3⟩ := ih h
      by_cases hb : f b < f a
      · refine ⟨b, by simp [firstMin, h1, hb], by simp [h2], ?_⟩
        intro x hx
        rcases List.mem_cons.1 hx with rfl | h
        · exact hb.le
        · exact h3 x h
      · refine ⟨a, by simp [firstMin, h1, hb], by simp, ?_⟩
        intro x hx
        rcases List.mem_cons.1 hx with rfl | h
        · exact le_rfl
        · exact (not_lt.1 hb).trans (h3 x h)

/-- Distance of a location to a cell centre. -/
noncomputable def dist (loc c : Pt) : ℝ := sqrt ((c.1 - loc.1) ^ 2 + (c.2 - loc.2) ^ 2)

theorem dist_eq (loc c : Pt) : sqrt (dist2 loc c) = dist loc c := by
  unfold dist dist2; congr 1; ring

theorem dist2_nonneg (loc c : Pt) : 0 ≤ dist2 loc c := by
  unfold dist2; nlinarith [mul_self_nonneg (c.1 - loc.1), mul_self_nonneg (c.2 - loc.2)]

/-- The reduction of MPI: some bracketing of the operands. -/
def IsReduction (red : List (List ℝ) → List ℝ) : Prop := ∀ l, l ≠ [] → Reduces l (red l)

theorem mapM_local (loc : Pt) (procs : List (List Pt)) (h : ∀ p ∈ procs, p ≠ []) :
    ∃ cs : List Pt, procs.mapM (localEntry loc)
        = some (cs.map fun c => [dist loc c, c.1, c.2]) ∧
      cs.length = procs.length ∧ (∀ c ∈ cs, ∃ p ∈ procs, c ∈ p) ∧
      ∀ p ∈ procs, ∃ c ∈ cs, c ∈ p ∧ ∀ x ∈ p, dist loc c ≤ dist loc x := by
  induction procs with
  | nil => exact ⟨[], by simp⟩
  | cons p procs ih =>
    obtain ⟨cs, h1, h2, h3, h4⟩ := ih fun q hq => h q (List.mem_cons_of_mem _ hq)
    obtain ⟨c, k1, k2, k3⟩ := firstMin_spec (dist2 loc) p (h p (by simp))
    refine ⟨c :: cs, ?_, by simp [h2], ?_, ?_⟩
    · rw [List.mapM_cons, h1, localEntry, k1]
      simp [dist_eq]
    · intro x hx
      rcases List.mem_cons.1 hx with rfl | hx
      · exact ⟨p, by simp, k2⟩
      · obtain ⟨q, hq, hq'⟩ := h3 x hx
        exact ⟨q, List.mem_cons_of_mem _ hq, hq'⟩
    · intro q hq
      rcases List.mem_cons.1 hq with rfl | hq
      · refine ⟨c, by simp, k2, fun x hx => ?_⟩
        rw [← dist_eq, ← dist_eq]
        exact sqrt_le_sqrt (k3 x hx)
      · obtain ⟨x, hx, hx'⟩ := h4 q hq
        exact ⟨x, List.mem_cons_of_mem _ hx, hx'⟩

theorem move_spec (red : List (List ℝ) → List ℝ) (hr : IsReduction red) (procs : List (List Pt))
    (hp : procs ≠ []) (h : ∀ p ∈ procs, p ≠ []) (loc : Pt) :
    ∃ c ∈ procs.flatten, move red procs loc = some (dist loc c, c) ∧
      ∀ x ∈ procs.flatten, dist loc c ≤ dist loc x := by
  obtain ⟨cs, h1, h2, h3, h4⟩ := mapM_local loc procs h
  have hne : cs.map (fun c : Pt => [dist loc c, c.1, c.2]) ≠ [] := by
    intro hx
    rw [List.map_eq_nil_iff] at hx
    rw [hx] at h2
    exact hp (List.eq_nil_of_length_eq_zero h2.symm)
  have hlen : ∀ a ∈ cs.map (fun c : Pt => [dist loc c, c.1, c.2]), a.length = 3 := by
    intro a ha
    obtain ⟨c, -, rfl⟩ := List.mem_map.1 ha
    rfl
  obtain ⟨hm, hs⟩ := (hr _ hne).spec hlen
  obtain ⟨c, hc, hce⟩ := List.mem_map.1 hm
  obtain ⟨p, hp1, hp2⟩ := h3 c hc
  refine ⟨c, List.mem_flatten.2 ⟨p, hp1, hp2⟩, ?_, ?_⟩
  · simp [move, h1, ← hce]
  · intro x hx
    obtain ⟨q, hq, hxq⟩ := List.mem_flatten.1 hx
    obtain ⟨y, hy, -, hyq⟩ := h4 q hq
    refine le_trans ?_ (hyq x hxq)
    have := hs _ (List.mem_map.2 ⟨y, hy, rfl⟩)
    rw [← hce] at this
    simp only [firstIsMin] at this
    by_contra hlt
    rw [if_neg (by linarith), if_pos (not_le.1 hlt)] at this
    exact Bool.false_ne_true this

/-- What should happen to one detector: inside the domain it is kept where it is; outside, it is moved
to a nearest cell centre of the whole mesh if that is close enough, and dropped otherwise. -/
def Placed (cells : List Pt) (dom : Pt → Bool) (maxDist : ℝ) (d : Pt × String)
    (out : Option (Pt × String)) : Prop :=
  (dom d.1 = true ∧ out = some d) ∨
  (dom d.1 = false ∧ ∃ c ∈ cells, (∀ x ∈ cells, dist d.1 c ≤ dist d.1 x) ∧
    ((dist d.1 c ≤ maxDist ∧ out = some (c, d.2)) ∨ (maxDist < dist d.1 c ∧ out = none)))

/-- C50, the part that holds for every partition without an empty process: each detector is treated as
stated and the order of detectors and names is kept. -/
theorem C50_placed_partial (red : List (List ℝ) → List ℝ) (hr : IsReduction red)
    (procs : List (List Pt)) (hp : procs ≠ []) (h : ∀ p ∈ procs, p ≠ []) (dom : Pt → Bool)
    (maxDist : ℝ) (locs : List Pt) (names : List String) (hl : locs ≠ []) :
    ∃ outs, selectAndMove red procs dom maxDist locs names = some (outs.filterMap id) ∧
      List.Forall₂ (Placed procs.flatten dom maxDist) (locs.zip names) outs := by
  unfold selectAndMove
  rw [if_neg hl]
  generalize locs.zip names = l
  induction l with
  | nil => exact ⟨[], rfl, List.Forall₂.nil⟩
  | cons a l ih =>
    obtain ⟨outs, h1, h2⟩ := ih
    obtain ⟨loc, name⟩ := a
    cases hd : dom loc
    · obtain ⟨c, hc, hmv, hmin⟩ := move_spec red hr procs hp h loc
      by_cases hx : dist loc c > maxDist
      · refine ⟨none :: outs, ?_, List.Forall₂.cons (Or.inr ⟨hd, c, hc, hmin, Or.inr ⟨hx, rfl⟩⟩) h2⟩
        simp [select, hd, hmv, hx, h1]
      · refine ⟨some (c, name) :: outs, ?_,
          List.Forall₂.cons (Or.inr ⟨hd, c, hc, hmin, Or.inl ⟨not_lt.1 hx, rfl⟩⟩) h2⟩
        simp [select, hd, hmv, hx, h1]
    · refine ⟨some (loc, name) :: outs, ?_, List.Forall₂.cons (Or.inl ⟨hd, rfl⟩) h2⟩
      simp [select, hd, h1]

/-- Two outcomes for the same detector agree on whether it is kept and under which name. -/
theorem Placed.kept {cells cells' : List Pt} (hc : ∀ x, x ∈ cells ↔ x ∈ cells') {dom : Pt → Bool}
    {maxDist : ℝ} {d : Pt × String} {o o' : Option (Pt × String)} (h : Placed cells dom maxDist d o)
    (h' : Placed cells' dom maxDist d o') : o.map Prod.snd = o'.map Prod.snd := by
  rcases h with ⟨h1, rfl⟩ | ⟨h1, c, hcm, hmin, h2⟩ <;> rcases h' with ⟨k1, rfl⟩ | ⟨k1, c', kcm, kmin, k2⟩
  · rfl
  · rw [h1] at k1; simp at k1
  · rw [h1] at k1; simp at k1
  · have e : dist d.1 c = dist d.1 c' := le_antisymm (hmin _ ((hc _).2 kcm)) (kmin _ ((hc _).1 hcm))
    rcases h2 with ⟨h2, rfl⟩ | ⟨h2, rfl⟩ <;> rcases k2 with ⟨k2, rfl⟩ | ⟨k2, rfl⟩
    · rfl
    · linarith
    · linarith
    · rfl

/-- Two outcomes agree completely if the nearest centre is unique. -/
theorem Placed.unique {cells cells' : List Pt} (hc : ∀ x, x ∈ cells ↔ x ∈ cells') {dom : Pt → Bool}
    {maxDist : ℝ} {d : Pt × String} {o o' : Option (Pt × String)} (h : Placed cells dom maxDist d o)
    (h' : Placed cells' dom maxDist d o')
    (hu : dom d.1 = false → ∀ c ∈ cells, ∀ c' ∈ cells, (∀ x ∈ cells, dist d.1 c ≤ dist d.1 x) →
      (∀ x ∈ cells, dist d.1 c' ≤ dist d.1 x) → c = c') : o = o' := by
  rcases h with ⟨h1, rfl⟩ | ⟨h1, c, hcm, hmin, h2⟩ <;> rcases h' with ⟨k1, rfl⟩ | ⟨k1, c', kcm, kmin, k2⟩
  · rfl
  · rw [h1] at k1; simp at k1
  · rw [h1] at k1; simp at k1
  · have e : c = c' := hu h1 c hcm c' ((hc _).2 kcm) hmin fun x hx => kmin x ((hc _).1 hx)
    subst e
    rcases h2 with ⟨h2, rfl⟩ | ⟨h2, rfl⟩ <;> rcases k2 with ⟨k2, rfl⟩ | ⟨k2, rfl⟩
    · rfl
    · linarith
    · linarith
    · rfl

/-- C50: which detectors (names) are kept, and in which order, does not depend on the distribution of
the cells over the processes. -/
theorem C50_kept_partial (red : List (List ℝ) → List ℝ) (hr : IsReduction red)
    (procs procs' : List (List Pt)) (hc : procs.flatten.Perm procs'.flatten) (hp : procs ≠ [])
    (hp' : procs' ≠ []) (h : ∀ p ∈ procs, p ≠ []) (h' : ∀ p ∈ procs', p ≠ []) (dom : Pt → Bool)
    (maxDist : ℝ) (locs : List Pt) (names : List String) (hl : locs ≠ []) :
    (selectAndMove red procs dom maxDist locs names).map (List.map Prod.snd)
      = (selectAndMove red procs' dom maxDist locs names).map (List.map Prod.snd) := by
  obtain ⟨o, e, f⟩ := C50_placed_partial red hr procs hp h dom maxDist locs names hl
  obtain ⟨o', e', f'⟩ := C50_placed_partial red hr procs' hp' h' dom maxDist locs names hl
  rw [e, e']
  simp only [Option.map_some, Option.some.injEq]
  clear e e'
  generalize locs.zip names = l at f f'
  induction f generalizing o' with
  | nil => cases f'; rfl
  | cons a f ih =>
    cases f' with
    | cons b f' =>
      have h1 := Placed.kept (fun x => hc.mem_iff) a b
      have h2 := ih _ f'
      rename_i x y l o y' o'
      cases y <;> cases y' <;> simp_all

/-- C50: where every detector outside the domain has a unique nearest cell centre, the kept locations
do not depend on the distribution either. -/
theorem C50_partition_partial (red : List (List ℝ) → List ℝ) (hr : IsReduction red)
    (procs procs' : List (List Pt)) (hc : procs.flatten.Perm procs'.flatten) (hp : procs ≠ [])
    (hp' : procs' ≠ []) (h : ∀ p ∈ procs, p ≠ []) (h' : ∀ p ∈ procs', p ≠ []) (dom : Pt → Bool)
    (maxDist : ℝ) (locs : List Pt) (names : List String) (hl : locs ≠ [])
    (hu : ∀ loc ∈ locs, dom loc = false → ∀ c ∈ procs.flatten, ∀ c' ∈ procs.flatten,
      (∀ x ∈ procs.flatten, dist loc c ≤ dist loc x) →
      (∀ x ∈ procs.flatten, dist loc c' ≤ dist loc x) → c = c') :
    selectAndMove red procs dom maxDist locs names
      = selectAndMove red procs' dom maxDist locs names := by
  obtain ⟨o, e, f⟩ := C50_placed_partial red hr procs hp h dom maxDist locs names hl
  obtain ⟨o', e', f'⟩ := C50_placed_partial red hr procs' hp' h' dom maxDist locs names hl
  rw [e, e', Option.some.injEq]
  clear e e'
  have hz : ∀ d ∈ locs.zip names, d.1 ∈ locs := fun d hd => (List.of_mem_zip hd).1
  generalize locs.zip names = l at f f' hz
  induction f generalizing o' with
  | nil => cases f'; rfl
  | cons a f ih =>
    cases f' with
    | cons b f' =>
      rename_i x y l o y' o'
      have h1 := Placed.unique (fun x => hc.mem_iff) a b (hu x.1 (hz x (by simp)))
      have h2 := ih _ f' fun d hd => hz d (List.mem_cons_of_mem _ hd)
      subst h1
      cases y <;> simpa using h2

/-- The reduction in rank order. -/
noncomputable def redFold : List (List ℝ) → List ℝ
  | [] => []
  | a :: l => l.foldl minLexsort a

theorem redFold_isReduction : IsReduction redFold := by
  intro l hl
  cases l with
  | nil => exact absurd rfl hl
  | cons a l =>
    show Reduces (a :: l) (l.foldl minLexsort a)
    have : ∀ (l : List (List ℝ)) (pre : List (List ℝ)) (a : List ℝ), Reduces pre a →
        Reduces (pre ++ l) (l.foldl minLexsort a) := by
      intro l
      induction l with
      | nil => intro pre a h; simpa using h
      | cons b l ih =>
        intro pre a h
        have := ih (pre ++ [b]) (minLexsort a b) (Reduces.op h (Reduces.one b))
        simpa using this
    exact this l [a] a (Reduces.one a)

/-- C50 is violated if two cell centres are equally near: on one process the first of them is taken,
on two processes the lexicographically smaller one, so the detector ends up in different cells. -/
theorem C50_tie_violated :
    let loc : Pt := (0, 0)
    selectAndMove redFold [[(1, 0), (-1, 0)]] (fun _ => false) 2 [loc] ["a"] = some [((1, 0), "a")] ∧
    selectAndMove redFold [[(1, 0)], [(-1, 0)]] (fun _ => false) 2 [loc] ["a"]
      = some [((-1, 0), "a")] := by
  have d1 : ∀ x : ℝ, sqrt (x * x) = |x| := Real.sqrt_mul_self_eq_abs
  constructor
  · simp [selectAndMove, select, move, localEntry, firstMin, dist2, redFold]
  · simp [selectAndMove, select, move, localEntry, firstMin, dist2, redFold, minLexsort, firstIsMin]
    norm_num

/-- C50 is violated on a process without cells: any detector outside the domain raises there. -/
theorem C50_empty_process_violated (red : List (List ℝ) → List ℝ) (procs : List (List Pt))
    (h : [] ∈ procs) (dom : Pt → Bool) (maxDist : ℝ) (loc : Pt) (hd : dom loc = false)
    (name : String) : selectAndMove red procs dom maxDist [loc] [name] = none := by
  have hm : procs.mapM (localEntry loc) = none := by
    induction procs with
    | nil => simp at h
    | cons p procs ih =>
      rw [List.mapM_cons]
      rcases List.mem_cons.1 h with h | h
      · rw [← h]; rfl
      · rw [ih h]
        cases localEntry loc p <;> rfl
  simp [selectAndMove, select, hd, move, hm]

/-- C50 is violated for an empty list of detectors: the first one is looked up before the loop. -/
theorem C50_no_detectors_violated (red : List (List ℝ) → List ℝ) (procs : List (List Pt))
    (dom : Pt → Bool) (maxDist : ℝ) (names : List String) :
    selectAndMove red procs dom maxDist [] names = none := rfl

end Verif.Detect
