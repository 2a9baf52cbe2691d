import Verif.Invert.Props
import Mathlib.Algebra.BigOperators.Fin
import Mathlib.Algebra.Order.BigOperators.Group.List
import Mathlib.Tactic.Positivity
import Mathlib.Tactic.FieldSimp
import Mathlib.Tactic.Ring

/-!
Properties C56 and C58.
-/

namespace Verif.Invert

/-! ### C56: the cost function -/

theorem foldl_add (l : List ℝ) (a : ℝ) : l.foldl (· + ·) a = a + l.sum := by
  induction l generalizing a with
  | nil => simp
  | cons x l ih => rw [List.foldl_cons, ih, List.sum_cons, add_assoc]

/-- C56: after any number of evaluations with any number of managers the cost is the regularisation
plus all misfits, and the two stored parts are these two sums. -/
theorem C56_sum (regs : List ℝ) (calls : List (List ℝ)) :
    (calls.foldl costFn (costInit regs)).J = regs.sum + (calls.map List.sum).sum ∧
    (calls.foldl costFn (costInit regs)).Jreg = regs.sum ∧
    (calls.foldl costFn (costInit regs)).Jmis = (calls.map List.sum).sum := by
  have key : ∀ (c : Cost), (calls.foldl costFn c).J = c.J + (calls.map List.sum).sum ∧
      (calls.foldl costFn c).Jreg = c.Jreg ∧
      (calls.foldl costFn c).Jmis = c.Jmis + (calls.map List.sum).sum := by
    induction calls with
    | nil => intro c; simp
    | cons a as ih =>
      intro c
      obtain ⟨h1, h2, h3⟩ := ih (costFn c a)
      have hm : multi a = a.sum := by rw [multi, foldl_add, zero_add]
      refine ⟨?_, h2, ?_⟩
      · rw [List.foldl_cons, h1, List.map_cons, List.sum_cons]
        simp only [costFn, hm]; ring
      · rw [List.foldl_cons, h3, List.map_cons, List.sum_cons]
        simp only [costFn, hm]; ring
  obtain ⟨h1, h2, h3⟩ := key (costInit regs)
  exact ⟨h1, h2, by rw [h3]; simp [costInit]⟩

theorem select_reg (regs : List ℝ) (mgrs : List (String × (ℕ → List ℝ) × (ℕ → ℝ))) (n : ℕ) :
    select "reg_eval" (forwardTape regs mgrs n) = regs.map fun r => [r] := by
  rw [select, forwardTape, List.filter_append, List.map_append]
  have h1 : ((List.range n).flatMap fun t => mgrs.flatMap fun g =>
      ([(g.1 ++ " observation", g.2.1 t), ("misfit_eval", [g.2.2 t])] : List Block)).filter
      (fun b => b.1 == "reg_eval") = [] := by
    rw [List.filter_eq_nil_iff]
    intro b hb
    simp only [List.mem_flatMap, List.mem_cons, List.not_mem_nil, or_false] at hb
    obtain ⟨t, -, g, -, rfl | rfl⟩ := hb
    · simp only [beq_iff_eq]
      exact tag_ne g.1 _ (by decide)
    · simp
  rw [h1, List.map_nil, List.append_nil]
  induction regs with
  | nil => rfl
  | cons r rs ih => simp only [List.map_cons, List.filter_cons]; simpa using ih

theorem select_misfit (regs : List ℝ) (mgrs : List (String × (ℕ → List ℝ) × (ℕ → ℝ))) (n : ℕ) :
    select "misfit_eval" (forwardTape regs mgrs n)
      = (List.range n).flatMap fun t => mgrs.map fun g => [g.2.2 t] := by
  rw [select, forwardTape, List.filter_append, List.map_append]
  have h1 : (regs.map fun r => (("reg_eval", [r]) : Block)).filter (fun b => b.1 == "misfit_eval")
      = [] := by
    rw [List.filter_eq_nil_iff]
    intro b hb
    simp only [List.mem_map] at hb
    obtain ⟨r, -, rfl⟩ := hb
    simp
  rw [h1, List.map_nil, List.nil_append, List.filter_flatMap, List.map_flatMap]
  apply List.flatMap_congr
  intro t _
  rw [List.filter_flatMap, List.map_flatMap]
  induction mgrs with
  | nil => rfl
  | cons g gs ih =>
    rw [List.flatMap_cons, ih, List.map_cons]
    have : (g.1 ++ " observation" == "misfit_eval") = false := by
      rw [beq_eq_false_iff_ne]; exact tag_ne g.1 _ (by decide)
    simp [this]

/-- C56: the parts that are stored after an evaluation by the optimiser are the two sums too, so that
they add up to the cost function of the forward run. -/
theorem C56_parts (regs : List ℝ) (mgrs : List (String × (ℕ → List ℝ) × (ℕ → ℝ))) (n : ℕ) (s s' : St)
    (h : evalCb (((List.range n).map fun t => mgrs.map fun g => g.2.2 t).foldl costFn
      (costInit regs)).J (forwardTape regs mgrs n) s = some s') :
    s'.Jreg = regs.sum ∧ s'.Jmis = ((List.range n).map fun t => (mgrs.map fun g => g.2.2 t).sum).sum ∧
      s'.J = s'.Jreg + s'.Jmis := by
  simp only [evalCb, Option.map_eq_some_iff] at h
  obtain ⟨soms, -, rfl⟩ := h
  have h1 : ((select "reg_eval" (forwardTape regs mgrs n)).map List.sum).sum = regs.sum := by
    rw [select_reg]; simp [Function.comp_def]
  have h2 : ((select "misfit_eval" (forwardTape regs mgrs n)).map List.sum).sum
      = ((List.range n).map fun t => (mgrs.map fun g => g.2.2 t).sum).sum := by
    rw [select_misfit, List.map_flatMap]
    generalize List.range n = l
    induction l with
    | nil => rfl
    | cons t l ih =>
      rw [List.flatMap_cons, List.sum_append, ih]
      simp [Function.comp_def]
  refine ⟨h1, h2, ?_⟩
  simp only
  rw [h1, h2, (C56_sum regs _).1, List.map_map]
  rfl

theorem sum_const (q : List (ℝ × ℝ)) (s A e : ℝ) (he : ∀ p ∈ q, p.2 = e) :
    (q.map fun p => p.1 * (s * p.2 / A)).sum = (q.map Prod.fst).sum * (s * e / A) := by
  induction q with
  | nil => simp
  | cons p ps ih =>
    rw [List.map_cons, List.sum_cons, List.map_cons, List.sum_cons,
      ih fun x hx => he x (by simp [hx]), he p (by simp)]
    ring

/-- C56: the regularisation of a control in the Real space is the scaled expression itself, for every
mesh. -/
theorem C56_rspace (s gamma prior eps f : ℝ) (q : List (ℝ × ℝ)) (hA : (q.map Prod.fst).sum ≠ 0)
    (hq : ∀ p ∈ q, p.2 = rspaceExpr gamma prior eps f) :
    regEval (some s) q = some (s * (gamma * (f - prior) ^ 2 / max |prior| eps)) := by
  simp only [regEval, Option.map_some, Option.some.injEq]
  rw [sum_const q s _ _ hq, rspaceExpr]
  field_simp

/-- C56: it vanishes at the prior, and only there if the parameters are positive. -/
theorem C56_prior (s gamma prior eps f : ℝ) (q : List (ℝ × ℝ)) (hA : (q.map Prod.fst).sum ≠ 0)
    (hq : ∀ p ∈ q, p.2 = rspaceExpr gamma prior eps f) (hs : 0 < s) (hg : 0 < gamma) (he : 0 < eps) :
    regEval (some s) q = some 0 ↔ f = prior := by
  rw [C56_rspace s gamma prior eps f q hA hq, Option.some.injEq]
  have hm : 0 < max |prior| eps := lt_max_of_lt_right he
  constructor
  · intro h
    have h1 : gamma * (f - prior) ^ 2 / max |prior| eps = 0 := by
      rcases mul_eq_zero.1 h with h | h
      · exact absurd h hs.ne'
      · exact h
    rw [div_eq_zero_iff] at h1
    rcases h1 with h1 | h1
    · rcases mul_eq_zero.1 h1 with h2 | h2
      · exact absurd h2 hg.ne'
      · have := pow_eq_zero_iff (two_ne_zero) |>.1 h2
        linarith
    · exact absurd h1 hm.ne'
  · rintro rfl
    simp

theorem regEval_nonneg (s : ℝ) (q : List (ℝ × ℝ)) (hs : 0 ≤ s) (hq : ∀ p ∈ q, 0 ≤ p.1 ∧ 0 ≤ p.2) :
    ∃ r, regEval (some s) q = some r ∧ 0 ≤ r := by
  refine ⟨_, rfl, ?_⟩
  have hA : 0 ≤ (q.map Prod.fst).sum := by
    apply List.sum_nonneg
    intro x hx
    simp only [List.mem_map] at hx
    obtain ⟨p, hp, rfl⟩ := hx
    exact (hq p hp).1
  apply List.sum_nonneg
  intro x hx
  simp only [List.mem_map] at hx
  obtain ⟨p, hp, rfl⟩ := hx
  exact mul_nonneg (hq p hp).1 (div_nonneg (mul_nonneg hs (hq p hp).2) hA)

/-- C56: with parameters that are not negative, the three kinds of expression are not negative;
the last two vanish where the gradient or Hessian does. -/
theorem C56_expr_nonneg (gamma prior eps f h a b c d : ℝ) (hg : 0 ≤ gamma) :
    0 ≤ rspaceExpr gamma prior eps f ∧ 0 ≤ gradientExpr gamma (a, b) h ∧ 0 ≤ hessianExpr gamma a b c d h ∧
      gradientExpr gamma (0, 0) h = 0 ∧ hessianExpr gamma 0 0 0 0 h = 0 := by
  refine ⟨?_, ?_, ?_, ?_, ?_⟩
  · unfold rspaceExpr
    have : 0 ≤ max |prior| eps := le_trans (abs_nonneg _) (le_max_left _ _)
    positivity
  · unfold gradientExpr
    have h1 := mul_self_nonneg a
    have h2 := mul_self_nonneg b
    simp only
    positivity
  · unfold hessianExpr
    have h1 := mul_self_nonneg a
    have h2 := mul_self_nonneg b
    have h3 := mul_self_nonneg c
    have h4 := mul_self_nonneg d
    have : 0 ≤ h ^ 4 := by positivity
    positivity
  · simp [gradientExpr]
  · simp [hessianExpr]

/-- C56: the total regularisation of any number of controls is not negative, and it is evaluated
whenever the numbers of controls and parameters agree. -/
theorem C56_regularisation {φ : Type*} (quad : φ → ℝ → List (ℝ × ℝ)) (fs : List φ) (gammas : List ℝ)
    (s : ℝ) (hs : 0 ≤ s) (hl : fs.length = gammas.length)
    (hq : ∀ f ∈ fs, ∀ g ∈ gammas, ∀ p ∈ quad f g, 0 ≤ p.1 ∧ 0 ≤ p.2) :
    ∃ r, regManager quad fs gammas (some s) = some r ∧ 0 ≤ r := by
  rw [regManager, if_pos hl]
  have key : ∀ l : List (φ × ℝ), (∀ x ∈ l, ∀ p ∈ quad x.1 x.2, 0 ≤ p.1 ∧ 0 ≤ p.2) →
      ∃ r, regSum quad (some s) l = some r ∧ 0 ≤ r := by
    intro l
    induction l with
    | nil => intro _; exact ⟨0, rfl, le_rfl⟩
    | cons x l ih =>
      intro h
      obtain ⟨a, ha, ha'⟩ := regEval_nonneg s (quad x.1 x.2) hs (h x (by simp))
      obtain ⟨b, hb, hb'⟩ := ih fun y hy => h y (by simp [hy])
      exact ⟨a + b, by rw [regSum, ha, hb]; rfl, add_nonneg ha' hb'⟩
  apply key
  intro x hx p hp
  exact hq x.1 (List.of_mem_zip hx).1 x.2 (List.of_mem_zip hx).2 p hp

/-- C56: a wrong number of parameters is refused. -/
theorem C56_mismatch {φ : Type*} (quad : φ → ℝ → List (ℝ × ℝ)) (fs : List φ) (gammas : List ℝ)
    (s : Option ℝ) (hl : fs.length ≠ gammas.length) : regManager quad fs gammas s = none := by
  rw [regManager, if_neg hl]

/-- C56 is violated by a `ControlRegularizationManager` made with its default scaling `None`: it cannot
be evaluated. -/
theorem C56_default_scaling_violated {φ : Type*} (quad : φ → ℝ → List (ℝ × ℝ)) (f : φ) (g : ℝ) :
    regManager quad [f] [g] none = none := by
  simp [regManager, regSum, regEval]

/-! ### C58: each station contributes its own observations -/

theorem argmin_spec (l : List ℝ) (j : ℕ) (hj : j < l.length)
    (h : ∀ k (hk : k < l.length), k ≠ j → l[j] < l[k]) : argmin l = j := by
  induction l generalizing j with
  | nil => simp at hj
  | cons x xs ih =>
    rw [argmin]
    cases j with
    | zero =>
      rw [if_pos]
      intro y hy
      obtain ⟨k, hk, rfl⟩ := List.mem_iff_getElem.1 hy
      have := h (k + 1) (by simpa using hk) (by omega)
      simpa using this.le
    | succ j =>
      have hj' : j < xs.length := by simpa using hj
      rw [if_neg]
      · rw [ih j hj']
        intro k hk hne
        have := h (k + 1) (by simpa using hk) (by omega)
        simpa using this
      · intro hall
        have h0 := h 0 (by simp) (by omega)
        have h1 := hall xs[j] (List.getElem_mem hj')
        simp at h0
        linarith

theorem argmin_first (l : List ℝ) (x : ℝ) (h : ∀ y ∈ l, x ≤ y) : argmin (x :: l) = 0 := by
  rw [argmin, if_pos h]

/-- Distance of two points. -/
noncomputable def dist2 (p q : ℝ × ℝ) : ℝ := Real.sqrt ((p.1 - q.1) ^ 2 + (p.2 - q.2) ^ 2)

/-- C58: a point of the vertex-only mesh that is closer to station `j` than to all others, and close to
it within the tolerance, is given to station `j`. -/
theorem C58_nearest (xy : List (ℝ × ℝ)) (p : ℝ × ℝ) (j : ℕ) (hj : j < xy.length)
    (h : ∀ k (hk : k < xy.length), k ≠ j → dist2 xy[j] p < dist2 xy[k] p)
    (hc1 : |xy[j].1 - p.1| ≤ 1e-8 + 1e-5 * |p.1|) (hc2 : |xy[j].2 - p.2| ≤ 1e-8 + 1e-5 * |p.2|) :
    stationIndex xy p = some j := by
  have ha : argmin (xy.map fun q => Real.sqrt ((q.1 - p.1) ^ 2 + (q.2 - p.2) ^ 2)) = j := by
    apply argmin_spec _ _ (by simpa using hj)
    intro k hk hne
    simpa [dist2] using h k (by simpa using hk) hne
  unfold stationIndex
  simp only [ha]
  rw [List.getElem?_eq_getElem hj]
  simp only
  rw [if_pos ⟨hc1, hc2⟩]

/-- C58: a point that is not close to any station is refused. -/
theorem C58_far (xy : List (ℝ × ℝ)) (p : ℝ × ℝ)
    (h : ∀ q ∈ xy, ¬ (|q.1 - p.1| ≤ 1e-8 + 1e-5 * |p.1| ∧ |q.2 - p.2| ≤ 1e-8 + 1e-5 * |p.2|)) :
    stationIndex xy p = none := by
  unfold stationIndex
  simp only
  split
  · rfl
  · rename_i q hq
    rw [if_neg]
    exact h q (List.mem_of_getElem? hq)

theorem stationIndex_exact (xy : List (ℝ × ℝ)) (hn : xy.Nodup) (j : ℕ) (hj : j < xy.length) :
    stationIndex xy xy[j] = some j := by
  apply C58_nearest xy _ j hj
  · intro k hk hne
    have h0 : dist2 xy[j] xy[j] = 0 := by simp [dist2]
    rw [h0, dist2, Real.sqrt_pos]
    have hd : xy[k] ≠ xy[j] := fun h => hne ((List.Nodup.getElem_inj_iff hn).1 h)
    by_contra hle
    apply hd
    have h1 := sq_nonneg (xy[k].1 - xy[j].1)
    have h2 := sq_nonneg (xy[k].2 - xy[j].2)
    have e1 : (xy[k].1 - xy[j].1) ^ 2 = 0 := by linarith
    have e2 : (xy[k].2 - xy[j].2) ^ 2 = 0 := by linarith
    rw [pow_eq_zero_iff two_ne_zero] at e1 e2
    exact Prod.ext (by linarith) (by linarith)
  · rw [sub_self, abs_zero]; positivity
  · rw [sub_self, abs_zero]; positivity

theorem misfit_eq (d : Data) (u : ℝ × ℝ → ℝ) (t : ℝ) (g : ℝ × ℝ → ℝ) (pts : List (ℝ × ℝ))
    (h : ∀ p ∈ pts, ∃ j, stationIndex d.xy p = some j ∧ summand d u t p j = some (g p)) :
    misfit d u t pts = some (pts.map g).sum := by
  induction pts with
  | nil => rfl
  | cons p ps ih =>
    obtain ⟨j, h1, h2⟩ := h p (by simp)
    rw [misfit, h1]
    simp only
    rw [h2, ih fun q hq => h q (by simp [hq])]
    rfl

/-- C58: for any stations at different places, in whatever order the mesh holds them, and any time at
which the series of every station that is in use can be evaluated (of every station, if no start or end
times are given), the misfit is the sum over the stations that are in use of the weighted square of the
difference between the station's own observation and the model at the station. -/
theorem C58_own (d : Data) (u : ℝ × ℝ → ℝ) (t : ℝ) (pts : List (ℝ × ℝ)) (o : ℕ → ℝ)
    (hn : d.xy.Nodup) (hp : pts.Perm d.xy)
    (ho : ∀ j < d.xy.length, (finiteTimes d →
      (∀ s, d.startT j = some s → s ≤ t) → (∀ e, d.endT j = some e → t ≤ e) → d.obs j t = some (o j)) ∧
      (¬ finiteTimes d → d.obs j t = some (o j))) :
    misfit d u t pts = some (∑ j : Fin d.xy.length,
      open Classical in
      if (∀ s, d.startT j = some s → s ≤ t) ∧ (∀ e, d.endT j = some e → t ≤ e) then
        d.scaling * d.weight j * (o j - u d.xy[j]) ^ 2 else 0) := by
  classical
  set term : ℕ → ℝ × ℝ → ℝ := fun j p =>
    if (∀ s, d.startT j = some s → s ≤ t) ∧ (∀ e, d.endT j = some e → t ≤ e) then
        d.scaling * d.weight j * (o j - u p) ^ 2 else 0 with hterm
  have h1 : misfit d u t pts = some (pts.map fun p => term (d.xy.idxOf p) p).sum := by
    apply misfit_eq
    intro p hpp
    have hmem : p ∈ d.xy := hp.mem_iff.1 hpp
    have hlt : d.xy.idxOf p < d.xy.length := List.idxOf_lt_length_of_mem hmem
    have hget : d.xy[d.xy.idxOf p] = p := List.getElem_idxOf hlt
    refine ⟨d.xy.idxOf p, ?_, ?_⟩
    · have := stationIndex_exact d.xy hn _ hlt
      rwa [hget] at this
    · obtain ⟨ha, hb⟩ := ho _ hlt
      by_cases hact : (∀ s, d.startT (d.xy.idxOf p) = some s → s ≤ t) ∧
          (∀ e, d.endT (d.xy.idxOf p) = some e → t ≤ e)
      · have hobs : interp d (d.xy.idxOf p) t = some (o (d.xy.idxOf p)) := by
          unfold interp
          by_cases hf : finiteTimes d
          · rw [if_pos hf, ha hf hact.1 hact.2]; rfl
          · rw [if_neg hf, hb hf]
        rw [summand, hobs, Option.map_some, inUse, if_pos hact, hterm]
        simp only
        rw [if_pos hact, mul_one]
      · have hf : finiteTimes d := by
          by_contra hf
          apply hact
          constructor
          · intro s hs
            exact absurd ⟨_, hlt, Or.inl (by rw [hs]; rfl)⟩ hf
          · intro s hs
            exact absurd ⟨_, hlt, Or.inr (by rw [hs]; rfl)⟩ hf
        rw [summand, interp, if_pos hf, Option.map_some, inUse, if_neg hact, hterm]
        simp only
        rw [if_neg hact]
        simp
  rw [h1, Option.some.injEq, (hp.map _).sum_eq]
  rw [← List.sum_ofFn]
  congr 1
  apply List.ext_getElem
  · simp
  · intro i hi1 hi2
    simp only [List.getElem_map, List.getElem_ofFn]
    have hi : i < d.xy.length := by simpa using hi1
    have : d.xy.idxOf d.xy[i] = i := List.Nodup.idxOf_getElem hn i hi
    rw [this]
    rfl

/-- The hypotheses of `C58_own` are met: two stations, one of them with a start time in the future and
without data yet. -/
example : ∃ d : Data, d.xy.Nodup ∧ d.xy.length = 2 ∧ ∀ j < d.xy.length,
    (finiteTimes d → (∀ s, d.startT j = some s → s ≤ 0) → (∀ e, d.endT j = some e → (0 : ℝ) ≤ e) →
      d.obs j 0 = some 1) ∧ (¬ finiteTimes d → d.obs j 0 = some 1) := by
  refine ⟨⟨[(0, 0), (1, 0)], fun j _ => if j = 0 then some 1 else none,
    fun j => if j = 0 then none else some 1, fun _ => none, 1, fun _ => 1⟩, by simp, rfl, ?_⟩
  intro j hj
  have hf : finiteTimes (⟨[(0, 0), (1, 0)], fun j _ => if j = 0 then some 1 else none,
    fun j => if j = 0 then none else some 1, fun _ => none, 1, fun _ => 1⟩ : Data) :=
    ⟨1, by simp, by simp⟩
  refine ⟨?_, fun h => absurd hf h⟩
  intro _ hs _
  by_cases h0 : j = 0
  · simp [h0]
  · simp only [h0, if_false] at hs
    have := hs 1 rfl
    norm_num at this

/-- C58 without start and end times: a time outside the series of any station is an error. -/
theorem C58_outside (d : Data) (u : ℝ × ℝ → ℝ) (t : ℝ) (pts : List (ℝ × ℝ)) (j : ℕ)
    (hn : d.xy.Nodup) (hp : pts.Perm d.xy) (hj : j < d.xy.length) (hf : ¬ finiteTimes d)
    (ho : d.obs j t = none) : misfit d u t pts = none := by
  have hmem : d.xy[j] ∈ pts := hp.mem_iff.2 (List.getElem_mem hj)
  clear hp
  induction pts with
  | nil => simp at hmem
  | cons p ps ih =>
    rw [misfit]
    rcases List.mem_cons.1 hmem with h | h
    · rw [← h, stationIndex_exact d.xy hn j hj]
      simp only
      rw [summand, interp, if_neg hf, ho]; rfl
    · cases stationIndex d.xy p with
      | none => rfl
      | some k =>
        simp only
        rw [ih h]
        cases summand d u t p k <;> rfl

/-- C58 is violated for two stations at the same place: both use the observations of the first one. -/
theorem C58_duplicate_violated (q : ℝ × ℝ) (d : Data) (hd : d.xy = [q, q]) (u : ℝ × ℝ → ℝ) (t a : ℝ)
    (h0 : d.obs 0 t = some a) (hs : d.startT 0 = none) (he : d.endT 0 = none) :
    misfit d u t [q, q] = some (2 * (d.scaling * d.weight 0 * (a - u q) ^ 2)) := by
  have hi : stationIndex d.xy q = some 0 := by
    unfold stationIndex
    rw [hd]
    simp only [List.map_cons, List.map_nil]
    rw [argmin_first _ _ (by simp)]
    simp only [List.getElem?_cons_zero]
    rw [if_pos]
    constructor <;> (unfold close; rw [sub_self, abs_zero]; positivity)
  have hin : interp d 0 t = some a := by
    unfold interp
    rw [h0]
    split <;> rfl
  have hu : inUse d 0 t = 1 := by
    unfold inUse
    rw [if_pos]
    simp [hs, he]
  have hsum : summand d u t q 0 = some (d.scaling * d.weight 0 * (a - u q) ^ 2) := by
    rw [summand, hin, hu, Option.map_some, mul_one]
  rw [misfit_eq d u t (fun _ => d.scaling * d.weight 0 * (a - u q) ^ 2)]
  · simp; ring
  · intro p hp
    have : p = q := by simpa using hp
    subst this
    exact ⟨0, hi, hsum⟩

/-- C58 is violated for a station that is in use at a time outside its series, as soon as any station
has a start or end time: instead of an error, its observation is taken to be zero. -/
theorem C58_fill_violated (d : Data) (u : ℝ × ℝ → ℝ) (t : ℝ) (p : ℝ × ℝ) (j : ℕ) (hf : finiteTimes d)
    (hs : ∀ s, d.startT j = some s → s ≤ t) (he : ∀ e, d.endT j = some e → t ≤ e)
    (ho : d.obs j t = none) :
    summand d u t p j = some (d.scaling * d.weight j * (u p) ^ 2) := by
  rw [summand, interp, if_pos hf, ho, Option.map_some, inUse, if_pos ⟨hs, he⟩]
  simp

/-- C58: for vector data the square is the sum over the components. -/
theorem C58_vector (o u : ℝ × ℝ) : vectorSquare o u = (o.1 - u.1) ^ 2 + (o.2 - u.2) ^ 2 := by
  unfold vectorSquare
  rw [Real.sq_sqrt]
  · ring
  · nlinarith [mul_self_nonneg (o.1 - u.1), mul_self_nonneg (o.2 - u.2)]

/-- C58: the weight of a station is positive where it is defined. -/
theorem C58_weight (obs : List ℝ) (w : ℝ) (h : varianceWeight obs = some w) : 0 < w := by
  unfold varianceWeight at h
  simp only at h
  split at h
  · simp at h
  · rename_i hne
    simp only [Option.some.injEq] at h
    rw [← h]
    apply one_div_pos.2
    apply lt_of_le_of_ne _ (Ne.symm hne)
    apply div_nonneg
    · apply List.sum_nonneg
      intro x hx
      simp only [List.mem_map] at hx
      obtain ⟨y, -, rfl⟩ := hx
      positivity
    · positivity

theorem sum_replicate' (n : ℕ) (a : ℝ) : (List.replicate n a).sum = n * a := by
  induction n with
  | zero => simp
  | succ n ih => rw [List.replicate_succ, List.sum_cons, ih]; push_cast; ring

/-- C58 is violated with weights by variance for a station whose observations are constant: the weight
is infinite. -/
theorem C58_constant_violated (n : ℕ) (a : ℝ) (hn : 0 < n) :
    varianceWeight (List.replicate n a) = none := by
  unfold varianceWeight
  simp only
  rw [if_pos]
  have hn' : (n : ℝ) ≠ 0 := by exact_mod_cast hn.ne'
  have hm : (List.replicate n a).sum / ((List.replicate n a).length : ℝ) = a := by
    rw [sum_replicate', List.length_replicate]; field_simp
  rw [hm, List.map_replicate, sum_replicate']
  simp

end Verif.Invert
