import Verif.Solver2.Model
import Mathlib.Data.List.Nodup
import Mathlib.Data.List.Infix
import Mathlib.Tactic.Common

namespace Verif.Solver2

variable {T : Types}

/-! ### C117: initial conditions and restart of 2D runs -/

theorem suffix_label (l : Name) : suffix <:+ label l := by
  unfold label
  split
  · rename_i h
    rw [← h.2]
    exact List.drop_suffix _ _
  · exact List.suffix_append _ _

theorem last3_append (s : Name) : last3 (s ++ suffix) = suffix := by
  simp [last3, suffix]

/-- C117: a tracer is addressed by its label, or by its label without `_2d`. -/
theorem C117_names (s : Name) :
    (s ≠ [] → label (s ++ suffix) = s ++ suffix) ∧ (¬ suffix <:+ s → label s = s ++ suffix) := by
  constructor
  · intro hs
    unfold label
    rw [if_pos]
    refine ⟨?_, last3_append s⟩
    have := List.length_pos_iff.2 hs
    simp [suffix]; omega
  · intro hs
    unfold label
    rw [if_neg]
    rintro ⟨_, h⟩
    exact hs (h ▸ List.drop_suffix _ _)

theorem assignTracers_keeps (labels : List Name) (tr : List (Name × T.Q)) (s : St T) :
    (assignTracers labels tr s).1.uv = s.uv ∧ (assignTracers labels tr s).1.elev = s.elev ∧
    (assignTracers labels tr s).1.bath = s.bath ∧ (assignTracers labels tr s).1.nh = s.nh ∧
    (assignTracers labels tr s).1.sed = s.sed ∧
    (∀ n, (∀ a ∈ tr, label a.1 ≠ n) → (assignTracers labels tr s).1.tracer n = s.tracer n) := by
  induction tr generalizing s with
  | nil => simp [assignTracers]
  | cons a rest ih =>
    obtain ⟨l, q⟩ := a
    unfold assignTracers
    split
    · obtain ⟨h1, h2, h3, h4, h5, h6⟩ := ih { s with tracer := Function.update s.tracer (label l) q }
      refine ⟨h1, h2, h3, h4, h5, fun n hn => ?_⟩
      rw [h6 n (fun a ha => hn a (List.mem_cons_of_mem _ ha))]
      exact Function.update_of_ne (Ne.symm (hn (l, q) List.mem_cons_self)) _ _
    · simp

theorem assignTracers_ok (labels : List Name) (tr : List (Name × T.Q)) (s : St T) :
    (assignTracers labels tr s).2 = true ↔ ∀ a ∈ tr, label a.1 ∈ labels := by
  induction tr generalizing s with
  | nil => simp [assignTracers]
  | cons a rest ih =>
    obtain ⟨l, q⟩ := a
    unfold assignTracers
    split
    · rename_i h; rw [ih]; simp [h]
    · rename_i h; simp [h]

theorem assignTracers_value (labels : List Name) (tr : List (Name × T.Q)) (s : St T)
    (hok : ∀ a ∈ tr, label a.1 ∈ labels) (hd : (tr.map fun a => label a.1).Nodup) {l : Name} {q : T.Q}
    (h : (l, q) ∈ tr) : (assignTracers labels tr s).1.tracer (label l) = q := by
  induction tr generalizing s with
  | nil => simp at h
  | cons a rest ih =>
    obtain ⟨l', q'⟩ := a
    simp only [List.map_cons, List.nodup_cons] at hd
    unfold assignTracers
    rw [if_pos (hok _ List.mem_cons_self)]
    rcases List.mem_cons.1 h with h | h
    · injection h with h1 h2
      subst h1 h2
      rw [(assignTracers_keeps labels rest _).2.2.2.2.2]
      · simp
      · intro a ha he
        exact hd.1 (List.mem_map.2 ⟨a, ha, he⟩)
    · exact ih _ (fun a ha => hok a (List.mem_cons_of_mem _ ha)) hd.2 h

/-- The state after `assign`, field by field. -/
theorem assign_fields (o : Opts) (m : Sed T) (e : Option T.E) (u : Option T.V) (c : Option T.Q)
    (tr : List (Name × T.Q)) (s : St T) :
    (assign o m e u c tr s).1.elev = e.getD s.elev ∧ (assign o m e u c tr s).1.uv = u.getD s.uv ∧
    (assign o m e u c tr s).1.bath = s.bath ∧ (assign o m e u c tr s).1.nh = s.nh ∧
    (assign o m e u c tr s).1.tracer =
      (assignTracers o.labels tr { s with elev := e.getD s.elev, uv := u.getD s.uv }).1.tracer ∧
    (assign o m e u c tr s).2 =
      (assignTracers o.labels tr { s with elev := e.getD s.elev, uv := u.getD s.uv }).2 := by
  obtain ⟨h1, h2, h3, h4, -, -⟩ :=
    assignTracers_keeps o.labels tr { s with elev := e.getD s.elev, uv := u.getD s.uv }
  unfold assign settle
  split
  · rename_i h; exact ⟨h2, h1, h3, h4, rfl, h.1.symm⟩
  · exact ⟨h2, h1, h3, h4, rfl, rfl⟩

theorem assign_sed (o : Opts) (m : Sed T) (e : Option T.E) (u : Option T.V) (c : Option T.Q)
    (tr : List (Name × T.Q)) (s : St T) (hok : ∀ a ∈ tr, label a.1 ∈ o.labels) :
    (assign o m e u c tr s).1.sed = if o.sediment then
      c.getD (if o.conservative then
          m.timesDepth (e.getD s.elev) s.bath (m.equil (u.getD s.uv) (e.getD s.elev) s.bath)
        else m.equil (u.getD s.uv) (e.getD s.elev) s.bath) else s.sed := by
  have h0 := (assignTracers_ok o.labels tr { s with elev := e.getD s.elev, uv := u.getD s.uv }).2 hok
  obtain ⟨h1, h2, h3, -, h5, -⟩ :=
    assignTracers_keeps o.labels tr { s with elev := e.getD s.elev, uv := u.getD s.uv }
  simp only at h1 h2 h3 h5
  unfold assign settle
  by_cases hs : o.sediment = true
  · rw [if_pos ⟨h0, hs⟩, if_pos hs]; simp only [h1, h2, h3]
  · rw [if_neg (fun h => hs h.2), if_neg hs, h5]

/-- C117: initial conditions with known labels are accepted, each named field has the given value and all other fields
except the sediment keep theirs. -/
theorem C117_initial (o : Opts) (m : Sed T) (e : Option T.E) (u : Option T.V) (c : Option T.Q)
    (tr : List (Name × T.Q)) (s : St T) :
    ((assign o m e u c tr s).2 = true ↔ ∀ a ∈ tr, label a.1 ∈ o.labels) ∧
    (assign o m e u c tr s).1.elev = e.getD s.elev ∧ (assign o m e u c tr s).1.uv = u.getD s.uv ∧
    (assign o m e u c tr s).1.bath = s.bath ∧ (assign o m e u c tr s).1.nh = s.nh ∧
    (∀ n, (∀ a ∈ tr, label a.1 ≠ n) → (assign o m e u c tr s).1.tracer n = s.tracer n) ∧
    ((∀ a ∈ tr, label a.1 ∈ o.labels) → (tr.map fun a => label a.1).Nodup → ∀ l q, (l, q) ∈ tr →
      (assign o m e u c tr s).1.tracer (label l) = q) := by
  obtain ⟨h1, h2, h3, h4, h5, h6⟩ := assign_fields o m e u c tr s
  refine ⟨?_, h1, h2, h3, h4, ?_, ?_⟩
  · rw [h6, assignTracers_ok]
  · intro n hn
    rw [h5, (assignTracers_keeps o.labels tr _).2.2.2.2.2 n hn]
  · intro hok hd l q hl
    rw [h5, assignTracers_value o.labels tr _ hok hd hl]

/-- C117: the sediment is the given field, or in equilibrium with the initial flow. -/
theorem C117_sediment (o : Opts) (m : Sed T) (e : Option T.E) (u : Option T.V) (c : Option T.Q)
    (tr : List (Name × T.Q)) (s : St T) (hok : ∀ a ∈ tr, label a.1 ∈ o.labels) :
    (o.sediment = false → (assign o m e u c tr s).1.sed = s.sed) ∧
    (o.sediment = true → ∀ q, c = some q → (assign o m e u c tr s).1.sed = q) ∧
    (o.sediment = true → c = none → o.conservative = false →
      (assign o m e u c tr s).1.sed = m.equil (u.getD s.uv) (e.getD s.elev) s.bath) ∧
    (o.sediment = true → c = none → o.conservative = true →
      (assign o m e u c tr s).1.sed =
        m.timesDepth (e.getD s.elev) s.bath (m.equil (u.getD s.uv) (e.getD s.elev) s.bath)) := by
  rw [assign_sed o m e u c tr s hok]
  refine ⟨?_, ?_, ?_, ?_⟩ <;> intros <;> simp_all

/-- C117 violated: in conservative form the unknown is the concentration times the depth, which is what the default sets; a
concentration given as `sediment`, even the equilibrium one, is stored as it is. -/
theorem C117_sediment_violated (o : Opts) (m : Sed T) (s : St T) (hs : o.sediment = true) (hc : o.conservative = true)
    (hd : m.timesDepth s.elev s.bath (m.equil s.uv s.elev s.bath) ≠ m.equil s.uv s.elev s.bath) :
    (assign o m none none (some (m.equil s.uv s.elev s.bath)) [] s).1.sed ≠ (assign o m none none none [] s).1.sed := by
  rw [assign_sed _ _ _ _ _ _ _ (by simp), assign_sed _ _ _ _ _ _ _ (by simp)]
  simpa [hs, hc] using hd.symm

/-- C117 violated: a tracer whose label does not end with `_2d` cannot be given an initial condition. -/
theorem C117_label_violated (o : Opts) (m : Sed T) (e : Option T.E) (u : Option T.V) (c : Option T.Q)
    (tr : List (Name × T.Q)) (s : St T) (n : Name) (hn : ¬ suffix <:+ n) :
    (assign o m e u c tr s).1.tracer n = s.tracer n :=
  (C117_initial o m e u c tr s).2.2.2.2.2.1 n fun a _ h => hn (h ▸ suffix_label a.1)

/-- C117 violated: with tracers `a` and `a_2d` the initial condition for `a` is accepted and goes to `a_2d`. -/
theorem C117_other_violated (o : Opts) (m : Sed T) (s : St T) (n : Name) (q : T.Q) (hn : ¬ suffix <:+ n)
    (h2 : n ++ suffix ∈ o.labels) :
    (assign o m none none none [(n, q)] s).2 = true ∧
    (assign o m none none none [(n, q)] s).1.tracer n = s.tracer n ∧
    (assign o m none none none [(n, q)] s).1.tracer (n ++ suffix) = q := by
  have hl := (C117_names n).2 hn
  obtain ⟨h, -, -, -, -, -, h7⟩ := C117_initial o m none none none [(n, q)] s
  refine ⟨h.2 (by simpa [hl] using h2), C117_label_violated _ _ _ _ _ _ _ _ hn, ?_⟩
  have := h7 (by simpa [hl] using h2) (by simp) n q (by simp)
  rwa [hl] at this

/-- C117: a restart restores velocity and elevation whatever the new solver held. -/
theorem C117_restart (o : Opts) (m : Sed T) (s s0 : St T) :
    (loadState o m (save s) s0).uv = s.uv ∧ (loadState o m (save s) s0).elev = s.elev := by
  obtain ⟨-, h2, h3, -⟩ := C117_initial o m none none none [] { s0 with uv := s.uv, elev := s.elev }
  exact ⟨h3, h2⟩

/-- C117: without suspended sediment, with the same tracers, bed and non-hydrostatic fields in the new solver, the restarted
state is the stored one, hence so is any number of steps from it. -/
theorem C117_exact (o : Opts) (m : Sed T) (s s0 : St T) (ho : o.sediment = false) (hq : s0.tracer = s.tracer)
    (hs : s0.sed = s.sed) (hb : s0.bath = s.bath) (hn : s0.nh = s.nh) (step : St T → St T) (k : ℕ) :
    step^[k] (loadState o m (save s) s0) = step^[k] s := by
  congr 1
  obtain ⟨-, h2, h3, h4, h5, h6, -⟩ := C117_initial o m none none none [] { s0 with uv := s.uv, elev := s.elev }
  have h7 := (C117_sediment o m none none none [] { s0 with uv := s.uv, elev := s.elev } (by simp)).1 ho
  ext1
  · exact h3
  · exact h2
  · funext n; rw [← hq]; exact h6 n (by simp)
  · exact h7.trans hs
  · exact h4.trans hb
  · exact h5.trans hn

/-- C117 violated: tracers, the bed and the non-hydrostatic fields after a restart are those of the new solver, whatever the
stored state. -/
theorem C117_lost_violated (o : Opts) (m : Sed T) (s s0 : St T) :
    (loadState o m (save s) s0).tracer = s0.tracer ∧ (loadState o m (save s) s0).bath = s0.bath ∧
    (loadState o m (save s) s0).nh = s0.nh := by
  obtain ⟨-, -, -, h4, h5, h6, -⟩ := C117_initial o m none none none [] { s0 with uv := s.uv, elev := s.elev }
  exact ⟨funext fun n => h6 n (by simp), h4, h5⟩

/-- C117 violated: suspended sediment after a restart is in equilibrium with the stored flow over the bed of the new solver,
whatever its stored value: the restart continues the run only if it was in equilibrium. -/
theorem C117_equilibrium_violated (o : Opts) (m : Sed T) (s s0 : St T) (ho : o.sediment = true)
    (hc : o.conservative = false) :
    (loadState o m (save s) s0).sed = m.equil s.uv s.elev s0.bath ∧
    (s.sed ≠ m.equil s.uv s.elev s0.bath → loadState o m (save s) s0 ≠ s) := by
  have h := (C117_sediment o m none none none [] { s0 with uv := s.uv, elev := s.elev } (by simp)).2.2.1 ho rfl hc
  refine ⟨h, fun hne he => hne ?_⟩
  have := congrArg St.sed he
  rw [← this]; exact h

/-- Numbers as fields. -/
abbrev nT : Types := ⟨ℕ, ℕ, ℕ, ℕ, ℕ⟩

/-- Example: a tracer of concentration 7 and a flow; a fresh solver has neither, and after the restart only the flow. -/
example : (loadState (T := nT) ⟨[tracer2d], false, false⟩ ⟨fun u e b => u + e + b, fun e b c => (e + b) * c⟩
    (save ⟨3, 1, fun _ => 7, 0, 5, 0⟩) ⟨0, 0, fun _ => 0, 0, 5, 0⟩) = ⟨3, 1, fun _ => 0, 0, 5, 0⟩ := rfl

/-- Example for `C117_sediment_violated`. -/
example : (⟨fun u e b => u + e + b, fun e b c => (e + b) * c⟩ : Sed nT).timesDepth 1 5 (3 + 1 + 5) ≠ 3 + 1 + 5 := by
  decide

/-- Example for `C117_label_violated`: the name `dye`. -/
example : ¬ suffix <:+ ['d', 'y', 'e'] := by decide

/-- Example for `C117_initial`: the keyword `tracer` for the default tracer. -/
example : label ['t', 'r', 'a', 'c', 'e', 'r'] = tracer2d := by decide

/-! ### C118: boundary conditions of tracers -/

/-- C118: conditions given under the label of a tracer are used, and else those under the label without `_2d`. -/
theorem C118_own {β : Type} (bnd : Name → Option β) (s : Name) :
    (∀ b, bnd (s ++ suffix) = some b → bcOf bnd (s ++ suffix) = some b) ∧
    (bnd (s ++ suffix) = none → bcOf bnd (s ++ suffix) = bnd s) := by
  constructor
  · intro b h; simp [bcOf, h]
  · intro h; simp only [bcOf, h]; simp [drop3, suffix]

/-- C118: only the keys `system` and `system[:-3]` matter, in particular conditions of the other tracers do not. -/
theorem C118_depends {β : Type} (bnd bnd' : Name → Option β) (l : Name) (h1 : bnd l = bnd' l)
    (h2 : bnd (drop3 l) = bnd' (drop3 l)) : bcOf bnd l = bcOf bnd' l := by
  simp [bcOf, h1, h2]

/-- C118 violated: a tracer whose label is that of another one with three more characters has the conditions of the other one
if it has none, e.g. `dye001` those of `dye`. -/
theorem C118_other_violated {β : Type} (bnd : Name → Option β) (s x : Name) (hx : x.length = 3)
    (h : bnd (s ++ x) = none) : bcOf bnd (s ++ x) = bnd s := by
  simp [bcOf, h, drop3, hx]

/-- Name of a system of tracers, options.py:1013: labels with commas between. -/
def systemName (first : List Name) (last : Name) : Name := (first.map (· ++ [','])).flatten ++ last

theorem comma_mem (first : List Name) (h : first ≠ []) : ',' ∈ (first.map (· ++ [','])).flatten := by
  cases first with
  | nil => exact absurd rfl h
  | cons a l => simp

/-- C118 violated: in a mixed system of several tracers, the last with a label of at least three characters, conditions
given under the labels of its tracers (or under any other name without a comma) are ignored. -/
theorem C118_mixed_violated {β : Type} (bnd bnd' : Name → Option β) (first : List Name) (last : Name)
    (hf : first ≠ []) (hl : 3 ≤ last.length) (h : ∀ n, ',' ∈ n → bnd n = bnd' n) :
    bcOf bnd (systemName first last) = bcOf bnd' (systemName first last) := by
  have hc := comma_mem first hf
  refine C118_depends _ _ _ (h _ ?_) (h _ ?_)
  · exact List.mem_append_left _ hc
  · unfold drop3 systemName
    rw [List.length_append, List.take_append, List.take_of_length_le (by omega)]
    exact List.mem_append_left _ hc

/-- C118 violated: with conditions under tracer labels only, a mixed system has none. -/
theorem C118_mixed_none_violated {β : Type} (bnd : Name → Option β) (first : List Name) (last : Name)
    (hf : first ≠ []) (hl : 3 ≤ last.length) (h : ∀ n, ',' ∈ n → bnd n = none) :
    bcOf bnd (systemName first last) = none := by
  rw [C118_mixed_violated bnd (fun _ => none) first last hf hl h]
  simp [bcOf]

/-- C118 violated: a value given for a mixed system is imposed on all of its tracers. -/
theorem C118_shared_violated {α : Type} (b : Bc α) (v : α) (h : b.value = some v) (inside : ℕ → α) (i j : ℕ) :
    external b inside i = external b inside j ∧ external b inside i = v := by
  simp [external, h]

/-- C118: a value given for a tracer that is solved on its own is the external value of that tracer. -/
theorem C118_value {α : Type} (b : Bc α) (v : α) (h : b.value = some v) (inside : ℕ → α) :
    external b inside 0 = v := by
  simp [external, h]

/-- C118: without a value, the external value of each tracer is its own inner value. -/
theorem C118_free {α : Type} (b : Bc α) (h : b.value = none) (inside : ℕ → α) (i : ℕ) :
    external b inside i = inside i := by
  simp [external, h]

/-- Example: `dye001` without conditions of its own gets those of `dye`. -/
example : bcOf (fun n => if n = ['d', 'y', 'e'] then some 5 else none) ['d', 'y', 'e', '0', '0', '1'] = some 5 := by
  decide

/-- Example: `a_2d,b_2d` does not get those of `a_2d`. -/
example : bcOf (fun n => if n = ['a', '_', '2', 'd'] then some 5 else none)
    (systemName [['a', '_', '2', 'd']] ['b', '_', '2', 'd']) = none := by
  decide

/-! ### C119: several solvers in one process -/

theorem mem_addFields {ls : List Name} {t t' : Meta} (h : addFields ls t = some t') (n : Name) :
    n ∈ t' ↔ n ∈ t ∨ n ∈ ls := by
  induction ls generalizing t with
  | nil => simp only [addFields, Option.some.injEq] at h; simp [h]
  | cons l ls ih =>
    unfold addFields addField at h
    split at h
    · simp at h
    · rw [ih h]; simp [or_assoc]

theorem addFields_isSome (ls : List Name) (t : Meta) :
    (addFields ls t).isSome ↔ ls.Nodup ∧ ∀ l ∈ ls, l ∉ t := by
  induction ls generalizing t with
  | nil => simp [addFields]
  | cons l ls ih =>
    unfold addFields addField
    split
    · rename_i h; simp [h]
    · rename_i h
      simp only [Option.bind_some, ih, List.nodup_cons, List.mem_cons, forall_eq_or_imp, List.mem_append,
        List.not_mem_nil, or_false, not_or]
      constructor
      · rintro ⟨h1, h2⟩
        exact ⟨⟨fun hl => (h2 l hl).2 rfl, h1⟩, h, fun a ha => (h2 a ha).1⟩
      · rintro ⟨⟨h1, h2⟩, -, h3⟩
        exact ⟨h2, fun a ha => ⟨h3 a ha, fun e => h1 (e ▸ ha)⟩⟩

/-- C119: a solver can be set up iff its labels are distinct and, except the default one, unknown to the process. -/
theorem C119_setup (ls : List Name) (t : Meta) :
    (setup ls t).isSome ↔ ls.Nodup ∧ ∀ l ∈ ls, l ≠ tracer2d → l ∉ t := by
  unfold setup newSolver
  rw [addFields_isSome]
  simp only [List.mem_filter, decide_eq_true_eq, not_and, ne_eq, not_not]
  refine and_congr_right fun _ => forall₂_congr fun l _ => ?_
  tauto

/-- C119: names known after the setup of a solver. -/
theorem C119_names {ls : List Name} {t t' : Meta} (h : setup ls t = some t') (n : Name) :
    n ∈ t' ↔ (n ∈ t ∧ n ≠ tracer2d) ∨ n ∈ ls := by
  unfold setup newSolver at h
  rw [mem_addFields h]
  simp

/-- C119: solvers with no tracer but the default one can be set up one after the other. -/
theorem C119_default (ls : List Name) (t : Meta) (hd : ls.Nodup) (h : ∀ l ∈ ls, l = tracer2d) :
    (setup ls t).isSome :=
  (C119_setup ls t).2 ⟨hd, fun l hl hn => absurd (h l hl) hn⟩

/-- C119 violated: the same setup works a second time in the process only if all its tracers have the default name. -/
theorem C119_again_violated {ls : List Name} {t t' : Meta} (h : setup ls t = some t') :
    (setup ls t').isSome ↔ ∀ l ∈ ls, l = tracer2d := by
  have h0 := (C119_setup ls t).1 (by simp [h])
  rw [C119_setup]
  constructor
  · rintro ⟨-, h2⟩ l hl
    by_contra hn
    exact h2 l hl hn ((C119_names h l).2 (Or.inr hl))
  · intro h1
    exact ⟨h0.1, fun l hl hn => absurd (h1 l hl) hn⟩

/-- C119: the fields of a solver can be exported once it is set up, also after other solvers, except the default tracer. -/
theorem C119_export {ls ls' : List Name} {t t1 t2 : Meta} (h1 : setup ls t = some t1) (h2 : setup ls' t1 = some t2) :
    canExport ls t1 = true ∧ (tracer2d ∉ ls → canExport ls t2 = true) := by
  simp only [canExport, List.all_eq_true, decide_eq_true_eq]
  refine ⟨fun l hl => (C119_names h1 l).2 (Or.inr hl), fun hn l hl => (C119_names h2 l).2 (Or.inl ⟨?_, ?_⟩)⟩
  · exact (C119_names h1 l).2 (Or.inr hl)
  · rintro rfl; exact hn hl

/-- C119 violated: once another solver has been created, exporters of the default tracer cannot be made. -/
theorem C119_export_violated (ls : List Name) (t : Meta) (h : tracer2d ∈ ls) : canExport ls (newSolver t) = false := by
  rw [Bool.eq_false_iff]
  intro hc
  simp only [canExport, List.all_eq_true, decide_eq_true_eq] at hc
  simpa [newSolver] using hc _ h

/-- Example: a solver with a tracer `dye_2d`, twice. -/
example : (setup [['d', 'y', 'e', '_', '2', 'd']] []).isSome = true ∧
    ((setup [['d', 'y', 'e', '_', '2', 'd']] []).bind (setup [['d', 'y', 'e', '_', '2', 'd']])).isSome = false := by
  decide

end Verif.Solver2
