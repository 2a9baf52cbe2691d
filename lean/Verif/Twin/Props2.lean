import Verif.Twin.Props
import Verif.Invert.Props2
import Mathlib.Algebra.BigOperators.Fin
import Mathlib.Algebra.Order.BigOperators.Group.Finset

/-!
C156: the cost function of a twin experiment, in which the observations are those of the model itself.
-/

namespace Verif.Twin

open Verif.Probe (Str)

variable {ι : Type} [DecidableEq ι] {cb : ι → Station}

/-- An interpolator that goes through the points it is given. -/
def Through (interp1d : List ℚ → List ℚ → ℝ → Option ℝ) : Prop :=
  ∀ (ts vs : List ℚ), ts.Nodup → ∀ (k : ℕ) (t v : ℚ), ts[k]? = some t → vs[k]? = some v → interp1d ts vs (t : ℝ) = some (v : ℝ)

/-- Coordinates of a station. -/
def place (c : Station) : ℝ × ℝ := ((c.x : ℝ), (c.y : ℝ))

theorem own (d : Invert.Data) (u : ℝ × ℝ → ℝ) (t : ℝ) (pts : List (ℝ × ℝ)) (o : ℕ → ℝ) (hs : ∀ j, d.startT j = none)
    (he : ∀ j, d.endT j = none) (l : List (ℝ × ℝ)) (hl : d.xy = l) (hn : l.Nodup) (hp : pts.Perm l)
    (ho : ∀ j < l.length, d.obs j t = some (o j)) :
    Invert.misfit d u t pts = some (∑ j : Fin l.length, d.scaling * d.weight j * (o j - u l[j]) ^ 2) := by
  subst hl
  rw [Invert.C58_own d u t pts o hn hp fun j hj => ⟨fun _ _ _ => ho j hj, fun _ => ho j hj⟩]
  simp [hs, he]

/-- C156: in a twin experiment the cost function at a time of the run is the weighted sum of squares of what the projection changes at the
stations.  `u` is the field at that time, in the run and in the inversion. -/
theorem C156_misfit (N : Named cb) {s : State ι} (h0 : ∀ i, s.init i = false) (es : List (Event ι)) (var : Str) (sel : List ι)
    (fld : ι → Str) (hsel : ∀ i ∈ sel, (cb i).fields = [fld i] ∧ (fld i).takeWhile (· ≠ '_') = var)
    (hplace : (sel.map fun i => place (cb i)).Nodup) (htime : ∀ i ∈ sel, ((es.filter fun e => e.who = i).map (·.time)).Nodup)
    (t : ℚ) (u : ℝ × ℝ → ℝ) (hu : ∀ i ∈ sel, ∃ e ∈ es, e.who = i ∧ e.time = t ∧ (e.value (fld i) : ℝ) = u (place (cb i))) :
    ∃ s' os, run cb s es = some s' ∧ load s'.disk var (sel.map fun i => (cb i).loc) = some os ∧
      ∀ interp1d, Through interp1d → ∀ scaling weight proj (pts : List (ℝ × ℝ)), pts.Perm (sel.map fun i => place (cb i)) →
        cost os interp1d scaling weight proj u t pts = some (∑ j : Fin (sel.map fun i => place (cb i)).length,
          scaling * weight j * (u (sel.map fun i => place (cb i))[j] - proj u (sel.map fun i => place (cb i))[j]) ^ 2) := by
  obtain ⟨s', hr, hl⟩ := C156_twin_partial N h0 es
  refine ⟨s', _, hr, hl var sel fld fun i hi => ?_, ?_⟩
  · obtain ⟨e, he, hw, -⟩ := hu i hi
    exact ⟨(hsel i hi).1, (hsel i hi).2, e, he, hw⟩
  intro interp1d hth scaling weight proj pts hp
  unfold cost
  have key := own (manager (sel.map fun i => (⟨(cb i).x, (cb i).y, (es.filter fun e => e.who = i).map (·.time),
    (es.filter fun e => e.who = i).map (·.value (fld i))⟩ : Obs)) interp1d scaling weight) (proj u) t pts
    (fun j => ((sel.map fun i => place (cb i))[j]?.map u).getD 0) (fun _ => rfl) (fun _ => rfl) (sel.map fun i => place (cb i))
    (by simp [manager, place, Function.comp_def]) hplace hp ?_
  · rw [key]
    congr 1
    refine Finset.sum_congr rfl fun j _ => ?_
    have hj : j.val < sel.length := by simpa using j.2
    simp [manager, hj]
  · intro j hj
    have hj' : j < sel.length := by simpa using hj
    obtain ⟨e, he, hw, ht, hv⟩ := hu sel[j] (List.getElem_mem hj')
    obtain ⟨k, hk, hke⟩ := List.getElem_of_mem (List.mem_filter.2 ⟨he, by simpa using hw⟩ : e ∈ es.filter fun e => e.who = sel[j])
    have h1 := hth ((es.filter fun e => e.who = sel[j]).map (·.time)) ((es.filter fun e => e.who = sel[j]).map fun e : Event ι => e.value (fld sel[j]))
      (htime _ (List.getElem_mem hj')) k t (e.value (fld sel[j]))
      (by rw [List.getElem?_map, List.getElem?_eq_getElem hk, hke, ← ht]; rfl)
      (by rw [List.getElem?_map, List.getElem?_eq_getElem hk, hke]; rfl)
    simp only [manager, List.getElem?_map, List.getElem?_eq_getElem hj', Option.map_some, Option.bind_some, Option.getD_some]
    rw [h1, hv]

/-- C156: the cost function is zero if the projection leaves the field as it is at the stations, as for fields of continuous linear
elements. -/
theorem C156_zero_partial (N : Named cb) {s : State ι} (h0 : ∀ i, s.init i = false) (es : List (Event ι)) (var : Str) (sel : List ι)
    (fld : ι → Str) (hsel : ∀ i ∈ sel, (cb i).fields = [fld i] ∧ (fld i).takeWhile (· ≠ '_') = var)
    (hplace : (sel.map fun i => place (cb i)).Nodup) (htime : ∀ i ∈ sel, ((es.filter fun e => e.who = i).map (·.time)).Nodup)
    (t : ℚ) (u : ℝ × ℝ → ℝ) (hu : ∀ i ∈ sel, ∃ e ∈ es, e.who = i ∧ e.time = t ∧ (e.value (fld i) : ℝ) = u (place (cb i)))
    (proj : (ℝ × ℝ → ℝ) → ℝ × ℝ → ℝ) (hproj : ∀ i ∈ sel, proj u (place (cb i)) = u (place (cb i))) :
    ∃ s' os, run cb s es = some s' ∧ load s'.disk var (sel.map fun i => (cb i).loc) = some os ∧
      ∀ interp1d, Through interp1d → ∀ scaling weight (pts : List (ℝ × ℝ)), pts.Perm (sel.map fun i => place (cb i)) →
        cost os interp1d scaling weight proj u t pts = some 0 := by
  obtain ⟨s', os, hr, hl, h⟩ := C156_misfit N h0 es var sel fld hsel hplace htime t u hu
  refine ⟨s', os, hr, hl, fun interp1d hth scaling weight pts hp => ?_⟩
  rw [h interp1d hth scaling weight proj pts hp]
  congr 1
  refine Finset.sum_eq_zero fun j _ => ?_
  have hj : j.val < sel.length := by simpa using j.2
  have := hproj sel[j.val] (List.getElem_mem hj)
  simp [this]

/-- C156 is violated for other fields: callbacks evaluate the field, the cost function its projection, so that the true controls have a
cost above zero as soon as the projection changes the field at one station. -/
theorem C156_projected_violated (N : Named cb) {s : State ι} (h0 : ∀ i, s.init i = false) (es : List (Event ι)) (var : Str) (sel : List ι)
    (fld : ι → Str) (hsel : ∀ i ∈ sel, (cb i).fields = [fld i] ∧ (fld i).takeWhile (· ≠ '_') = var)
    (hplace : (sel.map fun i => place (cb i)).Nodup) (htime : ∀ i ∈ sel, ((es.filter fun e => e.who = i).map (·.time)).Nodup)
    (t : ℚ) (u : ℝ × ℝ → ℝ) (hu : ∀ i ∈ sel, ∃ e ∈ es, e.who = i ∧ e.time = t ∧ (e.value (fld i) : ℝ) = u (place (cb i)))
    (proj : (ℝ × ℝ → ℝ) → ℝ × ℝ → ℝ) (hproj : ∃ i ∈ sel, proj u (place (cb i)) ≠ u (place (cb i))) :
    ∃ s' os, run cb s es = some s' ∧ load s'.disk var (sel.map fun i => (cb i).loc) = some os ∧
      ∀ interp1d, Through interp1d → ∀ (scaling : ℝ) (weight : ℕ → ℝ) (pts : List (ℝ × ℝ)), 0 < scaling → (∀ j, 0 < weight j) →
        pts.Perm (sel.map fun i => place (cb i)) → ∃ J, cost os interp1d scaling weight proj u t pts = some J ∧ 0 < J := by
  obtain ⟨s', os, hr, hl, h⟩ := C156_misfit N h0 es var sel fld hsel hplace htime t u hu
  refine ⟨s', os, hr, hl, fun interp1d hth scaling weight pts hsc hwt hp => ⟨_, h interp1d hth scaling weight proj pts hp, ?_⟩⟩
  obtain ⟨i, hi, hne⟩ := hproj
  obtain ⟨j, hj, rfl⟩ := List.getElem_of_mem hi
  refine Finset.sum_pos' (fun j _ => mul_nonneg (mul_pos hsc (hwt j)).le (sq_nonneg _)) ⟨⟨j, by simpa using hj⟩, Finset.mem_univ _, ?_⟩
  refine mul_pos (mul_pos hsc (hwt j)) (sq_pos_of_ne_zero (sub_ne_zero.2 ?_))
  simpa using hne.symm

/-! ### Example -/

open Classical in
/-- Values at the given times only. -/
noncomputable def atTimes : List ℚ → List ℚ → ℝ → Option ℝ
  | t :: ts, v :: vs, x => if x = (t : ℝ) then some (v : ℝ) else atTimes ts vs x
  | _, _, _ => none

theorem through_atTimes : Through atTimes
  | [], _, _, _, _, _, h, _ => by simp at h
  | _ :: _, [], _, _, _, _, _, h => by simp at h
  | a :: ts, b :: vs, hn, 0, t, v, h, h' => by
    simp only [List.getElem?_cons_zero, Option.some.injEq] at h h'
    simp [atTimes, h, h']
  | a :: ts, b :: vs, hn, k + 1, t, v, h, h' => by
    simp only [List.getElem?_cons_succ] at h h'
    have hne : ¬ ((t : ℝ) = (a : ℝ)) := by
      intro e
      have e : t = a := by exact_mod_cast e
      exact (List.nodup_cons.1 hn).1 (e ▸ List.mem_of_getElem? h)
    rw [atTimes, if_neg hne]
    exact through_atTimes ts vs (List.nodup_cons.1 hn).2 k t v h h'

/-- The two stations at the first time: the field is 5 at one and 7 at the other. -/
example (proj : (ℝ × ℝ → ℝ) → ℝ × ℝ → ℝ) (hproj : ∀ u, proj u = u) :=
  C156_zero_partial gauges_named (s := ⟨fun _ => none, fun _ => false⟩) (fun _ => rfl) (evs true false) ['e', 'l', 'e', 'v'] [true, false]
    (fun _ => ['e', 'l', 'e', 'v', '_', '2', 'd']) (fun _ _ => ⟨rfl, by decide⟩) (by simp [gauges, place])
    (fun i _ => by cases i <;> simp [evs]) 0 (fun p => 3 + 2 * p.1)
    (fun i _ => by
      cases i
      · exact ⟨⟨false, 0, fun _ => 7⟩, by simp [evs], rfl, rfl, by norm_num [gauges, place]⟩
      · exact ⟨⟨true, 0, fun _ => 5⟩, by simp [evs], rfl, rfl, by norm_num [gauges, place]⟩) proj (fun i _ => by rw [hproj])

/-- The same with a projection onto constants. -/
example :=
  C156_projected_violated gauges_named (s := ⟨fun _ => none, fun _ => false⟩) (fun _ => rfl) (evs true false) ['e', 'l', 'e', 'v'] [true, false]
    (fun _ => ['e', 'l', 'e', 'v', '_', '2', 'd']) (fun _ _ => ⟨rfl, by decide⟩) (by simp [gauges, place])
    (fun i _ => by cases i <;> simp [evs]) 0 (fun p => 3 + 2 * p.1)
    (fun i _ => by
      cases i
      · exact ⟨⟨false, 0, fun _ => 7⟩, by simp [evs], rfl, rfl, by norm_num [gauges, place]⟩
      · exact ⟨⟨true, 0, fun _ => 5⟩, by simp [evs], rfl, rfl, by norm_num [gauges, place]⟩)
    (fun _ _ => 6) ⟨true, by simp, by norm_num [gauges, place]⟩

end Verif.Twin
