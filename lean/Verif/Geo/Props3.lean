import Verif.Geo.Props2
import Mathlib.Data.List.MinMax
import Mathlib.Algebra.Order.Floor.Ring

/-! C100: automatic time steps. -/

namespace Verif.Geo

variable {M : Mesh}

/-! ### Minimum over processes -/

theorem min?_spec (l : List ℝ) (m : ℝ) (h : l.min? = some m) : m ∈ l ∧ ∀ x ∈ l, m ≤ x :=
  List.min?_eq_some_iff.1 h

theorem mapM_some (l : List ℝ) : (l.map some).mapM id = some l := by
  induction l with
  | nil => rfl
  | cons a l ih => simp [ih]

theorem mapM_none (l : List (Option ℝ)) (h : none ∈ l) : l.mapM id = none := by
  induction l with
  | nil => simp at h
  | cons a l ih =>
    rw [List.mapM_cons]
    cases a with
    | none => rfl
    | some a =>
      have : none ∈ l := by simpa using h
      simp [ih this]

/-- The minimum over the processes of an increasing function of the local minima is that of the global minimum. -/
theorem allMin_map (f : ℝ → ℝ) (hf : Monotone f) (ranks : List (List ℝ)) (hne : ranks ≠ [])
    (hr : ∀ l ∈ ranks, l ≠ []) :
    ∃ m, allMin (ranks.map fun l => l.min?.map f) = some (f m) ∧ (∃ l ∈ ranks, m ∈ l) ∧
      ∀ l ∈ ranks, ∀ x ∈ l, m ≤ x := by
  have hloc : ∀ l ∈ ranks, ∃ a, l.min? = some a := fun l hl => by
    cases h : l.min? with
    | some a => exact ⟨a, rfl⟩
    | none => exact absurd (List.min?_eq_none_iff.1 h) (hr l hl)
  classical
  let mn : List ℝ → ℝ := fun l => l.min?.getD 0
  have hmn : ∀ l ∈ ranks, l.min? = some (mn l) := fun l hl => by
    obtain ⟨a, ha⟩ := hloc l hl
    simp [mn, ha]
  have e1 : (ranks.map fun l => l.min?.map f) = (ranks.map fun l => f (mn l)).map some := by
    rw [List.map_map]
    refine List.map_congr_left fun l hl => ?_
    rw [hmn l hl]
    rfl
  have hg : ∃ g, (ranks.map mn).min? = some g := by
    cases h : (ranks.map mn).min? with
    | some a => exact ⟨a, rfl⟩
    | none => exact absurd (List.map_eq_nil_iff.1 (List.min?_eq_none_iff.1 h)) hne
  obtain ⟨g, hg⟩ := hg
  obtain ⟨g1, g2⟩ := min?_spec _ _ hg
  obtain ⟨l0, hl0, rfl⟩ := List.mem_map.1 g1
  refine ⟨mn l0, ?_, ⟨l0, hl0, (min?_spec _ _ (hmn l0 hl0)).1⟩, fun l hl x hx => ?_⟩
  · unfold allMin
    rw [e1, mapM_some]
    change (ranks.map fun l => f (mn l)).min? = _
    refine List.min?_eq_some_iff.2 ⟨List.mem_map.2 ⟨l0, hl0, rfl⟩, fun y hy => ?_⟩
    obtain ⟨l, hl, rfl⟩ := List.mem_map.1 hy
    exact hf (g2 _ (List.mem_map.2 ⟨l, hl, rfl⟩))
  · exact (g2 _ (List.mem_map.2 ⟨l, hl, rfl⟩)).trans ((min?_spec _ _ (hmn l hl)).2 x hx)

theorem allMin_empty (f : ℝ → ℝ) (ranks : List (List ℝ)) (h : [] ∈ ranks) :
    allMin (ranks.map fun l => l.min?.map f) = none := by
  unfold allMin
  rw [mapM_none]
  · rfl
  · exact List.mem_map.2 ⟨[], h, rfl⟩

theorem dxFactor_pos (o : Opts) : 0 < dxFactor o := by
  unfold dxFactor
  dsimp only
  split <;> positivity

theorem dzFactor_pos (o : Opts) : 0 < dzFactor o := by
  unfold dzFactor
  have : (0 : ℝ) < max (o.p : ℝ) 1 := lt_of_lt_of_le one_pos (le_max_right _ _)
  positivity

/-- A limit: a positive factor times a positive size over a positive scale. -/
theorem limit_spec (c s : ℝ) (hc : 0 < c) (hs : 0 < s) (ranks : List (List ℝ)) (hne : ranks ≠ [])
    (hr : ∀ l ∈ ranks, l ≠ []) (hpos : ∀ l ∈ ranks, ∀ x ∈ l, 0 < x) :
    ∃ dt, allMin (ranks.map fun l => l.min?.map fun m => m * c / s) = some dt ∧ 0 < dt ∧
      (∀ l ∈ ranks, ∀ x ∈ l, dt * s ≤ c * x) ∧ ∃ l ∈ ranks, ∃ x ∈ l, dt * s = c * x := by
  obtain ⟨m, h1, ⟨l, hl, hm⟩, h3⟩ := allMin_map (fun m => m * c / s)
    (fun a b h => div_le_div_of_nonneg_right (mul_le_mul_of_nonneg_right h hc.le) hs.le) ranks hne hr
  have hmp := hpos l hl m hm
  have e : m * c / s * s = c * m := by field_simp
  refine ⟨_, h1, by positivity, fun l hl x hx => ?_, l, hl, m, hm, e⟩
  rw [e]
  exact mul_le_mul_of_nonneg_left (h3 l hl x hx) hc.le

/-- C100: where the element sizes are positive, the automatic step of the 3D solver is positive, divides the export interval into
a whole number of steps, and stays within the limits of horizontal and vertical advection and of viscosity at every node, times
the factor of the time integrator; the limits do not depend on how the nodes are distributed over the processes. -/
theorem C100_limits_partial (o : Opts) (cfl expT u w nu : ℝ) (hs vs : List (List ℝ)) (hc : 0 < cfl) (he : 0 < expT)
    (hu : 0 < u) (hw : 0 < w) (hnu : 0 < nu) (h1 : hs ≠ []) (h2 : vs ≠ []) (h3 : ∀ l ∈ hs, l ≠ []) (h4 : ∀ l ∈ vs, l ≠ [])
    (hp : ∀ l ∈ hs, ∀ x ∈ l, 0 < x) (vp : ∀ l ∈ vs, ∀ x ∈ l, 0 < x) :
    ∃ dt, setTimeStep3 o cfl expT hs vs u w nu = some dt ∧ 0 < dt ∧ (∃ n : ℕ, 0 < n ∧ n * dt = expT) ∧
      (∀ l ∈ hs, ∀ x ∈ l, dt * u ≤ cfl * (dxFactor o * x)) ∧ (∀ l ∈ vs, ∀ x ∈ l, dt * w ≤ cfl * (dzFactor o * x)) ∧
      ∀ l ∈ hs, ∀ x ∈ l, dt * nu ≤ cfl * (2 * dxFactor o * x) ^ 2 := by
  obtain ⟨a, ea, pa, la, -⟩ := limit_spec (dxFactor o) u (dxFactor_pos o) hu hs h1 h3 hp
  obtain ⟨b, eb, pb, lb, -⟩ := limit_spec (dzFactor o) w (dzFactor_pos o) hw vs h2 h4 vp
  set F : ℝ := (if o.leapfrog = true then (if o.family = "bdm-dg" then 1.8 else 2) * 0.6
    else if o.family = "bdm-dg" then 1.8 else 2) with hF
  have F1 : 0 < F ∧ F ≤ 2 := by rw [hF]; split <;> split <;> norm_num
  have hdx := dxFactor_pos o
  obtain ⟨m, em, ⟨l, hl, hm⟩, lm⟩ := allMin_map (fun m => (max m 0 * (F * dxFactor o)) ^ 2 / nu)
    (fun x y h => div_le_div_of_nonneg_right (pow_le_pow_left₀ (by have := F1.1; positivity)
      (mul_le_mul_of_nonneg_right (max_le_max_right 0 h) (by have := F1.1; positivity)) 2) hnu.le) hs h1 h3
  have pm := hp l hl m hm
  have ec : dtDiff o hs nu = some ((m * (F * dxFactor o)) ^ 2 / nu) := by
    rw [max_eq_left pm.le] at em
    rw [← em]
    unfold dtDiff
    refine congrArg allMin (List.map_congr_left fun l hl => ?_)
    cases hmin : l.min? with
    | none => rfl
    | some x =>
      have := hp l hl x (min?_spec _ _ hmin).1
      simp only [Option.map_some, max_eq_left this.le]
      rfl
  set c := (m * (F * dxFactor o)) ^ 2 / nu with hcd
  have pc : 0 < c := by have := F1.1; positivity
  set d := cfl * min (min a b) c with hd
  have pd : 0 < d := mul_pos hc (lt_min (lt_min pa pb) pc)
  have pn : 0 < ⌈expT / d⌉ := Int.ceil_pos.2 (div_pos he pd)
  have hle : expT / ⌈expT / d⌉ ≤ d := by
    rw [div_le_iff₀ (by exact_mod_cast pn)]
    have := Int.le_ceil (expT / d)
    rw [div_le_iff₀ pd] at this
    linarith
  have hpos : 0 < expT / (⌈expT / d⌉ : ℝ) := div_pos he (by exact_mod_cast pn)
  refine ⟨expT / ⌈expT / d⌉, ?_, hpos, ⟨⌈expT / d⌉.toNat, by omega, ?_⟩, fun l hl x hx => ?_, fun l hl x hx => ?_,
    fun l hl x hx => ?_⟩
  · have ea' : dtH o hs u = some a := ea
    have eb' : dtV o vs w = some b := eb
    unfold setTimeStep3
    rw [ea', eb', ec]
    simp only [Option.bind_eq_bind, Option.bind_some]
    rw [if_neg (by rw [← hd]; exact pn.ne')]
  · have hz : ((⌈expT / d⌉.toNat : ℕ) : ℝ) = (⌈expT / d⌉ : ℝ) := by
      have : ((⌈expT / d⌉.toNat : ℕ) : ℤ) = ⌈expT / d⌉ := Int.toNat_of_nonneg pn.le
      exact_mod_cast this
    rw [hz]
    have : (⌈expT / d⌉ : ℝ) ≠ 0 := by exact_mod_cast pn.ne'
    field_simp
  · have e1 : d ≤ cfl * a := mul_le_mul_of_nonneg_left ((min_le_left _ _).trans (min_le_left _ _)) hc.le
    calc _ ≤ cfl * a * u := mul_le_mul_of_nonneg_right (hle.trans e1) hu.le
      _ = cfl * (a * u) := by ring
      _ ≤ _ := mul_le_mul_of_nonneg_left (la l hl x hx) hc.le
  · have e1 : d ≤ cfl * b := mul_le_mul_of_nonneg_left ((min_le_left _ _).trans (min_le_right _ _)) hc.le
    calc _ ≤ cfl * b * w := mul_le_mul_of_nonneg_right (hle.trans e1) hw.le
      _ = cfl * (b * w) := by ring
      _ ≤ _ := mul_le_mul_of_nonneg_left (lb l hl x hx) hc.le
  · have e1 : d ≤ cfl * c := mul_le_mul_of_nonneg_left (min_le_right _ _) hc.le
    have px := hp l hl x hx
    calc _ ≤ cfl * c * nu := mul_le_mul_of_nonneg_right (hle.trans e1) hnu.le
      _ = cfl * (m * (F * dxFactor o)) ^ 2 := by rw [hcd]; field_simp
      _ ≤ _ := by
        refine mul_le_mul_of_nonneg_left (pow_le_pow_left₀ (by have := F1.1; positivity) ?_ 2) hc.le
        calc m * (F * dxFactor o) ≤ x * (2 * dxFactor o) :=
              mul_le_mul (lm l hl x hx) (mul_le_mul_of_nonneg_right F1.2 hdx.le) (by have := F1.1; positivity) px.le
          _ = _ := by ring

/-- C100: the limits are the same however the nodes are distributed over the processes, as long as each has some. -/
theorem C100_processes (o : Opts) (ranks ranks' : List (List ℝ)) (u : ℝ) (hu : 0 < u) (hne : ranks ≠ []) (hne' : ranks' ≠ [])
    (hr : ∀ l ∈ ranks, l ≠ []) (hr' : ∀ l ∈ ranks', l ≠ [])
    (hsame : ∀ x, (∃ l ∈ ranks, x ∈ l) ↔ ∃ l ∈ ranks', x ∈ l) : dtH o ranks u = dtH o ranks' u := by
  have mono : Monotone fun m => m * dxFactor o / u := fun a b h =>
    div_le_div_of_nonneg_right (mul_le_mul_of_nonneg_right h (dxFactor_pos o).le) hu.le
  obtain ⟨m, e, hm, h⟩ := allMin_map _ mono ranks hne hr
  obtain ⟨m', e', hm', h'⟩ := allMin_map _ mono ranks' hne' hr'
  have : m = m' := by
    obtain ⟨l, hl, hx⟩ := (hsame m).1 hm
    obtain ⟨l', hl', hx'⟩ := (hsame m').2 hm'
    exact le_antisymm (h l' hl' m' hx') (h' l hl m hx)
  unfold dtH
  rw [e, e', this]

/-- C100 is violated on more processes than the mesh can occupy: a process without nodes fails, whatever the others have. -/
theorem C100_processes_violated (o : Opts) (ranks : List (List ℝ)) (u : ℝ) (h : [] ∈ ranks) : dtH o ranks u = none :=
  allMin_empty _ ranks h

/-- C100: in the horizontal a higher degree means a smaller step. -/
theorem C100_degree (o o' : Opts) (hf : o.family = o'.family) (h : o.p < o'.p) : dxFactor o' < dxFactor o := by
  unfold dxFactor
  rw [hf]
  have hp : (o.p : ℝ) < o'.p := by exact_mod_cast h
  have h0 : (0 : ℝ) ≤ o.p := Nat.cast_nonneg _
  dsimp only
  split <;> exact div_lt_div_of_pos_left (by norm_num) (by positivity) (by nlinarith)

/-- C100: the Raviart-Thomas and Brezzi-Douglas-Marini spaces of a degree hold polynomials of one degree more than the degree
given, and they get the factor of the discontinuous space of that degree. -/
theorem C100_families (p : ℕ) (q : Bool) (f : String) (h : f = "rt-dg" ∨ f = "bdm-dg") :
    dxFactor ⟨p, f, q⟩ = dxFactor ⟨p + 1, "dg-dg", q⟩ := by
  have e : ¬(("dg-dg" : String) = "rt-dg" ∨ ("dg-dg" : String) = "bdm-dg") := by decide
  unfold dxFactor
  simp only [h, if_true, e, if_false]
  push_cast
  rfl

/-- C100 is violated in the vertical: the factor, documented as a normalised distance between nodes, grows with the degree;
from degree two on it is proportional to the degree, so the limit allows longer steps for higher degrees. -/
theorem C100_vertical_degree_violated (o : Opts) (h : 1 ≤ o.p) : dzFactor o = o.p * dzFactor { o with p := 1 } := by
  have hp : (1 : ℝ) ≤ o.p := by exact_mod_cast h
  unfold dzFactor
  simp only [Nat.cast_one, max_self, max_eq_left hp, one_div, div_inv_eq_mul, div_one]
  ring

/-- C100: for degrees zero and one the vertical factor is half of a quarter. -/
theorem C100_vertical_factor (o : Opts) (h : o.p ≤ 1) : dzFactor o = 1 / 8 := by
  have hp : (o.p : ℝ) ≤ 1 := by exact_mod_cast h
  unfold dzFactor
  rw [max_eq_right hp]
  norm_num

/-- C100 is violated for unequal layers: only the height of the top layer enters. With a top layer ten times as high as the layer
below, the vertical velocity scale crosses more than one node distance of the thin layer. -/
theorem C100_layers_violated : ∃ (column : List ℝ) (o : Opts) (w top dt : ℝ), topHeight column = some top ∧ 0 < w ∧
    dtV o [[top]] w = some dt ∧ ∃ h ∈ column, 0 < h ∧ dt * w > h := by
  refine ⟨[10, 1], ⟨1, "dg-dg", false⟩, 1, 10, 10 * dzFactor ⟨1, "dg-dg", false⟩ / 1, rfl, one_pos, rfl, 1, by simp, one_pos, ?_⟩
  norm_num [dzFactor]

/-! ### The 2D step -/

/-- The rule integrates products of linear functions. -/
structure Rule.Exact (R : Rule) : Prop where
  quad : ∀ i j, ∑ q, R.w q * (R.b q i * R.b q j) = if i = j then 1 / 6 else 1 / 12

theorem rule_mass (R : Rule) (hR : R.Exact) (c : ℝ) (s test : M.V → ℝ) :
    ∑ t, M.area t * ∑ q, R.w q * (at_ R test t q * (at_ R s t q / c)) = mass M s test / c := by
  unfold mass
  rw [div_eq_mul_inv, Finset.sum_mul]
  refine Finset.sum_congr rfl fun t _ => ?_
  have key : ∑ q, R.w q * (at_ R test t q * (at_ R s t q / c)) =
      (∑ i, ∑ j, (∑ q, R.w q * (R.b q i * R.b q j)) * (test (M.vert t i) * s (M.vert t j))) * c⁻¹ := by
    rw [Finset.sum_mul]
    simp only [at_, Fin.sum_univ_three, Finset.sum_mul, ← Finset.sum_add_distrib]
    exact Finset.sum_congr rfl fun q _ => by ring
  rw [key]
  simp only [hR.quad, Fin.sum_univ_three]
  simp
  ring

/-- C100: in water of uniform depth the 2D limit is the element size over the speed of long waves plus the velocity scale;
depths below 5 cm count as 5 cm. -/
theorem C100_uniform_depth (hM : M.Proper) (R : Rule) (hR : R.Exact) (hw : ∀ q, ∑ i, R.b q i = 1) (g uScale H : ℝ)
    (csize s : M.V → ℝ) (hs : IsMaxStep M R g uScale csize (fun _ => H) s) (v : M.V) :
    s v = csize v / (√(g * max H 0.05) + uScale) := by
  have hb : ∀ v : M.V, bathPos (fun _ => H) v = max H 0.05 := fun v => by
    unfold bathPos
    split
    case isTrue h => exact (max_eq_right h.le).symm
    case isFalse h => exact (max_eq_left (not_lt.1 h)).symm
  have hat : ∀ t q, at_ R (bathPos fun _ : M.V => H) t q = max H 0.05 := fun t q => by
    unfold at_
    simp only [hb]
    rw [← Finset.sum_mul, hw, one_mul]
  have key : (fun v => s v - csize v / (√(g * max H 0.05) + uScale)) = fun _ => 0 := by
    refine mass_self_eq_zero hM _ ?_
    have e1 := hs (fun v => s v - csize v / (√(g * max H 0.05) + uScale))
    simp only [hat] at e1
    rw [rule_mass R hR] at e1
    have e2 : ∀ c : ℝ, ∀ f test : M.V → ℝ, mass M (fun v => f v / c) test = mass M f test / c := fun c f test => by
      unfold mass
      rw [div_eq_mul_inv, Finset.sum_mul]
      refine Finset.sum_congr rfl fun t _ => ?_
      simp only [Fin.sum_univ_three]
      ring
    rw [mass_sub, e2, e1, sub_self]
  have := congrFun key v
  linarith

/-- C100: on a mesh of cells of one area `a` and in water of uniform depth the automatic 2D step is
`cfl · alpha · √a / (√(g H) + U)`. -/
theorem C100_uniform (hM : M.Proper) (R : Rule) (hR : R.Exact) (hw : ∀ q, ∑ i, R.b q i = 1) (g uScale H a cfl alpha : ℝ)
    (ha : ∀ t, M.area t = a) (csize s : M.V → ℝ) (hcs : IsElemSize M csize)
    (hs : IsMaxStep M R g uScale csize (fun _ => H) s) (vs : List M.V) (hne : vs ≠ []) :
    setTimeStep2 cfl alpha [vs.map s] = some (cfl * alpha * (√a / (√(g * max H 0.05) + uScale))) := by
  have hsv : ∀ v, s v = √a / (√(g * max H 0.05) + uScale) := fun v => by
    rw [C100_uniform_depth hM R hR hw g uScale H csize s hs v, C99_uniform hM a ha csize hcs v]
  have : (vs.map s).min? = some (√a / (√(g * max H 0.05) + uScale)) := by
    refine List.min?_eq_some_iff.2 ⟨?_, fun y hy => ?_⟩
    · obtain ⟨v, hv⟩ := List.exists_mem_of_ne_nil vs hne
      exact List.mem_map.2 ⟨v, hv, hsv v⟩
    · obtain ⟨v, -, rfl⟩ := List.mem_map.1 hy
      exact (hsv v).ge
  simp [setTimeStep2, allMin, this]

/-- C100 is violated where neighbouring cells differ much in size: on the kite the automatic 2D step is negative, for every depth,
velocity scale and CFL number. -/
theorem C100_negative_violated (R : Rule) (hR : R.Exact) (hw : ∀ q, ∑ i, R.b q i = 1) (g uScale H cfl alpha : ℝ)
    (hg : 0 < g) (hU : 0 ≤ uScale) (hc : 0 < cfl) (ha : 0 < alpha) (csize s : kite.V → ℝ) (hcs : IsElemSize kite csize)
    (hs : IsMaxStep kite R g uScale csize (fun _ => H) s) (vs : List kite.V) (hall : ∀ v, v ∈ vs) :
    ∃ dt, setTimeStep2 cfl alpha [vs.map s] = some dt ∧ dt < 0 := by
  have hcp : 0 < √(g * max H 0.05) + uScale := by
    have : 0 < √(g * max H 0.05) := Real.sqrt_pos.2 (mul_pos hg (lt_max_of_lt_right (by norm_num)))
    linarith
  have h0 : s (0 : Fin 4) < 0 := by
    refine lt_of_eq_of_lt (C100_uniform_depth kite_proper R hR hw g uScale H csize s hs _) ?_
    rw [C99_unique kite_proper csize _ hcs kite_size]
    exact div_neg_of_neg_of_pos (by norm_num [kiteSize]) hcp
  have hmem : s (0 : Fin 4) ∈ vs.map s := List.mem_map.2 ⟨_, hall _, rfl⟩
  obtain ⟨m, hm⟩ : ∃ m, (vs.map s).min? = some m := by
    cases h : (vs.map s).min? with
    | some a => exact ⟨a, rfl⟩
    | none => rw [List.min?_eq_none_iff] at h; rw [h] at hmem; simp at hmem
  refine ⟨cfl * alpha * m, by simp [setTimeStep2, allMin, hm], ?_⟩
  have : m < 0 := lt_of_le_of_lt ((min?_spec _ _ hm).2 _ hmem) h0
  exact mul_neg_of_pos_of_neg (mul_pos hc ha) this

/-- The same element size in 3D: the horizontal limit is negative and so is the step, or no step is found. -/
theorem C100_negative3_violated (o : Opts) (cfl expT u w nu : ℝ) (vs : List (List ℝ)) (hc : 0 < cfl) (he : 0 < expT) (hu : 0 < u)
    (csize : kite.V → ℝ) (hcs : IsElemSize kite csize) (nodes : List kite.V) (hall : ∀ v, v ∈ nodes) :
    ∀ dt, setTimeStep3 o cfl expT [nodes.map csize] vs u w nu = some dt → dt < 0 := by
  intro dt hdt
  have h0 : csize (0 : Fin 4) < 0 := by
    rw [C99_unique kite_proper csize _ hcs kite_size]
    norm_num [kiteSize]
  have hmem : csize (0 : Fin 4) ∈ nodes.map csize := List.mem_map.2 ⟨_, hall _, rfl⟩
  obtain ⟨m, hm⟩ : ∃ m, (nodes.map csize).min? = some m := by
    cases h : (nodes.map csize).min? with
    | some a => exact ⟨a, rfl⟩
    | none => rw [List.min?_eq_none_iff] at h; rw [h] at hmem; simp at hmem
  have hm0 : m < 0 := lt_of_le_of_lt ((min?_spec _ _ hm).2 _ hmem) h0
  have ea : dtH o [nodes.map csize] u = some (m * dxFactor o / u) := by simp [dtH, allMin, hm]
  unfold setTimeStep3 at hdt
  rw [ea] at hdt
  simp only [Option.bind_eq_bind, Option.bind_some, Option.bind_eq_some_iff] at hdt
  obtain ⟨b, -, c, -, hdt⟩ := hdt
  split at hdt
  · simp at hdt
  case isFalse hz =>
  have e := Option.some.inj hdt
  have hd : cfl * min (min (m * dxFactor o / u) b) c < 0 := by
    refine mul_neg_of_pos_of_neg hc (lt_of_le_of_lt ((min_le_left _ _).trans (min_le_left _ _)) ?_)
    exact div_neg_of_neg_of_pos (mul_neg_of_neg_of_pos hm0 (dxFactor_pos o)) hu
  have hle : ⌈expT / (cfl * min (min (m * dxFactor o / u) b) c)⌉ ≤ 0 :=
    Int.ceil_le.2 (by simpa using (div_neg_of_pos_of_neg he hd).le)
  have hlt : ⌈expT / (cfl * min (min (m * dxFactor o / u) b) c)⌉ < 0 := lt_of_le_of_ne hle hz
  rw [← e]
  exact div_neg_of_pos_of_neg he (by exact_mod_cast hlt)

/-- A rule with three points (midpoints of the edges) satisfies the conditions. -/
noncomputable def midpoints : Rule where
  Q := Fin 3
  w _ := 1 / 3
  b q i := if i = q then 0 else 1 / 2

example : midpoints.Exact ∧ ∀ q, ∑ i, midpoints.b q i = 1 := by
  refine ⟨⟨fun i j => ?_⟩, fun q => ?_⟩
  · refine (Fin.sum_univ_three fun q : Fin 3 => (1 / 3 : ℝ) * ((if i = q then 0 else 1 / 2) * if j = q then 0 else 1 / 2)).trans ?_
    fin_cases i <;> fin_cases j <;> norm_num [Fin.ext_iff]
  · change Fin 3 at q
    change ∑ i : Fin 3, (if i = q then (0 : ℝ) else 1 / 2) = 1
    rw [Fin.sum_univ_three]
    fin_cases q <;> norm_num [Fin.ext_iff]

/-- Two processes, layers of 1 m, cells of 100 m, scales 1 m/s, 1 mm/s and 1 m²/s. -/
example : ∃ dt, setTimeStep3 ⟨1, "dg-dg", false⟩ 1 900 [[100, 120], [110]] [[1], [1, 1]] 1 0.001 1 = some dt ∧ 0 < dt := by
  obtain ⟨dt, h1, h2, -⟩ := C100_limits_partial ⟨1, "dg-dg", false⟩ 1 900 1 0.001 1 [[100, 120], [110]] [[1], [1, 1]] one_pos
    (by norm_num) one_pos (by norm_num) one_pos (by simp) (by simp) (by simp) (by simp) (by simp) (by simp)
  exact ⟨dt, h1, h2⟩

end Verif.Geo
