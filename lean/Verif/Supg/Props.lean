import Verif.Supg.Model
import Verif.Tracer2.Props
import Verif.Diag.Props

/-!
C112: streamline-upwind stabilisation of tracers.
-/

namespace Verif.Supg

open Verif.Dg Verif.Tracer2
open Verif.Diag (Cont)

variable {m : Mesh 2}

/-- Rate of change of `c` along the velocity at a cell point. -/
def along (u : Vc m) (c : Sc m) (x : m.C) : ℝ := ∑ i, (u i (.cell x)).v * (c (.cell x)).g i

/-- No boundary prescribes a velocity and prescribed values are those of the field. -/
def Passive (bc : ℕ → Option (BFuncs m)) (c : Sc m) : Prop :=
  ∀ j f, bc j = some f → NoVelocity f ∧ ∀ v, f.value = some v → ∀ b, (v b).v = (c (.bnd b)).v

theorem advBndFlux_passive (T : Term m) (F : Flow m) (u : Vc m) (bc : ℕ → Option (BFuncs m)) (c : Sc m)
    (hp : Passive bc c) (b : m.B) :
    advBndFlux T F u bc c (m.marker b) b = (c (.bnd b)).v * normalAt u b := by
  unfold advBndFlux
  cases hbc : bc (m.marker b) with
  | none => simp [normalAt, Fin.sum_univ_two]
  | some f =>
    obtain ⟨⟨h1, h2, h3⟩, hv⟩ := hp _ f hbc
    have hc : (bndFunctions T F.factor f (m.marker b) b (c (.bnd b)) (fun i => (u i (.bnd b)).v)
        (F.elev (.bnd b))).1.v = (c (.bnd b)).v := by
      rw [bnd_value]
      cases hv' : f.value with
      | none => rfl
      | some v => exact hv v hv' b
    simp only [bnd_noVelocity T F.factor f (m.marker b) b _ _ _ h1 h2 h3, hc, normalAt, Fin.sum_univ_two]
    ring

/-- The weak form of the advection of a continuous tracer, for every test function. -/
theorem advection_smooth (T : Term m) (F : Flow m) (bc : ℕ → Option (BFuncs m)) (u : Vc m) (c w : Sc m)
    (hu : F.uv = some u) (hc : Cont c) (hp : Passive bc c)
    (hdiv : DivExact m fun i => corrected F u i * w * c) :
    advection T F bc c w =
      (if T.dg then 0 else m.dS fun s => (c (.plus s)).v * jumpV (fun i => corrected F u i * w) s) -
        m.dx fun x => (w (.cell x)).v * along (corrected F u) c x := by
  rw [advection_eq T F bc u c w hu]
  unfold DivExact at hdiv
  have h1 : (m.dx fun x => div (fun i => corrected F u i * w * c) (.cell x)) =
      (m.dx fun x => div (fun i => corrected F u i * w) (.cell x) * (c (.cell x)).v) +
        m.dx fun x => (w (.cell x)).v * along (corrected F u) c x := by
    rw [← dx_add]
    exact dx_congr fun x => by
      simp only [div, along, Fin.sum_univ_two, Pi.mul_apply, Jet.mul_v, Jet.mul_g]; ring
  have h2 : (m.dS fun s => jumpV (fun i => corrected F u i * w * c) s) =
      m.dS fun s => (c (.plus s)).v * jumpV (fun i => corrected F u i * w) s :=
    dS_congr fun s => by
      have := hc s
      simp only [jumpV, Fin.sum_univ_two, Pi.mul_apply, Jet.mul_v, ← this]; ring
  have h3 : (∑ b, m.wB b * normalAt (fun i => corrected F u i * w * c) b) =
      ∑ b, m.wB b * (advBndFlux T F (corrected F u) bc c (m.marker b) b * (w (.bnd b)).v) :=
    dB_congr fun b => by
      rw [advBndFlux_passive T F _ bc c hp b]
      simp only [normalAt, Fin.sum_univ_two, Pi.mul_apply, Jet.mul_v]; ring
  have h4 : m.dS (advFacet T (corrected F u) c w) =
      m.dS fun s => (c (.plus s)).v * jumpV (fun i => corrected F u i * w) s :=
    dS_congr fun s => by
      have := hc s
      simp only [advFacet, ← this]; ring
  have h5 : (if T.lf then m.dS fun s => (1 / 2) * |unAv (corrected F u) s| * F.lfFactor * (jump w s * jump c s)
      else 0) = 0 := by
    split
    · refine (dS_congr fun s => ?_).trans dS_zero
      have := hc s
      simp [jump, this]
    · rfl
  rw [h1, h2, h3] at hdiv
  rw [h4, h5]
  split <;> linarith

/-- C112: the parameter is positive and never exceeds half a cell over the velocity scale; with diffusion it is
also at most a third of `0.5*U*h/D`, and without diffusion it is exactly half a cell over the velocity scale. -/
theorem C112_tau (U D h : ℝ) (hU : 0 < U) (hh : 0 < h) :
    0 < supgTau U D h ∧ supgTau U D h ≤ h / (2 * U) ∧ (0 < D → supgTau U D h ≤ U * h / (6 * D)) ∧
      (D ≤ 0 → supgTau U D h = h / (2 * U)) := by
  have e1 : 1 / 2 * h / U = h / (2 * U) := by field_simp
  have e2 : 1 / 2 * U * h / D / 3 = U * h / (6 * D) := by
    by_cases hD : D = 0
    · simp [hD]
    · field_simp; norm_num
  unfold supgTau
  simp only [e1, e2]
  split
  · rename_i hD
    refine ⟨lt_min (by positivity) (by positivity), min_le_left _ _, fun _ => min_le_right _ _, fun h' => ?_⟩
    linarith
  · rename_i hD
    exact ⟨by positivity, le_refl _, fun h' => absurd h' hD, fun _ => rfl⟩

/-- C112: which of the two bounds is taken depends on `U^2` and `3 D` only, not on the cell size. -/
theorem C112_switch (U D h : ℝ) (hU : 0 < U) (hD : 0 < D) (hh : 0 < h) :
    (3 * D ≤ U ^ 2 → supgTau U D h = h / (2 * U)) ∧
      (U ^ 2 ≤ 3 * D → supgTau U D h = U * h / (6 * D)) := by
  have e1 : 1 / 2 * h / U = h / (2 * U) := by field_simp
  have e2 : 1 / 2 * U * h / D / 3 = U * h / (6 * D) := by field_simp; norm_num
  unfold supgTau
  simp only [e1, e2, if_pos hD]
  constructor
  · intro hle
    refine min_eq_left ?_
    rw [div_le_div_iff₀ (by positivity) (by positivity)]
    nlinarith
  · intro hle
    refine min_eq_right ?_
    rw [div_le_div_iff₀ (by positivity) (by positivity)]
    nlinarith

example : supgTau 1 (1 / 3) 7 = 7 / 2 := by
  have := (C112_switch 1 (1 / 3) 7 one_pos (by norm_num) (by norm_num)).1 (by norm_num)
  rw [this]; norm_num

/-- C112: so the full parameter is used in cells with an arbitrarily small cell Peclet number `U h / (2 D)`,
where diffusion needs no stabilisation. -/
theorem C112_peclet_violated (U : ℝ) (hU : 0 < U) (eps : ℝ) (he : 0 < eps) :
    ∃ D h, 0 < D ∧ 0 < h ∧ U * h / (2 * D) ≤ eps ∧ supgTau U D h = h / (2 * U) := by
  refine ⟨U ^ 2 / 3, eps * (U ^ 2 / 3) / U, by positivity, by positivity, ?_,
    (C112_switch U (U ^ 2 / 3) _ hU (by positivity) (by positivity)).1 (by linarith)⟩
  rw [div_le_iff₀ (by positivity)]
  field_simp
  norm_num

/-- C112: without diffusion the parameter is a time: measuring time in another unit scales it. -/
theorem C112_units (U D h lam : ℝ) (hD : D ≤ 0) :
    supgTau (lam * U) D h = supgTau U D h / lam := by
  unfold supgTau
  simp only [if_neg (not_lt.mpr hD)]
  rw [div_div, mul_comm U]

/-- C112: with diffusion it is not: the second bound is a length times a number, so the amount of stabilisation
depends on the unit of time. -/
theorem C112_units_violated : ∃ U D h lam : ℝ, 0 < U ∧ 0 < D ∧ 0 < h ∧ 0 < lam ∧
    supgTau (lam * U) (lam * D) h ≠ supgTau U D h / lam := by
  refine ⟨1, 1, 6, 2, one_pos, one_pos, by norm_num, by norm_num, ?_⟩
  rw [(C112_switch (2 * 1) (2 * 1) 6 (by norm_num) (by norm_num) (by norm_num)).2 (by norm_num),
    (C112_switch 1 1 6 (by norm_num) (by norm_num) (by norm_num)).2 (by norm_num)]
  norm_num

/-- C112: a velocity scale that is not positive switches the option off. -/
theorem C112_off (U D : ℝ) (h : Pt m → ℝ) (vel : Vc m) (test : Sc m) (H : Pt m → Fin 2 → Fin 2 → ℝ)
    (hU : U ≤ 0) : applySupg U D h vel test H = test := by
  funext x
  simp [applySupg, not_lt.mpr hU]

/-- C112: otherwise the rate of change of the test function along the velocity is added, times the parameter. -/
theorem C112_value (U D : ℝ) (h : Pt m → ℝ) (vel : Vc m) (test : Sc m) (H : Pt m → Fin 2 → Fin 2 → ℝ)
    (hU : 0 < U) (x : m.C) :
    (applySupg U D h vel test H (.cell x)).v =
      (test (.cell x)).v + supgTau U D (h (.cell x)) * along vel test x := by
  simp [applySupg, hU, along, Fin.sum_univ_two]

/-- C112: its derivatives are those of a product: `d i` is the derivative of the test function with respect to `i` as a
field. -/
theorem C112_gradient (U D : ℝ) (h : Pt m → ℝ) (vel d : Vc m) (test : Sc m) (H : Pt m → Fin 2 → Fin 2 → ℝ)
    (hU : 0 < U) (x : Pt m) (hv : ∀ i, (d i x).v = (test x).g i) (hg : ∀ i j, (d i x).g j = H x i j) :
    applySupg U D h vel test H x =
      test x + cst m (supgTau U D (h x)) x * (vel 0 x * d 0 x + vel 1 x * d 1 x) := by
  refine Jet.ext ?_ ?_
  · simp [applySupg, hU, hv]
  · funext j
    simp [applySupg, hU, hv, hg]

/-- C112: the modified test function is a product rule away from the test function: for a constant test function
nothing is added, so the amount of tracer is that of the unmodified equation. -/
theorem C112_conserves (U D : ℝ) (h : Pt m → ℝ) (vel : Vc m) (k : ℝ) :
    applySupg U D h vel (cst m k) (fun _ _ _ => 0) = cst m k := by
  funext x
  unfold applySupg
  split
  · refine Jet.ext ?_ ?_
    · simp
    · funext j; simp
  · rfl

/-- C112: in discontinuous spaces a uniform tracer stays uniform for every velocity, scale and cell size. -/
theorem C112_constant (T : Term m) (F : Flow m) (bc : ℕ → Option (BFuncs m)) (u : Vc m) (test : Sc m) (k : ℝ)
    (U D : ℝ) (h : Pt m → ℝ) (H : Pt m → Fin 2 → Fin 2 → ℝ)
    (hu : F.uv = some u) (hdg : T.dg = true)
    (hval : ∀ j f, bc j = some f → ValueIs f k)
    (hno : ∀ j f, bc j = some f → NoVelocity f)
    (hdiv : DivExact m fun i => F.factor * u i * applySupg U D h u test H) :
    advection T F bc (cst m k) (applySupg U D h u test H) = 0 :=
  C72_constant T F bc u _ k hu hdg hval hno hdiv

/-- C112: in discontinuous spaces the modified equation is satisfied by every continuous tracer that does not
change along the flow, as is the unmodified one. -/
theorem C112_steady (T : Term m) (F : Flow m) (bc : ℕ → Option (BFuncs m)) (u : Vc m) (c test : Sc m)
    (U D : ℝ) (h : Pt m → ℝ) (H : Pt m → Fin 2 → Fin 2 → ℝ)
    (hu : F.uv = some u) (hdg : T.dg = true) (hc : Cont c) (hp : Passive bc c)
    (hdiv : DivExact m fun i => corrected F u i * applySupg U D h u test H * c)
    (hst : ∀ x, along (corrected F u) c x = 0) :
    advection T F bc c (applySupg U D h u test H) = 0 := by
  rw [advection_smooth T F bc u c _ hu hc hp hdiv, if_pos hdg]
  simp [hst, dx_zero]

/-- C112: in discontinuous spaces the option adds diffusion along the flow. -/
theorem C112_streamline (T : Term m) (F : Flow m) (bc : ℕ → Option (BFuncs m)) (u : Vc m) (c test : Sc m)
    (U D : ℝ) (h : Pt m → ℝ) (H : Pt m → Fin 2 → Fin 2 → ℝ)
    (hu : F.uv = some u) (hdg : T.dg = true) (hc : Cont c) (hp : Passive bc c) (hU : 0 < U)
    (hdiv : DivExact m fun i => corrected F u i * applySupg U D h u test H * c)
    (hdiv' : DivExact m fun i => corrected F u i * test * c) :
    advection T F bc c (applySupg U D h u test H) = advection T F bc c test -
      m.dx fun x => supgTau U D (h (.cell x)) * (F.factor (.cell x)).v * (along u test x * along u c x) := by
  rw [advection_smooth T F bc u c _ hu hc hp hdiv, advection_smooth T F bc u c _ hu hc hp hdiv', if_pos hdg,
    if_pos hdg, sub_sub, ← dx_add]
  congr 1
  refine dx_congr fun x => ?_
  rw [C112_value U D h u test H hU x]
  have : along (corrected F u) c x = (F.factor (.cell x)).v * along u c x := by
    simp only [along, corrected, Fin.sum_univ_two, Pi.mul_apply, Jet.mul_v]; ring
  rw [this]
  ring

/-- C112: which takes variance of the tracer, for every velocity. -/
theorem C112_dissipates (T : Term m) (F : Flow m) (bc : ℕ → Option (BFuncs m)) (u : Vc m) (c : Sc m)
    (U D : ℝ) (h : Pt m → ℝ) (H : Pt m → Fin 2 → Fin 2 → ℝ)
    (hu : F.uv = some u) (hdg : T.dg = true) (hc : Cont c) (hp : Passive bc c) (hU : 0 < U)
    (hh : ∀ x, 0 < h x) (hf : ∀ x, 0 ≤ (F.factor x).v)
    (hdiv : DivExact m fun i => corrected F u i * applySupg U D h u c H * c)
    (hdiv' : DivExact m fun i => corrected F u i * c * c) :
    advection T F bc c (applySupg U D h u c H) ≤ advection T F bc c c := by
  rw [C112_streamline T F bc u c c U D h H hu hdg hc hp hU hdiv hdiv']
  have : 0 ≤ m.dx fun x => supgTau U D (h (.cell x)) * (F.factor (.cell x)).v * (along u c x * along u c x) :=
    dx_nonneg fun x => mul_nonneg (mul_nonneg (C112_tau U D _ hU (hh _)).1.le (hf _)) (mul_self_nonneg _)
  linarith

/-- C112: in continuous spaces the jumps of the modified test function are left over. -/
theorem C112_cg (T : Term m) (F : Flow m) (bc : ℕ → Option (BFuncs m)) (u : Vc m) (c test : Sc m)
    (U D : ℝ) (h : Pt m → ℝ) (H : Pt m → Fin 2 → Fin 2 → ℝ)
    (hu : F.uv = some u) (hdg : T.dg = false) (hc : Cont c) (hp : Passive bc c)
    (hdiv : DivExact m fun i => corrected F u i * applySupg U D h u test H * c) :
    advection T F bc c (applySupg U D h u test H) =
      m.dS (fun s => (c (.plus s)).v * jumpV (fun i => corrected F u i * applySupg U D h u test H) s) -
        m.dx fun x => (applySupg U D h u test H (.cell x)).v * along (corrected F u) c x := by
  rw [advection_smooth T F bc u c _ hu hc hp hdiv]
  simp [hdg]

/-- C112: only one tracer can be solved with the option: in a system of several the modified test function has
no consistent shape. -/
theorem C112_system_violated (n : ℕ) : supgShape n = some [] ↔ n = 1 := by
  unfold supgShape systemShape dotShape
  by_cases h : n = 1
  · simp [h]
  · by_cases h2 : n = 2
    · simp [h2]
    · have : ¬ (2 = n) := fun e => h2 e.symm
      simp [h, this]

/-! ### Examples on the square -/

/-- The flow `(1, 0)`. -/
noncomputable def exEast : Vc square := fun i => cst square (if i = 0 then 1 else 0)

noncomputable def exEastFlow : Flow square := { exFlow with uv := some exEast }

theorem exEast_mul (w : Sc square) (i : Fin 2) :
    corrected exEastFlow exEast i * w = if i = 0 then w else cst square 0 * w := by
  funext x
  refine Jet.ext ?_ ?_
  · fin_cases i <;> simp [corrected, exEastFlow, exEast, exFlow]
  · funext j; fin_cases i <;> simp [corrected, exEastFlow, exEast, exFlow]

/-- The modified test function at the origin: one half less on the lower triangle. -/
theorem exSupg : applySupg 1 0 (fun _ => 1) exEast exTest (fun _ _ _ => 0) =
    squareField ⟨1 / 2, -1, -1, 0, 0, 0⟩ ⟨0, 0, 0, 0, 0, 0⟩ := by
  have ht : supgTau 1 0 1 = 1 / 2 := by norm_num [supgTau]
  funext x
  refine Jet.ext ?_ ?_
  · cases x with
    | cell c => cases c <;> simp [applySupg, ht, exEast, exTest, squareField, Quad.jet] <;> norm_num
    | plus c => cases c <;> simp [applySupg, ht, exEast, exTest, squareField, Quad.jet] <;> norm_num
    | minus c => cases c <;> simp [applySupg, ht, exEast, exTest, squareField, Quad.jet]
    | bnd c => cases c <;> simp [applySupg, ht, exEast, exTest, squareField, Quad.jet] <;> norm_num
  · funext j
    cases x with
    | cell c => cases c <;> fin_cases j <;> simp [applySupg, exEast, exTest, squareField, Quad.jet]
    | plus c => cases c <;> fin_cases j <;> simp [applySupg, exEast, exTest, squareField, Quad.jet]
    | minus c => cases c <;> fin_cases j <;> simp [applySupg, exEast, exTest, squareField, Quad.jet]
    | bnd c => cases c <;> fin_cases j <;> simp [applySupg, exEast, exTest, squareField, Quad.jet]

theorem exTest_cont : Cont exTest := by
  intro s; cases s <;> simp [exTest, squareField, Quad.jet]; norm_num

/-- A linear field times the modified test function in the flow `(1, 0)`. -/
theorem exDiv (lo up : Quad) (p q : Quad)
    (hp : p.d = 0 ∧ p.e = 0 ∧ p.f = 0) (hq : q.d = 0 ∧ q.e = 0 ∧ q.f = 0)
    (hl : lo.d = 0 ∧ lo.e = 0 ∧ lo.f = 0) (hu : up.d = 0 ∧ up.e = 0 ∧ up.f = 0) :
    DivExact square fun i => corrected exEastFlow exEast i * squareField lo up * squareField p q := by
  have : (fun i => corrected exEastFlow exEast i * squareField lo up * squareField p q) = fun i : Fin 2 =>
      squareField (if i = 0 then Quad.mulLin lo p else ⟨0, 0, 0, 0, 0, 0⟩)
        (if i = 0 then Quad.mulLin up q else ⟨0, 0, 0, 0, 0, 0⟩) := by
    funext i
    rw [exEast_mul]
    fin_cases i
    · exact squareField_mul _ _ _ _ hl hu hp hq
    · change cst square 0 * squareField lo up * squareField p q = squareField ⟨0, 0, 0, 0, 0, 0⟩ ⟨0, 0, 0, 0, 0, 0⟩
      rw [← squareField_cst]
      funext x
      refine Jet.ext ?_ ?_
      · simp
      · funext j; simp
  rw [this]
  exact square_divExact _ _

/-- The tracer `1 + 2x`. -/
noncomputable def exTracer : Sc square := squareField ⟨1, 2, 0, 0, 0, 0⟩ ⟨1, 2, 0, 0, 0, 0⟩

theorem exTracer_cont : Cont exTracer := by
  intro s; cases s <;> simp [exTracer, squareField]

/-- The hypotheses of `C112_streamline` are met by a tracer that increases along the flow. -/
example : advection exTerm exEastFlow (fun _ => none) exTracer
      (applySupg 1 0 (fun _ => 1) exEast exTest (fun _ _ _ => 0)) =
    advection exTerm exEastFlow (fun _ => none) exTracer exTest -
      square.dx fun x => supgTau 1 0 1 * 1 * (along exEast exTest x * along exEast exTracer x) := by
  have := C112_streamline exTerm exEastFlow (fun _ => none) exEast exTracer exTest 1 0 (fun _ => 1)
    (fun _ _ _ => 0) rfl rfl exTracer_cont (by intro j f h; cases h) one_pos
    (by rw [exSupg]; exact exDiv _ _ _ _ ⟨rfl, rfl, rfl⟩ ⟨rfl, rfl, rfl⟩ ⟨rfl, rfl, rfl⟩ ⟨rfl, rfl, rfl⟩)
    (exDiv _ _ _ _ ⟨rfl, rfl, rfl⟩ ⟨rfl, rfl, rfl⟩ ⟨rfl, rfl, rfl⟩ ⟨rfl, rfl, rfl⟩)
  exact this

theorem exCst_div (k : ℝ) (w : Quad) (v : Quad) (hw : w.d = 0 ∧ w.e = 0 ∧ w.f = 0)
    (hv : v.d = 0 ∧ v.e = 0 ∧ v.f = 0) :
    DivExact square fun i => corrected exEastFlow exEast i * squareField w v * cst square k := by
  rw [squareField_cst]
  exact exDiv _ _ _ _ ⟨rfl, rfl, rfl⟩ ⟨rfl, rfl, rfl⟩ hw hv

theorem cst_cont (k : ℝ) : Cont (cst m k) := fun _ => rfl

/-- C112: in continuous spaces a uniform tracer does not stay uniform, for a continuous test function and a
uniform velocity for which the unmodified form keeps it. -/
theorem C112_cg_violated : ∃ (T : Term square) (F : Flow square) (u : Vc square) (test : Sc square),
    F.uv = some u ∧ T.dg = false ∧ Cont test ∧ (∀ i, ∃ k, u i = cst square k) ∧
    advection T F (fun _ => none) (cst square 1) test = 0 ∧
    advection T F (fun _ => none) (cst square 1)
      (applySupg 1 0 (fun _ => 1) u test (fun _ _ _ => 0)) ≠ 0 := by
  have hdx : ∀ w : Sc square, (square.dx fun x => (w (.cell x)).v *
      along (corrected exEastFlow exEast) (cst square 1) x) = 0 := by
    intro w
    refine (dx_congr fun x => ?_).trans dx_zero
    simp [along]
  refine ⟨{ exTerm with dg := false }, exEastFlow, exEast, exTest, rfl, rfl, exTest_cont, fun i => ⟨_, rfl⟩,
    ?_, ?_⟩
  · rw [advection_smooth _ _ (fun _ => none) exEast _ exTest rfl (cst_cont 1) (by intro j f h; cases h)
      (exCst_div 1 _ _ ⟨rfl, rfl, rfl⟩ ⟨rfl, rfl, rfl⟩), hdx]
    simp only [Bool.false_eq_true, if_false, sub_zero]
    refine (dS_congr fun s => ?_).trans dS_zero
    simp only [exEast_mul]
    cases s <;> simp [jumpV, exTest, squareField, Quad.jet]; norm_num
  · rw [exSupg, advection_smooth _ _ _ exEast _ _ rfl (cst_cont 1) (by intro j f h; cases h)
      (exCst_div 1 _ _ ⟨rfl, rfl, rfl⟩ ⟨rfl, rfl, rfl⟩), hdx]
    simp only [Bool.false_eq_true, if_false, sub_zero, exEast_mul]
    have h2 : Real.sqrt 2 ≠ 0 := by positivity
    have hj : ∀ s : square.S, (cst square 1 (.plus s)).v * jumpV (fun i : Fin 2 =>
        if i = 0 then squareField ⟨1 / 2, -1, -1, 0, 0, 0⟩ ⟨0, 0, 0, 0, 0, 0⟩
        else cst square 0 * squareField ⟨1 / 2, -1, -1, 0, 0, 0⟩ ⟨0, 0, 0, 0, 0, 0⟩) s =
        -(1 / 2) * (1 / Real.sqrt 2) := by
      intro s
      have hn : square.np s = fun _ => 1 / Real.sqrt 2 := rfl
      cases s <;> simp [jumpV, squareField, Quad.jet, hn] <;> norm_num
    rw [dS_congr hj]
    change (∑ s : SqS, sqWS s * _) ≠ 0
    rw [sum_sqS]
    simp only [sqWS]
    field_simp
    norm_num

/-- C112: without the option a tracer that changes with the flow satisfies the equation; in discontinuous spaces,
for every continuous tracer. -/
theorem C112_unsteady_off (T : Term m) (F : Flow m) (bc : ℕ → Option (BFuncs m)) (u : Vc m) (ct c test : Sc m)
    (D : ℝ) (h : Pt m → ℝ) (H : Pt m → Fin 2 → Fin 2 → ℝ)
    (hu : F.uv = some u) (hdg : T.dg = true) (hc : Cont c) (hp : Passive bc c)
    (hdiv : DivExact m fun i => corrected F u i * test * c)
    (hct : ∀ x, (ct (.cell x)).v = -along (corrected F u) c x) :
    unsteady T F bc ct c test (applySupg 0 D h u test H) = 0 := by
  rw [C112_off _ _ _ _ _ _ le_rfl]
  unfold unsteady
  rw [advection_smooth T F bc u c _ hu hc hp hdiv, if_pos hdg, zero_sub, sub_neg_eq_add, ← dx_add]
  refine (dx_congr fun x => ?_).trans dx_zero
  rw [hct]
  ring

/-- C112: with it the equation is satisfied up to the rate of change along the flow, as the time derivative is
tested with the unmodified function. -/
theorem C112_unsteady (T : Term m) (F : Flow m) (bc : ℕ → Option (BFuncs m)) (u : Vc m) (ct c test : Sc m)
    (U D : ℝ) (h : Pt m → ℝ) (H : Pt m → Fin 2 → Fin 2 → ℝ) (hU : 0 < U)
    (hu : F.uv = some u) (hdg : T.dg = true) (hc : Cont c) (hp : Passive bc c)
    (hdiv : DivExact m fun i => corrected F u i * applySupg U D h u test H * c)
    (hct : ∀ x, (ct (.cell x)).v = -along (corrected F u) c x) :
    unsteady T F bc ct c test (applySupg U D h u test H) =
      -m.dx fun x => supgTau U D (h (.cell x)) * along u test x * (ct (.cell x)).v := by
  unfold unsteady
  rw [advection_smooth T F bc u c _ hu hc hp hdiv, if_pos hdg, zero_sub, sub_neg_eq_add, ← dx_add, ← dx_neg]
  refine dx_congr fun x => ?_
  rw [C112_value U D h u test H hU, hct]
  ring

/-- C112: so the exact solution of an unsteady problem does not satisfy the stabilised equation. -/
theorem C112_unsteady_violated : ∃ (T : Term square) (F : Flow square) (u : Vc square) (ct c test : Sc square),
    F.uv = some u ∧ T.dg = true ∧ Cont c ∧
    (∀ x, (ct (.cell x)).v = -along (corrected F u) c x) ∧
    unsteady T F (fun _ => none) ct c test test = 0 ∧
    unsteady T F (fun _ => none) ct c test (applySupg 1 0 (fun _ => 1) u test (fun _ _ _ => 0)) ≠ 0 := by
  have hct : ∀ x, (cst square (-2) (.cell x)).v = -along (corrected exEastFlow exEast) exTracer x := by
    intro x
    cases x <;> simp [along, corrected, exEastFlow, exFlow, exEast, exTracer, squareField, Quad.jet]
  refine ⟨exTerm, exEastFlow, exEast, cst square (-2), exTracer, exTest, rfl, rfl, exTracer_cont, hct, ?_, ?_⟩
  · have := C112_unsteady_off exTerm exEastFlow (fun _ => none) exEast (cst square (-2)) exTracer exTest 0
      (fun _ => 1) (fun _ _ _ => 0) rfl rfl exTracer_cont (by intro j f h; cases h)
      (exDiv _ _ _ _ ⟨rfl, rfl, rfl⟩ ⟨rfl, rfl, rfl⟩ ⟨rfl, rfl, rfl⟩ ⟨rfl, rfl, rfl⟩) hct
    rwa [C112_off _ _ _ _ _ _ le_rfl] at this
  · rw [C112_unsteady exTerm exEastFlow (fun _ => none) exEast (cst square (-2)) exTracer exTest 1 0
      (fun _ => 1) (fun _ _ _ => 0) one_pos rfl rfl exTracer_cont (by intro j f h; cases h)
      (by rw [exSupg]; exact exDiv _ _ _ _ ⟨rfl, rfl, rfl⟩ ⟨rfl, rfl, rfl⟩ ⟨rfl, rfl, rfl⟩ ⟨rfl, rfl, rfl⟩) hct]
    have ht : supgTau 1 0 1 = 1 / 2 := by norm_num [supgTau]
    unfold Mesh.dx
    change -(∑ c : SqC, (1 / 6 : ℝ) * _) ≠ 0
    rw [sum_sqC]
    simp [along, exEast, exTest, squareField, Quad.jet, ht]
    norm_num

end Verif.Supg
