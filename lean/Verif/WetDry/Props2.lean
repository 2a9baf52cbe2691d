import Verif.WetDry.Props

/-!
C126: multi-stage methods with one linear solve for each stage, plain depths, and examples.
-/

namespace Verif.WetDry

open Verif.Dg Verif.Swe

variable {m : Mesh 2}

/-- C126: without wetting and drying the mass term is linear, and one linear solve keeps the volume as Newton's method
does. -/
theorem C126_plain (S : Setup m) (theta : ℝ) (user : Option Snes) (H : Set (Sc m)) (old new : State m)
    (hT : Usual S.T) (hw : S.T.depth.wetdry = false) (hc : Closed S) (h1 : cst m 1 ∈ H)
    (h : CnStep S theta user H old new) : volume S.T new.2 = volume S.T old.2 := by
  cases hs : snesType S.semi user with
  | newtonls =>
    have e := C126_crank S theta user H old new hT h1 hs h
    rw [inflow_closed _ _ _ _ _ hT hc.bnd hc.source, inflow_closed _ _ _ _ _ hT hc.bnd hc.sourceOld] at e
    linarith
  | ksponly =>
    unfold CnStep at h
    rw [hs] at h
    obtain ⟨d, rfl, h⟩ := h
    have h := h _ h1
    have hm : ∀ t, massEta S.T (line old d t).2 (cst m 1) =
        massEta S.T old.2 (cst m 1) + t * m.dx fun c => (d.2 (.cell c)).v := by
      intro t
      rw [C76_mass_linear _ _ _ hw, C76_mass_linear _ _ _ hw, ← dx_smul, ← dx_add]
      refine dx_congr fun c => ?_
      simp only [line, Jet.add_v, Jet.mul_v, Jet.const_v, cst_apply]
      ring
    have e : ∀ t, cnForm S theta old (line old d t) (cst m 1) = t * m.dx fun c => (d.2 (.cell c)).v := by
      intro t
      unfold cnForm
      rw [res_one _ _ _ hT, continuity_one _ _ _ _ _ hT, inflow_closed _ _ _ _ _ hT hc.bnd hc.source,
        inflow_closed _ _ _ _ _ hT hc.bnd hc.sourceOld, hm]
      ring
    have e0 : cnForm S theta old old (cst m 1) = 0 := by
      unfold cnForm
      rw [res_one _ _ _ hT, continuity_one _ _ _ _ _ hT, inflow_closed _ _ _ _ _ hT hc.bnd hc.source,
        inflow_closed _ _ _ _ _ hT hc.bnd hc.sourceOld]
      ring
    have ed : HasDerivAt (fun t => cnForm S theta old (line old d t) (cst m 1)) (m.dx fun c => (d.2 (.cell c)).v) 0 := by
      rw [funext e]
      simpa using (hasDerivAt_id (0 : ℝ)).mul_const (m.dx fun c => (d.2 (.cell c)).v)
    rw [e0, ed.deriv, zero_add] at h
    have hv := C76_mass S.T old.2 (line old d 1).2 hT.nonlinear
    rw [hm, h] at hv
    unfold volume
    linarith

/-- C126 (violated): the same in a diagonally implicit method in solution form with non-negative coefficients, such as
`BackwardEulerUForm` and `DIRK22UForm`: in a closed basin with wetting and drying no step loses water, and the volume is kept
only if the last stage changes no elevation. -/
theorem C126_uform_semi_violated (S : ℕ → Setup m) (T : Term m) (dt : ℝ) (a : ℕ → ℕ → ℝ) (user : Option Snes) (H : Set (Sc m))
    (n : ℕ) (old : State m) (u : ℕ → State m) (k : ℕ → Sc m) (hT : Usual T) (hw : Wet T) (hST : ∀ i, (S i).T = T)
    (hdt : ∀ i, (S i).dt = dt) (h0 : 0 < dt) (ha : ∀ i j, 0 ≤ a i j) (hd : ∀ i < n, 0 < a i i) (h1 : cst m 1 ∈ H)
    (hs : ∀ i, snesType (S i).semi user = .ksponly) (hc : ∀ i, Closed (S i)) (h : UStep S a user H n old u k) :
    volume T old.2 ≤ volume T (u n).2 ∧
      (volume T (u n).2 = volume T old.2 → ∀ c, 0 < m.wC c →
        ((u n).2 (.cell c)).v = ((if n = 0 then old else u (n - 1)).2 (.cell c)).v) := by
  obtain ⟨hst, htd⟩ := h
  have stage : ∀ i ≤ n,
      volume T old.2 + (∑ j ∈ Finset.range i, dt * a i j * total (k j)) ≤ volume T (u i).2 ∧
      (volume T old.2 + (∑ j ∈ Finset.range i, dt * a i j * total (k j)) = volume T (u i).2 → ∀ c, 0 < m.wC c →
        ((u i).2 (.cell c)).v = ((if i = 0 then old else u (i - 1)).2 (.cell c)).v) := by
    intro i hi
    have e := hst i hi
    rw [hs i] at e
    generalize (if i = 0 then old else u (i - 1)) = x at e ⊢
    obtain ⟨d, hy, e⟩ := e
    have e := e _ h1
    have hf : ∀ y, stageForm (S i) a old k i y (cst m 1) = massEta T y.2 (cst m 1) - massEta T old.2 (cst m 1) -
        ∑ j ∈ Finset.range i, dt * a i j * total (k j) := by
      intro y
      have hr := res_one (S i) old y (by rw [hST]; exact hT)
      rw [inflow_closed _ _ _ _ _ (by rw [hST]; exact hT) (hc i).bnd (hc i).source] at hr
      simp only [stageForm, hr, hST, hdt, cst_apply, Jet.const_v, mul_one, mul_zero, zero_add, total]
    have hv := C76_mass T old.2 x.2 hT.nonlinear
    simp only [hf] at e
    rw [(((mass_deriv T hw x d (cst m 1)).sub_const _).sub_const _).deriv] at e
    simp only [cst_apply, Jet.const_v, mul_one] at e
    obtain ⟨g1, g2⟩ := volume_grows T hT hw x d
    rw [← hy] at g1 g2
    unfold volume at g1 g2 ⊢
    exact ⟨by linarith, fun hq => g2 (by linarith)⟩
  have pos : ∀ i < n, 0 ≤ total (k i) := by
    intro i hi
    have e := htd i hi _ h1
    simp only [tendencyForm, hST, hdt, cst_apply, Jet.const_v, mul_one] at e
    rw [C76_mass T old.2 (u i).2 hT.nonlinear] at e
    have g := (stage i hi.le).1
    have : 0 ≤ dt * a i i * total (k i) := by
      unfold volume total at *
      linarith
    exact nonneg_of_mul_nonneg_right this (mul_pos h0 (hd i hi))
  obtain ⟨g1, g2⟩ := stage n le_rfl
  have hsum : 0 ≤ ∑ j ∈ Finset.range n, dt * a n j * total (k j) :=
    Finset.sum_nonneg fun j hj => mul_nonneg (mul_nonneg h0.le (ha n j)) (pos j (Finset.mem_range.1 hj))
  exact ⟨by linarith, fun hq => g2 (by linarith)⟩

/-! ### Examples -/

/-- A closed square with wetting and drying, and a time step of 1. -/
noncomputable def exSetup (semi : Bool) : Setup square :=
  ⟨{ exWet with g := 9 }, noCoeffs, noCoeffs, fun _ => none, 1, semi⟩

theorem ex_usual (semi : Bool) : Usual (exSetup semi).T := ⟨square_flat, rfl, rfl⟩

theorem ex_wet (semi : Bool) : Wet (exSetup semi).T := ⟨rfl, fun _ => by simp [exSetup, exWet]⟩

theorem ex_closed (semi : Bool) : Closed (exSetup semi) := ⟨fun _ _ _ h => by simp [exSetup] at h, rfl, rfl⟩

/-- Elevations that are constant on each triangle. -/
def exSpace : Set (Sc square) := { phi | ∃ a b, phi = twoLevels a b }

theorem one_mem : cst square 1 ∈ exSpace := by
  refine ⟨1, 1, ?_⟩
  funext x
  have : ∀ p q : ℝ, (⟨1, 0, 0, 0, 0, 0⟩ : Quad).jet p q = Jet.const 1 := by
    intro p q
    unfold Quad.jet
    ext i
    · simp
    · fin_cases i <;> simp
  simp only [twoLevels, squareField, this, cst_apply]
  rcases x with x | x | x | x <;> cases x <;> rfl

/-- The state before: water of two levels at rest. -/
noncomputable def exOld : State square := (rest square, twoLevels 9 0)

/-- The change by one linear solve. -/
noncomputable def exChange : State square := (fun _ => cst square (1 / 9 + 2 * Real.sqrt 2), twoLevels (-5) 8)

theorem cell_levels (a b : ℝ) (F : ℝ → ℝ → ℝ) (p q : ℝ) :
    square.dx (fun x => F (twoLevels a b (.cell x)).v (twoLevels p q (.cell x)).v) = (F a p + F b q) / 2 := by
  have e := sum_sqC fun c => (1 / 6 : ℝ) * F (twoLevels a b (.cell c)).v (twoLevels p q (.cell c)).v
  change (∑ c : SqC, (1 / 6 : ℝ) * F (twoLevels a b (.cell c)).v (twoLevels p q (.cell c)).v) = _
  rw [e]
  simp [twoLevels, squareField, Quad.jet]
  ring

theorem plus_level (a b : ℝ) (s : square.S) : (twoLevels a b (.plus s)).v = a := by
  cases s <;> simp [twoLevels, squareField, Quad.jet]

theorem minus_level (a b : ℝ) (s : square.S) : (twoLevels a b (.minus s)).v = b := by
  cases s <;> simp [twoLevels, squareField, Quad.jet]

theorem facet_const (c : ℝ) : square.dS (fun _ => c) = Real.sqrt 2 * c := by
  refine Eq.trans (sum_sqS fun s => sqWS s * c) ?_
  simp only [sqWS]
  ring

/-- The continuity equation on the way. -/
theorem ex_continuity (t a b : ℝ) :
    (exSetup true).res exOld (line exOld exChange t) (twoLevels a b) =
      -(Real.sqrt 2 * ((t * Real.sqrt 2 + 81 - 81 * t) * (a - b))) := by
  have hcell : CellConst (twoLevels a b) := by
    intro x i
    fin_cases i <;> cases x <;> simp [twoLevels, squareField, Quad.jet]
  have d9 := fun x => wet_depth x 9 15 (by norm_num) (by norm_num)
  have d0 := fun x => wet_depth x 0 12 (by norm_num) (by norm_num)
  have hd : ∀ x e, depthAt (exSetup true).T x e = depthAt exWet x e := fun _ _ => rfl
  have hv : ∀ b', volFlux (exSetup true).T (exSetup true).bc (line exOld exChange t).1 (line exOld exChange t).2
      exOld.1 exOld.2 (square.marker b') b' = 0 := fun b' =>
    C76_closed _ _ _ _ _ _ _ _ ((ex_closed true).bnd _ (square.marker_mem b'))
  have key : ∀ s : square.S, facetFlux (exSetup true).T (line exOld exChange t).1 (line exOld exChange t).2 exOld.2 s *
      ((twoLevels a b (.plus s)).v - (twoLevels a b (.minus s)).v) = (t * Real.sqrt 2 + 81 - 81 * t) * (a - b) := by
    intro s
    have hg : (exSetup true).T.g = 9 := rfl
    have hn : ∀ i, square.np s i = 1 / Real.sqrt 2 := fun _ => rfl
    have h2 : Real.sqrt 2 * Real.sqrt 2 = 2 := Real.mul_self_sqrt (by norm_num)
    have h3 : Real.sqrt 2 ≠ 0 := fun h => by rw [h] at h2; norm_num at h2
    have h1 : Real.sqrt (9 / (((9 + 15) / 2 + (0 + 12) / 2) / 2)) = 1 := by
      rw [show (9 : ℝ) / (((9 + 15) / 2 + (0 + 12) / 2) / 2) = 1 by norm_num]; exact Real.sqrt_one
    have hi : 1 / Real.sqrt 2 = Real.sqrt 2 / 2 := by field_simp; linarith
    simp only [facetFlux, hd, hg, hn, line, exOld, exChange, plus_level, minus_level, d9, d0, Jet.add_v, Jet.mul_v,
      Jet.const_v, Fin.sum_univ_two, cst_apply, rest, h1, hi]
    linear_combination (2 * 9 * t * (a - b)) * h2
  have := C76_local (exSetup true).T (exSetup true).bc (line exOld exChange t).1 (line exOld exChange t).2 exOld.1 exOld.2
    (twoLevels a b) rfl rfl square_flat square_unit.1 hcell
  change huDiv _ _ _ _ _ _ _ + 0 = _
  rw [add_zero]
  refine this.trans ?_
  simp only [hv, zero_mul, mul_zero, Finset.sum_const_zero, sub_zero]
  rw [dS_congr key, facet_const]

/-- The hypotheses of `C126_semi_violated` hold for a step that changes the elevation. -/
theorem ex_step : CnStep (exSetup true) 1 none exSpace exOld (line exOld exChange 1) := by
  refine ⟨exChange, rfl, ?_⟩
  rintro _ ⟨a, b, rfl⟩
  have hf : ∀ t, cnForm (exSetup true) 1 exOld (line exOld exChange t) (twoLevels a b) =
      massEta (exSetup true).T (line exOld exChange t).2 (twoLevels a b) - massEta (exSetup true).T exOld.2 (twoLevels a b)
        + (Real.sqrt 2 * (a - b)) * (t * Real.sqrt 2 + 81 - 81 * t) := by
    intro t
    unfold cnForm
    rw [ex_continuity]
    simp only [exSetup]
    ring
  have h0 : line exOld exChange 0 = exOld := by
    unfold line
    refine Prod.ext ?_ ?_
    · funext i p
      refine Jet.ext ?_ ?_ <;> simp [funext_iff]
    · funext p
      refine Jet.ext ?_ ?_ <;> simp [funext_iff]
  have hlin : HasDerivAt (fun t : ℝ => (Real.sqrt 2 * (a - b)) * (t * Real.sqrt 2 + 81 - 81 * t))
      ((Real.sqrt 2 * (a - b)) * (Real.sqrt 2 - 81)) 0 := by
    have := ((((hasDerivAt_id (0 : ℝ)).mul_const (Real.sqrt 2)).add_const 81).fun_sub
      ((hasDerivAt_id (0 : ℝ)).const_mul 81)).const_mul (Real.sqrt 2 * (a - b))
    simpa using this
  have hd := ((mass_deriv (exSetup true).T (ex_wet true) exOld exChange (twoLevels a b)).sub_const
    (massEta (exSetup true).T exOld.2 (twoLevels a b))).fun_add hlin
  have hx := hf 0
  rw [h0] at hx
  rw [hx, funext hf, hd.deriv]
  have h2 : Real.sqrt 2 * Real.sqrt 2 = 2 := Real.mul_self_sqrt (by norm_num)
  have s9 : slope 9 12 = 4 / 5 := by
    unfold slope
    rw [show (9 : ℝ) * 9 + 12 * 12 = 15 * 15 by norm_num, Real.sqrt_mul_self (by norm_num)]
    norm_num
  have s0 : slope 0 12 = 1 / 2 := by
    unfold slope
    norm_num
  have hm : (square.dx fun c => slope (raw (exSetup true).T exOld.2 c) ((exSetup true).T.depth.alpha (.cell c)).v *
      (exChange.2 (.cell c)).v * (twoLevels a b (.cell c)).v) = -2 * a + 2 * b := by
    have e1 : ∀ c : square.C, (exChange.2 (.cell c)).v = (13 / 9) * (8 * 9 / 13 - (exOld.2 (.cell c)).v) := by
      intro c
      cases c <;> simp [exChange, exOld, twoLevels, squareField, Quad.jet] <;> norm_num
    have e2 : ∀ c : square.C, raw (exSetup true).T exOld.2 c = (exOld.2 (.cell c)).v := by
      intro c
      simp [raw, exSetup, exWet]
    have e3 : ∀ c : square.C, ((exSetup true).T.depth.alpha (.cell c)).v = 12 := by
      intro c
      simp [exSetup, exWet]
    simp only [e1, e2, e3]
    simp only [exOld]
    rw [cell_levels 9 0 (fun e p => slope e 12 * ((13 / 9) * (8 * 9 / 13 - e)) * p) a b, s9, s0]
    ring
  rw [hm]
  linear_combination (a - b) * h2

/-- C126 (violated): water appears in this step. -/
theorem C126_example_violated :
    volume (exSetup true).T exOld.2 < volume (exSetup true).T (line exOld exChange 1).2 := by
  obtain ⟨h1, h2⟩ := C126_semi_violated (exSetup true) 1 none exSpace _ _ (ex_usual true) (ex_wet true) (ex_closed true)
    one_mem rfl ex_step
  refine lt_of_le_of_ne h1 fun h => ?_
  have := h2 h.symm SqC.l0 (show (0 : ℝ) < 1 / 6 by norm_num)
  simp [line, exOld, exChange, twoLevels, squareField, Quad.jet] at this

/-- Nothing happens to water at rest. -/
theorem ex_rest (a b : ℝ) : continuity (exSetup false).T noCoeffs (fun _ => none) (rest square) (cst square 3) (rest square)
    (cst square 3) (twoLevels a b) = 0 := by
  have hcell : CellConst (twoLevels a b) := by
    intro x i
    fin_cases i <;> cases x <;> simp [twoLevels, squareField, Quad.jet]
  have hv : ∀ b', volFlux (exSetup false).T (exSetup false).bc (rest square) (cst square 3)
      (rest square) (cst square 3) (square.marker b') b' = 0 := fun b' =>
    C76_closed _ _ _ _ _ _ _ _ ((ex_closed false).bnd _ (square.marker_mem b'))
  have key : ∀ s : square.S, facetFlux (exSetup false).T (rest square) (cst square 3) (cst square 3) s *
      ((twoLevels a b (.plus s)).v - (twoLevels a b (.minus s)).v) = 0 := by
    intro s
    simp [facetFlux, rest]
  have := C76_local (exSetup false).T (exSetup false).bc (rest square) (cst square 3) (rest square) (cst square 3)
    (twoLevels a b) rfl rfl square_flat square_unit.1 hcell
  change huDiv _ _ _ _ _ _ _ + 0 = _
  rw [add_zero]
  refine this.trans ?_
  simp only [hv, zero_mul, mul_zero, Finset.sum_const_zero, sub_zero]
  rw [dS_congr key, dS_zero, neg_zero]

/-- The hypotheses of `C126_crank_run` hold for water at rest. -/
example : volume (exSetup false).T (cst square 3) = volume (exSetup false).T (cst square 3) :=
  C126_crank_run (fun _ => exSetup false) _ (1 / 2) none exSpace (fun _ => (rest square, cst square 3)) (ex_usual false)
    (fun _ => rfl) (fun _ => ex_closed false) one_mem (fun _ => rfl) (fun _ => by
      rintro phi ⟨a, b, rfl⟩
      have hz := ex_rest a b
      unfold cnForm Setup.res
      simp only [exSetup] at hz ⊢
      simp only [Bool.false_eq_true, if_false, hz]
      ring) 5

/-- The hypotheses of `C126_uform_closed` hold for water at rest and a method of two stages. -/
example : volume (exSetup false).T (cst square 3) = volume (exSetup false).T (cst square 3) :=
  C126_uform_closed (fun _ => exSetup false) _ 1 (fun _ _ => 1 / 2) none exSpace 1 (rest square, cst square 3)
    (fun _ => (rest square, cst square 3)) (fun _ => cst square 0) (ex_usual false) (fun _ => rfl) (fun _ => rfl)
    (by norm_num) (fun _ _ => by norm_num) one_mem (fun _ => rfl) (fun _ => ex_closed false)
    ⟨fun i _ => by
      rintro phi ⟨a, b, rfl⟩
      have hz := ex_rest a b
      unfold stageForm Setup.res
      simp only [exSetup] at hz ⊢
      simp [hz, dx_zero],
    fun i _ => by
      rintro phi ⟨a, b, rfl⟩
      unfold tendencyForm
      simp [dx_zero]⟩

end Verif.WetDry
