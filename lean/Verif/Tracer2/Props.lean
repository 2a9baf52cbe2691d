import Verif.Tracer2.Lemmas
import Verif.Dg.Props

/-!
C72: the advection term for a tracer that is constant in space.
-/

namespace Verif.Tracer2

open Verif.Dg

variable {m : Mesh 2}

/-- The boundary condition prescribes no velocity. -/
def NoVelocity (f : BFuncs m) : Prop := f.uv = none ∧ f.flux = none ∧ f.un = none

/-- The prescribed tracer value, if any, is the constant `k`. -/
def ValueIs (f : BFuncs m) (k : ℝ) : Prop := ∀ v, f.value = some v → ∀ b, (v b).v = k

/-- The difference between the prescribed and the interior normal velocity at a boundary point, zero if the
boundary has no entry. -/
noncomputable def excess (T : Term m) (F : Flow m) (u : Vc m) (bc : ℕ → Option (BFuncs m)) (k : ℝ) (b : m.B) :
    ℝ :=
  match bc (m.marker b) with
  | none => 0
  | some f => ∑ i, ((bndFunctions T F.factor f (m.marker b) b (Jet.const k)
      (fun i => (F.factor (.bnd b)).v * (u i (.bnd b)).v) (F.elev (.bnd b))).2.1 i -
        (F.factor (.bnd b)).v * (u i (.bnd b)).v) * m.nb b i

theorem advBndFlux_const (T : Term m) (F : Flow m) (u : Vc m) (bc : ℕ → Option (BFuncs m)) (k : ℝ)
    (hval : ∀ j f, bc j = some f → ValueIs f k) (b : m.B) :
    advBndFlux T F (corrected F u) bc (cst m k) (m.marker b) b =
      k * (∑ i, (F.factor (.bnd b)).v * (u i (.bnd b)).v * m.nb b i) + k * ((1 / 2) * excess T F u bc k b) := by
  unfold advBndFlux excess
  cases hbc : bc (m.marker b) with
  | none => simp only [cst_apply, Jet.const_v, corrected, Pi.mul_apply, Jet.mul_v, Fin.sum_univ_two]; ring
  | some f =>
    have hc : (bndFunctions T F.factor f (m.marker b) b (Jet.const k)
        (fun i => (F.factor (.bnd b)).v * (u i (.bnd b)).v) (F.elev (.bnd b))).1.v = k := by
      rw [bnd_value]
      cases hv : f.value with
      | none => rfl
      | some v => exact hval _ f hbc v hv b
    simp only [cst_apply, corrected, Pi.mul_apply, Jet.mul_v, Jet.const_v, Fin.sum_univ_two] at hc ⊢
    rw [hc]
    ring

/-- C72: with a constant tracer the form is, for every test function, half the difference between the
prescribed and the interior normal velocity on the boundaries that have an entry, and nothing else. -/
theorem C72_residual (T : Term m) (F : Flow m) (bc : ℕ → Option (BFuncs m)) (u : Vc m) (test : Sc m) (k : ℝ)
    (hu : F.uv = some u) (hdg : T.dg = true)
    (hval : ∀ j f, bc j = some f → ValueIs f k)
    (hdiv : DivExact m fun i => F.factor * u i * test) :
    advection T F bc (cst m k) test =
      -(k / 2 * ∑ b, m.wB b * (excess T F u bc k b * (test (.bnd b)).v)) := by
  rw [advection_eq T F bc u _ test hu]
  simp only [hdg, if_true]
  have hlf : (if T.lf = true then m.dS fun s => 1 / 2 * |unAv (corrected F u) s| * F.lfFactor *
      (jump test s * jump (cst m k) s) else 0) = 0 := by
    split
    · rw [← dS_zero (m := m)]; exact dS_congr fun s => by simp [jump]
    · rfl
  have hv : (m.dx fun x => div (fun i => corrected F u i * test) (.cell x) * (cst m k (.cell x)).v) =
      k * m.dx fun c => div (fun i => F.factor * u i * test) (.cell c) := by
    rw [← dx_smul]
    exact dx_congr fun c => by simp [div, corrected, Fin.sum_univ_two]; ring
  have hs : m.dS (advFacet T (corrected F u) (cst m k) test) =
      k * m.dS fun s => jumpV (fun i => F.factor * u i * test) s := by
    rw [← dS_smul]
    exact dS_congr fun s => by simp only [advFacet, corrected, cst_apply, Jet.const_v]; ring
  rw [hlf, hv, hs, hdiv]
  have hb : (∑ b, m.wB b * (advBndFlux T F (corrected F u) bc (cst m k) (m.marker b) b * (test (.bnd b)).v)) =
      k * (∑ b, m.wB b * normalAt (fun i => F.factor * u i * test) b) +
      k / 2 * ∑ b, m.wB b * (excess T F u bc k b * (test (.bnd b)).v) := by
    rw [← dB_smul, ← dB_smul, ← dB_add]
    refine dB_congr fun b => ?_
    rw [advBndFlux_const T F u bc k hval b]
    simp only [normalAt, Fin.sum_univ_two, Pi.mul_apply, Jet.mul_v]
    ring
  rw [hb]
  ring

theorem excess_noVelocity (T : Term m) (F : Flow m) (u : Vc m) (bc : ℕ → Option (BFuncs m)) (k : ℝ)
    (hno : ∀ j f, bc j = some f → NoVelocity f) (b : m.B) : excess T F u bc k b = 0 := by
  unfold excess
  cases hbc : bc (m.marker b) with
  | none => rfl
  | some f =>
    obtain ⟨h1, h2, h3⟩ := hno _ f hbc
    simp only [bnd_noVelocity T F.factor f (m.marker b) b _ _ _ h1 h2 h3]
    simp

/-- C72: the advection term is zero for a constant tracer, for every velocity field (divergent or not),
test function and choice of the Lax-Friedrichs option, if no boundary prescribes a velocity and prescribed
tracer values agree with the constant. -/
theorem C72_constant (T : Term m) (F : Flow m) (bc : ℕ → Option (BFuncs m)) (u : Vc m) (test : Sc m) (k : ℝ)
    (hu : F.uv = some u) (hdg : T.dg = true)
    (hval : ∀ j f, bc j = some f → ValueIs f k)
    (hno : ∀ j f, bc j = some f → NoVelocity f)
    (hdiv : DivExact m fun i => F.factor * u i * test) :
    advection T F bc (cst m k) test = 0 := by
  rw [C72_residual T F bc u test k hu hdg hval hdiv]
  simp [excess_noVelocity T F u bc k hno]

/-- C72: the same for a boundary that prescribes a normal velocity equal to the interior one. -/
theorem C72_matching (T : Term m) (F : Flow m) (bc : ℕ → Option (BFuncs m)) (u : Vc m) (test : Sc m) (k : ℝ)
    (hu : F.uv = some u) (hdg : T.dg = true)
    (hval : ∀ j f, bc j = some f → ValueIs f k)
    (hmatch : ∀ b, excess T F u bc k b = 0)
    (hdiv : DivExact m fun i => F.factor * u i * test) :
    advection T F bc (cst m k) test = 0 := by
  rw [C72_residual T F bc u test k hu hdg hval hdiv]
  simp [hmatch]

/-- C72: in a continuous tracer space the term is zero if velocity times test function has a continuous normal
component. -/
theorem C72_continuous (T : Term m) (F : Flow m) (bc : ℕ → Option (BFuncs m)) (u : Vc m) (test : Sc m) (k : ℝ)
    (hu : F.uv = some u) (hdg : T.dg = false)
    (hval : ∀ j f, bc j = some f → ValueIs f k)
    (hno : ∀ j f, bc j = some f → NoVelocity f)
    (hcont : ∀ s, jumpV (fun i => F.factor * u i * test) s = 0)
    (hdiv : DivExact m fun i => F.factor * u i * test) :
    advection T F bc (cst m k) test = 0 := by
  have hres := C72_constant { T with dg := true } F bc u test k hu rfl hval hno hdiv
  rw [advection_eq _ F bc u _ test hu] at hres ⊢
  simp only [hdg, if_true, Bool.false_eq_true, if_false] at hres ⊢
  have hlf : (if T.lf = true then m.dS fun s => 1 / 2 * |unAv (corrected F u) s| * F.lfFactor *
      (jump test s * jump (cst m k) s) else 0) = 0 := by
    split
    · rw [← dS_zero (m := m)]; exact dS_congr fun s => by simp [jump]
    · rfl
  have hs : m.dS (advFacet { T with dg := true } (corrected F u) (cst m k) test) = 0 := by
    rw [← dS_zero (m := m)]
    refine dS_congr fun s => ?_
    have := hcont s
    unfold advFacet corrected
    rw [this, mul_zero]
  rw [hlf, hs] at hres
  simp only [add_zero, sub_zero] at hres ⊢
  exact hres

/-- C72: without velocity there is no advection. -/
theorem C72_no_velocity (T : Term m) (F : Flow m) (bc : ℕ → Option (BFuncs m)) (c test : Sc m)
    (hu : F.uv = none) : advection T F bc c test = 0 := by
  unfold advection; rw [hu]

/-! ### Examples on the square -/

/-- A term on the square: piecewise linear discontinuous elements, depth 1, standard options. -/
noncomputable def exTerm : Term square where
  depth := { bathymetry := cst square 1, nonlinear := true, wetdry := false, alpha := cst square 0 }
  dg := true
  lf := true
  blen := fun _ => 1
  sipg := cst square 1
  p := 1
  triangle := true
  z := 0

/-- A linear velocity, discontinuous over the diagonal and divergent. -/
noncomputable def exU : Vc square := fun i =>
  squareField ⟨1, (i : ℝ), 2, 0, 0, 0⟩ ⟨-1, 1, (i : ℝ), 0, 0, 0⟩

/-- The flow with this velocity. -/
noncomputable def exFlow : Flow square where
  uv := some exU
  elev := cst square 0
  factor := cst square 1
  lfFactor := 1

/-- A test function that is one at the origin. -/
noncomputable def exTest : Sc square := squareField ⟨1, -1, -1, 0, 0, 0⟩ ⟨0, 0, 0, 0, 0, 0⟩

/-- The hypotheses of `C72_constant` hold for a discontinuous velocity, a linear test function and a boundary
with the value of the tracer. -/
example : advection exTerm exFlow (fun j => if j = 2 then some { value := some fun _ => Jet.const 3 } else none)
    (cst square 3) exTest = 0 := by
  refine C72_constant exTerm exFlow _ exU exTest 3 rfl rfl ?_ ?_ ?_
  · intro j f h
    by_cases hj : j = 2
    · rw [if_pos hj] at h; cases h; intro v hv b; cases hv; rfl
    · rw [if_neg hj] at h; cases h
  · intro j f h
    by_cases hj : j = 2
    · rw [if_pos hj] at h; cases h; exact ⟨rfl, rfl, rfl⟩
    · rw [if_neg hj] at h; cases h
  · have : (fun i => exFlow.factor * exU i * exTest) = fun i : Fin 2 =>
        squareField (Quad.mulLin ⟨1, (i : ℝ), 2, 0, 0, 0⟩ ⟨1, -1, -1, 0, 0, 0⟩)
          (Quad.mulLin ⟨-1, 1, (i : ℝ), 0, 0, 0⟩ ⟨0, 0, 0, 0, 0, 0⟩) := by
      funext i
      change cst square 1 * exU i * exTest = _
      rw [cst_one_mul]
      exact squareField_mul _ _ _ _ ⟨rfl, rfl, rfl⟩ ⟨rfl, rfl, rfl⟩ ⟨rfl, rfl, rfl⟩ ⟨rfl, rfl, rfl⟩
    rw [this]
    exact square_divExact _ _

/-- Water at rest. -/
noncomputable def exRest : Flow square := { exFlow with uv := some fun _ => cst square 0 }

/-- Boundary 1 with the tracer value `k` and the outward normal velocity `q`. -/
noncomputable def exInflow (q k : ℝ) : ℕ → Option (BFuncs square) := fun j =>
  if j = 1 then some { value := some fun _ => Jet.const k, un := some fun _ => q } else none

/-- C72: water at rest in the interior and a boundary that lets water in or out at normal velocity `q` with
the tracer value of the interior: the constant tracer does not stay constant. -/
theorem C72_inflow_violated (q k : ℝ) (hq : q ≠ 0) (hk : k ≠ 0) :
    advection exTerm exRest (exInflow q k) (cst square k) (cst square 1) ≠ 0 := by
  have hval : ∀ j f, exInflow q k j = some f → ValueIs f k := by
    intro j f h
    unfold exInflow at h
    by_cases hj : j = 1
    · rw [if_pos hj] at h; cases h; intro v hv b; cases hv; rfl
    · rw [if_neg hj] at h; cases h
  rw [C72_residual exTerm exRest _ (fun _ => cst square 0) (cst square 1) k rfl rfl hval]
  · have h := sum_sqB fun b => sqWB b * (excess exTerm exRest
      (fun _ => cst square 0) (exInflow q k) k b * 1)
    have hs : (∑ b : square.B, square.wB b * (excess exTerm exRest
      (fun _ => cst square 0) (exInflow q k) k b * ((cst square 1) (.bnd b)).v)) = q := by
      refine Eq.trans h ?_
      simp only [excess, square, sqMarker, bndFunctions, exRest, exInflow, exFlow, cst_apply, Jet.const_v,
        Fin.sum_univ_two, sqWB, sqNx, sqNy]
      norm_num
      ring
    rw [hs]
    exact neg_ne_zero.2 (mul_ne_zero (div_ne_zero hk two_ne_zero) hq)
  · have : (fun i : Fin 2 => exRest.factor * (fun _ => cst square 0 : Vc square) i * cst square 1) =
        fun _ => cst square 0 := by
      funext i x
      apply Jet.ext
      · simp [exRest, exFlow]
      · funext j; simp [exRest, exFlow]
    rw [this]
    exact square_divExact_cst _

end Verif.Tracer2
