import Verif.Swe.Props4
import Verif.Tracer2.Props5

/-!
C82: horizontal viscosity.
-/

namespace Verif.Swe

open Verif.Dg

variable {m : Mesh 2}

/-- No boundary prescribes a velocity: closed boundaries and boundaries with an elevation only. -/
def FreeSlip (bc : ℕ → Option (Funcs m)) : Prop :=
  ∀ k l, bc k = some l → ∀ e ∈ l, match e with
    | .elev _ | .drag _ | .other _ => True
    | .uv _ | .un _ | .flux _ => False

theorem FreeSlip.delta {bc : ℕ → Option (Funcs m)} (h : FreeSlip bc) (T : Term m) (uv : Vc m) (eta : Sc m) (k : ℕ) (b : m.B) :
    deltaUv T bc uv eta k b = none := by
  unfold deltaUv
  cases ho : openFuncs (bc k) with
  | none => rfl
  | some f =>
    have hs := h k f (open_some ho).1
    have h1 : f.un = none := by
      cases e : f.un with
      | none => rfl
      | some u => exact (hs _ (mem_un e)).elim
    have h2 : f.uv = none := by
      cases e : f.uv with
      | none => rfl
      | some u => exact (hs _ (mem_uv e)).elim
    have h3 : f.flux = none := by
      cases e : f.flux with
      | none => rfl
      | some u => exact (hs _ (mem_flux e)).elim
    simp [h1, h2, h3]

theorem FreeSlip.visc {bc : ℕ → Option (Funcs m)} (h : FreeSlip bc) (T : Term m) (nu : Sc m) (uv : Vc m) (eta : Sc m)
    (w : Vc m) (k : ℕ) (b : m.B) : viscBnd T bc nu uv eta w k b = 0 := by
  unfold viscBnd
  rw [h.delta]

/-- C82: without a viscosity there is no term. -/
theorem C82_none (T : Term m) (bc : ℕ → Option (Funcs m)) (uv : Vc m) (eta etaOld : Sc m) (w : Vc m) :
    viscosity T bc none uv eta etaOld w = 0 := rfl

/-- C82: a velocity without jumps whose stress vanishes is left alone; that is any uniform velocity, and with the
symmetric stress also a rigid rotation. -/
theorem C82_unstressed (T : Term m) (bc : ℕ → Option (Funcs m)) (nu : Option (Sc m)) (uv : Vc m) (eta etaOld : Sc m) (w : Vc m)
    (hbc : FreeSlip bc) (hflat : m.Flat)
    (hc : ∀ s i, (uv i (.plus s)).v = (uv i (.minus s)).v)
    (hs : (∀ x i j, (uv i x).g j = 0) ∨ (T.gradDiv = true ∧ ∀ x i j, (uv i x).g j = -(uv j x).g i)) :
    viscosity T bc nu uv eta etaOld w = 0 := by
  unfold viscosity
  cases nu with
  | none => rfl
  | some nu =>
    have h1 : ∀ x i j, stress T nu uv x i j = 0 := by
      intro x i j
      rcases hs with h | ⟨hg, h⟩
      · simp [stress, symm, h]
      · simp only [stress, symm, hg, if_true]
        rw [h x i j]; ring
    have h2 : ∀ s i j, symm T (tensorJump uv s) i j = 0 := by
      intro s i j
      have : ∀ i j, tensorJump uv s i j = 0 := by
        intro i j
        simp only [tensorJump, hflat s, hc s i]; ring
      simp [symm, this]
    simp only [h1, h2, mul_zero, sub_self, Finset.sum_const_zero, dx_zero, dS_zero, neg_zero, ite_self, add_zero,
      bndLoop_eq, hbc.visc]

/-- A rotation of the whole square with the symmetric stress: `(-y, x)`. -/
example (w : Vc square) : viscosity { exTerm with gradDiv := true, gradDepth := true } (fun _ => none)
    (some (squareField ⟨3, 0, 0, 0, 0, 0⟩ ⟨7, 0, 0, 0, 0, 0⟩))
    ![squareField ⟨0, 0, -1, 0, 0, 0⟩ ⟨0, 0, -1, 0, 0, 0⟩, squareField ⟨0, 1, 0, 0, 0, 0⟩ ⟨0, 1, 0, 0, 0, 0⟩]
    (cst square 0) (cst square 0) w = 0 := by
  refine C82_unstressed _ _ _ _ _ _ _ (fun k l h => by cases h) square_flat (fun s i => ?_) (Or.inr ⟨rfl, fun x i j => ?_⟩)
  · fin_cases i <;> cases s <;> simp [squareField]
  · fin_cases i <;> fin_cases j <;> rcases x with x | x | x | x <;> cases x <;> simp [squareField, Quad.jet]

/-- C82: viscosity moves momentum between cells by a flux that is the same for both sides: tested with a vector that is
constant on cells the term is the sum over facets of a flux times the jump of the test vector. -/
theorem C82_local (T : Term m) (bc : ℕ → Option (Funcs m)) (nu : Sc m) (uv : Vc m) (eta etaOld : Sc m) (w : Vc m)
    (hbc : FreeSlip bc) (hu : T.uDg = true) (hd : T.gradDepth = false) (hflat : m.Flat) (hw : ∀ x i j, (w i x).g j = 0) :
    viscosity T bc (some nu) uv eta etaOld w =
      m.dS fun s => ∑ i, ((w i (.plus s)).v - (w i (.minus s)).v) * ∑ j, m.np s j *
        ((stress T nu uv (.plus s) i j + stress T nu uv (.minus s) i j) / 2 -
          sigmaMax T s * (((nu (.plus s)).v + (nu (.minus s)).v) / 2 * symm T (tensorJump uv s) i j)) := by
  unfold viscosity
  simp only [hw, hu, hd, if_true, Bool.false_eq_true, if_false, bndLoop_eq, hbc.visc, zero_mul, mul_zero,
    Finset.sum_const_zero, dx_zero, add_zero, zero_add]
  rw [← dS_neg]
  refine dS_congr fun s => ?_
  simp only [tensorJump, hflat s, avg, Fin.sum_univ_two]
  ring

/-- C82: the total momentum does not change, when the term with the gradient of the depth is switched off and no
boundary prescribes a velocity. -/
theorem C82_momentum (T : Term m) (bc : ℕ → Option (Funcs m)) (nu : Sc m) (uv : Vc m) (eta etaOld : Sc m) (W : Fin 2 → ℝ)
    (hbc : FreeSlip bc) (hd : T.gradDepth = false) (hflat : m.Flat) :
    viscosity T bc (some nu) uv eta etaOld (fun i => cst m (W i)) = 0 := by
  by_cases hu : T.uDg = true
  · rw [C82_local T bc nu uv eta etaOld _ hbc hu hd hflat (fun x i j => by simp)]
    simp [dS_zero]
  · unfold viscosity
    simp [hu, hd, dx_zero]

/-- Each boundary is either free of prescribed velocities or holds the velocity at zero. -/
def FreeOrNoSlip (bc : ℕ → Option (Funcs m)) : Prop :=
  ∀ k ∈ m.markers, (∀ l, bc k = some l → ∀ e ∈ l, match e with
    | .elev _ | .drag _ | .other _ => True
    | .uv _ | .un _ | .flux _ => False) ∨ bc k = some [.uv fun _ _ => 0]

/-- The boundary holds the velocity at zero. -/
def NoSlip (bc : ℕ → Option (Funcs m)) (k : ℕ) : Prop := bc k = some [.uv fun _ _ => 0]

theorem FreeOrNoSlip.delta {bc : ℕ → Option (Funcs m)} (h : FreeOrNoSlip bc) (T : Term m) (uv : Vc m) (eta : Sc m) (b : m.B) :
    deltaUv T bc uv eta (m.marker b) b = none ∨
      NoSlip bc (m.marker b) ∧ deltaUv T bc uv eta (m.marker b) b = some fun i => (uv i (.bnd b)).v := by
  rcases h _ (m.marker_mem b) with h | h
  · left
    have : FreeSlip (fun _ : ℕ => bc (m.marker b)) := fun k l hl => h l hl
    exact this.delta T uv eta (m.marker b) b
  · right
    refine ⟨h, ?_⟩
    have ho : openFuncs (bc (m.marker b)) = some [.uv fun _ _ => 0] := by rw [h]; rfl
    have hb : bndF T [.uv fun _ _ => 0] (m.marker b) b (eta (.bnd b)).v (atB uv b) = ((eta (.bnd b)).v, fun _ => 0) := rfl
    have h1 : Funcs.un ([.uv fun _ _ => 0] : Funcs m) = none := rfl
    have h2 : (Funcs.uv ([.uv fun _ _ => 0] : Funcs m)).isSome = true := rfl
    unfold deltaUv
    rw [ho]
    simp only [h1, h2, hb, Bool.true_or, if_true, sub_zero, atB]

/-- C82: with a viscosity that is continuous across facets the term is symmetric, also with boundaries that hold the
velocity at zero. -/
theorem C82_symmetric (T : Term m) (bc : ℕ → Option (Funcs m)) (nu : Sc m) (u v : Vc m) (eta etaOld : Sc m)
    (hbc : FreeOrNoSlip bc) (hd : T.gradDepth = false) (hflat : m.Flat)
    (hnu : ∀ s, (nu (.plus s)).v = (nu (.minus s)).v) :
    viscosity T bc (some nu) u eta etaOld v = viscosity T bc (some nu) v eta etaOld u := by
  unfold viscosity
  simp only [hd, Bool.false_eq_true, if_false, bndLoop_eq, add_zero]
  have e1 : (m.dx fun x => ∑ i, ∑ j, (v i (.cell x)).g j * stress T nu u (.cell x) i j) =
      m.dx fun x => ∑ i, ∑ j, (u i (.cell x)).g j * stress T nu v (.cell x) i j := by
    refine dx_congr fun x => ?_
    simp only [stress, symm, Fin.sum_univ_two]
    split <;> ring
  rw [e1]
  congr 2
  split
  · congr 1
    · refine dS_congr fun s => ?_
      simp only [stress, symm, tensorJump, Fin.sum_univ_two, avg, hnu s, hflat s]
      split <;> ring
    · refine dB_congr fun b => ?_
      unfold viscBnd
      rcases hbc.delta T u eta b with h | ⟨hn, h⟩
      · rcases hbc.delta T v eta b with h' | ⟨hn, h'⟩
        · rw [h, h']
        · exfalso
          unfold deltaUv at h h'
          have ho : openFuncs (bc (m.marker b)) = some [.uv fun _ _ => 0] := by rw [hn]; rfl
          rw [ho] at h
          simp [Funcs.un, Funcs.uv] at h
      · rcases hbc.delta T v eta b with h' | ⟨-, h'⟩
        · exfalso
          unfold deltaUv at h h'
          have ho : openFuncs (bc (m.marker b)) = some [.uv fun _ _ => 0] := by rw [hn]; rfl
          rw [ho] at h'
          simp [Funcs.un, Funcs.uv] at h'
        · rw [h, h']
          simp only [stress, symm, Fin.sum_univ_two]
          split <;> ring
  · rfl

/-! ### Dissipation -/

/-- The part of the velocity gradient that makes stress: its symmetric part, or the gradient itself. -/
noncomputable def strain (T : Term m) (a : Fin 2 → Fin 2 → ℝ) (i j : Fin 2) : ℝ :=
  if T.gradDiv then (a i j + a j i) / 2 else a i j

/-- Factor of the stress: two for the symmetric part. -/
def stressFactor (T : Term m) : ℝ := if T.gradDiv then 2 else 1

/-- The square of a tensor. -/
def sq2 (a : Fin 2 → Fin 2 → ℝ) : ℝ := ∑ i, ∑ j, a i j ^ 2

theorem sq2_nonneg (a : Fin 2 → Fin 2 → ℝ) : 0 ≤ sq2 a :=
  Finset.sum_nonneg fun _ _ => Finset.sum_nonneg fun _ _ => sq_nonneg _

theorem stressFactor_pos (T : Term m) : 0 < stressFactor T := by unfold stressFactor; split <;> norm_num

/-- The integral over the facets of the strain, scaled by the size of the cells, is bounded by the integral over the cells
(the inverse trace inequality for the velocity). -/
def StrainBound (T : Term m) (nu : Sc m) (u : Vc m) (kappa : ℝ) : Prop :=
  (m.dS fun s => m.volP s / m.areaS s * ((nu (.plus s)).v * sq2 (strain T fun i j => (u i (.plus s)).g j)) +
      m.volM s / m.areaS s * ((nu (.minus s)).v * sq2 (strain T fun i j => (u i (.minus s)).g j))) ≤
    kappa * m.dx fun x => (nu (.cell x)).v * sq2 (strain T fun i j => (u i (.cell x)).g j)

/-- Number of degrees of freedom of a polynomial of degree `p` on the cell. -/
noncomputable def dofs (T : Term m) : ℝ := if T.triangle then (T.p + 1) * (T.p + 2) / 2 else (T.p + 1) ^ 2

/-- The power of the stress on the strain. -/
theorem stress_power (T : Term m) (nu : Sc m) (u : Vc m) (x : Pt m) : (∑ i, ∑ j, (u i x).g j * stress T nu u x i j) =
    stressFactor T * ((nu x).v * sq2 (strain T fun i j => (u i x).g j)) := by
  simp only [stress, symm, stressFactor, sq2, strain, Fin.sum_univ_two]
  split <;> ring

theorem dofs_nonneg (T : Term m) : 0 ≤ dofs T := by unfold dofs; split <;> positivity

/-- What a facet can add is bounded by the strain on both sides. -/
theorem visc_facet (T : Term m) (nu : Sc m) (u : Vc m) (kappa alpha : ℝ) (s : m.S)
    (hvol : 0 < m.volP s ∧ 0 < m.volM s ∧ 0 < m.areaS s)
    (hnu : 0 ≤ (nu (.minus s)).v) (hcont : (nu (.plus s)).v = (nu (.minus s)).v) (hkappa : 0 < kappa)
    (hsipg : alpha ≤ (T.sipg (.plus s)).v ∧ alpha ≤ (T.sipg (.minus s)).v) (halpha : kappa / 2 ≤ alpha * dofs T) :
    -(stressFactor T / kappa) *
      (m.volP s / m.areaS s * ((nu (.plus s)).v * sq2 (strain T fun i j => (u i (.plus s)).g j)) +
      m.volM s / m.areaS s * ((nu (.minus s)).v * sq2 (strain T fun i j => (u i (.minus s)).g j))) ≤
      ∑ i, ∑ j, (sigmaMax T s * (tensorJump u s i j * (avg nu s * symm T (tensorJump u s) i j)) -
            (1 / 2) * ((u i (.plus s)).g j + (u i (.minus s)).g j) * (avg nu s * symm T (tensorJump u s) i j) -
            tensorJump u s i j * ((1 / 2) * (stress T nu u (.plus s) i j + stress T nu u (.minus s) i j))) := by
  have hF := stressFactor_pos T
  have hdofs := dofs_nonneg T
  obtain ⟨hvp, hvm, hA⟩ := hvol
  have hlp : 0 < m.volP s / m.areaS s := div_pos hvp hA
  have hlm : 0 < m.volM s / m.areaS s := div_pos hvm hA
  set lp := m.volP s / m.areaS s
  set lm := m.volM s / m.areaS s
  set J := strain T (tensorJump u s) with hJ
  set P := strain T (fun i j => (u i (.plus s)).g j) with hP
  set M := strain T (fun i j => (u i (.minus s)).g j) with hM
  set n := (nu (.minus s)).v with hn
  have hav : avg nu s = n := by simp only [avg, hcont]; ring
  have hrew : (∑ i, ∑ j, (sigmaMax T s * (tensorJump u s i j * (avg nu s * symm T (tensorJump u s) i j)) -
          (1 / 2) * ((u i (.plus s)).g j + (u i (.minus s)).g j) * (avg nu s * symm T (tensorJump u s) i j) -
          tensorJump u s i j * ((1 / 2) * (stress T nu u (.plus s) i j + stress T nu u (.minus s) i j)))) =
      stressFactor T * (n * ∑ i, ∑ j, (sigmaMax T s * J i j ^ 2 - J i j * P i j - J i j * M i j)) := by
    rw [hav]
    simp only [hJ, hP, hM, stress, hcont, ← hn, symm, strain, stressFactor, Fin.sum_univ_two]
    split <;> ring
  rw [hrew, hcont]
  have hsig : kappa / (4 * lp) + kappa / (4 * lm) ≤ sigmaMax T s := by
    have hp : kappa / 2 / lp ≤ sigma T (T.sipg (.plus s)).v (m.volP s) (m.areaS s) := by
      have : sigma T (T.sipg (.plus s)).v (m.volP s) (m.areaS s) = (T.sipg (.plus s)).v * dofs T / lp := rfl
      rw [this]
      exact div_le_div_of_nonneg_right (le_trans halpha (mul_le_mul_of_nonneg_right hsipg.1 hdofs)) hlp.le
    have hm : kappa / 2 / lm ≤ sigma T (T.sipg (.minus s)).v (m.volM s) (m.areaS s) := by
      have : sigma T (T.sipg (.minus s)).v (m.volM s) (m.areaS s) = (T.sipg (.minus s)).v * dofs T / lm := rfl
      rw [this]
      exact div_le_div_of_nonneg_right (le_trans halpha (mul_le_mul_of_nonneg_right hsipg.2 hdofs)) hlm.le
    have e : kappa / (4 * lp) + kappa / (4 * lm) = (kappa / 2 / lp + kappa / 2 / lm) / 2 := by
      field_simp; norm_num
    have hs1 : sigma T (T.sipg (.plus s)).v (m.volP s) (m.areaS s) ≤ sigmaMax T s := by
      unfold sigmaMax; dsimp only; split
      · exact le_refl _
      · next h => exact not_lt.1 h
    have hs2 : sigma T (T.sipg (.minus s)).v (m.volM s) (m.areaS s) ≤ sigmaMax T s := by
      unfold sigmaMax; dsimp only; split
      · next h => exact le_of_lt h
      · exact le_refl _
    rw [e]; linarith
  have key : -(1 / kappa) * (lp * sq2 P + lm * sq2 M) ≤
      ∑ i, ∑ j, (sigmaMax T s * J i j ^ 2 - J i j * P i j - J i j * M i j) := by
    have : -(1 / kappa) * (lp * sq2 P + lm * sq2 M) =
        ∑ i, ∑ j, -(lp / kappa * P i j ^ 2 + lm / kappa * M i j ^ 2) := by
      simp only [sq2, Fin.sum_univ_two]; ring
    rw [this]
    refine Finset.sum_le_sum fun i _ => Finset.sum_le_sum fun j _ => ?_
    have y1 := Tracer2.young (J := J i j) (a := P i j) hlp hkappa
    have y2 := Tracer2.young (J := J i j) (a := M i j) hlm hkappa
    have y3 := mul_le_mul_of_nonneg_right hsig (sq_nonneg (J i j))
    linarith
  have h3 := mul_le_mul_of_nonneg_left (mul_le_mul_of_nonneg_left key hnu) hF.le
  refine le_trans (le_of_eq ?_) h3
  ring

/-- C82: viscosity does not let kinetic energy grow, with and without the symmetric stress, for a penalty factor of at
least half the trace constant divided by the number of degrees of freedom.  The viscosity is continuous across facets. -/
theorem C82_dissipation (T : Term m) (bc : ℕ → Option (Funcs m)) (nu : Sc m) (u : Vc m) (eta etaOld : Sc m) (kappa alpha : ℝ)
    (hbc : FreeSlip bc) (hd : T.gradDepth = false)
    (hvol : ∀ s, 0 < m.volP s ∧ 0 < m.volM s ∧ 0 < m.areaS s)
    (hnu : ∀ x, 0 ≤ (nu x).v) (hcont : ∀ s, (nu (.plus s)).v = (nu (.minus s)).v)
    (hkappa : 0 < kappa) (htrace : StrainBound T nu u kappa)
    (hsipg : ∀ s, alpha ≤ (T.sipg (.plus s)).v ∧ alpha ≤ (T.sipg (.minus s)).v) (halpha : kappa / 2 ≤ alpha * dofs T) :
    viscosity T bc (some nu) u eta etaOld u ≤ 0 := by
  have hF := stressFactor_pos T
  unfold viscosity
  simp only [hd, Bool.false_eq_true, if_false, bndLoop_eq, hbc.visc, mul_zero, Finset.sum_const_zero, add_zero]
  rw [dx_congr fun x => stress_power T nu u (.cell x), dx_smul]
  set E := m.dx fun x => (nu (.cell x)).v * sq2 (strain T fun i j => (u i (.cell x)).g j) with hEdef
  have hEn : 0 ≤ E := dx_nonneg fun x => mul_nonneg (hnu _) (sq2_nonneg _)
  by_cases hu : T.uDg = true
  swap
  · simp only [hu]
    have := mul_nonneg hF.le hEn
    simp only [Bool.false_eq_true, if_false, add_zero]
    linarith
  simp only [hu, if_true]
  have hS := Finset.sum_le_sum fun s (_ : s ∈ Finset.univ) => mul_le_mul_of_nonneg_left
    (visc_facet T nu u kappa alpha s (hvol s) (hnu _) (hcont s) hkappa (hsipg s) halpha) (m.wS_nonneg s)
  change (m.dS fun s => -(stressFactor T / kappa) * _) ≤ m.dS _ at hS
  rw [dS_smul] at hS
  have h4 := mul_le_mul_of_nonneg_left htrace (div_pos hF hkappa).le
  have h5 : stressFactor T / kappa * (kappa * E) = stressFactor T * E := by field_simp
  rw [h5] at h4
  linarith

/-- The strain on all facets, those of the boundary included, is bounded by the strain in the cells. -/
def StrainBoundB (T : Term m) (nu : Sc m) (u : Vc m) (kappa : ℝ) : Prop :=
  (m.dS fun s => m.volP s / m.areaS s * ((nu (.plus s)).v * sq2 (strain T fun i j => (u i (.plus s)).g j)) +
      m.volM s / m.areaS s * ((nu (.minus s)).v * sq2 (strain T fun i j => (u i (.minus s)).g j))) +
    (∑ b, m.wB b * (m.volB b / m.areaB b * ((nu (.bnd b)).v * sq2 (strain T fun i j => (u i (.bnd b)).g j)))) ≤
    kappa * m.dx fun x => (nu (.cell x)).v * sq2 (strain T fun i j => (u i (.cell x)).g j)

/-- What a boundary point can add is bounded by the strain there. -/
theorem visc_boundary (T : Term m) (bc : ℕ → Option (Funcs m)) (nu : Sc m) (u : Vc m) (eta : Sc m) (kappa alpha : ℝ) (b : m.B)
    (hbc : FreeOrNoSlip bc) (hvol : 0 < m.volB b ∧ 0 < m.areaB b) (hnu : 0 ≤ (nu (.bnd b)).v) (hkappa : 0 < kappa)
    (hsipg : alpha ≤ (T.sipg (.bnd b)).v) (halpha : kappa ≤ alpha * dofs T) :
    -(stressFactor T / kappa) * (m.volB b / m.areaB b * ((nu (.bnd b)).v * sq2 (strain T fun i j => (u i (.bnd b)).g j))) ≤
      viscBnd T bc nu u eta u (m.marker b) b := by
  have hF := stressFactor_pos T
  have hdofs := dofs_nonneg T
  have hl : 0 < m.volB b / m.areaB b := div_pos hvol.1 hvol.2
  set l := m.volB b / m.areaB b
  set P := strain T (fun i j => (u i (.bnd b)).g j) with hP
  set n := (nu (.bnd b)).v with hn
  unfold viscBnd
  rcases hbc.delta T u eta b with h | ⟨-, h⟩
  · rw [h]
    have : 0 ≤ stressFactor T / kappa * (l * (n * sq2 P)) :=
      mul_nonneg (div_pos hF hkappa).le (mul_nonneg hl.le (mul_nonneg hnu (sq2_nonneg _)))
    simp only
    linarith
  · rw [h]
    set J := strain T (fun i j => (u i (.bnd b)).v * m.nb b j) with hJ
    set sg := sigma T (T.sipg (.bnd b)).v (m.volB b) (m.areaB b) with hsg
    have hrew : (∑ i, ∑ j, (sg * ((u i (.bnd b)).v * m.nb b j * ((nu (.bnd b)).v *
        symm T (fun a c => (u a (.bnd b)).v * m.nb b c) i j)) -
        (u i (.bnd b)).g j * ((nu (.bnd b)).v * symm T (fun a c => (u a (.bnd b)).v * m.nb b c) i j) -
        (u i (.bnd b)).v * m.nb b j * stress T nu u (.bnd b) i j)) =
        stressFactor T * (n * ∑ i, ∑ j, (sg * J i j ^ 2 - 2 * J i j * P i j)) := by
      simp only [hJ, hP, stress, ← hn, symm, strain, stressFactor, Fin.sum_univ_two]
      split <;> ring
    simp only
    rw [hrew]
    have hsig : kappa / l ≤ sg := by
      have : sg = (T.sipg (.bnd b)).v * dofs T / l := rfl
      rw [this]
      exact div_le_div_of_nonneg_right (le_trans halpha (mul_le_mul_of_nonneg_right hsipg hdofs)) hl.le
    have key : -(1 / kappa) * (l * sq2 P) ≤ ∑ i, ∑ j, (sg * J i j ^ 2 - 2 * J i j * P i j) := by
      have : -(1 / kappa) * (l * sq2 P) = ∑ i, ∑ j, -(l / kappa * P i j ^ 2) := by
        simp only [sq2, Fin.sum_univ_two]; ring
      rw [this]
      refine Finset.sum_le_sum fun i _ => Finset.sum_le_sum fun j _ => ?_
      have y1 := Tracer2.young (J := 2 * J i j) (a := P i j) hl hkappa
      have y3 := mul_le_mul_of_nonneg_right hsig (sq_nonneg (J i j))
      have e : kappa / (4 * l) * (2 * J i j) ^ 2 = kappa / l * J i j ^ 2 := by field_simp; ring
      linarith
    have h3 := mul_le_mul_of_nonneg_left (mul_le_mul_of_nonneg_left key hnu) hF.le
    refine le_trans (le_of_eq ?_) h3
    ring

/-- C82: the same with boundaries that hold the velocity at zero, for twice the penalty factor. -/
theorem C82_noslip (T : Term m) (bc : ℕ → Option (Funcs m)) (nu : Sc m) (u : Vc m) (eta etaOld : Sc m) (kappa alpha : ℝ)
    (hbc : FreeOrNoSlip bc) (hu : T.uDg = true) (hd : T.gradDepth = false)
    (hvol : ∀ s, 0 < m.volP s ∧ 0 < m.volM s ∧ 0 < m.areaS s) (hvolB : ∀ b, 0 < m.volB b ∧ 0 < m.areaB b)
    (hnu : ∀ x, 0 ≤ (nu x).v) (hcont : ∀ s, (nu (.plus s)).v = (nu (.minus s)).v)
    (hkappa : 0 < kappa) (htrace : StrainBoundB T nu u kappa) (hsipg : ∀ x, alpha ≤ (T.sipg x).v)
    (halpha : kappa ≤ alpha * dofs T) :
    viscosity T bc (some nu) u eta etaOld u ≤ 0 := by
  have hF := stressFactor_pos T
  unfold viscosity
  simp only [hd, hu, if_true, Bool.false_eq_true, if_false, bndLoop_eq, add_zero]
  rw [dx_congr fun x => stress_power T nu u (.cell x), dx_smul]
  set E := m.dx fun x => (nu (.cell x)).v * sq2 (strain T fun i j => (u i (.cell x)).g j) with hEdef
  have hS := Finset.sum_le_sum fun s (_ : s ∈ Finset.univ) => mul_le_mul_of_nonneg_left
    (visc_facet T nu u kappa alpha s (hvol s) (hnu _) (hcont s) hkappa ⟨hsipg _, hsipg _⟩ (by linarith)) (m.wS_nonneg s)
  change (m.dS fun s => -(stressFactor T / kappa) * _) ≤ m.dS _ at hS
  rw [dS_smul] at hS
  have hB := Finset.sum_le_sum fun b (_ : b ∈ Finset.univ) => mul_le_mul_of_nonneg_left
    (visc_boundary T bc nu u eta kappa alpha b hbc (hvolB b) (hnu _) hkappa (hsipg _) halpha) (m.wB_nonneg b)
  rw [dB_smul] at hB
  have h4 := mul_le_mul_of_nonneg_left htrace (div_pos hF hkappa).le
  have h5 : stressFactor T / kappa * (kappa * E) = stressFactor T * E := by field_simp
  rw [h5, mul_add] at h4
  linarith

/-- The velocity gradient and the viscosity are constant on each cell, including its facets. -/
structure LinearFlow {facets : ℝ} (D : Tracer2.Cells m facets) (nu : Sc m) (u : Vc m) where
  grad : D.K → Fin 2 → Fin 2 → ℝ
  visc : D.K → ℝ
  visc_nonneg : ∀ k, 0 ≤ visc k
  gC : ∀ x i j, (u i (.cell x)).g j = grad (D.ofC x) i j
  gP : ∀ s i j, (u i (.plus s)).g j = grad (D.ofP s) i j
  gM : ∀ s i j, (u i (.minus s)).g j = grad (D.ofM s) i j
  mC : ∀ x, (nu (.cell x)).v = visc (D.ofC x)
  mP : ∀ s, (nu (.plus s)).v = visc (D.ofP s)
  mM : ∀ s, (nu (.minus s)).v = visc (D.ofM s)

/-- Piecewise linear velocities satisfy the bound, with the number of facets of a cell as constant. -/
theorem C82_trace_linear (T : Term m) {facets : ℝ} (D : Tracer2.Cells m facets) (nu : Sc m) (u : Vc m) (L : LinearFlow D nu u) :
    StrainBound T nu u facets := by
  unfold StrainBound
  let e : D.K → ℝ := fun k => D.vol k * (L.visc k * sq2 (strain T (L.grad k)))
  have he : ∀ k, 0 ≤ e k := fun k =>
    mul_nonneg (D.vol_nonneg k) (mul_nonneg (L.visc_nonneg k) (sq2_nonneg _))
  have h1 : (m.dS fun s => m.volP s / m.areaS s * ((nu (.plus s)).v * sq2 (strain T fun i j => (u i (.plus s)).g j)) +
      m.volM s / m.areaS s * ((nu (.minus s)).v * sq2 (strain T fun i j => (u i (.minus s)).g j))) =
      (∑ s, m.wS s / m.areaS s * e (D.ofP s)) + ∑ s, m.wS s / m.areaS s * e (D.ofM s) := by
    unfold Mesh.dS
    rw [← Finset.sum_add_distrib]
    refine Finset.sum_congr rfl fun s _ => ?_
    simp only [L.gP, L.gM, L.mP, L.mM, D.volP_eq, D.volM_eq, e]
    ring
  rw [h1, Tracer2.sum_fiber D.ofP e, Tracer2.sum_fiber D.ofM e, ← Finset.sum_add_distrib]
  have h2 : (m.dx fun x => (nu (.cell x)).v * sq2 (strain T fun i j => (u i (.cell x)).g j)) = ∑ k, e k := by
    unfold Mesh.dx
    have : ∀ x, m.wC x * ((nu (.cell x)).v * sq2 (strain T fun i j => (u i (.cell x)).g j)) =
        m.wC x * (fun k => L.visc k * sq2 (strain T (L.grad k))) (D.ofC x) := by
      intro x; simp only [L.gC, L.mC]
    rw [Finset.sum_congr rfl fun x _ => this x, Tracer2.sum_fiber D.ofC (fun k => L.visc k * sq2 (strain T (L.grad k)))]
    refine Finset.sum_congr rfl fun k _ => ?_
    rw [D.sum_weights k]
    change _ = D.vol k * _
    ring
  rw [h2, Finset.mul_sum]
  refine Finset.sum_le_sum fun k _ => ?_
  rw [← mul_add]
  calc e k * _ ≤ e k * facets := mul_le_mul_of_nonneg_left (D.facet_count k) (he k)
    _ = facets * e k := mul_comm _ _

/-- C82: with linear elements on triangles and a uniform viscosity every penalty factor of at least one half (the
default is one) makes viscosity dissipative, with and without the symmetric stress. -/
theorem C82_linear_triangles (T : Term m) (bc : ℕ → Option (Funcs m)) (nu : Sc m) (u : Vc m) (eta etaOld : Sc m)
    (D : Tracer2.Cells m 3) (L : LinearFlow D nu u) (hbc : FreeSlip bc) (hd : T.gradDepth = false)
    (hvol : ∀ s, 0 < m.volP s ∧ 0 < m.volM s) (hnu : ∀ x, 0 ≤ (nu x).v)
    (hcont : ∀ s, (nu (.plus s)).v = (nu (.minus s)).v) (hp : T.p = 1) (htri : T.triangle = true)
    (hsipg : ∀ s, 1 / 2 ≤ (T.sipg (.plus s)).v ∧ 1 / 2 ≤ (T.sipg (.minus s)).v) :
    viscosity T bc (some nu) u eta etaOld u ≤ 0 := by
  refine C82_dissipation T bc nu u eta etaOld 3 (1 / 2) hbc hd
    (fun s => ⟨(hvol s).1, (hvol s).2, D.area_pos s⟩) hnu hcont (by norm_num) (C82_trace_linear T D nu u L) hsipg ?_
  simp only [dofs, htri, if_true, hp]
  norm_num

/-- The cells of a mesh with their boundary facets: `ofB` is the cell of a boundary point, and all facets of a cell
together contribute at most `facets`. -/
structure CellsB (m : Mesh 2) (facets : ℝ) extends Tracer2.Cells m facets where
  ofB : m.B → K
  volB_eq : ∀ b, m.volB b = vol (ofB b)
  areaB_pos : ∀ b, 0 < m.areaB b
  all_facets : ∀ k, (∑ s, if ofP s = k then m.wS s / m.areaS s else 0) +
    (∑ s, if ofM s = k then m.wS s / m.areaS s else 0) + (∑ b, if ofB b = k then m.wB b / m.areaB b else 0) ≤ facets

/-- Piecewise linear velocities satisfy the bound with the boundary facets, with the number of facets of a cell as
constant. -/
theorem C82_trace_linearB (T : Term m) {facets : ℝ} (D : CellsB m facets) (nu : Sc m) (u : Vc m)
    (L : LinearFlow D.toCells nu u) (hg : ∀ b i j, (u i (.bnd b)).g j = L.grad (D.ofB b) i j)
    (hv : ∀ b, (nu (.bnd b)).v = L.visc (D.ofB b)) :
    StrainBoundB T nu u facets := by
  unfold StrainBoundB
  let e : D.K → ℝ := fun k => D.vol k * (L.visc k * sq2 (strain T (L.grad k)))
  have he : ∀ k, 0 ≤ e k := fun k =>
    mul_nonneg (D.vol_nonneg k) (mul_nonneg (L.visc_nonneg k) (sq2_nonneg _))
  have h1 : (m.dS fun s => m.volP s / m.areaS s * ((nu (.plus s)).v * sq2 (strain T fun i j => (u i (.plus s)).g j)) +
      m.volM s / m.areaS s * ((nu (.minus s)).v * sq2 (strain T fun i j => (u i (.minus s)).g j))) =
      (∑ s, m.wS s / m.areaS s * e (D.ofP s)) + ∑ s, m.wS s / m.areaS s * e (D.ofM s) := by
    unfold Mesh.dS
    rw [← Finset.sum_add_distrib]
    refine Finset.sum_congr rfl fun s _ => ?_
    simp only [L.gP, L.gM, L.mP, L.mM, D.volP_eq, D.volM_eq, e]
    ring
  have h1b : (∑ b, m.wB b * (m.volB b / m.areaB b * ((nu (.bnd b)).v * sq2 (strain T fun i j => (u i (.bnd b)).g j)))) =
      ∑ b, m.wB b / m.areaB b * e (D.ofB b) := by
    refine Finset.sum_congr rfl fun s _ => ?_
    simp only [hg, hv, D.volB_eq, e]
    ring
  rw [h1, h1b, Tracer2.sum_fiber D.ofP e, Tracer2.sum_fiber D.ofM e, Tracer2.sum_fiber D.ofB e, ← Finset.sum_add_distrib,
    ← Finset.sum_add_distrib]
  have h2 : (m.dx fun x => (nu (.cell x)).v * sq2 (strain T fun i j => (u i (.cell x)).g j)) = ∑ k, e k := by
    unfold Mesh.dx
    have : ∀ x, m.wC x * ((nu (.cell x)).v * sq2 (strain T fun i j => (u i (.cell x)).g j)) =
        m.wC x * (fun k => L.visc k * sq2 (strain T (L.grad k))) (D.ofC x) := by
      intro x; simp only [L.gC, L.mC]
    rw [Finset.sum_congr rfl fun x _ => this x, Tracer2.sum_fiber D.ofC (fun k => L.visc k * sq2 (strain T (L.grad k)))]
    refine Finset.sum_congr rfl fun k _ => ?_
    rw [D.sum_weights k]
    change _ = D.vol k * _
    ring
  rw [h2, Finset.mul_sum]
  refine Finset.sum_le_sum fun k _ => ?_
  rw [← mul_add, ← mul_add]
  calc e k * _ ≤ e k * facets := mul_le_mul_of_nonneg_left (D.all_facets k) (he k)
    _ = facets * e k := mul_comm _ _

/-- C82: with linear elements on triangles and a uniform viscosity the default penalty factor of one suffices with
boundaries that hold the velocity at zero. -/
theorem C82_noslip_triangles (T : Term m) (bc : ℕ → Option (Funcs m)) (nu : Sc m) (u : Vc m) (eta etaOld : Sc m)
    (D : CellsB m 3) (L : LinearFlow D.toCells nu u) (hg : ∀ b i j, (u i (.bnd b)).g j = L.grad (D.ofB b) i j)
    (hv : ∀ b, (nu (.bnd b)).v = L.visc (D.ofB b))
    (hbc : FreeOrNoSlip bc) (hu : T.uDg = true) (hd : T.gradDepth = false)
    (hvol : ∀ s, 0 < m.volP s ∧ 0 < m.volM s) (hvolB : ∀ b, 0 < m.volB b) (hnu : ∀ x, 0 ≤ (nu x).v)
    (hcont : ∀ s, (nu (.plus s)).v = (nu (.minus s)).v) (hp : T.p = 1) (htri : T.triangle = true)
    (hsipg : ∀ x, 1 ≤ (T.sipg x).v) :
    viscosity T bc (some nu) u eta etaOld u ≤ 0 := by
  refine C82_noslip T bc nu u eta etaOld 3 1 hbc hu hd (fun s => ⟨(hvol s).1, (hvol s).2, D.area_pos s⟩)
    (fun b => ⟨hvolB b, D.areaB_pos b⟩) hnu hcont (by norm_num) (C82_trace_linearB T D nu u L hg hv) hsipg ?_
  simp only [dofs, htri, if_true, hp]
  norm_num

/-- A shear flow with a jump across the diagonal, with the symmetric stress. -/
example : viscosity { exTerm with gradDiv := true, gradDepth := false } (fun _ => none) (some (cst square 5))
    ![squareField ⟨0, 1, 2, 0, 0, 0⟩ ⟨1, 0, -1, 0, 0, 0⟩, squareField ⟨0, 3, 0, 0, 0, 0⟩ ⟨0, 0, 4, 0, 0, 0⟩]
    (cst square 0) (cst square 0)
    ![squareField ⟨0, 1, 2, 0, 0, 0⟩ ⟨1, 0, -1, 0, 0, 0⟩, squareField ⟨0, 3, 0, 0, 0, 0⟩ ⟨0, 0, 4, 0, 0, 0⟩] ≤ 0 := by
  refine C82_linear_triangles _ _ _ _ _ _ Tracer2.sqCells
    { grad := fun k => match k with
        | Tracer2.SqK.lo => ![![1, 2], ![3, 0]]
        | Tracer2.SqK.up => ![![0, -1], ![0, 4]]
      visc := fun _ => 5
      visc_nonneg := fun _ => by norm_num
      gC := fun x i j => by
        cases x <;> fin_cases i <;> fin_cases j <;> simp [squareField, Quad.jet, Tracer2.sqCells, Tracer2.sqOf]
      gP := fun x i j => by
        cases x <;> fin_cases i <;> fin_cases j <;> simp [squareField, Quad.jet, Tracer2.sqCells]
      gM := fun x i j => by
        cases x <;> fin_cases i <;> fin_cases j <;> simp [squareField, Quad.jet, Tracer2.sqCells]
      mC := fun _ => rfl
      mP := fun _ => rfl
      mM := fun _ => rfl }
    (fun k l h => by cases h) rfl
    (fun s => ⟨by change (0 : ℝ) < 1 / 2; norm_num, by change (0 : ℝ) < 1 / 2; norm_num⟩)
    (fun x => by simp) (fun s => rfl) rfl rfl
    (fun s => ⟨by simp [exTerm]; norm_num, by simp [exTerm]; norm_num⟩)

/-- Triangle of a boundary point of the square. -/
def sqOfB : SqB → Tracer2.SqK
  | .b0 | .b1 | .b2 | .l0 | .l1 | .l2 => .lo
  | .r0 | .r1 | .r2 | .t0 | .t1 | .t2 => .up

/-- The cells of the square with the boundary. -/
noncomputable def sqCellsB : CellsB square 3 where
  toCells := Tracer2.sqCells
  ofB := sqOfB
  volB_eq := fun _ => rfl
  areaB_pos := fun _ => by change (0 : ℝ) < 1; norm_num
  all_facets := fun (k : Tracer2.SqK) => by
    have h := sum_sqS fun s => if Tracer2.SqK.lo = k then sqWS s / Real.sqrt 2 else 0
    have h' := sum_sqS fun s => if Tracer2.SqK.up = k then sqWS s / Real.sqrt 2 else 0
    have h2 := sum_sqB fun b => if sqOfB b = k then sqWB b / 1 else 0
    refine le_trans (le_of_eq (congrArg₂ (· + ·) (congrArg₂ (· + ·) h h') h2)) ?_
    have hs : Real.sqrt 2 ≠ 0 := by positivity
    cases k <;> simp [sqWS, sqOfB, sqWB] <;> field_simp <;> norm_num

/-- The same flow between walls that hold the velocity at zero on two sides. -/
example : viscosity { exTerm with gradDiv := true, gradDepth := false }
    (fun k => if k = 1 ∨ k = 4 then some [.uv fun _ _ => 0] else none) (some (cst square 5))
    ![squareField ⟨0, 1, 2, 0, 0, 0⟩ ⟨1, 0, -1, 0, 0, 0⟩, squareField ⟨0, 3, 0, 0, 0, 0⟩ ⟨0, 0, 4, 0, 0, 0⟩]
    (cst square 0) (cst square 0)
    ![squareField ⟨0, 1, 2, 0, 0, 0⟩ ⟨1, 0, -1, 0, 0, 0⟩, squareField ⟨0, 3, 0, 0, 0, 0⟩ ⟨0, 0, 4, 0, 0, 0⟩] ≤ 0 := by
  refine C82_noslip_triangles _ _ _ _ _ _ sqCellsB
    { grad := fun k => match k with
        | Tracer2.SqK.lo => ![![1, 2], ![3, 0]]
        | Tracer2.SqK.up => ![![0, -1], ![0, 4]]
      visc := fun _ => 5
      visc_nonneg := fun _ => by norm_num
      gC := fun x i j => by
        cases x <;> fin_cases i <;> fin_cases j <;> simp [squareField, Quad.jet, sqCellsB, Tracer2.sqCells, Tracer2.sqOf]
      gP := fun x i j => by
        cases x <;> fin_cases i <;> fin_cases j <;> simp [squareField, Quad.jet, sqCellsB, Tracer2.sqCells]
      gM := fun x i j => by
        cases x <;> fin_cases i <;> fin_cases j <;> simp [squareField, Quad.jet, sqCellsB, Tracer2.sqCells]
      mC := fun _ => rfl
      mP := fun _ => rfl
      mM := fun _ => rfl }
    (fun b i j => by
      cases b <;> fin_cases i <;> fin_cases j <;> simp [squareField, Quad.jet, sqCellsB, sqOfB])
    (fun b => rfl)
    (fun k _ => ?_) rfl rfl
    (fun s => ⟨by change (0 : ℝ) < 1 / 2; norm_num, by change (0 : ℝ) < 1 / 2; norm_num⟩)
    (fun b => by change (0 : ℝ) < 1 / 2; norm_num)
    (fun x => by simp) (fun s => rfl) rfl rfl
    (fun s => by simp [exTerm])
  by_cases h : k = 1 ∨ k = 4
  · exact Or.inr (if_pos h)
  · left
    intro l hl
    simp [h] at hl

/-! ### The term with the gradient of the depth -/

/-- C82: with the symmetric stress and the term with the gradient of the depth the momentum of the water column,
velocity times depth, does not change: tested with the depth times a constant vector the term vanishes, for a
continuous velocity and depth. -/
theorem C82_depth (T : Term m) (bc : ℕ → Option (Funcs m)) (nu : Sc m) (uv : Vc m) (eta etaOld : Sc m) (W : Fin 2 → ℝ)
    (hbc : FreeSlip bc) (hg : T.gradDiv = true) (hd : T.gradDepth = true) (hflat : m.Flat)
    (hc : ∀ s i, (uv i (.plus s)).v = (uv i (.minus s)).v)
    (hh : ∀ s, (totalH T etaOld (.plus s)).v = (totalH T etaOld (.minus s)).v)
    (hpos : ∀ x, (totalH T etaOld (.cell x)).v ≠ 0) :
    viscosity T bc (some nu) uv eta etaOld (fun i => totalH T etaOld * cst m (W i)) = 0 := by
  unfold viscosity
  have h2 : ∀ s i j, symm T (tensorJump uv s) i j = 0 := by
    intro s i j
    have : ∀ i j, tensorJump uv s i j = 0 := by
      intro i j
      simp only [tensorJump, hflat s, hc s i]; ring
    simp [symm, this]
  have h3 : ∀ s i j, tensorJump (fun i => totalH T etaOld * cst m (W i)) s i j = 0 := by
    intro s i j
    simp only [tensorJump, hflat s, Pi.mul_apply, Jet.mul_v, hh s, cst_apply, Jet.const_v]; ring
  simp only [h2, h3, hd, if_true, bndLoop_eq, hbc.visc, zero_mul, mul_zero, sub_self, Finset.sum_const_zero, dS_zero,
    ite_self, add_zero]
  rw [← dx_add, ← dx_neg]
  refine Eq.trans (dx_congr (h := fun _ => 0) fun x => ?_) dx_zero
  have := hpos x
  simp only [stress, symm, hg, if_true, Fin.sum_univ_two, Pi.mul_apply, Jet.mul_g, Jet.mul_v, cst_apply, Jet.const_g,
    Jet.const_v, mul_zero, add_zero]
  field_simp
  ring

/-- Water with a bed sloping in y. -/
noncomputable def slopeTerm : Term square :=
  { exTerm with
    gradDepth := true
    depth := ⟨squareField ⟨10, 0, 1, 0, 0, 0⟩ ⟨10, 0, 1, 0, 0, 0⟩, false, false, cst square 1⟩ }

theorem slope_total : totalH slopeTerm (cst square 0) = squareField ⟨10, 0, 1, 0, 0, 0⟩ ⟨10, 0, 1, 0, 0, 0⟩ := rfl

/-- C82 (violated): with the default options, where the stress is not symmetric (options.py:597-598) and the term with
the gradient of the depth is included (options.py:602-603), the momentum of the water column is not conserved: the term
contracts the gradient of the depth with the component of the velocity instead of the direction of the derivative.
The flow is the shear `(y, 0)` over a bed sloping in y, without any prescribed velocity. -/
theorem C82_depth_violated :
    slopeTerm.gradDiv = false ∧ slopeTerm.gradDepth = true ∧
    viscosity slopeTerm (fun _ => none) (some (cst square 1))
      ![squareField ⟨0, 0, 1, 0, 0, 0⟩ ⟨0, 0, 1, 0, 0, 0⟩, cst square 0] (cst square 0) (cst square 0)
      (fun i => totalH slopeTerm (cst square 0) * cst square (![1, 0] i)) = -1 := by
  refine ⟨rfl, rfl, ?_⟩
  unfold viscosity
  set u : Vc square := ![squareField ⟨0, 0, 1, 0, 0, 0⟩ ⟨0, 0, 1, 0, 0, 0⟩, cst square 0] with hu
  set H := totalH slopeTerm (cst square 0) with hH
  have g0 : ∀ x : square.C, (u 0 (.cell x)).g 0 = 0 ∧ (u 0 (.cell x)).g 1 = 1 ∧ (u 1 (.cell x)).g 0 = 0 ∧
      (u 1 (.cell x)).g 1 = 0 := by
    intro x
    cases x <;> simp [hu, squareField, Quad.jet]
  have gH : ∀ x : square.C, (H (.cell x)).g 0 = 0 ∧ (H (.cell x)).g 1 = 1 := by
    intro x
    rw [hH, slope_total]
    cases x <;> simp [squareField, Quad.jet]
  have hc : ∀ (s : square.S) i, (u i (.plus s)).v = (u i (.minus s)).v := by
    intro s i
    fin_cases i <;> cases s <;> simp [hu, squareField]
  have hh : ∀ s : square.S, (H (.plus s)).v = (H (.minus s)).v := by
    intro s
    rw [hH, slope_total]
    cases s <;> simp [squareField]
  have h2 : ∀ s i j, symm slopeTerm (tensorJump u s) i j = 0 := by
    intro s i j
    have : ∀ i j, tensorJump u s i j = 0 := by
      intro i j
      simp only [tensorJump, square_flat s, hc s i]; ring
    simp [symm, this]
  have h3 : ∀ s i j, tensorJump (fun i => H * cst square (![1, 0] i)) s i j = 0 := by
    intro s i j
    simp only [tensorJump, square_flat s, Pi.mul_apply, Jet.mul_v, hh s, cst_apply, Jet.const_v]; ring
  have hv : ∀ k b, viscBnd slopeTerm (fun _ => none) (cst square 1) u (cst square 0)
      (fun i => H * cst square (![1, 0] i)) k b = 0 :=
    fun k b => FreeSlip.visc (fun k l h => by cases h) _ _ _ _ _ _ _
  have hgd : slopeTerm.gradDiv = false := rfl
  have hgp : slopeTerm.gradDepth = true := rfl
  simp only [h2, h3, hgp, if_true, bndLoop_eq, hv, zero_mul, mul_zero, sub_self, Finset.sum_const_zero, dS_zero,
    ite_self, add_zero]
  rw [← dx_add]
  have key : ∀ x : square.C, (∑ i, ∑ j, ((H * cst square (![1, 0] i)) (.cell x)).g j * stress slopeTerm (cst square 1) u (.cell x) i j) +
      (-∑ j, ((H * cst square (![1, 0] j)) (.cell x)).v *
          ∑ i, (H (.cell x)).g i / (H (.cell x)).v * stress slopeTerm (cst square 1) u (.cell x) i j) = 1 := by
    intro x
    obtain ⟨a1, a2, a3, a4⟩ := g0 x
    obtain ⟨b1, b2⟩ := gH x
    simp only [stress, symm, hgd, Bool.false_eq_true, if_false, Fin.sum_univ_two, Pi.mul_apply, Jet.mul_g, Jet.mul_v,
      cst_apply, Jet.const_g, Jet.const_v, a1, a2, a3, a4, b1, b2, Matrix.cons_val_zero, Matrix.cons_val_one]
    ring
  rw [dx_congr key]
  congr 1
  refine Eq.trans (sum_sqC fun _ => (1 / 6 : ℝ) * 1) ?_
  norm_num

end Verif.Swe
