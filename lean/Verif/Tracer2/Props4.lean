import Verif.Tracer2.Props3

/-!
C75: horizontal diffusion of tracers by the interior penalty method.
-/

namespace Verif.Tracer2

open Verif.Dg

variable {m : Mesh 2}

theorem diffusion_eq (T : Term m) (F : Flow m) (mu : Sc m) (bc : ℕ → Option (BFuncs m)) (c test : Sc m) :
    diffusion T F (some mu) bc c test =
      -(m.dx fun x => ∑ i, (test (.cell x)).g i * ((mu (.cell x)).v * (c (.cell x)).g i)) -
      (if T.dg then
        m.dS (fun s => sigmaMax T s * (∑ i, jumpN test s i * (avg mu s * jumpN c s i)) -
          (∑ i, avgFlux mu test s i * jumpN c s i) - ∑ i, jumpN test s i * avgFlux mu c s i) else 0) +
      ∑ b, m.wB b * (diffBndFlux T F mu bc c (m.marker b) b * (test (.bnd b)).v) := by
  unfold diffusion
  simp only [bndLoop_eq]
  have hs : (∑ b, m.wB b * -(diffBndFlux T F mu bc c (m.marker b) b * (test (.bnd b)).v)) =
      -∑ b, m.wB b * (diffBndFlux T F mu bc c (m.marker b) b * (test (.bnd b)).v) := by
    rw [← Finset.sum_neg_distrib]; exact Finset.sum_congr rfl fun b _ => by ring
  rw [hs]
  have hd : (m.dS (fun s => sigmaMax T s * (∑ i, jumpN test s i * (avg mu s * jumpN c s i)) -
          (∑ i, avgFlux mu test s i * jumpN c s i) - ∑ i, jumpN test s i * avgFlux mu c s i)) =
      m.dS (fun s => sigmaMax T s * ∑ i, jumpN test s i * (avg mu s * jumpN c s i)) +
        m.dS (fun s => -∑ i, avgFlux mu test s i * jumpN c s i) +
        m.dS (fun s => -∑ i, jumpN test s i * avgFlux mu c s i) := by
    rw [← dS_add, ← dS_add]; exact dS_congr fun s => by ring
  rw [hd]
  ring

/-- C75: without diffusivity there is no diffusion. -/
theorem C75_none (T : Term m) (F : Flow m) (bc : ℕ → Option (BFuncs m)) (c test : Sc m) :
    diffusion T F none bc c test = 0 := rfl

/-- A boundary condition with prescribed diffusive flux, or a prescribed value that is constant in space. -/
def FlatBoundary (f : BFuncs m) : Prop :=
  (∀ q, f.diffFlux = some q → ∀ b, q b = 0) ∧ ∀ v, f.value = some v → ∀ b i, (v b).g i = 0

/-- C75: diffusion leaves a constant alone. -/
theorem C75_constant (T : Term m) (F : Flow m) (mu : Sc m) (bc : ℕ → Option (BFuncs m)) (k : ℝ) (test : Sc m)
    (hflat : m.Flat) (hbc : ∀ j f, bc j = some f → FlatBoundary f) :
    diffusion T F (some mu) bc (cst m k) test = 0 := by
  rw [diffusion_eq]
  have h1 : (m.dx fun x => ∑ i, (test (.cell x)).g i * ((mu (.cell x)).v * (cst m k (.cell x)).g i)) = 0 := by
    rw [← dx_zero (m := m)]; exact dx_congr fun x => by simp
  have hj : ∀ s i, jumpN (cst m k) s i = 0 := fun s i => by simp [jumpN, hflat s i]
  have ha : ∀ s i, avgFlux mu (cst m k) s i = 0 := fun s i => by simp [avgFlux]
  have h2 : (if T.dg then
        m.dS (fun s => sigmaMax T s * (∑ i, jumpN test s i * (avg mu s * jumpN (cst m k) s i)) -
          (∑ i, avgFlux mu test s i * jumpN (cst m k) s i) - ∑ i, jumpN test s i * avgFlux mu (cst m k) s i)
        else 0) = 0 := by
    split
    · rw [← dS_zero (m := m)]; exact dS_congr fun s => by simp [hj, ha]
    · rfl
  have h3 : (∑ b, m.wB b * (diffBndFlux T F mu bc (cst m k) (m.marker b) b * (test (.bnd b)).v)) = 0 := by
    refine Finset.sum_eq_zero fun b _ => ?_
    have : diffBndFlux T F mu bc (cst m k) (m.marker b) b = 0 := by
      unfold diffBndFlux
      cases hf : bc (m.marker b) with
      | none => rfl
      | some f =>
        obtain ⟨hq, hv⟩ := hbc _ f hf
        simp only
        cases hd : f.diffFlux with
        | some q => exact hq q hd b
        | none =>
          simp only [bnd_value]
          cases hval : f.value with
          | none => simp
          | some v => simp [hv v hval b]
    rw [this]; ring
  rw [h1, h2, h3]
  ring

/-- C75: single-valued fluxes: for test functions constant on cells, one number for each facet leaves the plus side
and enters the minus side. -/
theorem C75_local (T : Term m) (F : Flow m) (mu : Sc m) (bc : ℕ → Option (BFuncs m)) (c test : Sc m)
    (hdg : T.dg = true) (hflat : m.Flat) (hunit : m.UnitNormals)
    (ht : CellConst test) (htp : ∀ s i, (test (.plus s)).g i = 0 ∧ (test (.minus s)).g i = 0) :
    diffusion T F (some mu) bc c test =
      -(m.dS fun s => (sigmaMax T s * avg mu s * ((c (.plus s)).v - (c (.minus s)).v) -
          ∑ i, (1 / 2) * ((mu (.plus s)).v * (c (.plus s)).g i + (mu (.minus s)).v * (c (.minus s)).g i) *
            m.np s i) * ((test (.plus s)).v - (test (.minus s)).v)) +
      ∑ b, m.wB b * (diffBndFlux T F mu bc c (m.marker b) b * (test (.bnd b)).v) := by
  rw [diffusion_eq]
  simp only [hdg, if_true]
  have h1 : (m.dx fun x => ∑ i, (test (.cell x)).g i * ((mu (.cell x)).v * (c (.cell x)).g i)) = 0 := by
    rw [← dx_zero (m := m)]
    exact dx_congr fun x => by simp only [ht x, zero_mul, Finset.sum_const_zero]
  rw [h1]
  have h2 : ∀ s, sigmaMax T s * (∑ i, jumpN test s i * (avg mu s * jumpN c s i)) -
          (∑ i, avgFlux mu test s i * jumpN c s i) - (∑ i, jumpN test s i * avgFlux mu c s i) =
      (sigmaMax T s * avg mu s * ((c (.plus s)).v - (c (.minus s)).v) -
          ∑ i, (1 / 2) * ((mu (.plus s)).v * (c (.plus s)).g i + (mu (.minus s)).v * (c (.minus s)).g i) *
            m.np s i) * ((test (.plus s)).v - (test (.minus s)).v) := by
    intro s
    have hu := hunit.1 s
    simp only [Fin.sum_univ_two, jumpN, avgFlux, hflat s, (htp s 0).1, (htp s 0).2, (htp s 1).1, (htp s 1).2] at hu ⊢
    linear_combination sigmaMax T s * avg mu s * ((c (.plus s)).v - (c (.minus s)).v) *
      ((test (.plus s)).v - (test (.minus s)).v) * hu
  rw [dS_congr h2]
  ring

/-- C75: the total of the tracer changes by the prescribed diffusive fluxes, and not at all through boundaries without
an entry. -/
theorem C75_mass (T : Term m) (F : Flow m) (mu : Sc m) (bc : ℕ → Option (BFuncs m)) (c : Sc m)
    (hflat : m.Flat) (hbc : ∀ j f, bc j = some f → ∃ q, f.diffFlux = some q) :
    diffusion T F (some mu) bc c (cst m 1) =
      ∑ b, m.wB b * match (bc (m.marker b)).bind BFuncs.diffFlux with
        | some q => q b
        | none => 0 := by
  rw [diffusion_eq]
  have h1 : (m.dx fun x => ∑ i, (cst m 1 (.cell x)).g i * ((mu (.cell x)).v * (c (.cell x)).g i)) = 0 := by
    rw [← dx_zero (m := m)]; exact dx_congr fun x => by simp
  have hj : ∀ s i, jumpN (cst m 1) s i = 0 := fun s i => by simp [jumpN, hflat s i]
  have ha : ∀ s i, avgFlux mu (cst m 1) s i = 0 := fun s i => by simp [avgFlux]
  have h2 : (if T.dg then
        m.dS (fun s => sigmaMax T s * (∑ i, jumpN (cst m 1) s i * (avg mu s * jumpN c s i)) -
          (∑ i, avgFlux mu (cst m 1) s i * jumpN c s i) - ∑ i, jumpN (cst m 1) s i * avgFlux mu c s i)
        else 0) = 0 := by
    split
    · rw [← dS_zero (m := m)]; exact dS_congr fun s => by simp [hj, ha]
    · rfl
  rw [h1, h2]
  simp only [neg_zero, sub_zero, zero_add, cst_apply, Jet.const_v, mul_one]
  refine dB_congr fun b => ?_
  unfold diffBndFlux
  cases hf : bc (m.marker b) with
  | none => rfl
  | some f =>
    obtain ⟨q, hq⟩ := hbc _ f hf
    simp only [Option.bind_some, hq]

/-- The diffusive flux in through a boundary with an entry but no prescribed diffusive flux: of the interior tracer
where the mean velocity points out, of the prescribed value where it points in. -/
theorem C75_boundary (T : Term m) (F : Flow m) (u : Vc m) (mu : Sc m) (bc : ℕ → Option (BFuncs m)) (c : Sc m)
    (b : m.B) (f : BFuncs m) (hu : F.uv = some u) (hf : bc (m.marker b) = some f) (hd : f.diffFlux = none)
    (hno : NoVelocity f) :
    (0 < qB F u b → diffBndFlux T F mu bc c (m.marker b) b =
      (mu (.bnd b)).v * ∑ i, (c (.bnd b)).g i * m.nb b i) ∧
    (qB F u b < 0 → ∀ v, f.value = some v → diffBndFlux T F mu bc c (m.marker b) b =
      (mu (.bnd b)).v * ∑ i, (v b).g i * m.nb b i) ∧
    (f.value = none → diffBndFlux T F mu bc c (m.marker b) b =
      (mu (.bnd b)).v * ∑ i, (c (.bnd b)).g i * m.nb b i) := by
  obtain ⟨h1, h2, h3⟩ := hno
  have hq : m.nb b 0 * (1 / 2 * ((corrected F u 0 (.bnd b)).v + (corrected F u 0 (.bnd b)).v)) +
      m.nb b 1 * (1 / 2 * ((corrected F u 1 (.bnd b)).v + (corrected F u 1 (.bnd b)).v)) = qB F u b := by
    simp only [corrected, Pi.mul_apply, Jet.mul_v, qB, vel, Fin.sum_univ_two]; ring
  unfold diffBndFlux
  simp only [hf, hd, hu, bnd_noVelocity T F.factor f (m.marker b) b _ _ _ h1 h2 h3, bnd_value, hq]
  refine ⟨fun h => ?_, fun h v hv => ?_, fun hv => ?_⟩
  · have : upwind T (qB F u b) = 1 := by unfold upwind sgn; rw [if_pos h]; norm_num
    rw [this]
    simp only [Fin.sum_univ_two]; ring
  · have : upwind T (qB F u b) = 0 := by
      unfold upwind sgn; rw [if_neg (by linarith), if_pos h]; norm_num
    rw [this, hv]
    simp only [Fin.sum_univ_two]; ring
  · rw [hv]
    simp only [Fin.sum_univ_two]; ring

/-- C75: the form is symmetric in solution and test function away from boundaries with an entry. -/
theorem C75_symmetric (T : Term m) (F : Flow m) (mu : Sc m) (c test : Sc m) :
    diffusion T F (some mu) (fun _ => none) c test = diffusion T F (some mu) (fun _ => none) test c := by
  rw [diffusion_eq, diffusion_eq]
  have h1 : (m.dx fun x => ∑ i, (test (.cell x)).g i * ((mu (.cell x)).v * (c (.cell x)).g i)) =
      m.dx fun x => ∑ i, (c (.cell x)).g i * ((mu (.cell x)).v * (test (.cell x)).g i) :=
    dx_congr fun x => Finset.sum_congr rfl fun i _ => by ring
  have h2 : (m.dS (fun s => sigmaMax T s * (∑ i, jumpN test s i * (avg mu s * jumpN c s i)) -
          (∑ i, avgFlux mu test s i * jumpN c s i) - ∑ i, jumpN test s i * avgFlux mu c s i)) =
      m.dS (fun s => sigmaMax T s * (∑ i, jumpN c s i * (avg mu s * jumpN test s i)) -
          (∑ i, avgFlux mu c s i * jumpN test s i) - ∑ i, jumpN c s i * avgFlux mu test s i) :=
    dS_congr fun s => by simp only [Fin.sum_univ_two]; ring
  rw [h1, h2]
  simp [diffBndFlux]

/-! ### Dissipation -/

/-- The bound of the normal gradients at the interior facets by the gradients in the cells, weighted with cell size
over facet size.  It is a property of the polynomial degree and the number of facets of a cell. -/
def TraceBound (mu c : Sc m) (kappa : ℝ) : Prop :=
  (m.dS fun s => m.volP s / m.areaS s * (mu (.plus s)).v * (∑ i, (c (.plus s)).g i * m.np s i) ^ 2 +
      m.volM s / m.areaS s * (mu (.minus s)).v * (∑ i, (c (.minus s)).g i * m.nm s i) ^ 2) ≤
    kappa * m.dx fun x => (mu (.cell x)).v * ∑ i, (c (.cell x)).g i ^ 2

/-- The number of degrees of freedom of a cell, `cp` in the code. -/
noncomputable def dofs (T : Term m) : ℝ := if T.triangle then (T.p + 1) * (T.p + 2) / 2 else (T.p + 1) ^ 2

theorem young {l kap J a : ℝ} (hl : 0 < l) (hk : 0 < kap) :
    J * a ≤ l / kap * a ^ 2 + kap / (4 * l) * J ^ 2 := by
  have h : l / kap * a ^ 2 + kap / (4 * l) * J ^ 2 - J * a = (2 * l * a - kap * J) ^ 2 / (4 * l * kap) := by
    field_simp
    ring
  have : 0 ≤ (2 * l * a - kap * J) ^ 2 / (4 * l * kap) := by positivity
  linarith

/-- C75: diffusion does not let the square of the tracer grow, for a penalty factor of at least half the trace
constant over the number of degrees of freedom. -/
theorem C75_dissipation (T : Term m) (F : Flow m) (mu : Sc m) (bc : ℕ → Option (BFuncs m)) (c : Sc m)
    (kappa alpha : ℝ) (hflat : m.Flat) (hunit : m.UnitNormals)
    (hvol : ∀ s, 0 < m.volP s ∧ 0 < m.volM s ∧ 0 < m.areaS s)
    (hmuC : ∀ x, 0 ≤ (mu (.cell x)).v) (hmuS : ∀ s, 0 ≤ (mu (.plus s)).v ∧ 0 ≤ (mu (.minus s)).v)
    (hkappa : 0 < kappa) (htrace : TraceBound mu c kappa)
    (hsipg : ∀ s, alpha ≤ (T.sipg (.plus s)).v ∧ alpha ≤ (T.sipg (.minus s)).v)
    (halpha : kappa / 2 ≤ alpha * dofs T)
    (hbc : ∀ j f, bc j = some f → ∃ q, f.diffFlux = some q ∧ ∀ b, q b = 0) :
    diffusion T F (some mu) bc c c ≤ 0 := by
  rw [diffusion_eq]
  have hdofs : 0 ≤ dofs T := by unfold dofs; split <;> positivity
  have hb : (∑ b, m.wB b * (diffBndFlux T F mu bc c (m.marker b) b * (c (.bnd b)).v)) = 0 := by
    refine Finset.sum_eq_zero fun b _ => ?_
    have : diffBndFlux T F mu bc c (m.marker b) b = 0 := by
      unfold diffBndFlux
      cases hf : bc (m.marker b) with
      | none => rfl
      | some f =>
        obtain ⟨q, hq, h0⟩ := hbc _ f hf
        simp only [hq, h0]
    rw [this]; ring
  have hG : (m.dx fun x => ∑ i, (c (.cell x)).g i * ((mu (.cell x)).v * (c (.cell x)).g i)) =
      m.dx fun x => (mu (.cell x)).v * ∑ i, (c (.cell x)).g i ^ 2 :=
    dx_congr fun x => by simp only [Fin.sum_univ_two]; ring
  have hG0 : 0 ≤ m.dx fun x => (mu (.cell x)).v * ∑ i, (c (.cell x)).g i ^ 2 :=
    dx_nonneg fun x => mul_nonneg (hmuC x) (Finset.sum_nonneg fun i _ => sq_nonneg _)
  rw [hb, hG]
  split
  swap
  · linarith
  have hS : -(m.dx fun x => (mu (.cell x)).v * ∑ i, (c (.cell x)).g i ^ 2) ≤
      m.dS (fun s => sigmaMax T s * (∑ i, jumpN c s i * (avg mu s * jumpN c s i)) -
          (∑ i, avgFlux mu c s i * jumpN c s i) - ∑ i, jumpN c s i * avgFlux mu c s i) := by
    have hpt : ∀ s, -(1 / kappa) * (m.volP s / m.areaS s * (mu (.plus s)).v * (∑ i, (c (.plus s)).g i * m.np s i) ^ 2 +
        m.volM s / m.areaS s * (mu (.minus s)).v * (∑ i, (c (.minus s)).g i * m.nm s i) ^ 2) ≤
        sigmaMax T s * (∑ i, jumpN c s i * (avg mu s * jumpN c s i)) -
          (∑ i, avgFlux mu c s i * jumpN c s i) - ∑ i, jumpN c s i * avgFlux mu c s i := by
      intro s
      obtain ⟨hvp, hvm, har⟩ := hvol s
      obtain ⟨hmp, hmm⟩ := hmuS s
      obtain ⟨hsp, hsm⟩ := hsipg s
      have hu := hunit.1 s
      have hlp : 0 < m.volP s / m.areaS s := by positivity
      have hlm : 0 < m.volM s / m.areaS s := by positivity
      have hsigp : kappa / 2 / (m.volP s / m.areaS s) ≤ sigmaMax T s := by
        have h1 : kappa / 2 / (m.volP s / m.areaS s) ≤
            sigma T (T.sipg (.plus s)).v (m.volP s) (m.areaS s) := by
          change _ ≤ (T.sipg (.plus s)).v * dofs T / (m.volP s / m.areaS s)
          refine div_le_div_of_nonneg_right ?_ hlp.le
          exact le_trans halpha (mul_le_mul_of_nonneg_right hsp hdofs)
        refine le_trans h1 ?_
        unfold sigmaMax
        simp only
        split
        · exact le_rfl
        · next h => exact not_lt.1 h
      have hsigm : kappa / 2 / (m.volM s / m.areaS s) ≤ sigmaMax T s := by
        have h1 : kappa / 2 / (m.volM s / m.areaS s) ≤
            sigma T (T.sipg (.minus s)).v (m.volM s) (m.areaS s) := by
          change _ ≤ (T.sipg (.minus s)).v * dofs T / (m.volM s / m.areaS s)
          refine div_le_div_of_nonneg_right ?_ hlm.le
          exact le_trans halpha (mul_le_mul_of_nonneg_right hsm hdofs)
        refine le_trans h1 ?_
        unfold sigmaMax
        simp only
        split
        · next h => exact h.le
        · exact le_rfl
      generalize sigmaMax T s = sg at hsigp hsigm ⊢
      have ha := young (J := (c (.plus s)).v - (c (.minus s)).v)
        (a := (c (.plus s)).g 0 * m.np s 0 + (c (.plus s)).g 1 * m.np s 1) hlp hkappa
      have hbb := young (J := (c (.plus s)).v - (c (.minus s)).v)
        (a := (c (.minus s)).g 0 * m.np s 0 + (c (.minus s)).g 1 * m.np s 1) hlm hkappa
      simp only [Fin.sum_univ_two, jumpN, avgFlux, avg, hflat s] at hu ⊢
      set J := (c (.plus s)).v - (c (.minus s)).v with hJ
      set a := (c (.plus s)).g 0 * m.np s 0 + (c (.plus s)).g 1 * m.np s 1 with haa
      set b' := (c (.minus s)).g 0 * m.np s 0 + (c (.minus s)).g 1 * m.np s 1 with hbb'
      have e1 : sg * (((c (.plus s)).v * m.np s 0 + (c (.minus s)).v * -m.np s 0) *
            (1 / 2 * ((mu (.plus s)).v + (mu (.minus s)).v) *
              ((c (.plus s)).v * m.np s 0 + (c (.minus s)).v * -m.np s 0)) +
          ((c (.plus s)).v * m.np s 1 + (c (.minus s)).v * -m.np s 1) *
            (1 / 2 * ((mu (.plus s)).v + (mu (.minus s)).v) *
              ((c (.plus s)).v * m.np s 1 + (c (.minus s)).v * -m.np s 1))) =
          sg * (1 / 2 * ((mu (.plus s)).v + (mu (.minus s)).v)) * J ^ 2 := by
        rw [hJ]
        linear_combination sg * (1 / 2 * ((mu (.plus s)).v + (mu (.minus s)).v)) *
          ((c (.plus s)).v - (c (.minus s)).v) ^ 2 * hu
      rw [e1]
      have p1 := mul_le_mul_of_nonneg_left ha hmp
      have p2 := mul_le_mul_of_nonneg_left hbb hmm
      have q1 : kappa / (4 * (m.volP s / m.areaS s)) * J ^ 2 ≤ sg / 2 * J ^ 2 := by
        refine mul_le_mul_of_nonneg_right ?_ (sq_nonneg _)
        have : kappa / (4 * (m.volP s / m.areaS s)) = kappa / 2 / (m.volP s / m.areaS s) / 2 := by
          field_simp; ring
        linarith
      have q2 : kappa / (4 * (m.volM s / m.areaS s)) * J ^ 2 ≤ sg / 2 * J ^ 2 := by
        refine mul_le_mul_of_nonneg_right ?_ (sq_nonneg _)
        have : kappa / (4 * (m.volM s / m.areaS s)) = kappa / 2 / (m.volM s / m.areaS s) / 2 := by
          field_simp; ring
        linarith
      have r1 := mul_le_mul_of_nonneg_left q1 hmp
      have r2 := mul_le_mul_of_nonneg_left q2 hmm
      have e2 : -(1 / kappa) * (m.volP s / m.areaS s * (mu (.plus s)).v * a ^ 2 +
          m.volM s / m.areaS s * (mu (.minus s)).v *
            ((c (.minus s)).g 0 * -m.np s 0 + (c (.minus s)).g 1 * -m.np s 1) ^ 2) =
          -((mu (.plus s)).v * (m.volP s / m.areaS s / kappa * a ^ 2)) -
            (mu (.minus s)).v * (m.volM s / m.areaS s / kappa * b' ^ 2) := by
        rw [hbb']; field_simp; ring
      rw [e2]
      have e3 : sg * (1 / 2 * ((mu (.plus s)).v + (mu (.minus s)).v)) * J ^ 2 -
          (1 / 2 * ((mu (.plus s)).v * (c (.plus s)).g 0 + (mu (.minus s)).v * (c (.minus s)).g 0) *
              ((c (.plus s)).v * m.np s 0 + (c (.minus s)).v * -m.np s 0) +
            1 / 2 * ((mu (.plus s)).v * (c (.plus s)).g 1 + (mu (.minus s)).v * (c (.minus s)).g 1) *
              ((c (.plus s)).v * m.np s 1 + (c (.minus s)).v * -m.np s 1)) -
          (((c (.plus s)).v * m.np s 0 + (c (.minus s)).v * -m.np s 0) *
              (1 / 2 * ((mu (.plus s)).v * (c (.plus s)).g 0 + (mu (.minus s)).v * (c (.minus s)).g 0)) +
            ((c (.plus s)).v * m.np s 1 + (c (.minus s)).v * -m.np s 1) *
              (1 / 2 * ((mu (.plus s)).v * (c (.plus s)).g 1 + (mu (.minus s)).v * (c (.minus s)).g 1))) =
          (mu (.plus s)).v * (sg / 2 * J ^ 2) + (mu (.minus s)).v * (sg / 2 * J ^ 2) -
            (mu (.plus s)).v * (J * a) - (mu (.minus s)).v * (J * b') := by
        rw [hJ, haa, hbb']; ring
      rw [e3]
      linarith
    have hsum : m.dS (fun s => -(1 / kappa) * (m.volP s / m.areaS s * (mu (.plus s)).v *
          (∑ i, (c (.plus s)).g i * m.np s i) ^ 2 +
        m.volM s / m.areaS s * (mu (.minus s)).v * (∑ i, (c (.minus s)).g i * m.nm s i) ^ 2)) ≤
      m.dS (fun s => sigmaMax T s * (∑ i, jumpN c s i * (avg mu s * jumpN c s i)) -
          (∑ i, avgFlux mu c s i * jumpN c s i) - ∑ i, jumpN c s i * avgFlux mu c s i) :=
      Finset.sum_le_sum fun s _ => mul_le_mul_of_nonneg_left (hpt s) (m.wS_nonneg s)
    refine le_trans ?_ hsum
    rw [dS_smul]
    unfold TraceBound at htrace
    have h1 : (1 / kappa) * (m.dS fun s => m.volP s / m.areaS s * (mu (.plus s)).v *
          (∑ i, (c (.plus s)).g i * m.np s i) ^ 2 +
        m.volM s / m.areaS s * (mu (.minus s)).v * (∑ i, (c (.minus s)).g i * m.nm s i) ^ 2) ≤
        m.dx fun x => (mu (.cell x)).v * ∑ i, (c (.cell x)).g i ^ 2 := by
      rw [div_mul_eq_mul_div, one_mul, div_le_iff₀ hkappa]
      linarith
    linarith
  linarith

end Verif.Tracer2
