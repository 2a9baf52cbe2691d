import Verif.Tracer3.Props2

/-!
C88: diffusion of tracers on extruded meshes.
-/

namespace Verif.Tracer3

open Verif.Dg Verif.Ext

variable {e : Mesh3}

/-! ### Vertical diffusion -/

/-- The mean of the vertical diffusive flux at a facet. -/
noncomputable def avgZ (mu h : Sc e.m) (s : e.m.S) : ℝ :=
  (1 / 2) * ((mu (.plus s)).v * (h (.plus s)).g 2 + (mu (.minus s)).v * (h (.minus s)).g 2)

theorem vDiffusion_eq (T : Term e) (F : Fields e) (mu c test : Sc e.m) (hmu : F.diffV = some mu)
    (hdg : T.vdg = true) :
    vDiffusion T F c test =
      -(e.m.dx fun x => (test (.cell x)).g 2 * ((mu (.cell x)).v * (c (.cell x)).g 2)) -
      e.dSh fun s => sigmaV T s * (jumpN test s 2 * (avg mu s * jumpN c s 2)) - avgZ mu test s * jumpN c s 2 -
        jumpN test s 2 * avgZ mu c s := by
  unfold vDiffusion
  rw [hmu]
  simp only [hdg, if_true]
  change -(_ + e.dSh fun s => sigmaV T s * (jumpN test s 2 * (avg mu s * jumpN c s 2)) -
    avgZ mu test s * jumpN c s 2 - jumpN test s 2 * avgZ mu c s) = _
  ring

/-- C88: vertical diffusion is symmetric in tracer and test function. -/
theorem C88_symmetric (T : Term e) (F : Fields e) (c test : Sc e.m) :
    vDiffusion T F c test = vDiffusion T F test c := by
  unfold vDiffusion
  cases F.diffV with
  | none => rfl
  | some mu =>
    simp only
    congr 1
    congr 1
    · exact dx_congr fun x => by ring
    · split
      · exact dSh_congr fun s _ => by ring
      · rfl

/-- C88: it moves tracer up and down within the water column and through no boundary: for test functions that do not
vary in the vertical, like the indicator of a column, it is zero. -/
theorem C88_columns (T : Term e) (F : Fields e) (c test : Sc e.m) (hflat : e.m.Flat)
    (hg : ∀ x, (test x).g 2 = 0) (hj : ∀ s, e.hor s = true → (test (.plus s)).v = (test (.minus s)).v) :
    vDiffusion T F c test = 0 := by
  unfold vDiffusion
  cases F.diffV with
  | none => rfl
  | some mu =>
    have h1 : ∀ s, e.hor s = true → jumpN test s 2 = 0 := by
      intro s hs
      unfold jumpN
      rw [hj s hs, hflat s 2]; ring
    have h2 : (e.dSh fun s => sigmaV T s * (jumpN test s 2 * (avg mu s * jumpN c s 2)) -
        (1 / 2) * ((mu (.plus s)).v * (test (.plus s)).g 2 + (mu (.minus s)).v * (test (.minus s)).g 2) * jumpN c s 2 -
        jumpN test s 2 * ((1 / 2) * ((mu (.plus s)).v * (c (.plus s)).g 2 + (mu (.minus s)).v * (c (.minus s)).g 2))) =
        e.dSh fun _ => 0 := dSh_congr fun s hs => by rw [h1 s hs, hg, hg]; ring
    have h3 : (e.m.dx fun x => (test (.cell x)).g 2 * ((mu (.cell x)).v * (c (.cell x)).g 2)) = 0 :=
      (dx_congr fun x => by rw [hg]; ring).trans dx_zero
    simp only
    rw [h2, h3]
    simp [Mesh3.dSh, dS_zero]

/-- C88: consistency of vertical diffusion.  For a tracer whose diffusive flux `G` is continuous it is the integral
of the derivative of the flux, with no flux through surface and bottom. -/
theorem C88_consistent (T : Term e) (F : Fields e) (mu c test G : Sc e.m) (hmu : F.diffV = some mu)
    (hdg : T.vdg = true) (hflat : e.m.Flat)
    (hG : ∀ x, (G x).v = (mu x).v * (c x).g 2)
    (hc : ∀ s, e.hor s = true → (c (.plus s)).v = (c (.minus s)).v)
    (hcont : ∀ s, e.hor s = true → (G (.plus s)).v = (G (.minus s)).v)
    (hvert : ∀ s, e.hor s = false → e.m.np s 2 = 0) (hside : ∀ b, e.face b = .side → e.m.nb b 2 = 0)
    (hsurf : ∀ b, e.face b ≠ .side → (G (.bnd b)).v = 0)
    (hex : DivExact e.m fun i => test * if i = 2 then G else cst e.m 0) :
    vDiffusion T F c test = e.m.dx fun x => (test (.cell x)).v * (G (.cell x)).g 2 := by
  rw [vDiffusion_eq T F mu c test hmu hdg]
  have h := C86_mesh G test hflat hvert hside hcont (fun b hb => hsurf b (by rw [hb]; decide)) hex
  rw [← h]
  unfold wLeft
  have h1 : (e.dsurf fun b => (G (.bnd b)).v * (test (.bnd b)).v * e.m.nb b 2) = 0 := by
    have : (e.dsurf fun b => (G (.bnd b)).v * (test (.bnd b)).v * e.m.nb b 2) = e.dsurf fun _ => 0 :=
      dsurf_congr fun b hb => by rw [hsurf b (by rw [hb]; decide)]; ring
    rw [this]; simp [Mesh3.dsurf]
  have h2 : (e.dSh fun s => sigmaV T s * (jumpN test s 2 * (avg mu s * jumpN c s 2)) - avgZ mu test s * jumpN c s 2 -
        jumpN test s 2 * avgZ mu c s) = -1 * e.dSh fun s => avg G s * jumpN test s 2 := by
    rw [← dSh_smul]
    refine dSh_congr fun s hs => ?_
    have hj : jumpN c s 2 = 0 := by
      unfold jumpN
      rw [hc s hs, hflat s 2]; ring
    unfold avgZ avg
    rw [hj, hG, hG]; ring
  have h3 : (e.m.dx fun x => (test (.cell x)).g 2 * ((mu (.cell x)).v * (c (.cell x)).g 2)) =
      e.m.dx fun x => (test (.cell x)).g 2 * (G (.cell x)).v := dx_congr fun x => by rw [hG]
  rw [h1, h2, h3]
  ring

/-! ### Dissipation -/

theorem young' {l kap J a N : ℝ} (hl : 0 < l) (hk : 0 < kap) (hN : 0 ≤ N) (ha : N = 0 → a = 0) :
    J * a ≤ l / kap * (a ^ 2 / N) + kap / (4 * l) * (J ^ 2 * N) := by
  rcases hN.eq_or_lt with h | h
  · rw [← h, ha h.symm]; simp
  · have h1 : l / kap * (a ^ 2 / N) + kap / (4 * l) * (J ^ 2 * N) - J * a =
        (2 * l * a - kap * J * N) ^ 2 / (4 * l * kap * N) := by
      field_simp
      ring
    have : 0 ≤ (2 * l * a - kap * J * N) ^ 2 / (4 * l * kap * N) := by positivity
    linarith

/-- The facet terms are bounded below: `J` is the jump, `N` the square of the length of the normal, `a`, `b` the normal
derivatives on both sides, `p`, `q` the diffusivities. -/
theorem penalty {lp lm kap J a b N p q sg : ℝ} (hlp : 0 < lp) (hlm : 0 < lm) (hk : 0 < kap) (hN : 0 ≤ N)
    (ha : N = 0 → a = 0) (hb : N = 0 → b = 0) (hp : 0 ≤ p) (hq : 0 ≤ q)
    (h1 : kap / 2 / lp ≤ sg) (h2 : kap / 2 / lm ≤ sg) :
    -(1 / kap) * (lp * p * (a ^ 2 / N) + lm * q * (b ^ 2 / N)) ≤
      sg * ((1 / 2) * (p + q)) * (J ^ 2 * N) - J * (p * a + q * b) := by
  have e1 := mul_le_mul_of_nonneg_left (young' (J := J) hlp hk hN ha) hp
  have e2 := mul_le_mul_of_nonneg_left (young' (J := J) hlm hk hN hb) hq
  have hJ : 0 ≤ J ^ 2 * N := by positivity
  have q1 : kap / (4 * lp) * (J ^ 2 * N) ≤ sg / 2 * (J ^ 2 * N) := by
    refine mul_le_mul_of_nonneg_right ?_ hJ
    have : kap / (4 * lp) = kap / 2 / lp / 2 := by field_simp; ring
    linarith
  have q2 : kap / (4 * lm) * (J ^ 2 * N) ≤ sg / 2 * (J ^ 2 * N) := by
    refine mul_le_mul_of_nonneg_right ?_ hJ
    have : kap / (4 * lm) = kap / 2 / lm / 2 := by field_simp; ring
    linarith
  have r1 := mul_le_mul_of_nonneg_left q1 hp
  have r2 := mul_le_mul_of_nonneg_left q2 hq
  have e3 : -(1 / kap) * (lp * p * (a ^ 2 / N) + lm * q * (b ^ 2 / N)) =
      -(p * (lp / kap * (a ^ 2 / N))) - q * (lm / kap * (b ^ 2 / N)) := by ring
  rw [e3]
  nlinarith [e1, e2, r1, r2]

/-- The bound of the vertical derivatives at the facets between the layers by those in the cells. -/
def TraceBoundV (mu c : Sc e.m) (kappa : ℝ) : Prop :=
  (e.dSh fun s => e.m.volP s / e.m.areaS s * (mu (.plus s)).v * (((c (.plus s)).g 2 * e.m.np s 2) ^ 2 / e.m.np s 2 ^ 2) +
      e.m.volM s / e.m.areaS s * (mu (.minus s)).v * (((c (.minus s)).g 2 * e.m.np s 2) ^ 2 / e.m.np s 2 ^ 2)) ≤
    kappa * e.m.dx fun x => (mu (.cell x)).v * (c (.cell x)).g 2 ^ 2

theorem sigmaV_bound (T : Term e) (s : e.m.S) (kappa alpha : ℝ)
    (hvol : 0 < e.m.volP s ∧ 0 < e.m.volM s ∧ 0 < e.m.areaS s)
    (hsipg : alpha ≤ (T.sipgV (.plus s)).v ∧ alpha ≤ (T.sipgV (.minus s)).v)
    (halpha : kappa / 2 ≤ alpha * (T.q + 1) ^ 2) :
    kappa / 2 / (e.m.volP s / e.m.areaS s) ≤ sigmaV T s ∧ kappa / 2 / (e.m.volM s / e.m.areaS s) ≤ sigmaV T s := by
  obtain ⟨hvp, hvm, har⟩ := hvol
  have hd : (0 : ℝ) ≤ (T.q + 1) ^ 2 := by positivity
  have hlp : 0 < e.m.volP s / e.m.areaS s := by positivity
  have hlm : 0 < e.m.volM s / e.m.areaS s := by positivity
  have h1 : kappa / 2 / (e.m.volP s / e.m.areaS s) ≤
      (T.sipgV (.plus s)).v * (T.q + 1) ^ 2 / (e.m.volP s / e.m.areaS s) :=
    div_le_div_of_nonneg_right (le_trans halpha (mul_le_mul_of_nonneg_right hsipg.1 hd)) hlp.le
  have h2 : kappa / 2 / (e.m.volM s / e.m.areaS s) ≤
      (T.sipgV (.minus s)).v * (T.q + 1) ^ 2 / (e.m.volM s / e.m.areaS s) :=
    div_le_div_of_nonneg_right (le_trans halpha (mul_le_mul_of_nonneg_right hsipg.2 hd)) hlm.le
  unfold sigmaV
  simp only
  split
  · next h => exact ⟨h1, h2.trans h.le⟩
  · next h => exact ⟨h1.trans (not_lt.1 h), h2⟩

/-- C88: vertical diffusion does not let the variance grow, for a penalty factor of at least half the trace constant
over `(q + 1)²`. -/
theorem C88_dissipation (T : Term e) (F : Fields e) (mu c : Sc e.m) (kappa alpha : ℝ) (hmu : F.diffV = some mu)
    (hflat : e.m.Flat)
    (hvol : ∀ s, 0 < e.m.volP s ∧ 0 < e.m.volM s ∧ 0 < e.m.areaS s)
    (hmuC : ∀ x, 0 ≤ (mu (.cell x)).v) (hmuS : ∀ s, 0 ≤ (mu (.plus s)).v ∧ 0 ≤ (mu (.minus s)).v)
    (hkappa : 0 < kappa) (htrace : TraceBoundV mu c kappa)
    (hsipg : ∀ s, alpha ≤ (T.sipgV (.plus s)).v ∧ alpha ≤ (T.sipgV (.minus s)).v)
    (halpha : kappa / 2 ≤ alpha * (T.q + 1) ^ 2) :
    vDiffusion T F c c ≤ 0 := by
  have hG : (e.m.dx fun x => (c (.cell x)).g 2 * ((mu (.cell x)).v * (c (.cell x)).g 2)) =
      e.m.dx fun x => (mu (.cell x)).v * (c (.cell x)).g 2 ^ 2 := dx_congr fun x => by ring
  have hG0 : 0 ≤ e.m.dx fun x => (mu (.cell x)).v * (c (.cell x)).g 2 ^ 2 :=
    dx_nonneg fun x => mul_nonneg (hmuC x) (sq_nonneg _)
  by_cases hdg : T.vdg = true
  swap
  · unfold vDiffusion
    rw [hmu]
    simp only [hdg]
    rw [hG]
    simpa using hG0
  rw [vDiffusion_eq T F mu c c hmu hdg, hG]
  have hpt : ∀ s, -(1 / kappa) * (e.m.volP s / e.m.areaS s * (mu (.plus s)).v *
        (((c (.plus s)).g 2 * e.m.np s 2) ^ 2 / e.m.np s 2 ^ 2) +
      e.m.volM s / e.m.areaS s * (mu (.minus s)).v * (((c (.minus s)).g 2 * e.m.np s 2) ^ 2 / e.m.np s 2 ^ 2)) ≤
      sigmaV T s * (jumpN c s 2 * (avg mu s * jumpN c s 2)) - avgZ mu c s * jumpN c s 2 -
        jumpN c s 2 * avgZ mu c s := by
    intro s
    obtain ⟨hs1, hs2⟩ := sigmaV_bound T s kappa alpha (hvol s) (hsipg s) halpha
    obtain ⟨hvp, hvm, har⟩ := hvol s
    have hz : e.m.np s 2 ^ 2 = 0 → e.m.np s 2 = 0 := fun h => pow_eq_zero_iff (two_ne_zero) |>.1 h
    refine (penalty (J := (c (.plus s)).v - (c (.minus s)).v) (div_pos hvp har) (div_pos hvm har) hkappa
      (sq_nonneg (e.m.np s 2)) (fun h => ?_) (fun h => ?_) (hmuS s).1 (hmuS s).2 hs1 hs2).trans ?_
    · rw [hz h]; ring
    · rw [hz h]; ring
    · refine le_of_eq ?_
      unfold jumpN avgZ avg
      rw [hflat s 2]; ring
  have hsum : (e.dSh fun s => -(1 / kappa) * (e.m.volP s / e.m.areaS s * (mu (.plus s)).v *
        (((c (.plus s)).g 2 * e.m.np s 2) ^ 2 / e.m.np s 2 ^ 2) +
      e.m.volM s / e.m.areaS s * (mu (.minus s)).v * (((c (.minus s)).g 2 * e.m.np s 2) ^ 2 / e.m.np s 2 ^ 2))) ≤
      e.dSh fun s => sigmaV T s * (jumpN c s 2 * (avg mu s * jumpN c s 2)) - avgZ mu c s * jumpN c s 2 -
        jumpN c s 2 * avgZ mu c s := by
    have h := dSh_nonneg (e := e) (f := fun s => (sigmaV T s * (jumpN c s 2 * (avg mu s * jumpN c s 2)) -
        avgZ mu c s * jumpN c s 2 - jumpN c s 2 * avgZ mu c s) + -1 * (-(1 / kappa) * (e.m.volP s / e.m.areaS s *
        (mu (.plus s)).v * (((c (.plus s)).g 2 * e.m.np s 2) ^ 2 / e.m.np s 2 ^ 2) +
      e.m.volM s / e.m.areaS s * (mu (.minus s)).v * (((c (.minus s)).g 2 * e.m.np s 2) ^ 2 / e.m.np s 2 ^ 2))))
      fun s => by linarith [hpt s]
    rw [dSh_add, dSh_smul] at h
    linarith
  rw [dSh_smul] at hsum
  unfold TraceBoundV at htrace
  have h5 := mul_le_mul_of_nonneg_left htrace (by positivity : (0 : ℝ) ≤ 1 / kappa)
  have h6 : 1 / kappa * (kappa * e.m.dx fun x => (mu (.cell x)).v * (c (.cell x)).g 2 ^ 2) =
      e.m.dx fun x => (mu (.cell x)).v * (c (.cell x)).g 2 ^ 2 := by
    field_simp
  rw [h6] at h5
  linarith

/-! ### Horizontal diffusion -/

/-- The square of the length of the horizontal part of the normal. -/
def nH2 (s : e.m.S) : ℝ := e.m.np s 0 ^ 2 + e.m.np s 1 ^ 2

/-- The mean of the horizontal diffusive flux at a facet. -/
noncomputable def avgH (mu h : Sc e.m) (s : e.m.S) (i : Fin 3) : ℝ :=
  (1 / 2) * ((mu (.plus s)).v * (h (.plus s)).g i + (mu (.minus s)).v * (h (.minus s)).g i)

/-- The horizontal diffusive flux through a boundary point. -/
def bndH (mu c : Sc e.m) (b : e.m.B) : ℝ :=
  (mu (.bnd b)).v * (c (.bnd b)).g 0 * e.m.nb b 0 + (mu (.bnd b)).v * (c (.bnd b)).g 1 * e.m.nb b 1

theorem hDiffusion_eq (T : Term e) (F : Fields e) (mu c test : Sc e.m) (hmu : F.diffH = some mu)
    (hdg : T.hdg = true) :
    hDiffusion T F c test =
      -(e.m.dx fun x => (test (.cell x)).g 0 * ((mu (.cell x)).v * (c (.cell x)).g 0) +
        (test (.cell x)).g 1 * ((mu (.cell x)).v * (c (.cell x)).g 1)) -
      (e.m.dS fun s => T.sipg * sigmaH T s * (jumpN test s 0 * (avg mu s * jumpN c s 0) +
          jumpN test s 1 * (avg mu s * jumpN c s 1)) -
        (avgH mu test s 0 * jumpN c s 0 + avgH mu test s 1 * jumpN c s 1) -
        (jumpN test s 0 * avgH mu c s 0 + jumpN test s 1 * avgH mu c s 1)) +
      (e.dbottom fun b => bndH mu c b * (test (.bnd b)).v) + e.dsurf fun b => bndH mu c b * (test (.bnd b)).v := by
  have h1 : (e.dbottom fun b => -(bndH mu c b * (test (.bnd b)).v)) =
      -e.dbottom fun b => bndH mu c b * (test (.bnd b)).v := by
    rw [← neg_one_mul, ← dbottom_smul]
    exact dbottom_congr fun b _ => by ring
  have h2 : (e.dsurf fun b => -(bndH mu c b * (test (.bnd b)).v)) =
      -e.dsurf fun b => bndH mu c b * (test (.bnd b)).v := by
    rw [← neg_one_mul, ← dsurf_smul]
    exact dsurf_congr fun b _ => by ring
  unfold hDiffusion
  rw [hmu]
  simp only [hdg, if_true]
  change -(_ + _ + (e.dbottom fun b => -(bndH mu c b * (test (.bnd b)).v)) +
    e.dsurf fun b => -(bndH mu c b * (test (.bnd b)).v)) = _
  rw [h1, h2]
  unfold avgH
  ring

/-- C88: horizontal diffusion changes the total of the tracer by the flux through surface and bottom, in the direction
in which the tracer increases.  With level surface and bottom it keeps the total. -/
theorem C88_mass_partial (T : Term e) (F : Fields e) (mu c : Sc e.m) (hmu : F.diffH = some mu) (hdg : T.hdg = true)
    (hflat : e.m.Flat) :
    (hDiffusion T F c (cst e.m 1) = e.dbottom (bndH mu c) + e.dsurf (bndH mu c)) ∧
    ((∀ b, e.face b ≠ .side → e.m.nb b 0 = 0 ∧ e.m.nb b 1 = 0) → hDiffusion T F c (cst e.m 1) = 0) := by
  have hj : ∀ s i, jumpN (cst e.m 1) s i = 0 := fun s i => by simp [jumpN, hflat s i]
  have key : hDiffusion T F c (cst e.m 1) = e.dbottom (bndH mu c) + e.dsurf (bndH mu c) := by
    rw [hDiffusion_eq T F mu c _ hmu hdg]
    simp [hj, avgH, dx_zero, dS_zero]
  refine ⟨key, fun h => ?_⟩
  rw [key]
  have h1 : e.dbottom (bndH mu c) = e.dbottom fun _ => 0 :=
    dbottom_congr fun b hb => by
      obtain ⟨h0, h1⟩ := h b (by rw [hb]; decide)
      unfold bndH; rw [h0, h1]; ring
  have h2 : e.dsurf (bndH mu c) = e.dsurf fun _ => 0 :=
    dsurf_congr fun b hb => by
      obtain ⟨h0, h1⟩ := h b (by rw [hb]; decide)
      unfold bndH; rw [h0, h1]; ring
  rw [h1, h2]
  simp [Mesh3.dbottom, Mesh3.dsurf]

/-- The bound of the derivatives in the direction of the horizontal part of the normal at the interior facets by the
horizontal gradients in the cells. -/
def TraceBoundH (mu c : Sc e.m) (kappa : ℝ) : Prop :=
  (e.m.dS fun s => e.m.volP s / e.m.areaS s * (mu (.plus s)).v *
        (((c (.plus s)).g 0 * e.m.np s 0 + (c (.plus s)).g 1 * e.m.np s 1) ^ 2 / nH2 s) +
      e.m.volM s / e.m.areaS s * (mu (.minus s)).v *
        (((c (.minus s)).g 0 * e.m.np s 0 + (c (.minus s)).g 1 * e.m.np s 1) ^ 2 / nH2 s)) ≤
    kappa * e.m.dx fun x => (mu (.cell x)).v * ((c (.cell x)).g 0 ^ 2 + (c (.cell x)).g 1 ^ 2)

/-- The number of degrees of freedom in the horizontal, `cp` in the code. -/
noncomputable def dofs (T : Term e) : ℝ := if T.triangle then (T.p + 1) * (T.p + 2) / 2 else (T.p + 1) ^ 2

/-- C88: with level surface and bottom, or where the gradient vanishes there, horizontal diffusion does not let the
variance grow. -/
theorem C88_horizontal_partial (T : Term e) (F : Fields e) (mu c : Sc e.m) (kappa : ℝ) (hmu : F.diffH = some mu)
    (hflat : e.m.Flat)
    (hvol : ∀ s, 0 < e.m.volP s ∧ 0 < e.m.volM s ∧ 0 < e.m.areaS s)
    (hmuC : ∀ x, 0 ≤ (mu (.cell x)).v) (hmuS : ∀ s, 0 ≤ (mu (.plus s)).v ∧ 0 ≤ (mu (.minus s)).v)
    (hkappa : 0 < kappa) (htrace : TraceBoundH mu c kappa) (hs0 : 0 ≤ T.sipg)
    (halpha : kappa / 2 ≤ T.sipg * dofs T)
    (hbnd : ∀ b, e.face b ≠ .side → bndH mu c b = 0) (hdg : T.hdg = true) :
    hDiffusion T F c c ≤ 0 := by
  rw [hDiffusion_eq T F mu c c hmu hdg]
  have hb1 : (e.dbottom fun b => bndH mu c b * (c (.bnd b)).v) = 0 := by
    have : (e.dbottom fun b => bndH mu c b * (c (.bnd b)).v) = e.dbottom fun _ => 0 :=
      dbottom_congr fun b hb => by rw [hbnd b (by rw [hb]; decide), zero_mul]
    rw [this]; simp [Mesh3.dbottom]
  have hb2 : (e.dsurf fun b => bndH mu c b * (c (.bnd b)).v) = 0 := by
    have : (e.dsurf fun b => bndH mu c b * (c (.bnd b)).v) = e.dsurf fun _ => 0 :=
      dsurf_congr fun b hb => by rw [hbnd b (by rw [hb]; decide), zero_mul]
    rw [this]; simp [Mesh3.dsurf]
  have hG : (e.m.dx fun x => (c (.cell x)).g 0 * ((mu (.cell x)).v * (c (.cell x)).g 0) +
        (c (.cell x)).g 1 * ((mu (.cell x)).v * (c (.cell x)).g 1)) =
      e.m.dx fun x => (mu (.cell x)).v * ((c (.cell x)).g 0 ^ 2 + (c (.cell x)).g 1 ^ 2) :=
    dx_congr fun x => by ring
  have hG0 : 0 ≤ e.m.dx fun x => (mu (.cell x)).v * ((c (.cell x)).g 0 ^ 2 + (c (.cell x)).g 1 ^ 2) :=
    dx_nonneg fun x => mul_nonneg (hmuC x) (by positivity)
  rw [hb1, hb2, hG]
  have hpt : ∀ s, -(1 / kappa) * (e.m.volP s / e.m.areaS s * (mu (.plus s)).v *
        (((c (.plus s)).g 0 * e.m.np s 0 + (c (.plus s)).g 1 * e.m.np s 1) ^ 2 / nH2 s) +
      e.m.volM s / e.m.areaS s * (mu (.minus s)).v *
        (((c (.minus s)).g 0 * e.m.np s 0 + (c (.minus s)).g 1 * e.m.np s 1) ^ 2 / nH2 s)) ≤
      T.sipg * sigmaH T s * (jumpN c s 0 * (avg mu s * jumpN c s 0) + jumpN c s 1 * (avg mu s * jumpN c s 1)) -
        (avgH mu c s 0 * jumpN c s 0 + avgH mu c s 1 * jumpN c s 1) -
        (jumpN c s 0 * avgH mu c s 0 + jumpN c s 1 * avgH mu c s 1) := by
    intro s
    obtain ⟨hvp, hvm, har⟩ := hvol s
    have hd : ∀ v : ℝ, 0 < v → kappa / 2 / (v / e.m.areaS s) ≤ T.sipg * (dofs T * e.m.areaS s / v) := by
      intro v hv
      have h1 : kappa / 2 / (v / e.m.areaS s) = kappa / 2 * (e.m.areaS s / v) := by field_simp
      have h2 : T.sipg * (dofs T * e.m.areaS s / v) = T.sipg * dofs T * (e.m.areaS s / v) := by ring
      rw [h1, h2]
      exact mul_le_mul_of_nonneg_right halpha (div_pos har hv).le
    have hsg : dofs T * e.m.areaS s / e.m.volP s ≤ sigmaH T s ∧ dofs T * e.m.areaS s / e.m.volM s ≤ sigmaH T s := by
      unfold sigmaH
      simp only
      change dofs T * e.m.areaS s / e.m.volP s ≤ (if dofs T * e.m.areaS s / e.m.volP s >
          dofs T * e.m.areaS s / e.m.volM s then dofs T * e.m.areaS s / e.m.volP s else
          dofs T * e.m.areaS s / e.m.volM s) ∧ dofs T * e.m.areaS s / e.m.volM s ≤
        (if dofs T * e.m.areaS s / e.m.volP s >
          dofs T * e.m.areaS s / e.m.volM s then dofs T * e.m.areaS s / e.m.volP s else
          dofs T * e.m.areaS s / e.m.volM s)
      split
      · next h => exact ⟨le_rfl, h.le⟩
      · next h => exact ⟨not_lt.1 h, le_rfl⟩
    have hs1 := (hd _ hvp).trans (mul_le_mul_of_nonneg_left hsg.1 hs0)
    have hs2 := (hd _ hvm).trans (mul_le_mul_of_nonneg_left hsg.2 hs0)
    have hN : 0 ≤ nH2 s := by unfold nH2; positivity
    have hz : nH2 s = 0 → e.m.np s 0 = 0 ∧ e.m.np s 1 = 0 := by
      intro h
      unfold nH2 at h
      constructor <;> nlinarith [sq_nonneg (e.m.np s 0), sq_nonneg (e.m.np s 1)]
    refine (penalty (J := (c (.plus s)).v - (c (.minus s)).v) (div_pos hvp har) (div_pos hvm har) hkappa
      hN (fun h => ?_) (fun h => ?_) (hmuS s).1 (hmuS s).2 hs1 hs2).trans ?_
    · rw [(hz h).1, (hz h).2]; ring
    · rw [(hz h).1, (hz h).2]; ring
    · refine le_of_eq ?_
      unfold jumpN avgH avg nH2
      rw [hflat s 0, hflat s 1]; ring
  have h := dS_nonneg (m := e.m) (f := fun s => (T.sipg * sigmaH T s * (jumpN c s 0 * (avg mu s * jumpN c s 0) +
        jumpN c s 1 * (avg mu s * jumpN c s 1)) -
        (avgH mu c s 0 * jumpN c s 0 + avgH mu c s 1 * jumpN c s 1) -
        (jumpN c s 0 * avgH mu c s 0 + jumpN c s 1 * avgH mu c s 1)) + 1 / kappa *
      (e.m.volP s / e.m.areaS s * (mu (.plus s)).v *
        (((c (.plus s)).g 0 * e.m.np s 0 + (c (.plus s)).g 1 * e.m.np s 1) ^ 2 / nH2 s) +
      e.m.volM s / e.m.areaS s * (mu (.minus s)).v *
        (((c (.minus s)).g 0 * e.m.np s 0 + (c (.minus s)).g 1 * e.m.np s 1) ^ 2 / nH2 s)))
    fun s => by linarith [hpt s]
  rw [dS_add, dS_smul] at h
  unfold TraceBoundH at htrace
  have h5 := mul_le_mul_of_nonneg_left htrace (by positivity : (0 : ℝ) ≤ 1 / kappa)
  have h6 : 1 / kappa * (kappa * e.m.dx fun x => (mu (.cell x)).v * ((c (.cell x)).g 0 ^ 2 + (c (.cell x)).g 1 ^ 2)) =
      e.m.dx fun x => (mu (.cell x)).v * ((c (.cell x)).g 0 ^ 2 + (c (.cell x)).g 1 ^ 2) := by
    field_simp
  rw [h6] at h5
  linarith

/-- C88: consistency of horizontal diffusion.  For a tracer with continuous diffusive flux `G` it is the integral of the
divergence of the flux, with no flux through the sides.  At surface and bottom the equation imposes nothing. -/
theorem C88_horizontal_consistent (T : Term e) (F : Fields e) (mu c test : Sc e.m) (G : Vc e.m)
    (hmu : F.diffH = some mu) (hdg : T.hdg = true) (hflat : e.m.Flat)
    (hG : ∀ i x, i ≠ 2 → (G i x).v = (mu x).v * (c x).g i) (hG2 : G 2 = cst e.m 0)
    (hc : ∀ s, (c (.plus s)).v = (c (.minus s)).v)
    (hcont : ∀ s i, (G i (.plus s)).v = (G i (.minus s)).v)
    (hside : ∀ b, e.face b = .side → bndH mu c b = 0)
    (hex : DivExact e.m fun i => test * G i) :
    hDiffusion T F c test =
      e.m.dx fun x => (test (.cell x)).v * ((G 0 (.cell x)).g 0 + (G 1 (.cell x)).g 1) := by
  rw [hDiffusion_eq T F mu c test hmu hdg]
  unfold DivExact at hex
  have e1 : (e.m.dx fun c => div (fun i => test * G i) (.cell c)) =
      (e.m.dx fun x => (test (.cell x)).v * ((G 0 (.cell x)).g 0 + (G 1 (.cell x)).g 1)) +
      e.m.dx fun x => (test (.cell x)).g 0 * ((mu (.cell x)).v * (c (.cell x)).g 0) +
        (test (.cell x)).g 1 * ((mu (.cell x)).v * (c (.cell x)).g 1) := by
    rw [← dx_add]
    refine dx_congr fun x => ?_
    unfold div
    rw [Fin.sum_univ_three]
    simp only [Pi.mul_apply, Jet.mul_g]
    rw [hG 0 _ (by decide), hG 1 _ (by decide), hG2]
    simp only [cst_apply, Jet.const_v, Jet.const_g]
    ring
  have e2 : (e.m.dS fun s => jumpV (fun i => test * G i) s) = -(e.m.dS fun s =>
        T.sipg * sigmaH T s * (jumpN test s 0 * (avg mu s * jumpN c s 0) +
          jumpN test s 1 * (avg mu s * jumpN c s 1)) -
        (avgH mu test s 0 * jumpN c s 0 + avgH mu test s 1 * jumpN c s 1) -
        (jumpN test s 0 * avgH mu c s 0 + jumpN test s 1 * avgH mu c s 1)) := by
    rw [← dS_neg]
    refine dS_congr fun s => ?_
    have hj : ∀ i, jumpN c s i = 0 := by
      intro i
      unfold jumpN
      rw [hc s, hflat s i]; ring
    have ha : ∀ i, i ≠ 2 → avgH mu c s i = (G i (.plus s)).v := by
      intro i hi
      unfold avgH
      rw [← hG i _ hi, ← hG i _ hi, ← hcont s i]; ring
    rw [hj, hj, ha 0 (by decide), ha 1 (by decide)]
    unfold jumpV jumpN
    simp only [Fin.sum_univ_three, Pi.mul_apply, Jet.mul_v]
    rw [← hcont s 0, ← hcont s 1, hG2]
    simp only [cst_apply, Jet.const_v]
    ring
  have e3 : (∑ b, e.m.wB b * normalAt (fun i => test * G i) b) =
      ∑ b, e.m.wB b * (bndH mu c b * (test (.bnd b)).v) := by
    refine dB_congr fun b => ?_
    unfold normalAt bndH
    simp only [Fin.sum_univ_three, Pi.mul_apply, Jet.mul_v]
    rw [hG 0 _ (by decide), hG 1 _ (by decide), hG2]
    simp only [cst_apply, Jet.const_v]
    ring
  have e4 : (e.sideLoop fun _ b => bndH mu c b * (test (.bnd b)).v) = 0 := by
    rw [sideLoop_eq]
    refine Finset.sum_eq_zero fun b _ => ?_
    by_cases hb : e.face b = .side
    · simp [hside b hb]
    · simp [hb]
  rw [e1, e2, e3, boundary_split, e4] at hex
  linarith

/-- C88 with C87: in a closed basin whose mesh follows the surface the whole equation without source does not let the
variance grow. -/
theorem C88_variance_partial (T : Term e) (F : Fields e) (uv : Vc e.m) (w c mu nu : Sc e.m) (kappa kappaH alpha : ℝ)
    (hu : F.uv = some uv) (hw : F.w = some w) (hmu : F.diffV = some mu) (hnu : F.diffH = some nu)
    (hsrc : F.source = none)
    (hhd : T.hdg = true) (hvd : T.vdg = true) (hsy : T.symm = true) (hflat : e.m.Flat) (hlf : 0 ≤ F.lfFactor)
    (hsolve : Solves (fun _ => false) (totalUv F uv) w (c * c))
    (h2b : ∀ b, e.face b = .surf → (totalUv F uv 2 (.bnd b)).v = 0) (h2s : ∀ s, avg (totalUv F uv 2) s = 0)
    (hsurf : ∀ b, e.face b = .surf → surfaceFlow F uv w b = 0)
    (hvol : ∀ s, 0 < e.m.volP s ∧ 0 < e.m.volM s ∧ 0 < e.m.areaS s)
    (hmuC : ∀ x, 0 ≤ (mu (.cell x)).v) (hmuS : ∀ s, 0 ≤ (mu (.plus s)).v ∧ 0 ≤ (mu (.minus s)).v)
    (hnuC : ∀ x, 0 ≤ (nu (.cell x)).v) (hnuS : ∀ s, 0 ≤ (nu (.plus s)).v ∧ 0 ≤ (nu (.minus s)).v)
    (hkappa : 0 < kappa) (htrace : TraceBoundV mu c kappa)
    (hsipg : ∀ s, alpha ≤ (T.sipgV (.plus s)).v ∧ alpha ≤ (T.sipgV (.minus s)).v)
    (halpha : kappa / 2 ≤ alpha * (T.q + 1) ^ 2)
    (hkappaH : 0 < kappaH) (htraceH : TraceBoundH nu c kappaH) (hs0 : 0 ≤ T.sipg)
    (halphaH : kappaH / 2 ≤ T.sipg * dofs T) (hbnd : ∀ b, e.face b ≠ .side → bndH nu c b = 0) :
    residual T F (fun _ => none) c c ≤ (1 / 2) * wLeft (meshW F) (c * c) := by
  have h1 := C87_variance T F uv w c hu hw hhd hvd hsy hflat hlf hsolve h2b h2s hsurf
  have h2 := C88_dissipation T F mu c kappa alpha hmu hflat hvol hmuC hmuS hkappa htrace hsipg halpha
  have h3 := C88_horizontal_partial T F nu c kappaH hnu hflat hvol hnuC hnuS hkappaH htraceH hs0 halphaH hbnd hhd
  unfold residual source
  rw [hsrc]
  simp only
  linarith

/-- In the tank a tracer that increases up the slope gains mass from horizontal diffusion although no water or
tracer passes any boundary: the term lets a flux through the bottom. -/
theorem C88_mass_violated :
    ∃ (T : Term tank) (F : Fields tank) (c : Sc tank.m), T.hdg = true ∧ T.vdg = true ∧ F.uv = none ∧ F.w = none ∧
      F.source = none ∧ F.diffH = some (cst tank.m 1) ∧
      residual T F (fun _ => none) c (cst tank.m 1) = 1 := by
  refine ⟨exTerm, { exFields with uv := none, w := none, diffV := none }, tankField ⟨0, 1, 0, 0⟩ ⟨0, 1, 0, 0⟩,
    rfl, rfl, rfl, rfl, rfl, rfl, ?_⟩
  unfold residual
  rw [(C88_mass_partial exTerm _ (cst tank.m 1) _ rfl rfl tank_flat).1]
  rw [show tank.dbottom (bndH (cst tank.m 1) (tankField ⟨0, 1, 0, 0⟩ ⟨0, 1, 0, 0⟩)) = _ from tank_dbottom _,
    show tank.dsurf (bndH (cst tank.m 1) (tankField ⟨0, 1, 0, 0⟩ ⟨0, 1, 0, 0⟩)) = _ from tank_dsurf _]
  have h1 : bndH (cst tank.m 1) (tankField ⟨0, 1, 0, 0⟩ ⟨0, 1, 0, 0⟩) TkB.bed = 1 / Real.sqrt 2 := by
    change 1 * (1 : ℝ) * tkN .bed 0 + 1 * (0 : ℝ) * tkN .bed 1 = _
    simp [tkN]
  have h2 : bndH (cst tank.m 1) (tankField ⟨0, 1, 0, 0⟩ ⟨0, 1, 0, 0⟩) TkB.surf = 0 := by
    change 1 * (1 : ℝ) * tkN .surf 0 + 1 * (0 : ℝ) * tkN .surf 1 = _
    simp [tkN]
  rw [h1, h2]
  have h : Real.sqrt 2 ≠ 0 := by positivity
  simp only [hAdvection, vAdvection, vDiffusion, source, exFields]
  field_simp
  ring

/-! ### Example -/

/-- The hypotheses of `C88_dissipation` hold in the tank for salt below fresh water, with trace constant 5. -/
example : vDiffusion exTerm exFields (tankField ⟨35, 0, 0, 0⟩ ⟨0, 0, 0, 1⟩) (tankField ⟨35, 0, 0, 0⟩ ⟨0, 0, 0, 1⟩) ≤ 0 := by
  refine C88_dissipation exTerm exFields (cst tank.m 1) _ 5 5 rfl tank_flat (fun s => ?_)
    (fun x => by simp) (fun s => by simp) (by norm_num) ?_ (fun s => by simp [exTerm]) (by simp [exTerm]; norm_num)
  · change (0 : ℝ) < 3 / 2 ∧ (0 : ℝ) < 1 ∧ (0 : ℝ) < 1
    norm_num
  · unfold TraceBoundV
    refine (tank_dSh _).le.trans (le_trans ?_ (mul_le_mul_of_nonneg_left (tank_dx _).ge (by norm_num)))
    change (3 / 2 : ℝ) / 1 * 1 * ((0 * 1) ^ 2 / 1 ^ 2) + 1 / 1 * 1 * ((1 * 1) ^ 2 / 1 ^ 2) ≤
      5 * (3 / 2 * (1 * 0 ^ 2) + 1 * 1 ^ 2)
    norm_num

end Verif.Tracer3
