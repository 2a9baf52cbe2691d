import Verif.Swe.Props2

/-!
C79: Coriolis force and friction.  C80: advection of momentum.
-/

namespace Verif.Swe

open Verif.Dg

variable {m : Mesh 2}

/-! ### C79 -/

/-- Square of the velocity at a point. -/
def sq (u : Vc m) (x : Pt m) : ℝ := (u 0 x).v ^ 2 + (u 1 x).v ^ 2

/-- C79: the Coriolis force acts to the right of the velocity for a positive parameter. -/
theorem C79_coriolis_force (f : Sc m) (uv w : Vc m) :
    coriolis (some f) uv w = m.dx fun x => (f (.cell x)).v *
      ((uv 1 (.cell x)).v * (w 0 (.cell x)).v - (uv 0 (.cell x)).v * (w 1 (.cell x)).v) := by
  unfold coriolis
  simp only
  rw [← dx_neg]
  exact dx_congr fun x => by ring

/-- C79: the Coriolis force does no work. -/
theorem C79_coriolis (f : Option (Sc m)) (uv : Vc m) : coriolis f uv uv = 0 := by
  cases f with
  | none => rfl
  | some f =>
    rw [C79_coriolis_force, ← dx_zero (m := m)]
    exact dx_congr fun x => by ring

/-- C79: quadratic drag takes the power `Cd |u_old| |u|² / H`. -/
theorem C79_quadratic (T : Term m) (cd : m.C → ℝ) (uv uvOld : Vc m) (etaOld : Sc m) :
    quadraticDrag T (some cd) uv uvOld etaOld uv =
      -(m.dx fun x => cd x * Real.sqrt (sq uvOld (.cell x) + T.smoother ^ 2) * sq uv (.cell x) /
        depthAt T (.cell x) (etaOld (.cell x)).v) := by
  unfold quadraticDrag sq
  simp only [Fin.sum_univ_two, totalH_v]
  congr 1
  refine dx_congr fun x => ?_
  have h1 : ∀ a b : ℝ, a * a + b * b = a ^ 2 + b ^ 2 := fun a b => by ring
  simp only [h1]

/-- C79: linear drag takes the power `C |u|²`. -/
theorem C79_linear (c : Sc m) (uv : Vc m) :
    linearDrag (some c) uv uv = -(m.dx fun x => (c (.cell x)).v * sq uv (.cell x)) := by
  unfold linearDrag sq
  simp only [Fin.sum_univ_two]
  congr 1
  exact dx_congr fun x => by ring

/-- Velocity along the boundary, counterclockwise. -/
def along (u : Vc m) (b : m.B) : ℝ := m.nb b 0 * (u 1 (.bnd b)).v - m.nb b 1 * (u 0 (.bnd b)).v

theorem tangential_along (u : Vc m) (b : m.B) (hn : m.nb b 0 ^ 2 + m.nb b 1 ^ 2 = 1) :
    tangential u b 0 = -m.nb b 1 * along u b ∧ tangential u b 1 = m.nb b 0 * along u b := by
  simp only [tangential, along, atB, normalAt, Fin.sum_univ_two]
  constructor
  · linear_combination (-(u 0 (.bnd b)).v) * hn
  · linear_combination (-(u 1 (.bnd b)).v) * hn

/-- C79: drag at the boundary is the force `-Cd |t_old| t` along the boundary, for the velocity `t` along it, at boundaries
whose dictionary has `drag`, closed or open. -/
theorem C79_boundary_force (bc : ℕ → Option (Funcs m)) (uv uvOld w : Vc m) (hunit : m.UnitNormals) :
    boundaryDrag bc uv uvOld w =
      -∑ b, m.wB b * (((bc (m.marker b)).bind Funcs.drag).map fun cd =>
        cd b * |along uvOld b| * (along uv b * along w b)).getD 0 := by
  unfold boundaryDrag
  rw [bndLoop_eq]
  congr 1
  refine dB_congr fun b => ?_
  unfold dragBnd
  have hn := hunit.2.2 b
  simp only [Fin.sum_univ_two] at hn
  cases (bc (m.marker b)).bind Funcs.drag with
  | none => rfl
  | some cd =>
    obtain ⟨a1, a2⟩ := tangential_along uv b hn
    obtain ⟨b1, b2⟩ := tangential_along uvOld b hn
    have e : (∑ i, tangential uvOld b i * tangential uvOld b i) = along uvOld b ^ 2 := by
      rw [Fin.sum_univ_two, b1, b2]
      linear_combination (along uvOld b ^ 2) * hn
    simp only [Option.map_some, Option.getD_some, e, Real.sqrt_sq_eq_abs]
    rw [Fin.sum_univ_two, a1, a2]
    simp only [along]
    ring

/-- C79: it takes the power `Cd |t_old| t²`. -/
theorem C79_boundary (bc : ℕ → Option (Funcs m)) (uv uvOld : Vc m) (hunit : m.UnitNormals) :
    boundaryDrag bc uv uvOld uv =
      -∑ b, m.wB b * (((bc (m.marker b)).bind Funcs.drag).map fun cd =>
        cd b * |along uvOld b| * along uv b ^ 2).getD 0 := by
  rw [C79_boundary_force bc uv uvOld uv hunit]
  simp only [pow_two]

/-- C79: each turbine farm takes the power `c_t d |u_old| |u|² / H` in its region. -/
theorem C79_turbine (T : Term m) (farms : List (Farm m)) (uv uvOld : Vc m) (etaOld : Sc m) :
    turbineDrag T farms uv uvOld etaOld uv =
      -(farms.map fun F => m.dx fun x => if F.inside x then
        F.ct (fun i => (uvOld i (.cell x)).v) (depthAt T (.cell x) (etaOld (.cell x)).v) * F.density x *
          Real.sqrt (sq uvOld (.cell x)) * sq uv (.cell x) / depthAt T (.cell x) (etaOld (.cell x)).v else 0).sum := by
  unfold turbineDrag sq
  have h1 : ∀ a b : ℝ, a * a + b * b = a ^ 2 + b ^ 2 := fun a b => by ring
  simp only [Fin.sum_univ_two, totalH_v, h1]

/-- C79: friction never accelerates the water, with coefficients that are not negative and positive depth. -/
theorem C79_dissipation (T : Term m) (K : Coeffs m) (bc : ℕ → Option (Funcs m)) (uv uvOld : Vc m) (etaOld : Sc m)
    (hunit : m.UnitNormals) (hH : ∀ x, 0 < depthAt T (.cell x) (etaOld (.cell x)).v)
    (h1 : ∀ cd, K.cd = some cd → ∀ x, 0 ≤ cd x) (h2 : ∀ c, K.linear = some c → ∀ x, 0 ≤ (c x).v)
    (h3 : ∀ k l cd, bc k = some l → l.drag = some cd → ∀ b, 0 ≤ cd b)
    (h4 : ∀ F ∈ K.farms, (∀ u h, 0 ≤ F.ct u h) ∧ ∀ x, 0 ≤ F.density x) :
    coriolis K.coriolis uv uv + quadraticDrag T K.cd uv uvOld etaOld uv + linearDrag K.linear uv uv +
      boundaryDrag bc uv uvOld uv + turbineDrag T K.farms uv uvOld etaOld uv ≤ 0 := by
  have hs : ∀ (u : Vc m) x, 0 ≤ sq u x := fun u x => by unfold sq; positivity
  have e1 : quadraticDrag T K.cd uv uvOld etaOld uv ≤ 0 := by
    cases hc : K.cd with
    | none => exact le_refl _
    | some cd =>
      rw [C79_quadratic, Left.neg_nonpos_iff]
      exact dx_nonneg fun x => div_nonneg (mul_nonneg (mul_nonneg (h1 cd hc x) (Real.sqrt_nonneg _)) (hs _ _)) (hH x).le
  have e2 : linearDrag K.linear uv uv ≤ 0 := by
    cases hc : K.linear with
    | none => exact le_refl _
    | some c =>
      rw [C79_linear, Left.neg_nonpos_iff]
      exact dx_nonneg fun x => mul_nonneg (h2 c hc _) (hs _ _)
  have e3 : boundaryDrag bc uv uvOld uv ≤ 0 := by
    rw [C79_boundary bc uv uvOld hunit, Left.neg_nonpos_iff]
    refine dB_nonneg fun b => ?_
    cases hb : bc (m.marker b) with
    | none => exact le_refl _
    | some l =>
      cases hl : l.drag with
      | none => simp [hl]
      | some cd =>
        have := h3 _ l cd hb hl b
        simp only [Option.bind_some, hl, Option.map_some, Option.getD_some]
        positivity
  have e4 : turbineDrag T K.farms uv uvOld etaOld uv ≤ 0 := by
    rw [C79_turbine, Left.neg_nonpos_iff]
    refine List.sum_nonneg fun y hy => ?_
    obtain ⟨F, hF, rfl⟩ := List.mem_map.1 hy
    refine dx_nonneg fun x => ?_
    split
    · exact div_nonneg (mul_nonneg (mul_nonneg (mul_nonneg ((h4 F hF).1 _ _) ((h4 F hF).2 _)) (Real.sqrt_nonneg _))
        (hs _ _)) (hH x).le
    · exact le_refl _
  rw [C79_coriolis]
  linarith

/-- The hypotheses hold for a square with all kinds of friction. -/
example (uv : Vc square) (eta : Sc square) :
    let K : Coeffs square := { noCoeffs with cd := some fun _ => 1, linear := some (cst square 2), coriolis := some (cst square 3) }
    let bc : ℕ → Option (Funcs square) := fun _ => some [.drag fun _ => 4]
    coriolis K.coriolis uv uv + quadraticDrag exTerm K.cd uv uv eta uv + linearDrag K.linear uv uv +
      boundaryDrag bc uv uv uv + turbineDrag exTerm K.farms uv uv eta uv ≤ 0 := by
  intro K bc
  refine C79_dissipation exTerm K bc uv uv eta square_unit (fun x => ?_) ?_ ?_ ?_ ?_
  · rw [depthAt_linear _ rfl]; simp [exTerm]
  · intro cd h x; simp [K] at h; subst h; norm_num
  · intro c h x; simp [K] at h; subst h; simp
  · intro k l cd h hl b
    simp [bc] at h; subst h
    have : cd = fun _ => 4 := by simp [Funcs.drag] at hl; exact hl.symm
    rw [this]; norm_num
  · intro F hF; simp [K, noCoeffs] at hF

/-- C79: wind accelerates by `tau/(rho0 H)` and the bottom stress of the 3D mode decelerates by `Cd |u_b| u_b / H`. -/
theorem C79_stresses (T : Term m) (tau ub : Vc m) (cd etaOld : Sc m) (w : Vc m) :
    windStress T (some tau) etaOld w + bottomDrag3d T (some cd) (some ub) etaOld w =
      m.dx fun x => (∑ i, ((tau i (.cell x)).v / T.rho0 - (cd (.cell x)).v * Real.sqrt (sq ub (.cell x)) *
        (ub i (.cell x)).v) * (w i (.cell x)).v) / depthAt T (.cell x) (etaOld (.cell x)).v := by
  unfold windStress bottomDrag3d sq
  simp only [totalH_v, Fin.sum_univ_two]
  rw [← dx_neg, ← dx_add]
  exact dx_congr fun x => by ring

/-- C79: momentum sources accelerate the water along themselves and atmospheric pressure accelerates it towards low
pressure, by the gradient over the density. -/
theorem C79_sources (T : Term m) (src : Vc m) (p : Sc m) (w : Vc m) :
    momentumSource (some src) w + atmPressure T (some p) w =
      m.dx fun x => ∑ i, ((src i (.cell x)).v - (p (.cell x)).g i / T.rho0) * (w i (.cell x)).v := by
  unfold momentumSource atmPressure
  simp only [Fin.sum_univ_two]
  rw [← dx_neg, ← dx_add]
  exact dx_congr fun x => by ring

/-- C79: the bottom stress of the 3D mode takes energy from a flow with the same direction at the bottom. -/
theorem C79_bottom (T : Term m) (ub : Vc m) (cd etaOld : Sc m) (uv : Vc m)
    (hH : ∀ x, 0 < depthAt T (.cell x) (etaOld (.cell x)).v) (hc : ∀ x, 0 ≤ (cd x).v)
    (hu : ∀ x, 0 ≤ (ub 0 (.cell x)).v * (uv 0 (.cell x)).v + (ub 1 (.cell x)).v * (uv 1 (.cell x)).v) :
    bottomDrag3d T (some cd) (some ub) etaOld uv ≤ 0 := by
  unfold bottomDrag3d
  simp only [Left.neg_nonpos_iff, totalH_v]
  refine dx_nonneg fun x => ?_
  have e : (∑ i, (cd (.cell x)).v * Real.sqrt ((ub 0 (.cell x)).v ^ 2 + (ub 1 (.cell x)).v ^ 2) * (ub i (.cell x)).v /
      depthAt T (.cell x) (etaOld (.cell x)).v * (uv i (.cell x)).v) =
      (cd (.cell x)).v * Real.sqrt ((ub 0 (.cell x)).v ^ 2 + (ub 1 (.cell x)).v ^ 2) *
        ((ub 0 (.cell x)).v * (uv 0 (.cell x)).v + (ub 1 (.cell x)).v * (uv 1 (.cell x)).v) /
        depthAt T (.cell x) (etaOld (.cell x)).v := by
    rw [Fin.sum_univ_two]; ring
  rw [e]
  exact div_nonneg (mul_nonneg (mul_nonneg (hc _) (Real.sqrt_nonneg _)) (hu x)) (hH x).le

/-- C79: the drag coefficient for every combination of the three fields.  Two of them at once raise. -/
theorem C79_coefficient (T : Term m) (vk h : ℝ) (mu ks cd : ℝ) :
    dragCoefficient T vk h none none none = .ok none ∧
    dragCoefficient T vk h none none (some cd) = .ok (some cd) ∧
    dragCoefficient T vk h (some mu) none none = .ok (some (T.g * mu ^ 2 / h ^ (1 / 3 : ℝ))) ∧
    dragCoefficient T vk h none (some ks) none =
      .ok (some (if ks < h then 2 * vk ^ 2 / Real.log (11.036 * h / ks) ^ 2 else 0)) ∧
    (∀ n, ∃ e, dragCoefficient T vk h (some mu) n (some cd) = .error e) ∧
    (∀ c, ∃ e, dragCoefficient T vk h (some mu) (some ks) c = .error e) ∧
    (∀ u, ∃ e, dragCoefficient T vk h u (some ks) (some cd) = .error e) := by
  refine ⟨rfl, rfl, rfl, rfl, fun n => ⟨_, rfl⟩, fun c => ?_, fun u => ?_⟩
  · cases c with
    | none => exact ⟨_, rfl⟩
    | some c => exact ⟨_, rfl⟩
  · cases u with
    | none => exact ⟨_, rfl⟩
    | some c => exact ⟨_, rfl⟩

/-- C79: a coefficient that comes out is not negative. -/
theorem C79_coefficient_nonneg (T : Term m) (vk h : ℝ) (mu ks cd : Option ℝ) (c : ℝ) (hg : 0 ≤ T.g) (hh : 0 < h)
    (hc : ∀ x, cd = some x → 0 ≤ x) (he : dragCoefficient T vk h mu ks cd = .ok (some c)) : 0 ≤ c := by
  cases mu with
  | none =>
    cases ks with
    | none =>
      cases cd with
      | none => simp [dragCoefficient] at he; cases he
      | some x =>
        have : x = c := by
          have h2 := (C79_coefficient T vk h 0 0 x).2.1
          rw [h2] at he
          simpa using he
        rw [← this]; exact hc x rfl
    | some k =>
      cases cd with
      | none =>
        rw [(C79_coefficient T vk h 0 k 0).2.2.2.1] at he
        simp only [Except.ok.injEq, Option.some.injEq] at he
        rw [← he]
        split <;> positivity
      | some x =>
        obtain ⟨e, h2⟩ := (C79_coefficient T vk h 0 k x).2.2.2.2.2.2 none
        rw [h2] at he; cases he
  | some u =>
    cases ks with
    | none =>
      cases cd with
      | none =>
        rw [(C79_coefficient T vk h u 0 0).2.2.1] at he
        simp only [Except.ok.injEq, Option.some.injEq] at he
        rw [← he]
        positivity
      | some x =>
        obtain ⟨e, h2⟩ := (C79_coefficient T vk h u 0 x).2.2.2.2.1 none
        rw [h2] at he; cases he
    | some k =>
      obtain ⟨e, h2⟩ := (C79_coefficient T vk h u k 0).2.2.2.2.2.1 cd
      rw [h2] at he; cases he

/-! ### C80 -/

/-- The normal component of the two sides averaged, out of the plus side. -/
noncomputable def meanN (u : Vc m) (s : m.S) : ℝ := ∑ i, ((u i (.plus s)).v + (u i (.minus s)).v) / 2 * m.np s i

/-- The Lax-Friedrichs part at an interior facet. -/
noncomputable def lfFacet (T : Term m) (uv uvOld w : Vc m) (s : m.S) : ℝ :=
  if T.lf then |meanN uvOld s| / 2 * T.lfFactor *
    ∑ i, ((w i (.plus s)).v - (w i (.minus s)).v) * ((uv i (.plus s)).v - (uv i (.minus s)).v) else 0

/-- The Lax-Friedrichs part at a boundary point: at walls the mirror image of the velocity is outside. -/
noncomputable def lfWall (T : Term m) (bc : ℕ → Option (Funcs m)) (uv uvOld w : Vc m) (b : m.B) : ℝ :=
  if T.lf ∧ openFuncs (bc (m.marker b)) = none then
    |∑ i, (uvOld i (.bnd b)).v * m.nb b i| * T.lfFactor * (∑ i, (uv i (.bnd b)).v * m.nb b i) *
      ∑ i, (w i (.bnd b)).v * m.nb b i
  else 0

theorem advection_eq (T : Term m) (bc : ℕ → Option (Funcs m)) (uv : Vc m) (eta : Sc m) (uvOld : Vc m) (etaOld : Sc m)
    (w : Vc m) (hn : T.nonlinear = true) (hu : T.uDg = true) (hflat : m.Flat) :
    advection T bc uv eta uvOld etaOld w =
      (m.dx fun x => ∑ i, div (fun j => w i * uvOld j) (.cell x) * (uv i (.cell x)).v) -
      (m.dS fun s => ∑ i, ((uv i (.plus s)).v + (uv i (.minus s)).v) / 2 * jumpV (fun j => w i * uvOld j) s) -
      (m.dS fun s => lfFacet T uv uvOld w s) -
      ∑ b, m.wB b * (lfWall T bc uv uvOld w b + momBnd T bc uv eta uvOld etaOld w (m.marker b) b) := by
  unfold advection
  simp only [hn, hu, if_true, bndLoop_eq]
  have e1 : (m.dS fun s => ∑ i, avg (uv i) s * jumpV (fun j => w i * uvOld j) s) =
      m.dS fun s => ∑ i, ((uv i (.plus s)).v + (uv i (.minus s)).v) / 2 * jumpV (fun j => w i * uvOld j) s :=
    dS_congr fun s => by simp only [avg, Fin.sum_univ_two]; ring
  have hm : ∀ s, (∑ j, avg (uvOld j) s * m.nm s j) = -meanN uvOld s := fun s => by
    simp only [avg, meanN, Fin.sum_univ_two, hflat s]; ring
  rw [e1, dB_add, dx_neg]
  cases hl : T.lf with
  | false =>
    have e2 : (m.dS fun s => lfFacet T uv uvOld w s) = 0 := by simp [lfFacet, hl, dS_zero]
    have e3 : (∑ b, m.wB b * lfWall T bc uv uvOld w b) = 0 := by simp [lfWall, hl]
    rw [e2, e3]
    simp only [Bool.false_eq_true, if_false]
    ring
  | true =>
    have e2 : (m.dS fun s => (1 / 2) * |∑ j, avg (uvOld j) s * m.nm s j| * T.lfFactor *
        ∑ i, jump (w i) s * jump (uv i) s) = m.dS fun s => lfFacet T uv uvOld w s :=
      dS_congr fun s => by
        simp only [lfFacet, hl, if_true, hm, abs_neg, jump]; ring
    have e3 : (∑ b, m.wB b * lfBnd T bc uv uvOld w (m.marker b) b) = ∑ b, m.wB b * lfWall T bc uv uvOld w b :=
      dB_congr fun b => by
        unfold lfBnd lfWall
        cases openFuncs (bc (m.marker b)) with
        | some f => simp
        | none =>
          simp only [hl, and_self, if_true, Fin.sum_univ_two, normalAt]
          ring
    simp only [if_true, e2, e3]
    ring

/-- C80: advection of a uniform velocity `U` by any flow: only the boundary contributes. -/
theorem C80_uniform_general (T : Term m) (bc : ℕ → Option (Funcs m)) (U : Fin 2 → ℝ) (eta : Sc m) (uvOld : Vc m)
    (etaOld : Sc m) (w : Vc m) (hn : T.nonlinear = true) (hu : T.uDg = true) (hflat : m.Flat)
    (hd : ∀ i, DivExact m fun j => w i * uvOld j) :
    advection T bc (fun i => cst m (U i)) eta uvOld etaOld w =
      ∑ b, m.wB b * ((∑ j, (uvOld j (.bnd b)).v * m.nb b j) * (∑ i, U i * (w i (.bnd b)).v) -
        lfWall T bc (fun i => cst m (U i)) uvOld w b -
        momBnd T bc (fun i => cst m (U i)) eta uvOld etaOld w (m.marker b) b) := by
  rw [advection_eq T bc _ eta uvOld etaOld w hn hu hflat]
  have e1 : (m.dS fun s => lfFacet T (fun i => cst m (U i)) uvOld w s) = 0 := by
    rw [← dS_zero (m := m)]
    exact dS_congr fun s => by simp [lfFacet]
  rw [e1]
  simp only [cst_apply, Jet.const_v, add_self_div_two, Fin.sum_univ_two]
  have e2 : (m.dx fun x => div (fun j => w 0 * uvOld j) (.cell x) * U 0 + div (fun j => w 1 * uvOld j) (.cell x) * U 1) =
      U 0 * (m.dx fun x => div (fun j => w 0 * uvOld j) (.cell x)) +
      U 1 * m.dx fun x => div (fun j => w 1 * uvOld j) (.cell x) := by
    rw [← dx_smul, ← dx_smul, ← dx_add]; exact dx_congr fun x => by ring
  rw [e2, hd 0, hd 1, dS_add, dS_smul, dS_smul]
  have e3 : ∀ b, ((uvOld 0 (.bnd b)).v * m.nb b 0 + (uvOld 1 (.bnd b)).v * m.nb b 1) *
      (U 0 * (w 0 (.bnd b)).v + U 1 * (w 1 (.bnd b)).v) - lfWall T bc (fun i => cst m (U i)) uvOld w b -
        momBnd T bc (fun i => cst m (U i)) eta uvOld etaOld w (m.marker b) b =
      U 0 * normalAt (fun j => w 0 * uvOld j) b + U 1 * normalAt (fun j => w 1 * uvOld j) b -
      (lfWall T bc (fun i => cst m (U i)) uvOld w b +
        momBnd T bc (fun i => cst m (U i)) eta uvOld etaOld w (m.marker b) b) := fun b => by
    simp only [normalAt, Pi.mul_apply, Jet.mul_v, Fin.sum_univ_two]; ring
  simp only [e3]
  rw [dB_sub, dB_add (fun b => U 0 * _), dB_smul, dB_smul]
  ring

/-- At the boundary point the uniform velocity `U` meets a wall through which nothing flows, or an open boundary whose
values agree with the inside. -/
def Agrees (T : Term m) (bc : ℕ → Option (Funcs m)) (U : Fin 2 → ℝ) (eta : Sc m) (uvOld : Vc m) (etaOld : Sc m)
    (b : m.B) : Prop :=
  (IsClosed (bc (m.marker b)) ∧ ∑ j, (uvOld j (.bnd b)).v * m.nb b j = 0) ∨
  ∃ l e u, bc (m.marker b) = some l ∧ imposeLoop l = .ok true ∧
    bndFunctions T l (m.marker b) b (eta (.bnd b)).v U = some (e, U) ∧
    bndFunctions T l (m.marker b) b (etaOld (.bnd b)).v (atB uvOld b) = some ((etaOld (.bnd b)).v, u) ∧
    ∑ j, u j * m.nb b j = ∑ j, (uvOld j (.bnd b)).v * m.nb b j

/-- C80: a uniform velocity stays uniform: momentum advection by any flow leaves it unchanged. -/
theorem C80_uniform (T : Term m) (bc : ℕ → Option (Funcs m)) (U : Fin 2 → ℝ) (eta : Sc m) (uvOld : Vc m)
    (etaOld : Sc m) (w : Vc m) (hn : T.nonlinear = true) (hu : T.uDg = true) (hflat : m.Flat)
    (hd : ∀ i, DivExact m fun j => w i * uvOld j) (hb : ∀ b, Agrees T bc U eta uvOld etaOld b) :
    advection T bc (fun i => cst m (U i)) eta uvOld etaOld w = 0 := by
  rw [C80_uniform_general T bc U eta uvOld etaOld w hn hu hflat hd]
  have : ∀ b, (∑ j, (uvOld j (.bnd b)).v * m.nb b j) * (∑ i, U i * (w i (.bnd b)).v) -
        lfWall T bc (fun i => cst m (U i)) uvOld w b -
        momBnd T bc (fun i => cst m (U i)) eta uvOld etaOld w (m.marker b) b = 0 := by
    intro b
    rcases hb b with ⟨hc, h0⟩ | ⟨l, e, u, hl, ho, h1, h2, h3⟩
    · have hop := openFuncs_closed hc
      simp [lfWall, momBnd, hop, h0]
    · have hop : openFuncs (bc (m.marker b)) = some l := by rw [hl]; simp [openFuncs, imposeDynamic, ho]
      have h1' : bndF T l (m.marker b) b (eta (.bnd b)).v (atB (fun i => cst m (U i)) b) = (e, U) := by
        unfold bndF
        have : atB (fun i => cst m (U i)) b = U := rfl
        rw [this, h1]; rfl
      have h2' : bndF T l (m.marker b) b (etaOld (.bnd b)).v (atB uvOld b) = ((etaOld (.bnd b)).v, u) := by
        unfold bndF; rw [h2]; rfl
      have hlf : lfWall T bc (fun i => cst m (U i)) uvOld w b = 0 := by simp [lfWall, hop]
      rw [hlf]
      unfold momBnd
      rw [hop]
      simp only [momFlux, h1', h2', sub_self, mul_zero, add_zero]
      rw [Fin.sum_univ_two, Fin.sum_univ_two] at h3
      simp only [Fin.sum_univ_two, atB, cst_apply, Jet.const_v]
      linear_combination (-(1 / 2) * (U 0 * (w 0 (.bnd b)).v + U 1 * (w 1 (.bnd b)).v)) * h3
  simp only [this, mul_zero, Finset.sum_const_zero]

/-- C80: kinetic energy.  Tested with the velocity itself the advection term has the divergence of the flow, the jump of
its normal component, the loss of the Lax-Friedrichs part and boundary terms; nothing else. -/
theorem C80_identity (T : Term m) (bc : ℕ → Option (Funcs m)) (uv : Vc m) (eta : Sc m) (uvOld : Vc m)
    (etaOld : Sc m) (hn : T.nonlinear = true) (hu : T.uDg = true) (hflat : m.Flat)
    (hd : ∀ i, DivExact m fun j => uv i * uv i * uvOld j) :
    advection T bc uv eta uvOld etaOld uv =
      (m.dx fun x => sq uv (.cell x) / 2 * div uvOld (.cell x)) -
      (m.dS fun s => (∑ i, (uv i (.plus s)).v * (uv i (.minus s)).v) / 2 *
        ∑ j, ((uvOld j (.plus s)).v - (uvOld j (.minus s)).v) * m.np s j) -
      (m.dS fun s => if T.lf then |meanN uvOld s| / 2 * T.lfFactor *
        ∑ i, ((uv i (.plus s)).v - (uv i (.minus s)).v) ^ 2 else 0) +
      ∑ b, m.wB b * (sq uv (.bnd b) / 2 * (∑ j, (uvOld j (.bnd b)).v * m.nb b j) - lfWall T bc uv uvOld uv b -
        momBnd T bc uv eta uvOld etaOld uv (m.marker b) b) := by
  rw [advection_eq T bc uv eta uvOld etaOld uv hn hu hflat]
  have e0 : (m.dS fun s => lfFacet T uv uvOld uv s) = m.dS fun s => if T.lf then |meanN uvOld s| / 2 * T.lfFactor *
        ∑ i, ((uv i (.plus s)).v - (uv i (.minus s)).v) ^ 2 else 0 :=
    dS_congr fun s => by
      unfold lfFacet
      split
      · simp only [Fin.sum_univ_two]; ring
      · rfl
  rw [e0]
  have e1 : (m.dx fun x => ∑ i, div (fun j => uv i * uvOld j) (.cell x) * (uv i (.cell x)).v) =
      (m.dx fun x => sq uv (.cell x) / 2 * div uvOld (.cell x)) +
      (1 / 2) * (m.dx fun x => div (fun j => uv 0 * uv 0 * uvOld j) (.cell x)) +
      (1 / 2) * m.dx fun x => div (fun j => uv 1 * uv 1 * uvOld j) (.cell x) := by
    rw [← dx_smul, ← dx_smul, ← dx_add, ← dx_add]
    refine dx_congr fun x => ?_
    simp only [div, Fin.sum_univ_two, Pi.mul_apply, Jet.mul_g, Jet.mul_v, sq]
    ring
  rw [e1, hd 0, hd 1]
  have e2 : (m.dS fun s => ∑ i, ((uv i (.plus s)).v + (uv i (.minus s)).v) / 2 * jumpV (fun j => uv i * uvOld j) s) =
      (m.dS fun s => (∑ i, (uv i (.plus s)).v * (uv i (.minus s)).v) / 2 *
        ∑ j, ((uvOld j (.plus s)).v - (uvOld j (.minus s)).v) * m.np s j) +
      (1 / 2) * (m.dS fun s => jumpV (fun j => uv 0 * uv 0 * uvOld j) s) +
      (1 / 2) * m.dS fun s => jumpV (fun j => uv 1 * uv 1 * uvOld j) s := by
    rw [← dS_smul, ← dS_smul, ← dS_add, ← dS_add]
    refine dS_congr fun s => ?_
    simp only [jumpV, Fin.sum_univ_two, Pi.mul_apply, Jet.mul_v, hflat s]
    ring
  rw [e2]
  have e3 : ∀ b, sq uv (.bnd b) / 2 * (∑ j, (uvOld j (.bnd b)).v * m.nb b j) - lfWall T bc uv uvOld uv b -
        momBnd T bc uv eta uvOld etaOld uv (m.marker b) b =
      (1 / 2) * (normalAt (fun j => uv 0 * uv 0 * uvOld j) b) + (1 / 2) * (normalAt (fun j => uv 1 * uv 1 * uvOld j) b) -
      (lfWall T bc uv uvOld uv b + momBnd T bc uv eta uvOld etaOld uv (m.marker b) b) := fun b => by
    simp only [sq, normalAt, Pi.mul_apply, Jet.mul_v, Fin.sum_univ_two]; ring
  simp only [e3]
  rw [dB_sub, dB_add (fun b => (1 / 2) * _), dB_smul, dB_smul]
  ring

/-- C80: momentum advection does not increase the kinetic energy in a closed basin if the flow is free of divergence, its
normal component is continuous and nothing flows through the walls; without the Lax-Friedrichs part it keeps it. -/
theorem C80_energy (T : Term m) (bc : ℕ → Option (Funcs m)) (uv : Vc m) (eta : Sc m) (uvOld : Vc m)
    (etaOld : Sc m) (hn : T.nonlinear = true) (hu : T.uDg = true) (hflat : m.Flat)
    (hd : ∀ i, DivExact m fun j => uv i * uv i * uvOld j) (hb : ∀ k ∈ m.markers, IsClosed (bc k))
    (h1 : ∀ x, div uvOld (.cell x) = 0) (h2 : ∀ s, jumpV uvOld s = 0) (h3 : ∀ b, ∑ j, (uvOld j (.bnd b)).v * m.nb b j = 0) :
    (0 ≤ T.lfFactor → advection T bc uv eta uvOld etaOld uv ≤ 0) ∧
    (T.lf = false → advection T bc uv eta uvOld etaOld uv = 0) := by
  have hop : ∀ b, openFuncs (bc (m.marker b)) = none := fun b => openFuncs_closed (hb _ (m.marker_mem b))
  have h2' : ∀ s, (∑ j, ((uvOld j (.plus s)).v - (uvOld j (.minus s)).v) * m.np s j) = 0 := fun s => by
    rw [← h2 s]; simp only [jumpV, Fin.sum_univ_two, hflat s]; ring
  rw [C80_identity T bc uv eta uvOld etaOld hn hu hflat hd]
  have e : (∑ b, m.wB b * (sq uv (.bnd b) / 2 * (∑ j, (uvOld j (.bnd b)).v * m.nb b j) - lfWall T bc uv uvOld uv b -
        momBnd T bc uv eta uvOld etaOld uv (m.marker b) b)) = 0 := by
    simp [h3, lfWall, momBnd, hop]
  rw [e]
  simp only [h1, h2', mul_zero, dx_zero, dS_zero]
  constructor
  · intro hf
    have : 0 ≤ m.dS fun s => if T.lf then |meanN uvOld s| / 2 * T.lfFactor *
        ∑ i, ((uv i (.plus s)).v - (uv i (.minus s)).v) ^ 2 else 0 := dS_nonneg fun s => by
      split
      · positivity
      · exact le_refl _
    linarith
  · intro hl
    simp [hl, dS_zero]

/-- C80: momentum that enters or leaves through a boundary with prescribed velocity `U` is carried by the mean of the
inner and outer normal velocity and is the mean of the inner and outer velocity. -/
theorem C80_open (T : Term m) (bc : ℕ → Option (Funcs m)) (uv : Vc m) (eta : Sc m) (uvOld : Vc m) (etaOld : Sc m) (w : Vc m)
    (k : ℕ) (b : m.B) (U : Fin 2 → ℝ) (h : bc k = some [.uv fun _ => U]) :
    momBnd T bc uv eta uvOld etaOld w k b =
      (((∑ j, (uvOld j (.bnd b)).v * m.nb b j) + ∑ j, U j * m.nb b j) / 2) *
        ∑ i, (((uv i (.bnd b)).v + U i) / 2) * (w i (.bnd b)).v := by
  have ho : openFuncs (bc k) = some [.uv fun _ => U] := by rw [h]; rfl
  have hb : ∀ e u, bndF T [.uv fun _ => U] k b e u = (e, U) := fun e u => rfl
  unfold momBnd
  rw [ho]
  simp only [momFlux, hb, sub_self, mul_zero, add_zero, Fin.sum_univ_two, atB]
  ring

/-- C80: where the normal velocity inside agrees with the prescribed velocity `U`, the kinetic energy that enters through
the boundary (the integrand of the last integral of `C80_identity`) is half the product of the velocities inside and outside,
times the inflow. -/
theorem C80_open_energy (T : Term m) (bc : ℕ → Option (Funcs m)) (uv : Vc m) (eta : Sc m) (uvOld : Vc m) (etaOld : Sc m)
    (b : m.B) (U : Fin 2 → ℝ) (h : bc (m.marker b) = some [.uv fun _ => U])
    (hn : ∑ j, (uvOld j (.bnd b)).v * m.nb b j = ∑ j, U j * m.nb b j) :
    sq uv (.bnd b) / 2 * (∑ j, (uvOld j (.bnd b)).v * m.nb b j) - lfWall T bc uv uvOld uv b -
        momBnd T bc uv eta uvOld etaOld uv (m.marker b) b =
      -(∑ j, U j * m.nb b j) * (∑ i, U i * (uv i (.bnd b)).v) / 2 := by
  have ho : openFuncs (bc (m.marker b)) = some [.uv fun _ => U] := by rw [h]; rfl
  have hl : lfWall T bc uv uvOld uv b = 0 := by
    simp [lfWall, ho]
  rw [C80_open T bc uv eta uvOld etaOld uv _ b U h, hn, hl]
  simp only [sq, Fin.sum_univ_two]
  ring

/-- The nonlinear equations with the Lax-Friedrichs part. -/
noncomputable def exAdv : Term square := { exTerm with nonlinear := true, lf := true }

/-- The hypotheses of `C80_uniform` hold for a flow of (1, 2) through the square with open boundaries of the same
velocity, for all test functions that are quadratic on each triangle. -/
example (lo up : Fin 2 → Quad) (lo2 up2 : Quad) :
    let U : Fin 2 → ℝ := ![1, 2]
    let bc : ℕ → Option (Funcs square) := fun _ => some [.uv fun _ => U]
    advection exAdv bc (fun i => cst square (U i)) (squareField lo2 up2) (fun i => cst square (U i)) (squareField lo2 up2)
      (fun i => squareField (lo i) (up i)) = 0 := by
  intro U bc
  refine C80_uniform exAdv bc U _ _ _ _ rfl rfl square_flat (fun i => ?_) (fun b => ?_)
  · have : (fun j => squareField (lo i) (up i) * cst square (U j)) = fun j => squareField
        ⟨(lo i).a * U j, (lo i).b * U j, (lo i).c * U j, (lo i).d * U j, (lo i).e * U j, (lo i).f * U j⟩
        ⟨(up i).a * U j, (up i).b * U j, (up i).c * U j, (up i).d * U j, (up i).e * U j, (up i).f * U j⟩ := by
      have key : ∀ (q : Quad) (z x y : ℝ), q.jet x y * Jet.const z =
          (⟨q.a * z, q.b * z, q.c * z, q.d * z, q.e * z, q.f * z⟩ : Quad).jet x y := by
        intro q z x y
        apply Jet.ext
        · simp [Quad.jet]; ring
        · funext k
          fin_cases k <;> simp [Quad.jet] <;> ring
      funext j x
      cases x with
      | cell c => cases c <;> exact key _ _ _ _
      | plus c => cases c <;> exact key _ _ _ _
      | minus c => cases c <;> exact key _ _ _ _
      | bnd c => cases c <;> exact key _ _ _ _
    rw [this]
    exact square_divExact _ _
  · exact Or.inr ⟨[.uv fun _ => U], _, U, rfl, rfl, rfl, rfl, rfl⟩

/-- A vortex in the square: the stream function is `xy` below and `(1-x)(1-y)` above the diagonal. -/
noncomputable def vortex : Vc square :=
  ![squareField ⟨0, 1, 0, 0, 0, 0⟩ ⟨-1, 1, 0, 0, 0, 0⟩, squareField ⟨0, 0, -1, 0, 0, 0⟩ ⟨1, 0, -1, 0, 0, 0⟩]

/-- The hypotheses of `C80_energy` hold for velocities that are constant on each triangle, carried by the vortex. -/
example (a b c d : ℝ) :
    let uv : Vc square := ![squareField ⟨a, 0, 0, 0, 0, 0⟩ ⟨b, 0, 0, 0, 0, 0⟩, squareField ⟨c, 0, 0, 0, 0, 0⟩ ⟨d, 0, 0, 0, 0, 0⟩]
    advection exAdv (fun _ => none) uv (cst square 0) vortex (cst square 0) uv ≤ 0 := by
  intro uv
  refine (C80_energy exAdv (fun _ => none) uv _ vortex _ rfl rfl square_flat (fun i => ?_)
    (fun _ _ _ h => by simp at h) (fun x => ?_) (fun s => ?_) (fun b => ?_)).1 (by norm_num [exAdv, exTerm])
  · have hl : ∀ x y : ℝ, (⟨x, 0, 0, 0, 0, 0⟩ : Quad).mulLin ⟨y, 0, 0, 0, 0, 0⟩ = ⟨x * y, 0, 0, 0, 0, 0⟩ := fun x y => by
      simp [Quad.mulLin]
    have : (fun j => uv i * uv i * vortex j) = fun j => squareField
        (Quad.mulLin ((![⟨a * a, 0, 0, 0, 0, 0⟩, ⟨c * c, 0, 0, 0, 0, 0⟩] : Fin 2 → Quad) i)
          ((![⟨0, 1, 0, 0, 0, 0⟩, ⟨0, 0, -1, 0, 0, 0⟩] : Fin 2 → Quad) j))
        (Quad.mulLin ((![⟨b * b, 0, 0, 0, 0, 0⟩, ⟨d * d, 0, 0, 0, 0, 0⟩] : Fin 2 → Quad) i)
          ((![⟨-1, 1, 0, 0, 0, 0⟩, ⟨1, 0, -1, 0, 0, 0⟩] : Fin 2 → Quad) j)) := by
      funext j
      fin_cases i <;> fin_cases j <;> simp only [uv, vortex, Fin.zero_eta, Fin.mk_one, Matrix.cons_val_zero, Matrix.cons_val_one] <;>
        rw [squareField_mul _ _ _ _ (by simp) (by simp) (by simp) (by simp), hl, hl,
          squareField_mul _ _ _ _ (by simp) (by simp) (by simp) (by simp)]
    rw [this]
    exact square_divExact _ _
  · rw [div, Fin.sum_univ_two]
    cases x <;> simp [vortex, squareField, Quad.jet]
  · rw [jumpV, Fin.sum_univ_two, Fin.sum_univ_two, square_flat s, square_flat s]
    change _ * (1 / Real.sqrt 2) + _ * (1 / Real.sqrt 2) + (_ * -(1 / Real.sqrt 2) + _ * -(1 / Real.sqrt 2)) = 0
    generalize (1 / Real.sqrt 2) = r
    cases s <;> simp only [vortex, squareField, Quad.jet, Matrix.cons_val_zero, Matrix.cons_val_one] <;> ring
  · rw [Fin.sum_univ_two]
    change _ * sqNx b + _ * sqNy b = 0
    cases b <;> simp [vortex, squareField, Quad.jet, sqNx, sqNy]

end Verif.Swe
