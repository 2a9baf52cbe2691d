import Verif.Unit.Lemmas
import Verif.Swe.Model

/-!
C141 for the shallow water equations.
-/

namespace Verif.Unit

open Verif.Dg Verif.Swe

variable {m : Mesh 2}

namespace Conv

variable (U : Conv)

/-- The unit of velocity. -/
noncomputable def V : ℝ := U.L / U.T

/-- An entry of the dictionary of a boundary in the new units: `flux` is a volume per time, `drag` has no unit. -/
noncomputable def entry : Entry m → Entry (U.mesh m)
  | .elev f => .elev fun x => U.L * f x
  | .uv f => .uv fun x i => U.V * f x i
  | .un f => .un fun x => U.V * f x
  | .flux f => .flux fun x => U.L ^ 3 / U.T * f x
  | .drag f => .drag f
  | .other k => .other k

/-- The dictionary of a boundary. -/
noncomputable def funcs (f : Funcs m) : Funcs (U.mesh m) := f.map U.entry

/-- The boundary conditions. -/
noncomputable def bcs (bc : ℕ → Option (Funcs m)) (k : ℕ) : Option (Funcs (U.mesh m)) := (bc k).map U.funcs

/-- Members and options of the terms: gravity, density, boundary lengths and the speed that smooths the drag have units. -/
noncomputable def term (T : Term m) : Term (U.mesh m) :=
  { depth := U.depth T.depth, g := U.L / U.T ^ 2 * T.g, rho0 := U.R * T.rho0, uDg := T.uDg, etaDg := T.etaDg,
    blen := fun k => U.L * T.blen k, nonlinear := T.nonlinear, lf := T.lf, lfFactor := T.lfFactor,
    sipg := U.sc 1 T.sipg, p := T.p, triangle := T.triangle, gradDiv := T.gradDiv, gradDepth := T.gradDepth,
    smoother := U.V * T.smoother }

/-- The farms: a density of turbines and a thrust area for each. -/
noncomputable def farm (F : Farm m) : Farm (U.mesh m) :=
  ⟨F.inside, fun x => F.density x / U.L ^ 2, fun u h => U.L ^ 2 * F.ct (fun i => u i / U.V) (h / U.L)⟩

/-- The coefficient fields: viscosity, Coriolis frequency, stress, pressure, friction and sources. -/
noncomputable def coeffs (K : Coeffs m) : Coeffs (U.mesh m) :=
  { nu := K.nu.map (U.sc (U.L ^ 2 / U.T))
    coriolis := K.coriolis.map (U.sc (1 / U.T))
    wind := K.wind.map (U.vc (U.R * U.V ^ 2))
    pressure := K.pressure.map (U.sc (U.R * U.V ^ 2))
    cd := K.cd
    linear := K.linear.map (U.sc (1 / U.T))
    bottomDrag := K.bottomDrag.map (U.sc 1)
    uvBottom := K.uvBottom.map (U.vc U.V)
    source := K.source.map (U.vc (U.L / U.T ^ 2))
    volume := K.volume.map (U.sc U.V)
    farms := K.farms.map U.farm }

@[simp] theorem term_g (T : Term m) : (U.term T).g = U.L / U.T ^ 2 * T.g := rfl
@[simp] theorem term_rho0 (T : Term m) : (U.term T).rho0 = U.R * T.rho0 := rfl
@[simp] theorem term_blen (T : Term m) (k : ℕ) : (U.term T).blen k = U.L * T.blen k := rfl
@[simp] theorem term_lfFactor (T : Term m) : (U.term T).lfFactor = T.lfFactor := rfl
@[simp] theorem term_smoother (T : Term m) : (U.term T).smoother = U.V * T.smoother := rfl

theorem hV : 0 < U.V := div_pos U.hL U.hT

theorem elev_funcs (f : Funcs m) : (U.funcs f).elev = f.elev.map fun e x => U.L * e x := by
  induction f with
  | nil => rfl
  | cons a r ih => cases a <;> simp_all [funcs, entry, Funcs.elev]

theorem uv_funcs (f : Funcs m) : (U.funcs f).uv = f.uv.map fun e x i => U.V * e x i := by
  induction f with
  | nil => rfl
  | cons a r ih => cases a <;> simp_all [funcs, entry, Funcs.uv]

theorem un_funcs (f : Funcs m) : (U.funcs f).un = f.un.map fun e x => U.V * e x := by
  induction f with
  | nil => rfl
  | cons a r ih => cases a <;> simp_all [funcs, entry, Funcs.un]

theorem flux_funcs (f : Funcs m) : (U.funcs f).flux = f.flux.map fun e x => U.L ^ 3 / U.T * e x := by
  induction f with
  | nil => rfl
  | cons a r ih => cases a <;> simp_all [funcs, entry, Funcs.flux]

theorem drag_funcs (f : Funcs m) : (U.funcs f).drag = f.drag := by
  induction f with
  | nil => rfl
  | cons a r ih => cases a <;> simp_all [funcs, entry, Funcs.drag]

theorem imposeLoop_funcs (f : Funcs m) : imposeLoop (U.funcs f) = imposeLoop f := by
  induction f with
  | nil => rfl
  | cons a r ih => cases a <;> simp_all [funcs, entry, imposeLoop]

theorem openFuncs_bcs (f : Option (Funcs m)) : openFuncs (f.map U.funcs) = (openFuncs f).map U.funcs := by
  cases f with
  | none => rfl
  | some f =>
    simp only [openFuncs, imposeDynamic, Option.map_some, imposeLoop_funcs]
    split <;> rfl

theorem depthAt_eq (T : Term m) (x : m.B) (eta : ℝ) :
    depthAt (U.term T) (.bnd x) (U.L * eta) = U.L * depthAt T (.bnd x) eta := by
  unfold depthAt
  have := congrArg Jet.v (U.total_eq T.depth (.bnd x) (Jet.const eta))
  rw [jet_const] at this
  exact this

theorem totalH_eq (T : Term m) (eta : Sc m) : totalH (U.term T) (U.sc U.L eta) = U.sc U.L (totalH T eta) :=
  funext fun x => U.total_eq T.depth x (eta (U.pt x))

theorem atB_vc (k : ℝ) (u : Vc m) (x : m.B) : atB (m := U.mesh m) (U.vc k u) x = fun i => k * atB u x i := rfl

theorem bndFunctions_eq (T : Term m) (f : Funcs m) (k : ℕ) (x : m.B) (e : ℝ) (u : Fin 2 → ℝ) :
    bndFunctions (U.term T) (U.funcs f) k x (U.L * e) (fun i => U.V * u i) =
      (bndFunctions T f k x e u).map fun r => (U.L * r.1, fun i => U.V * r.2 i) := by
  have hq : ∀ q h b n : ℝ, U.L ^ 3 / U.T * q / (U.L * h * (U.L * b)) * n = U.V * (q / (h * b) * n) := by
    intro q h b n
    have := U.hL.ne'
    have := U.hT.ne'
    unfold V
    field_simp
  unfold bndFunctions
  simp only [elev_funcs, uv_funcs, un_funcs, flux_funcs, depthAt_eq]
  cases f.elev <;> cases f.uv <;> cases f.un <;> cases f.flux <;> simp [depthAt_eq, hq] <;>
    exact funext fun i => mul_assoc _ _ _

theorem bndF_eq (T : Term m) (f : Funcs m) (k : ℕ) (x : m.B) (e : ℝ) (u : Fin 2 → ℝ) :
    bndF (U.term T) (U.funcs f) k x (U.L * e) (fun i => U.V * u i) =
      (U.L * (bndF T f k x e u).1, fun i => U.V * (bndF T f k x e u).2 i) := by
  unfold bndF
  rw [bndFunctions_eq]
  cases bndFunctions T f k x e u <;> rfl

end Conv

open Conv

variable (U : Conv)

theorem headOpen_eq (T : Term m) (f : Funcs m) (k : ℕ) (uv : Vc m) (eta etaOld : Sc m) (x : m.B) :
    headOpen (U.term T) (U.funcs f) k (U.vc U.V uv) (U.sc U.L eta) (U.sc U.L etaOld) x =
      U.L * headOpen T f k uv eta etaOld x := by
  unfold headOpen
  have := U.hT.ne'
  simp only [totalH_eq, atB_vc, sc_v, pt_bnd, bndF_eq, term_g, sqrt_hg, Fin.sum_univ_two]
  rw [Conv.V]
  field_simp

theorem headBnd_eq (T : Term m) (bc : ℕ → Option (Funcs m)) (uv : Vc m) (eta etaOld : Sc m) (k : ℕ) (x : m.B) :
    headBnd (U.term T) (U.bcs bc) (U.vc U.V uv) (U.sc U.L eta) (U.sc U.L etaOld) k x =
      U.L * headBnd T bc uv eta etaOld k x := by
  unfold headBnd Conv.bcs
  rw [openFuncs_bcs]
  cases openFuncs (bc k) with
  | some f => exact headOpen_eq U T f k uv eta etaOld x
  | none =>
    have := U.hT.ne'
    simp only [Option.map_none, totalH_eq, normalAt_vc, sc_v, pt_bnd, term_g, sqrt_hg]
    rw [Conv.V]
    field_simp

theorem headCorr_eq (T : Term m) (bc : ℕ → Option (Funcs m)) (uv : Vc m) (eta etaOld : Sc m) (k : ℕ) (x : m.B) :
    headCorr (U.term T) (U.bcs bc) (U.vc U.V uv) (U.sc U.L eta) (U.sc U.L etaOld) k x =
      U.L * headCorr T bc uv eta etaOld k x := by
  unfold headCorr Conv.bcs
  rw [openFuncs_bcs]
  cases openFuncs (bc k) with
  | some f => simp only [Option.map_some, headOpen_eq, sc_v, pt_bnd, mul_sub]
  | none => exact zero_eq

/-- C141: the pressure gradient. -/
theorem C141_pressure (T : Term m) (bc : ℕ → Option (Funcs m)) (uv : Vc m) (eta etaOld : Sc m) (w : Vc m) :
    Swe.pressure (U.term T) (U.bcs bc) (U.vc U.V uv) (U.sc U.L eta) (U.sc U.L etaOld) (U.vc 1 w) =
      U.L ^ 3 / U.T ^ 2 * Swe.pressure T bc uv eta etaOld w := by
  have := U.hL.ne'
  have := U.hT.ne'
  unfold Swe.pressure
  refine ite_eq Iff.rfl (neg_eq (add_eq (add_eq (U.dx_eq (U.L / U.T ^ 2) (fun x => ?_) (by ring))
    (U.dS_eq (U.L ^ 2 / U.T ^ 2) (fun x => ?_) (by ring))) (U.bndLoop_eq (U.L ^ 2 / U.T ^ 2) (fun k x => ?_) (by ring))))
    (neg_eq (add_eq (U.dx_eq (U.L / U.T ^ 2) (fun x => ?_) (by ring))
      (U.bndLoop_eq (U.L ^ 2 / U.T ^ 2) (fun k x => ?_) (by ring))))
  · simp only [div_vc, sc_v, pt_cell, term_g]
    field_simp
  · simp only [totalH_eq, avg_sc, jumpV_vc, term_g, sqrt_hg]
    rw [Conv.V]
    field_simp
  · simp only [headBnd_eq, normalAt_vc, term_g]
    field_simp
  · simp only [sc_g, vc_v, pt_cell, term_g, Fin.sum_univ_two]
    field_simp
  · simp only [headCorr_eq, normalAt_vc, term_g]
    field_simp

theorem fluxOpen_eq (T : Term m) (f : Funcs m) (k : ℕ) (uv : Vc m) (eta : Sc m) (uvOld : Vc m) (etaOld : Sc m)
    (x : m.B) : fluxOpen (U.term T) (U.funcs f) k (U.vc U.V uv) (U.sc U.L eta) (U.vc U.V uvOld) (U.sc U.L etaOld) x =
      U.L * U.V * fluxOpen T f k uv eta uvOld etaOld x := by
  have := U.hL.ne'
  have := U.hT.ne'
  unfold fluxOpen
  simp only [totalH_eq, atB_vc, sc_v, pt_bnd, bndF_eq, depthAt_eq, term_g, ← mul_add, ← mul_sub, mul_assoc,
    ← Finset.mul_sum]
  have hh : ∀ a b : ℝ, 1 / 2 * (U.L * (a + b)) = U.L * (1 / 2 * (a + b)) := fun a b => by ring
  have he : ∀ a b s : ℝ, U.L * (1 / 2 * a) + U.T * (s * (U.V * b)) = U.L * (1 / 2 * a + s * b) := fun a b s => by
    rw [Conv.V]; field_simp
  simp only [hh, sqrt_hg, sqrt_gh, mul_assoc, he, depthAt_eq]
  rw [Conv.V]
  field_simp

theorem volFlux_eq (T : Term m) (bc : ℕ → Option (Funcs m)) (uv : Vc m) (eta : Sc m) (uvOld : Vc m) (etaOld : Sc m)
    (k : ℕ) (x : m.B) :
    volFlux (U.term T) (U.bcs bc) (U.vc U.V uv) (U.sc U.L eta) (U.vc U.V uvOld) (U.sc U.L etaOld) k x =
      U.L * U.V * volFlux T bc uv eta uvOld etaOld k x := by
  unfold volFlux Conv.bcs
  rw [openFuncs_bcs]
  cases openFuncs (bc k) with
  | some f => exact fluxOpen_eq U T f k uv eta uvOld etaOld x
  | none => exact zero_eq

theorem walled_eq (bc : ℕ → Option (Funcs m)) (k : ℕ) : walled (U.bcs bc) k = walled bc k := by
  unfold walled Conv.bcs
  rw [openFuncs_bcs]
  cases openFuncs (bc k) with
  | some f => simp [un_funcs]
  | none => rfl

theorem sc_mul (k l : ℝ) (f g : Sc m) : U.sc k f * U.sc l g = U.sc (k * l) (f * g) :=
  funext fun _ => jet_mul _ _ _ _

theorem sc_mul_vc (k l : ℝ) (h : Sc m) (u : Vc m) : (fun i => U.sc k h * U.vc l u i) = U.vc (k * l) fun i => h * u i :=
  funext fun _ => sc_mul U _ _ _ _

/-- C141: the divergence of the transport. -/
theorem C141_transport (T : Term m) (bc : ℕ → Option (Funcs m)) (uv : Vc m) (eta : Sc m) (uvOld : Vc m)
    (etaOld phi : Sc m) :
    huDiv (U.term T) (U.bcs bc) (U.vc U.V uv) (U.sc U.L eta) (U.vc U.V uvOld) (U.sc U.L etaOld) (U.sc 1 phi) =
      U.L ^ 3 / U.T * huDiv T bc uv eta uvOld etaOld phi := by
  have := U.hL.ne'
  have := U.hT.ne'
  unfold huDiv
  refine ite_eq Iff.rfl (neg_eq (add_eq (add_eq (U.dx_eq (U.L / U.T) (fun x => ?_) (by ring))
    (ite_eq Iff.rfl (U.dS_eq (U.L ^ 2 / U.T) (fun x => ?_) (by ring)) zero_eq))
    (U.bndLoop_eq (U.L ^ 2 / U.T) (fun k x => ?_) (by ring))))
    (neg_eq (add_eq (U.dx_eq (U.L / U.T) (fun x => ?_) (by ring))
      (U.bndLoop_eq (U.L ^ 2 / U.T) (fun k x => ?_) (by ring))))
  · refine (congrArg Neg.neg (sum_eq fun i => ?_)).trans (mul_neg _ _).symm
    simp only [totalH_eq, sc_g, sc_v, vc_v, pt_cell]
    rw [Conv.V]
    field_simp
  · refine sum_eq fun i => ?_
    simp only [totalH_eq, jumpN_sc, avg_sc, avg_vc, term_g, sqrt_gh]
    rw [Conv.V]
    field_simp
  · simp only [volFlux_eq, sc_v, pt_bnd]
    rw [Conv.V]
    field_simp
  · rw [totalH_eq, sc_mul_vc, div_vc, sc_v, Conv.V]
    simp only [pt_cell]
    field_simp
  · rw [walled_eq, totalH_eq, normalAt_vc]
    refine ite_eq Iff.rfl ?_ zero_eq
    simp only [sc_v, pt_bnd]
    rw [Conv.V]
    field_simp

theorem momBnd_eq (T : Term m) (bc : ℕ → Option (Funcs m)) (uv : Vc m) (eta : Sc m) (uvOld : Vc m) (etaOld : Sc m)
    (w : Vc m) (k : ℕ) (x : m.B) :
    momBnd (U.term T) (U.bcs bc) (U.vc U.V uv) (U.sc U.L eta) (U.vc U.V uvOld) (U.sc U.L etaOld) (U.vc 1 w) k x =
      U.L ^ 2 / U.T ^ 2 * momBnd T bc uv eta uvOld etaOld w k x := by
  have := U.hT.ne'
  unfold momBnd Conv.bcs
  rw [openFuncs_bcs]
  cases openFuncs (bc k) with
  | none => exact zero_eq
  | some f =>
    refine sum_eq fun i => ?_
    unfold momFlux
    simp only [totalH_eq, atB_vc, sc_v, vc_v, pt_bnd, bndF_eq, term_g, sqrt_gh, Fin.sum_univ_two]
    rw [Conv.V]
    field_simp

theorem lfBnd_eq (T : Term m) (bc : ℕ → Option (Funcs m)) (uv uvOld w : Vc m) (k : ℕ) (x : m.B) :
    lfBnd (U.term T) (U.bcs bc) (U.vc U.V uv) (U.vc U.V uvOld) (U.vc 1 w) k x =
      U.L ^ 2 / U.T ^ 2 * lfBnd T bc uv uvOld w k x := by
  have := U.hT.ne'
  unfold lfBnd Conv.bcs
  rw [openFuncs_bcs]
  cases openFuncs (bc k) with
  | some f => exact zero_eq
  | none =>
    simp only [Option.map_none, normalAt_vc, abs_mul_pos U.hV, atB_vc, vc_v, pt_bnd, term_lfFactor,
      Fin.sum_univ_two]
    rw [Conv.V]
    field_simp

/-- C141: the advection of momentum. -/
theorem C141_advection (T : Term m) (bc : ℕ → Option (Funcs m)) (uv : Vc m) (eta : Sc m) (uvOld : Vc m)
    (etaOld : Sc m) (w : Vc m) :
    Swe.advection (U.term T) (U.bcs bc) (U.vc U.V uv) (U.sc U.L eta) (U.vc U.V uvOld) (U.sc U.L etaOld) (U.vc 1 w) =
      U.L ^ 3 / U.T ^ 2 * Swe.advection T bc uv eta uvOld etaOld w := by
  have := U.hL.ne'
  have := U.hT.ne'
  have hp : ∀ i, (fun j => U.vc 1 w i * U.vc U.V uvOld j) = U.vc (1 * U.V) fun j => w i * uvOld j := fun i =>
    sc_mul_vc U 1 U.V (w i) uvOld
  unfold Swe.advection
  refine ite_eq Iff.rfl (neg_eq (add_eq (add_eq (U.dx_eq (U.L / U.T ^ 2) (fun x => ?_) (by ring))
    (ite_eq Iff.rfl (add_eq (U.dS_eq (U.L ^ 2 / U.T ^ 2) (fun x => ?_) (by ring))
      (ite_eq Iff.rfl (add_eq (U.dS_eq (U.L ^ 2 / U.T ^ 2) (fun x => ?_) (by ring))
        (U.bndLoop_eq _ (fun k x => lfBnd_eq U ..) (by ring))) zero_eq)) zero_eq))
    (U.bndLoop_eq _ (fun k x => momBnd_eq U ..) (by ring)))) zero_eq
  · refine (congrArg Neg.neg (sum_eq fun i => ?_)).trans (mul_neg _ _).symm
    rw [hp, div_vc, vc_v, Conv.V]
    simp only [pt_cell]
    field_simp
  · refine sum_eq fun i => ?_
    rw [hp, jumpV_vc, avg_vc, Conv.V]
    field_simp
  · have hu : ∑ j, avg (m := U.mesh m) (U.vc U.V uvOld j) x * m.nm x j = U.V * ∑ j, avg (uvOld j) x * m.nm x j :=
      sum_eq fun j => by rw [avg_vc, mul_assoc]
    have hs : ∑ i, jump (m := U.mesh m) (U.vc 1 w i) x * jump (m := U.mesh m) (U.vc U.V uv i) x =
        U.V * ∑ i, jump (w i) x * jump (uv i) x := sum_eq fun j => by rw [jump_vc, jump_vc]; ring
    rw [hs]
    change _ * |∑ j, avg (m := U.mesh m) (U.vc U.V uvOld j) x * m.nm x j| * _ * _ = _
    rw [hu, abs_mul_pos U.hV, term_lfFactor, Conv.V]
    field_simp

theorem symm_eq (T : Term m) (k : ℝ) (A : Fin 2 → Fin 2 → ℝ) (i j : Fin 2) :
    Swe.symm (U.term T) (fun a b => k * A a b) i j = k * Swe.symm T A i j := by
  unfold Swe.symm
  exact ite_eq Iff.rfl (mul_add _ _ _).symm rfl

theorem tensorJump_eq (k : ℝ) (u : Vc m) (x : m.S) : tensorJump (m := U.mesh m) (U.vc k u) x =
    fun i j => k * tensorJump u x i j := by
  funext i j
  unfold tensorJump
  simp only [vc_v, pt_plus, pt_minus]
  ring

theorem stress_eq (T : Term m) (k l : ℝ) (nu : Sc m) (u : Vc m) (x : Pt (U.mesh m)) (i j : Fin 2) :
    stress (U.term T) (U.sc k nu) (U.vc l u) x i j = k * l / U.L * stress T nu u (U.pt x) i j := by
  unfold stress
  simp only [vc_g, sc_v]
  rw [symm_eq]
  ring

theorem sigma_eq (T : Term m) (s v a : ℝ) : sigma (U.term T) (1 * s) (U.L ^ 2 * v) (U.L ^ (2 - 1) * a) =
    1 / U.L * sigma T s v a := by
  have := U.hL.ne'
  change 1 * s * (if T.triangle = true then ((T.p : ℝ) + 1) * (T.p + 2) / 2 else (T.p + 1) ^ 2) / _ =
    1 / U.L * (s * (if T.triangle = true then ((T.p : ℝ) + 1) * (T.p + 2) / 2 else (T.p + 1) ^ 2) / _)
  rw [show 2 - 1 = 1 from rfl]
  generalize (if T.triangle = true then ((T.p : ℝ) + 1) * (T.p + 2) / 2 else (T.p + 1) ^ 2) = c
  field_simp

theorem sigmaMax_eq (T : Term m) (x : m.S) : sigmaMax (U.term T) x = 1 / U.L * sigmaMax T x := by
  unfold sigmaMax
  change (if sigma (U.term T) (1 * _) (U.L ^ 2 * _) (U.L ^ (2 - 1) * _) >
    sigma (U.term T) (1 * _) (U.L ^ 2 * _) (U.L ^ (2 - 1) * _) then sigma (U.term T) (1 * _) (U.L ^ 2 * _) (U.L ^ (2 - 1) * _)
    else sigma (U.term T) (1 * _) (U.L ^ 2 * _) (U.L ^ (2 - 1) * _)) = _
  rw [sigma_eq, sigma_eq]
  exact ite_max (one_div_pos.mpr U.hL) _ _

theorem deltaUv_eq (T : Term m) (bc : ℕ → Option (Funcs m)) (uv : Vc m) (eta : Sc m) (k : ℕ) (x : m.B) :
    deltaUv (U.term T) (U.bcs bc) (U.vc U.V uv) (U.sc U.L eta) k x =
      (deltaUv T bc uv eta k x).map fun u i => U.V * u i := by
  unfold deltaUv Conv.bcs
  rw [openFuncs_bcs]
  cases openFuncs (bc k) with
  | none => rfl
  | some f =>
    simp only [Option.map_some, un_funcs, uv_funcs, flux_funcs, normalAt_vc, atB_vc, sc_v, pt_bnd, bndF_eq]
    cases f.un with
    | some u =>
      simp only [Option.map_some, Option.some.injEq]
      exact funext fun i => by ring
    | none =>
      simp only [Option.map_none, Option.isSome_map]
      split
      · exact congrArg some (funext fun i => (mul_sub _ _ _).symm)
      · rfl

theorem viscBnd_eq (T : Term m) (bc : ℕ → Option (Funcs m)) (nu : Sc m) (uv : Vc m) (eta : Sc m) (w : Vc m) (k : ℕ)
    (x : m.B) :
    viscBnd (U.term T) (U.bcs bc) (U.sc (U.L ^ 2 / U.T) nu) (U.vc U.V uv) (U.sc U.L eta) (U.vc 1 w) k x =
      U.L ^ 2 / U.T ^ 2 * viscBnd T bc nu uv eta w k x := by
  have := U.hL.ne'
  have := U.hT.ne'
  unfold viscBnd
  rw [deltaUv_eq]
  cases deltaUv T bc uv eta k x with
  | none => exact zero_eq
  | some u =>
    refine sum_eq fun i => sum_eq fun j => ?_
    change sigma (U.term T) (1 * _) (U.L ^ 2 * _) (U.L ^ (2 - 1) * _) * _ - _ - _ = _
    rw [sigma_eq]
    simp only [mul_assoc U.V, symm_eq, stress_eq, vc_v, vc_g, sc_v, pt_bnd]
    rw [Conv.V]
    field_simp

/-- C141: viscosity. -/
theorem C141_viscosity (T : Term m) (bc : ℕ → Option (Funcs m)) (nu : Option (Sc m)) (uv : Vc m) (eta etaOld : Sc m)
    (w : Vc m) : viscosity (U.term T) (U.bcs bc) (nu.map (U.sc (U.L ^ 2 / U.T))) (U.vc U.V uv) (U.sc U.L eta)
      (U.sc U.L etaOld) (U.vc 1 w) = U.L ^ 3 / U.T ^ 2 * viscosity T bc nu uv eta etaOld w := by
  have := U.hL.ne'
  have := U.hT.ne'
  cases nu with
  | none => exact zero_eq
  | some nu =>
    refine neg_eq (add_eq (add_eq (U.dx_eq (U.L / U.T ^ 2) (fun x => ?_) (by ring))
      (ite_eq Iff.rfl (add_eq (U.dS_eq (U.L ^ 2 / U.T ^ 2) (fun x => ?_) (by ring))
        (U.bndLoop_eq _ (fun k x => viscBnd_eq U ..) (by ring))) zero_eq))
      (ite_eq Iff.rfl (U.dx_eq (U.L / U.T ^ 2) (fun x => ?_) (by ring)) zero_eq))
    · refine sum_eq fun i => sum_eq fun j => ?_
      simp only [stress_eq, vc_g, pt_cell]
      rw [Conv.V]
      field_simp
    · refine sum_eq fun i => sum_eq fun j => ?_
      simp only [tensorJump_eq, symm_eq, avg_sc, stress_eq, vc_g, sigmaMax_eq, pt_plus, pt_minus]
      rw [Conv.V]
      field_simp
    · refine (congrArg Neg.neg (sum_eq fun j => ?_)).trans (mul_neg _ _).symm
      rw [totalH_eq]
      simp only [stress_eq, vc_v, sc_g, sc_v, pt_cell, Fin.sum_univ_two]
      rw [Conv.V]
      field_simp

/-- C141: the remaining forces. -/
theorem C141_forces (T : Term m) (K : Coeffs m) (bc : ℕ → Option (Funcs m)) (uv uvOld : Vc m) (etaOld : Sc m) (w : Vc m) :
    Swe.coriolis (U.coeffs K).coriolis (U.vc U.V uv) (U.vc 1 w) = U.L ^ 3 / U.T ^ 2 * Swe.coriolis K.coriolis uv w ∧
    windStress (U.term T) (U.coeffs K).wind (U.sc U.L etaOld) (U.vc 1 w) =
      U.L ^ 3 / U.T ^ 2 * windStress T K.wind etaOld w ∧
    atmPressure (U.term T) (U.coeffs K).pressure (U.vc 1 w) = U.L ^ 3 / U.T ^ 2 * atmPressure T K.pressure w ∧
    quadraticDrag (U.term T) (U.coeffs K).cd (U.vc U.V uv) (U.vc U.V uvOld) (U.sc U.L etaOld) (U.vc 1 w) =
      U.L ^ 3 / U.T ^ 2 * quadraticDrag T K.cd uv uvOld etaOld w ∧
    linearDrag (U.coeffs K).linear (U.vc U.V uv) (U.vc 1 w) = U.L ^ 3 / U.T ^ 2 * linearDrag K.linear uv w ∧
    boundaryDrag (U.bcs bc) (U.vc U.V uv) (U.vc U.V uvOld) (U.vc 1 w) =
      U.L ^ 3 / U.T ^ 2 * boundaryDrag bc uv uvOld w ∧
    bottomDrag3d (U.term T) (U.coeffs K).bottomDrag (U.coeffs K).uvBottom (U.sc U.L etaOld) (U.vc 1 w) =
      U.L ^ 3 / U.T ^ 2 * bottomDrag3d T K.bottomDrag K.uvBottom etaOld w ∧
    momentumSource (U.coeffs K).source (U.vc 1 w) = U.L ^ 3 / U.T ^ 2 * momentumSource K.source w ∧
    turbineDrag (U.term T) (U.coeffs K).farms (U.vc U.V uv) (U.vc U.V uvOld) (U.sc U.L etaOld) (U.vc 1 w) =
      U.L ^ 3 / U.T ^ 2 * turbineDrag T K.farms uv uvOld etaOld w := by
  have := U.hL.ne'
  have := U.hT.ne'
  have := U.hR.ne'
  refine ⟨?_, ?_, ?_, ?_, ?_, ?_, ?_, ?_, ?_⟩
  · unfold Conv.coeffs
    cases K.coriolis with
    | none => exact zero_eq
    | some f =>
      refine neg_eq (U.dx_eq (U.L / U.T ^ 2) (fun x => ?_) (by ring))
      simp only [vc_v, sc_v, pt_cell]
      rw [Conv.V]
      field_simp
  · unfold Conv.coeffs
    cases K.wind with
    | none => exact zero_eq
    | some t =>
      refine U.dx_eq (U.L / U.T ^ 2) (fun x => ?_) (by ring)
      rw [totalH_eq, term_rho0]
      simp only [vc_v, sc_v, pt_cell, Fin.sum_univ_two]
      rw [Conv.V]
      field_simp
  · unfold Conv.coeffs
    cases K.pressure with
    | none => exact zero_eq
    | some t =>
      refine neg_eq (U.dx_eq (U.L / U.T ^ 2) (fun x => ?_) (by ring))
      rw [term_rho0]
      simp only [vc_v, sc_g, pt_cell, Fin.sum_univ_two]
      rw [Conv.V]
      field_simp
  · unfold Conv.coeffs
    cases K.cd with
    | none => exact zero_eq
    | some t =>
      refine neg_eq (U.dx_eq (U.L / U.T ^ 2) (fun x => ?_) (by ring))
      have hq : (∑ i, (U.vc U.V uvOld i (.cell x)).v * (U.vc U.V uvOld i (.cell x)).v) + (U.term T).smoother ^ 2 =
          U.V * U.V * ((∑ i, (uvOld i (.cell x)).v * (uvOld i (.cell x)).v) + T.smoother ^ 2) := by
        simp only [vc_v, pt_cell, term_smoother, Fin.sum_univ_two]
        ring
      rw [hq, sqrt_mul_sq U.hV.le, totalH_eq]
      simp only [vc_v, sc_v, pt_cell, Fin.sum_univ_two]
      rw [Conv.V]
      field_simp
  · unfold Conv.coeffs
    cases K.linear with
    | none => exact zero_eq
    | some t =>
      refine neg_eq (U.dx_eq (U.L / U.T ^ 2) (fun x => ?_) (by ring))
      simp only [vc_v, sc_v, pt_cell, Fin.sum_univ_two]
      rw [Conv.V]
      field_simp
  · refine neg_eq (U.bndLoop_eq (U.L ^ 2 / U.T ^ 2) (fun k x => ?_) (by ring))
    unfold dragBnd Conv.bcs
    cases bc k with
    | none => exact zero_eq
    | some f =>
      simp only [Option.map_some, Option.bind_some, drag_funcs]
      cases f.drag with
      | none => exact zero_eq
      | some c =>
        have ht : ∀ (u : Vc m) i, tangential (m := U.mesh m) (U.vc U.V u) x i = U.V * tangential u x i := by
          intro u i
          unfold tangential
          rw [normalAt_vc, atB_vc, mul_sub, mul_assoc]
        have hq : ∑ i, tangential (m := U.mesh m) (U.vc U.V uvOld) x i * tangential (m := U.mesh m) (U.vc U.V uvOld) x i =
            U.V * U.V * ∑ i, tangential uvOld x i * tangential uvOld x i := by
          refine sum_eq fun i => ?_
          rw [ht]
          ring
        simp only
        rw [hq, sqrt_mul_sq U.hV.le]
        simp only [ht, vc_v, pt_bnd, Fin.sum_univ_two]
        rw [Conv.V]
        field_simp
  · unfold Conv.coeffs
    cases K.bottomDrag with
    | none => cases K.uvBottom <;> exact zero_eq
    | some c =>
      cases K.uvBottom with
      | none => exact zero_eq
      | some u =>
        refine neg_eq (U.dx_eq (U.L / U.T ^ 2) (fun x => sum_eq fun i => ?_) (by ring))
        have hq : (U.V * (u 0 (.cell x)).v) ^ 2 + (U.V * (u 1 (.cell x)).v) ^ 2 =
            U.V * U.V * ((u 0 (.cell x)).v ^ 2 + (u 1 (.cell x)).v ^ 2) := by ring
        rw [totalH_eq]
        simp only [vc_v, sc_v, pt_cell, hq, sqrt_mul_sq U.hV.le]
        rw [Conv.V]
        field_simp
  · unfold Conv.coeffs
    cases K.source with
    | none => exact zero_eq
    | some t =>
      refine U.dx_eq (U.L / U.T ^ 2) (fun x => sum_eq fun i => ?_) (by ring)
      simp only [vc_v, pt_cell]
      ring
  · unfold turbineDrag Conv.coeffs
    refine neg_eq ?_
    rw [List.map_map, ← List.sum_map_mul_left]
    refine congrArg List.sum (List.map_congr_left fun F _ => ?_)
    refine U.dx_eq (U.L / U.T ^ 2) (fun x => ite_eq Iff.rfl ?_ zero_eq) (by ring)
    have hq : ∑ i, (U.vc U.V uvOld i (.cell x)).v * (U.vc U.V uvOld i (.cell x)).v =
        U.V * U.V * ∑ i, (uvOld i (.cell x)).v * (uvOld i (.cell x)).v := by
      refine sum_eq fun i => ?_
      simp only [vc_v, pt_cell]
      ring
    rw [totalH_eq, hq, sqrt_mul_sq U.hV.le]
    change U.L ^ 2 * F.ct (fun i => U.V * (uvOld i (.cell x)).v / U.V) (U.L * (totalH T etaOld (.cell x)).v / U.L) *
      (F.density x / U.L ^ 2) * _ * _ / _ = _
    simp only [mul_div_cancel_left₀ _ U.hV.ne', mul_div_cancel_left₀ _ U.hL.ne', vc_v, sc_v, pt_cell, Fin.sum_univ_two]
    rw [Conv.V]
    field_simp

/-- C141: the momentum equation. -/
theorem C141_momentum (T : Term m) (K : Coeffs m) (bc : ℕ → Option (Funcs m)) (uv : Vc m) (eta : Sc m)
    (uvOld : Vc m) (etaOld : Sc m) (w : Vc m) :
    momentum (U.term T) (U.coeffs K) (U.bcs bc) (U.vc U.V uv) (U.sc U.L eta) (U.vc U.V uvOld) (U.sc U.L etaOld)
      (U.vc 1 w) = U.L ^ 3 / U.T ^ 2 * momentum T K bc uv eta uvOld etaOld w := by
  obtain ⟨h1, h2, h3, h4, h5, h6, h7, h8, h9⟩ := C141_forces U T K bc uv uvOld etaOld w
  unfold momentum
  rw [C141_pressure, C141_advection, show (U.coeffs K).nu = K.nu.map (U.sc (U.L ^ 2 / U.T)) from rfl, C141_viscosity, h1,
    h2, h3, h4, h5, h6, h7, h8, h9]
  ring

/-- C141: the continuity equation. -/
theorem C141_continuity (T : Term m) (K : Coeffs m) (bc : ℕ → Option (Funcs m)) (uv : Vc m) (eta : Sc m)
    (uvOld : Vc m) (etaOld phi : Sc m) :
    continuity (U.term T) (U.coeffs K) (U.bcs bc) (U.vc U.V uv) (U.sc U.L eta) (U.vc U.V uvOld) (U.sc U.L etaOld)
      (U.sc 1 phi) = U.L ^ 3 / U.T * continuity T K bc uv eta uvOld etaOld phi := by
  unfold continuity
  refine add_eq (C141_transport ..) ?_
  unfold Conv.coeffs
  cases K.volume with
  | none => exact zero_eq
  | some t =>
    refine U.dx_eq (U.L / U.T) (fun x => ?_) (by ring)
    simp only [sc_v, pt_cell]
    rw [Conv.V]
    ring

/-- C141: the volume in the continuity equation. -/
theorem C141_mass (T : Term m) (eta phi : Sc m) :
    massEta (U.term T) (U.sc U.L eta) (U.sc 1 phi) = U.L ^ 3 * massEta T eta phi := by
  unfold massEta
  refine add_eq (U.dx_eq U.L (fun x => ?_) (by ring)) (neg_eq (neg_eq (U.dx_eq U.L (fun x => ?_) (by ring))))
  · simp only [sc_v, pt_cell]
    ring
  · have h : ((U.term T).depth.displacement (.cell x) (U.sc U.L eta (.cell x))).v =
        U.L * (T.depth.displacement (.cell x) (eta (.cell x))).v :=
      congrArg Jet.v (U.displacement_eq T.depth (.cell x) (eta (.cell x)))
    rw [h, sc_v]
    simp only [pt_cell]
    ring

/-- C141: the drag coefficient is a pure number: Manning's coefficient has the unit time per cube root of length, the
roughness is a length. -/
theorem C141_drag_coefficient (T : Term m) (vk h : ℝ) (hh : 0 ≤ h) (manning nikuradse cd : Option ℝ) :
    dragCoefficient (U.term T) vk (U.L * h) (manning.map (U.T / U.L ^ (1 / 3 : ℝ) * ·)) (nikuradse.map (U.L * ·)) cd =
      dragCoefficient T vk h manning nikuradse cd := by
  have hT := U.hT.ne'
  have hL := U.hL.ne'
  have hm : ∀ mu : ℝ, U.L / U.T ^ 2 * T.g * (U.T / U.L ^ (1 / 3 : ℝ) * mu) ^ 2 / (U.L * h) ^ (1 / 3 : ℝ) =
      T.g * mu ^ 2 / h ^ (1 / 3 : ℝ) := by
    intro mu
    have h3 : U.L = (U.L ^ (1 / 3 : ℝ)) ^ 3 := by
      rw [← Real.rpow_natCast, ← Real.rpow_mul U.hL.le]
      norm_num
    have hc : U.L ^ (1 / 3 : ℝ) ≠ 0 := (Real.rpow_pos_of_pos U.hL _).ne'
    rw [Real.mul_rpow U.hL.le hh]
    generalize U.L ^ (1 / 3 : ℝ) = c at h3 hc ⊢
    rw [h3]
    field_simp
  have hk : ∀ ks : ℝ, 11.036 * (U.L * h) / (U.L * ks) = 11.036 * h / ks := by
    intro ks
    field_simp
  unfold dragCoefficient
  cases manning <;> cases cd <;> cases nikuradse <;>
    simp only [Option.map_some, Option.map_none, Option.isSome_some, Option.isSome_none, term_g, hm, hk, gt_iff_lt,
      mul_lt_mul_iff_right₀ U.hL]

end Verif.Unit
