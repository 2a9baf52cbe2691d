import Verif.Frame.Lemmas
import Verif.Swe.Model

/-!
C140 for the shallow water equations.
-/

namespace Verif.Frame

open Verif.Dg Verif.Swe

variable {m m' : Mesh 2}

namespace View

variable (V : View m m')

/-- An entry of the dictionary of a boundary in the new description: vectors turn with the axes. -/
def entry : Entry m → Entry m'
  | .elev f => .elev fun x => f (V.b x)
  | .uv f => .uv fun x => rotV V.R (f (V.b x))
  | .un f => .un fun x => f (V.b x)
  | .flux f => .flux fun x => f (V.b x)
  | .drag f => .drag fun x => f (V.b x)
  | .other k => .other k

/-- The dictionary of a boundary. -/
def funcs (f : Funcs m) : Funcs m' := f.map V.entry

/-- The boundary conditions. -/
def bcs (bc : ℕ → Option (Funcs m)) (k : ℕ) : Option (Funcs m') := (bc k).map V.funcs

/-- Members and options of the terms. -/
def term (T : Term m) : Term m' :=
  { depth := V.depth T.depth, g := T.g, rho0 := T.rho0, uDg := T.uDg, etaDg := T.etaDg, blen := T.blen,
    nonlinear := T.nonlinear, lf := T.lf, lfFactor := T.lfFactor, sipg := V.sc T.sipg, p := T.p, triangle := T.triangle,
    gradDiv := T.gradDiv, gradDepth := T.gradDepth, smoother := T.smoother }

/-- The farms; the thrust of a turbine depends on the speed, which `C140_momentum` has as a hypothesis. -/
def farm (F : Farm m) : Farm m' := ⟨fun x => F.inside (V.c x), fun x => F.density (V.c x), F.ct⟩

/-- The determinant of the change of axes: minus one if they are mirrored. -/
def det (V : View m m') : ℝ := V.R 0 0 * V.R 1 1 - V.R 0 1 * V.R 1 0

/-- The coefficient fields.  The Coriolis parameter changes its sign if the axes are mirrored. -/
def coeffs (K : Coeffs m) : Coeffs m' :=
  { nu := K.nu.map V.sc
    coriolis := K.coriolis.map fun f x => Jet.const V.det * V.sc f x
    wind := K.wind.map V.vc
    pressure := K.pressure.map V.sc
    cd := K.cd.map fun f x => f (V.c x)
    linear := K.linear.map V.sc
    bottomDrag := K.bottomDrag.map V.sc
    uvBottom := K.uvBottom.map V.vc
    source := K.source.map V.vc
    volume := K.volume.map V.sc
    farms := K.farms.map V.farm }

theorem elev_funcs (f : Funcs m) : (V.funcs f).elev = f.elev.map fun e x => e (V.b x) := by
  induction f with
  | nil => rfl
  | cons a r ih => cases a <;> simp_all [funcs, entry, Funcs.elev]

theorem uv_funcs (f : Funcs m) : (V.funcs f).uv = f.uv.map fun e x => rotV V.R (e (V.b x)) := by
  induction f with
  | nil => rfl
  | cons a r ih => cases a <;> simp_all [funcs, entry, Funcs.uv]

theorem un_funcs (f : Funcs m) : (V.funcs f).un = f.un.map fun e x => e (V.b x) := by
  induction f with
  | nil => rfl
  | cons a r ih => cases a <;> simp_all [funcs, entry, Funcs.un]

theorem flux_funcs (f : Funcs m) : (V.funcs f).flux = f.flux.map fun e x => e (V.b x) := by
  induction f with
  | nil => rfl
  | cons a r ih => cases a <;> simp_all [funcs, entry, Funcs.flux]

theorem drag_funcs (f : Funcs m) : (V.funcs f).drag = f.drag.map fun e x => e (V.b x) := by
  induction f with
  | nil => rfl
  | cons a r ih => cases a <;> simp_all [funcs, entry, Funcs.drag]

theorem imposeLoop_funcs (f : Funcs m) : imposeLoop (V.funcs f) = imposeLoop f := by
  induction f with
  | nil => rfl
  | cons a r ih => cases a <;> simp_all [funcs, entry, imposeLoop]

theorem openFuncs_bcs (f : Option (Funcs m)) : openFuncs (f.map V.funcs) = (openFuncs f).map V.funcs := by
  cases f with
  | none => rfl
  | some f =>
    simp only [openFuncs, imposeDynamic, Option.map_some, imposeLoop_funcs]
    split <;> rfl

theorem depthAt_eq (T : Term m) (x : m'.B) (eta : ℝ) :
    depthAt (V.term T) (.bnd x) eta = depthAt T (.bnd (V.b x)) eta := by
  unfold depthAt
  have := congrArg Jet.v (V.total_eq T.depth (.bnd x) (Jet.const eta))
  rw [rot_const] at this
  exact this

theorem totalH_eq (T : Term m) (eta : Sc m) : totalH (V.term T) (V.sc eta) = V.sc (totalH T eta) :=
  funext fun x => V.total_eq T.depth x (eta (V.pt x))

theorem atB_vc (u : Vc m) (x : m'.B) : atB (V.vc u) x = rotV V.R (atB u (V.b x)) := rfl

theorem bndFunctions_eq (T : Term m) (f : Funcs m) (k : ℕ) (x : m'.B) (e : ℝ) (u : Fin 2 → ℝ) :
    bndFunctions (V.term T) (V.funcs f) k x e (rotV V.R u) =
      (bndFunctions T f k (V.b x) e u).map fun r => (r.1, rotV V.R r.2) := by
  have hn : ∀ a : ℝ, (fun i => a * rotV V.R (m.nb (V.b x)) i) = rotV V.R fun i => a * m.nb (V.b x) i := fun a =>
    funext fun i => (rotV_smul _ _ _ _).symm
  unfold bndFunctions
  simp only [elev_funcs, uv_funcs, un_funcs, flux_funcs, depthAt_eq, V.nb]
  cases f.elev <;> cases f.uv <;> cases f.un <;> cases f.flux <;> simp [hn, term]

theorem bndF_eq (T : Term m) (f : Funcs m) (k : ℕ) (x : m'.B) (e : ℝ) (u : Fin 2 → ℝ) :
    bndF (V.term T) (V.funcs f) k x e (rotV V.R u) =
      ((bndF T f k (V.b x) e u).1, rotV V.R (bndF T f k (V.b x) e u).2) := by
  unfold bndF
  rw [bndFunctions_eq]
  cases bndFunctions T f k (V.b x) e u <;> rfl

end View

open View

variable (V : View m m')

theorem headOpen_eq (T : Term m) (f : Funcs m) (k : ℕ) (uv : Vc m) (eta etaOld : Sc m) (x : m'.B) :
    headOpen (V.term T) (V.funcs f) k (V.vc uv) (V.sc eta) (V.sc etaOld) x =
      headOpen T f k uv eta etaOld (V.b x) := by
  unfold headOpen
  simp only [totalH_eq, atB_vc, sc_v, bndF_eq, V.nb, ← rotV_sub, dot_rot V.orth]
  rfl

theorem headBnd_eq (T : Term m) (bc : ℕ → Option (Funcs m)) (uv : Vc m) (eta etaOld : Sc m) (k : ℕ) (x : m'.B) :
    headBnd (V.term T) (V.bcs bc) (V.vc uv) (V.sc eta) (V.sc etaOld) k x = headBnd T bc uv eta etaOld k (V.b x) := by
  unfold headBnd View.bcs
  rw [openFuncs_bcs]
  cases openFuncs (bc k) with
  | some f => exact headOpen_eq V T f k uv eta etaOld x
  | none => simp only [Option.map_none, totalH_eq, normalAt_vc]; rfl

theorem headCorr_eq (T : Term m) (bc : ℕ → Option (Funcs m)) (uv : Vc m) (eta etaOld : Sc m) (k : ℕ) (x : m'.B) :
    headCorr (V.term T) (V.bcs bc) (V.vc uv) (V.sc eta) (V.sc etaOld) k x = headCorr T bc uv eta etaOld k (V.b x) := by
  unfold headCorr View.bcs
  rw [openFuncs_bcs]
  cases openFuncs (bc k) with
  | some f => simp only [Option.map_some, headOpen_eq]; rfl
  | none => rfl

/-- C140: the pressure gradient. -/
theorem C140_pressure (T : Term m) (bc : ℕ → Option (Funcs m)) (uv : Vc m) (eta etaOld : Sc m) (w : Vc m) :
    Swe.pressure (V.term T) (V.bcs bc) (V.vc uv) (V.sc eta) (V.sc etaOld) (V.vc w) =
      Swe.pressure T bc uv eta etaOld w := by
  unfold Swe.pressure
  simp only
  by_cases h : T.etaDg = true
  · rw [if_pos (show (V.term T).etaDg = true from h), if_pos h]
    congr 1
    refine congrArg₂ (· + ·) (congrArg₂ (· + ·) (V.dx_eq fun x => ?_) (V.dS_eq fun x => ?_)) (V.bndLoop_eq fun k x => ?_)
    · rw [div_vc]; rfl
    · rw [totalH_eq, avg_sc, avg_sc, jumpV_vc, jumpV_vc]; rfl
    · rw [headBnd_eq, normalAt_vc]; rfl
  · rw [if_neg (show ¬ (V.term T).etaDg = true from h), if_neg h]
    congr 1
    refine congrArg₂ (· + ·) (V.dx_eq fun x => ?_) (V.bndLoop_eq fun k x => ?_)
    · simp only [sc_g, vc_v, dot_rot V.orth]; rfl
    · rw [headCorr_eq, normalAt_vc]; rfl

theorem fluxOpen_eq (T : Term m) (f : Funcs m) (k : ℕ) (uv : Vc m) (eta : Sc m) (uvOld : Vc m) (etaOld : Sc m)
    (x : m'.B) : fluxOpen (V.term T) (V.funcs f) k (V.vc uv) (V.sc eta) (V.vc uvOld) (V.sc etaOld) x =
      fluxOpen T f k uv eta uvOld etaOld (V.b x) := by
  unfold fluxOpen
  simp only [totalH_eq, atB_vc, sc_v, bndF_eq, V.nb, ← rotV_sub, ← rotV_add, dot_rot V.orth, depthAt_eq]
  rfl

theorem volFlux_eq (T : Term m) (bc : ℕ → Option (Funcs m)) (uv : Vc m) (eta : Sc m) (uvOld : Vc m) (etaOld : Sc m)
    (k : ℕ) (x : m'.B) : volFlux (V.term T) (V.bcs bc) (V.vc uv) (V.sc eta) (V.vc uvOld) (V.sc etaOld) k x =
      volFlux T bc uv eta uvOld etaOld k (V.b x) := by
  unfold volFlux View.bcs
  rw [openFuncs_bcs]
  cases openFuncs (bc k) with
  | some f => exact fluxOpen_eq V T f k uv eta uvOld etaOld x
  | none => rfl

theorem walled_eq (bc : ℕ → Option (Funcs m)) (k : ℕ) : walled (V.bcs bc) k = walled bc k := by
  unfold walled View.bcs
  rw [openFuncs_bcs]
  cases openFuncs (bc k) with
  | some f => simp [un_funcs]
  | none => rfl

theorem sc_mul_vc (h : Sc m) (u : Vc m) : (fun i => V.sc h * V.vc u i) = V.vc fun i => h * u i := by
  funext i x
  refine Jet.ext ?_ (funext fun k => ?_)
  · exact (rotV_smul V.R (h (V.pt x)).v (fun j => (u j (V.pt x)).v) i).symm
  · change rotV V.R (h (V.pt x)).g k * rotV V.R (fun j => (u j (V.pt x)).v) i +
      (h (V.pt x)).v * rotT V.R (fun a b => (u a (V.pt x)).g b) i k =
      rotT V.R (fun a b => (h (V.pt x)).g b * (u a (V.pt x)).v + (h (V.pt x)).v * (u a (V.pt x)).g b) i k
    rw [rotT_add, rotT_smul, rotT_swap V.R (fun b a => (h (V.pt x)).g b * (u a (V.pt x)).v), rotT_outer]

/-- C140: the divergence of the transport. -/
theorem C140_transport (T : Term m) (bc : ℕ → Option (Funcs m)) (uv : Vc m) (eta : Sc m) (uvOld : Vc m)
    (etaOld phi : Sc m) : huDiv (V.term T) (V.bcs bc) (V.vc uv) (V.sc eta) (V.vc uvOld) (V.sc etaOld) (V.sc phi) =
      huDiv T bc uv eta uvOld etaOld phi := by
  unfold huDiv
  simp only
  by_cases h : T.uDg = true
  · rw [if_pos (show (V.term T).uDg = true from h), if_pos h]
    congr 1
    refine congrArg₂ (· + ·) (congrArg₂ (· + ·) (V.dx_eq fun x => ?_) ?_) (V.bndLoop_eq fun k x => ?_)
    · rw [totalH_eq]
      refine congrArg Neg.neg (dot_eq V.orth (fun i => rfl) fun i => ?_)
      rw [rotV_smul]
      rfl
    · refine if_congr Iff.rfl (V.dS_eq fun x => ?_) rfl
      rw [totalH_eq]
      refine dot_eq V.orth (jumpN_sc V phi x) fun i => ?_
      rw [rotV_smul, rotV_add, rotV_smul, avg_sc, avg_vc, jumpN_sc]
      rfl
    · rw [volFlux_eq]; rfl
  · rw [if_neg (show ¬ (V.term T).uDg = true from h), if_neg h]
    congr 1
    refine congrArg₂ (· + ·) (V.dx_eq fun x => ?_) (V.bndLoop_eq fun k x => ?_)
    · rw [totalH_eq, sc_mul_vc, div_vc]; rfl
    · rw [walled_eq, totalH_eq, normalAt_vc]; rfl

/-- `w_i u` as a vector in `i` for the divergence. -/
theorem div_outer (w u : Vc m) (i : Fin 2) (x : Pt m') : div (fun j => V.vc w i * V.vc u j) x =
    rotV V.R (fun a => div (fun j => w a * u j) (V.pt x)) i := by
  have e1 : ∀ (w u : Vc m) (i : Fin 2) (x : Pt m), div (fun j => w i * u j) x =
      (∑ j, (w i x).g j * (u j x).v) + (w i x).v * div u x := by
    intro w u i x
    unfold div
    rw [Finset.mul_sum, ← Finset.sum_add_distrib]
    rfl
  have e2 : div (fun j => V.vc w i * V.vc u j) x =
      (∑ j, (V.vc w i x).g j * (V.vc u j x).v) + (V.vc w i x).v * div (V.vc u) x := by
    unfold div
    rw [Finset.mul_sum, ← Finset.sum_add_distrib]
    rfl
  rw [e2, div_vc]
  simp only [e1, rotV_add, rotV_smul', vc_v, vc_g, mulVec_rot V.orth]

theorem jumpV_outer (w u : Vc m) (i : Fin 2) (x : m'.S) : jumpV (fun j => V.vc w i * V.vc u j) x =
    rotV V.R (fun a => jumpV (fun j => w a * u j) (V.s x)) i := by
  have e : ∀ {m : Mesh 2} (w : Sc m) (u : Vc m) (x : m.S), jumpV (fun j => w * u j) x =
      (w (.plus x)).v * (∑ j, (u j (.plus x)).v * m.np x j) + (w (.minus x)).v * ∑ j, (u j (.minus x)).v * m.nm x j := by
    intro m w u x
    unfold jumpV
    rw [Finset.mul_sum, Finset.mul_sum]
    exact congrArg₂ (· + ·) (Finset.sum_congr rfl fun j _ => mul_assoc _ _ _) (Finset.sum_congr rfl fun j _ => mul_assoc _ _ _)
  simp only [e, rotV_add, rotV_smul', vc_v, V.np, V.nm, dot_rot V.orth, View.pt]
  split
  · exact add_comm _ _
  · rfl

theorem momBnd_eq (T : Term m) (bc : ℕ → Option (Funcs m)) (uv : Vc m) (eta : Sc m) (uvOld : Vc m) (etaOld : Sc m)
    (w : Vc m) (k : ℕ) (x : m'.B) :
    momBnd (V.term T) (V.bcs bc) (V.vc uv) (V.sc eta) (V.vc uvOld) (V.sc etaOld) (V.vc w) k x =
      momBnd T bc uv eta uvOld etaOld w k (V.b x) := by
  unfold momBnd View.bcs
  rw [openFuncs_bcs]
  cases openFuncs (bc k) with
  | none => rfl
  | some f =>
    refine dot_eq V.orth (fun i => ?_) fun i => rfl
    unfold momFlux
    simp only [rotV_smul, totalH_eq, atB_vc, sc_v, bndF_eq, V.nb, ← rotV_add, dot_rot V.orth]
    rfl

theorem lfBnd_eq (T : Term m) (bc : ℕ → Option (Funcs m)) (uv uvOld w : Vc m) (k : ℕ) (x : m'.B) :
    lfBnd (V.term T) (V.bcs bc) (V.vc uv) (V.vc uvOld) (V.vc w) k x = lfBnd T bc uv uvOld w k (V.b x) := by
  unfold lfBnd View.bcs
  rw [openFuncs_bcs]
  cases openFuncs (bc k) with
  | some f => rfl
  | none =>
    simp only [Option.map_none, normalAt_vc]
    refine congrArg₂ (· * ·) rfl (dot_eq V.orth (fun i => rfl) fun i => ?_)
    rw [rotV_sub, rotV_sub, rotV_smul, atB_vc, V.nb]

/-- C140: the advection of momentum. -/
theorem C140_advection (hf : m.Flat) (T : Term m) (bc : ℕ → Option (Funcs m)) (uv : Vc m) (eta : Sc m) (uvOld : Vc m)
    (etaOld : Sc m) (w : Vc m) :
    Swe.advection (V.term T) (V.bcs bc) (V.vc uv) (V.sc eta) (V.vc uvOld) (V.sc etaOld) (V.vc w) =
      Swe.advection T bc uv eta uvOld etaOld w := by
  unfold Swe.advection
  refine if_congr Iff.rfl ?_ rfl
  simp only
  congr 1
  refine congrArg₂ (· + ·) (congrArg₂ (· + ·) (V.dx_eq fun x => ?_) ?_) (V.bndLoop_eq fun k x => momBnd_eq V ..)
  · simp only [div_outer, vc_v, dot_rot V.orth]; rfl
  · refine if_congr Iff.rfl (congrArg₂ (· + ·) (V.dS_eq fun x => ?_) ?_) rfl
    · simp only [jumpV_outer, avg_vc, dot_rot V.orth]
    · refine if_congr Iff.rfl (congrArg₂ (· + ·) (V.dS_eq fun x => ?_) (V.bndLoop_eq fun k x => lfBnd_eq V ..)) rfl
      have h1 : |∑ j, avg (V.vc uvOld j) x * m'.nm x j| = |∑ j, avg (uvOld j) (V.s x) * m.nm (V.s x) j| := by
        simp only [avg_vc]
        exact V.abs_normal hf _ x
      have h2 : ∑ i, jump (V.vc w i) x * jump (V.vc uv i) x = ∑ i, jump (w i) (V.s x) * jump (uv i) (V.s x) := by
        have : ∀ i, jump (V.vc w i) x * jump (V.vc uv i) x =
            rotV V.R (fun j => jump (w j) (V.s x)) i * rotV V.R (fun j => jump (uv j) (V.s x)) i := by
          intro i
          rw [jump_vc, jump_vc]
          linear_combination (rotV V.R (fun j => jump (w j) (V.s x)) i * rotV V.R (fun j => jump (uv j) (V.s x)) i) *
            V.sign_mul x
        simp only [this, dot_rot V.orth]
      rw [h1, h2]
      rfl

theorem symm_eq (T : Term m) (A : Fin 2 → Fin 2 → ℝ) (i j : Fin 2) :
    Swe.symm (V.term T) (rotT V.R A) i j = rotT V.R (Swe.symm T A) i j := by
  unfold Swe.symm
  change (if T.gradDiv = true then _ else _) = _
  split
  · rw [rotT_add]
    exact congrArg₂ (· + ·) rfl (rotT_swap _ _ _ _).symm
  · rfl

theorem tensorJump_eq (u : Vc m) (x : m'.S) (i j : Fin 2) :
    tensorJump (V.vc u) x i j = rotT V.R (tensorJump u (V.s x)) i j := by
  unfold tensorJump
  simp only [rotT_add, rotT_outer, vc_v, V.np, V.nm, View.pt]
  split
  · exact add_comm _ _
  · rfl

theorem stress_eq (T : Term m) (nu : Sc m) (u : Vc m) (x : Pt m') (i j : Fin 2) :
    stress (V.term T) (V.sc nu) (V.vc u) x i j = rotT V.R (stress T nu u (V.pt x)) i j := by
  unfold stress
  rw [rotT_smul, ← symm_eq]
  rfl

theorem sigmaMax_eq (T : Term m) (x : m'.S) : sigmaMax (V.term T) x = sigmaMax T (V.s x) := by
  unfold sigmaMax
  have hs : ∀ a b c, sigma (V.term T) a b c = sigma T a b c := fun _ _ _ => rfl
  simp only [hs, V.volP, V.volM, V.areaS, show (V.term T).sipg = V.sc T.sipg from rfl, sc_v, View.pt]
  cases V.flip x
  · rfl
  · simp only [if_true]
    split <;> split <;> first | rfl | linarith

theorem deltaUv_eq (T : Term m) (bc : ℕ → Option (Funcs m)) (uv : Vc m) (eta : Sc m) (k : ℕ) (x : m'.B) :
    deltaUv (V.term T) (V.bcs bc) (V.vc uv) (V.sc eta) k x = (deltaUv T bc uv eta k (V.b x)).map (rotV V.R) := by
  unfold deltaUv View.bcs
  rw [openFuncs_bcs]
  cases openFuncs (bc k) with
  | none => rfl
  | some f =>
    simp only [Option.map_some, un_funcs, uv_funcs, flux_funcs, normalAt_vc, V.nb, atB_vc, sc_v, bndF_eq]
    cases f.un with
    | some u =>
      simp only [Option.map_some, Option.some.injEq]
      exact funext fun i => (rotV_smul _ _ _ _).symm
    | none =>
      simp only [Option.map_none, Option.isSome_map]
      split
      · exact congrArg some (funext fun i => (rotV_sub _ _ _ _).symm)
      · rfl

theorem viscBnd_eq (T : Term m) (bc : ℕ → Option (Funcs m)) (nu : Sc m) (uv : Vc m) (eta : Sc m) (w : Vc m) (k : ℕ)
    (x : m'.B) : viscBnd (V.term T) (V.bcs bc) (V.sc nu) (V.vc uv) (V.sc eta) (V.vc w) k x =
      viscBnd T bc nu uv eta w k (V.b x) := by
  unfold viscBnd
  rw [deltaUv_eq]
  cases deltaUv T bc uv eta k (V.b x) with
  | none => rfl
  | some u =>
    simp only [Option.map_some]
    have hs : ∀ i j, (V.sc nu (.bnd x)).v * Swe.symm (V.term T) (fun a c => rotV V.R u a * m'.nb x c) i j =
        rotT V.R (fun i j => (nu (.bnd (V.b x))).v * Swe.symm T (fun a c => u a * m.nb (V.b x) c) i j) i j := by
      intro i j
      rw [rotT_smul]
      refine congrArg₂ (· * ·) rfl ?_
      rw [← symm_eq]
      congr 1
      funext a c
      rw [rotT_outer, V.nb]
    have hw : ∀ i j, (V.vc w i (.bnd x)).v * m'.nb x j =
        rotT V.R (fun a b => (w a (.bnd (V.b x))).v * m.nb (V.b x) b) i j := by
      intro i j
      rw [rotT_outer, V.nb]
      rfl
    simp only [Finset.sum_sub_distrib, ← Finset.mul_sum]
    rw [ddot_eq V.orth hw hs, ddot_eq V.orth (fun i j => vc_g V w i j (.bnd x)) hs,
      ddot_eq V.orth hw (fun i j => stress_eq V T nu uv (.bnd x) i j), V.volB, V.areaB]
    rfl

/-- C140: viscosity. -/
theorem C140_viscosity (T : Term m) (bc : ℕ → Option (Funcs m)) (nu : Option (Sc m)) (uv : Vc m) (eta etaOld : Sc m)
    (w : Vc m) : viscosity (V.term T) (V.bcs bc) (nu.map V.sc) (V.vc uv) (V.sc eta) (V.sc etaOld) (V.vc w) =
      viscosity T bc nu uv eta etaOld w := by
  cases nu with
  | none => rfl
  | some nu =>
    simp only [viscosity, Option.map_some]
    congr 1
    refine congrArg₂ (· + ·) (congrArg₂ (· + ·) (V.dx_eq fun x => ?_) ?_) ?_
    · exact ddot_eq V.orth (fun i j => vc_g V w i j (.cell x)) fun i j => stress_eq V T nu uv (.cell x) i j
    · refine if_congr Iff.rfl (congrArg₂ (· + ·) (V.dS_eq fun x => ?_) (V.bndLoop_eq fun k x => viscBnd_eq V ..)) rfl
      have hs : ∀ i j, avg (V.sc nu) x * Swe.symm (V.term T) (tensorJump (V.vc uv) x) i j =
          rotT V.R (fun i j => avg nu (V.s x) * Swe.symm T (tensorJump uv (V.s x)) i j) i j := by
        intro i j
        rw [rotT_smul, avg_sc, ← symm_eq]
        congr 2
        funext a c
        exact tensorJump_eq V uv x a c
      have hg : ∀ i j, 1 / 2 * ((V.vc w i (.plus x)).g j + (V.vc w i (.minus x)).g j) =
          rotT V.R (fun i j => 1 / 2 * ((w i (.plus (V.s x))).g j + (w i (.minus (V.s x))).g j)) i j := by
        intro i j
        rw [rotT_smul, rotT_add, vc_g, vc_g]
        rw [pt_plus, pt_minus]
        cases V.flip x
        · rfl
        · simp only [if_true]
          ring
      have ht : ∀ i j, 1 / 2 * (stress (V.term T) (V.sc nu) (V.vc uv) (.plus x) i j +
          stress (V.term T) (V.sc nu) (V.vc uv) (.minus x) i j) =
          rotT V.R (fun i j => 1 / 2 * (stress T nu uv (.plus (V.s x)) i j + stress T nu uv (.minus (V.s x)) i j)) i j := by
        intro i j
        rw [rotT_smul, rotT_add, stress_eq, stress_eq]
        rw [pt_plus, pt_minus]
        cases V.flip x
        · rfl
        · simp only [if_true]
          ring
      simp only [Finset.sum_sub_distrib, ← Finset.mul_sum]
      rw [ddot_eq V.orth (fun i j => tensorJump_eq V w x i j) hs, ddot_eq V.orth hg hs,
        ddot_eq V.orth (fun i j => tensorJump_eq V w x i j) ht, sigmaMax_eq]
    · refine if_congr Iff.rfl (V.dx_eq fun x => congrArg Neg.neg ?_) rfl
      refine dot_eq V.orth (fun i => rfl) fun j => ?_
      rw [← vecMul_rot V.orth]
      refine Finset.sum_congr rfl fun i _ => ?_
      rw [stress_eq, totalH_eq]
      simp only [div_eq_mul_inv, rotV_smul']
      rfl

/-- C140: the remaining forces. -/
theorem C140_forces (T : Term m) (K : Coeffs m) (bc : ℕ → Option (Funcs m)) (uv uvOld : Vc m) (etaOld : Sc m) (w : Vc m)
    (hct : ∀ F ∈ K.farms, ∀ u h, F.ct (rotV V.R u) h = F.ct u h) :
    Swe.coriolis (V.coeffs K).coriolis (V.vc uv) (V.vc w) = Swe.coriolis K.coriolis uv w ∧
    windStress (V.term T) (V.coeffs K).wind (V.sc etaOld) (V.vc w) = windStress T K.wind etaOld w ∧
    atmPressure (V.term T) (V.coeffs K).pressure (V.vc w) = atmPressure T K.pressure w ∧
    quadraticDrag (V.term T) (V.coeffs K).cd (V.vc uv) (V.vc uvOld) (V.sc etaOld) (V.vc w) =
      quadraticDrag T K.cd uv uvOld etaOld w ∧
    linearDrag (V.coeffs K).linear (V.vc uv) (V.vc w) = linearDrag K.linear uv w ∧
    boundaryDrag (V.bcs bc) (V.vc uv) (V.vc uvOld) (V.vc w) = boundaryDrag bc uv uvOld w ∧
    bottomDrag3d (V.term T) (V.coeffs K).bottomDrag (V.coeffs K).uvBottom (V.sc etaOld) (V.vc w) =
      bottomDrag3d T K.bottomDrag K.uvBottom etaOld w ∧
    momentumSource (V.coeffs K).source (V.vc w) = momentumSource K.source w ∧
    turbineDrag (V.term T) (V.coeffs K).farms (V.vc uv) (V.vc uvOld) (V.sc etaOld) (V.vc w) =
      turbineDrag T K.farms uv uvOld etaOld w := by
  refine ⟨?_, ?_, ?_, ?_, ?_, ?_, ?_, ?_, ?_⟩
  · unfold View.coeffs
    cases K.coriolis with
    | none => rfl
    | some f =>
      refine congrArg Neg.neg (V.dx_eq fun x => ?_)
      have h0 := V.orth 0 0
      have h1 := V.orth 1 1
      have h2 := V.orth 0 1
      simp only [Fin.sum_univ_two, if_true, show ¬ (0 : Fin 2) = 1 by decide, if_false] at h0 h1 h2
      have hd : V.det * V.det = 1 := by
        unfold View.det
        linear_combination (V.R 0 1 ^ 2 + V.R 1 1 ^ 2) * h0 + h1 - (V.R 0 0 * V.R 0 1 + V.R 1 0 * V.R 1 1) * h2
      simp only [vc_v, rotV, Fin.sum_univ_two]
      change V.det * (f (.cell (V.c x))).v * _ = _
      simp only [View.pt_cell]
      unfold View.det at hd ⊢
      linear_combination (f (.cell (V.c x))).v * (-(uv 1 (.cell (V.c x))).v * (w 0 (.cell (V.c x))).v +
        (uv 0 (.cell (V.c x))).v * (w 1 (.cell (V.c x))).v) * hd
  · unfold View.coeffs
    cases K.wind with
    | none => rfl
    | some t =>
      refine V.dx_eq fun x => ?_
      rw [totalH_eq]
      simp only [vc_v, dot_rot V.orth]
      rfl
  · unfold View.coeffs
    cases K.pressure with
    | none => rfl
    | some t =>
      refine congrArg Neg.neg (V.dx_eq fun x => ?_)
      simp only [vc_v, sc_g, dot_rot V.orth]
      rfl
  · unfold View.coeffs
    cases K.cd with
    | none => rfl
    | some t =>
      refine congrArg Neg.neg (V.dx_eq fun x => ?_)
      rw [totalH_eq]
      simp only [vc_v, dot_rot V.orth]
      rfl
  · unfold View.coeffs
    cases K.linear with
    | none => rfl
    | some t =>
      refine congrArg Neg.neg (V.dx_eq fun x => ?_)
      simp only [vc_v, dot_rot V.orth]
      rfl
  · refine congrArg Neg.neg (V.bndLoop_eq fun k x => ?_)
    unfold dragBnd View.bcs
    cases bc k with
    | none => rfl
    | some f =>
      simp only [Option.map_some, Option.bind_some, drag_funcs]
      cases f.drag with
      | none => rfl
      | some c =>
        have ht : ∀ (u : Vc m) i, tangential (V.vc u) x i = rotV V.R (tangential u (V.b x)) i := by
          intro u i
          unfold tangential
          rw [rotV_sub, rotV_smul, normalAt_vc, V.nb]
          rfl
        simp only [Option.map_some, ht, vc_v, dot_rot V.orth]
        rfl
  · unfold View.coeffs
    cases K.bottomDrag with
    | none => cases K.uvBottom <;> rfl
    | some c =>
      cases K.uvBottom with
      | none => rfl
      | some u =>
        refine congrArg Neg.neg (V.dx_eq fun x => ?_)
        rw [totalH_eq]
        refine dot_eq V.orth (fun i => ?_) fun i => rfl
        have hq := dot_rot V.orth (fun i => (u i (.cell (V.c x))).v) (fun i => (u i (.cell (V.c x))).v)
        simp only [Fin.sum_univ_two, ← sq] at hq
        simp only [vc_v, View.pt_cell, hq, div_eq_mul_inv, rotV_smul', rotV_smul]
        rfl
  · unfold View.coeffs
    cases K.source with
    | none => rfl
    | some t =>
      refine V.dx_eq fun x => ?_
      simp only [vc_v, dot_rot V.orth]
      rfl
  · unfold turbineDrag View.coeffs
    congr 2
    rw [List.map_map]
    refine List.map_congr_left fun F hF => V.dx_eq fun x => ?_
    rw [totalH_eq]
    refine if_congr Iff.rfl ?_ rfl
    simp only [vc_v, dot_rot V.orth]
    rw [show (V.farm F).ct = F.ct from rfl, show (fun i => rotV V.R (fun j => (uvOld j (V.pt (.cell x))).v) i) =
      rotV V.R fun j => (uvOld j (V.pt (.cell x))).v from rfl, hct F hF]
    rfl

/-- C140: the momentum equation does not depend on the numbering, the naming of the sides of facets or the axes. -/
theorem C140_momentum (hf : m.Flat) (T : Term m) (K : Coeffs m) (bc : ℕ → Option (Funcs m)) (uv : Vc m) (eta : Sc m)
    (uvOld : Vc m) (etaOld : Sc m) (w : Vc m) (hct : ∀ F ∈ K.farms, ∀ u h, F.ct (rotV V.R u) h = F.ct u h) :
    momentum (V.term T) (V.coeffs K) (V.bcs bc) (V.vc uv) (V.sc eta) (V.vc uvOld) (V.sc etaOld) (V.vc w) =
      momentum T K bc uv eta uvOld etaOld w := by
  obtain ⟨h1, h2, h3, h4, h5, h6, h7, h8, h9⟩ := C140_forces V T K bc uv uvOld etaOld w hct
  unfold momentum
  rw [C140_pressure, C140_advection V hf, show (V.coeffs K).nu = K.nu.map V.sc from rfl, C140_viscosity, h1, h2, h3, h4,
    h5, h6, h7, h8, h9]

/-- C140: the continuity equation, with its mass term. -/
theorem C140_continuity (T : Term m) (K : Coeffs m) (bc : ℕ → Option (Funcs m)) (uv : Vc m) (eta : Sc m)
    (uvOld : Vc m) (etaOld phi : Sc m) :
    continuity (V.term T) (V.coeffs K) (V.bcs bc) (V.vc uv) (V.sc eta) (V.vc uvOld) (V.sc etaOld) (V.sc phi) =
      continuity T K bc uv eta uvOld etaOld phi ∧
    massEta (V.term T) (V.sc eta) (V.sc phi) = massEta T eta phi := by
  constructor
  · unfold continuity
    rw [C140_transport]
    congr 1
    unfold View.coeffs
    cases K.volume with
    | none => rfl
    | some t => exact V.dx_eq fun x => rfl
  · unfold massEta
    refine congrArg₂ (· + ·) (V.dx_eq fun x => rfl) (congrArg Neg.neg (congrArg Neg.neg (V.dx_eq fun x => ?_)))
    have := congrArg Jet.v (V.displacement_eq T.depth (.cell x) (eta (V.pt (.cell x))))
    exact congrArg₂ (· * ·) this rfl

end Verif.Frame
