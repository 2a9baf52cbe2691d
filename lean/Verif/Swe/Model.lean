import Verif.Dg.Model
import Mathlib.Analysis.SpecialFunctions.Pow.Real
import Mathlib.Analysis.SpecialFunctions.Log.Basic

/-!
Model of the weak forms of thetis/shallowwater_eq.py on plane meshes, in the setting of `Verif.Dg`.  A residual
is the number that the form takes for one test function.  `g` is `g_grav` and `rho0` the reference density,
shallowwater_eq.py:202-203.
-/

namespace Verif.Swe

open Verif.Dg

variable {m : Mesh 2}

/-- One entry of the dictionary of a boundary: key and value.  `other` is any other key. -/
inductive Entry (m : Mesh 2) where
  | elev (f : m.B → ℝ)
  | uv (f : m.B → Fin 2 → ℝ)
  | un (f : m.B → ℝ)
  | flux (f : m.B → ℝ)
  | drag (f : m.B → ℝ)
  | other (name : String)

/-- The dictionary of a boundary, in insertion order. -/
abbrev Funcs (m : Mesh 2) := List (Entry m)

namespace Funcs

/-- `funcs['elev']` if present. -/
def elev (f : Funcs m) : Option (m.B → ℝ) := f.findSome? fun e => match e with | .elev x => some x | _ => none

/-- `funcs['uv']` if present. -/
def uv (f : Funcs m) : Option (m.B → Fin 2 → ℝ) :=
  f.findSome? fun e => match e with | .uv x => some x | _ => none

/-- `funcs['un']` if present. -/
def un (f : Funcs m) : Option (m.B → ℝ) := f.findSome? fun e => match e with | .un x => some x | _ => none

/-- `funcs['flux']` if present. -/
def flux (f : Funcs m) : Option (m.B → ℝ) := f.findSome? fun e => match e with | .flux x => some x | _ => none

/-- `funcs['drag']` if present. -/
def drag (f : Funcs m) : Option (m.B → ℝ) := f.findSome? fun e => match e with | .drag x => some x | _ => none

end Funcs

/-- Members and options of the terms: shallowwater_eq.py:211-230, 304-315 and 323-332.  `uDg` says that the velocity
space is discontinuous or H(div), `blen` is `boundary_len`. -/
structure Term (m : Mesh 2) where
  depth : Depth m
  g : ℝ
  rho0 : ℝ
  uDg : Bool
  etaDg : Bool
  blen : ℕ → ℝ
  nonlinear : Bool
  lf : Bool
  lfFactor : ℝ
  sipg : Sc m
  p : ℕ
  triangle : Bool
  gradDiv : Bool
  gradDepth : Bool
  smoother : ℝ

/-- `impose_dynamic_bnd`, shallowwater_eq.py:274-296: the loop over the keys. -/
def imposeLoop : Funcs m → Except String Bool
  | [] => .ok false
  | .other k :: _ => .error k
  | .drag _ :: r => imposeLoop r
  | _ :: _ => .ok true

/-- `impose_dynamic_bnd`, shallowwater_eq.py:274-296. -/
def imposeDynamic (f : Option (Funcs m)) : Except String Bool :=
  match f with
  | none => .ok false
  | some f => imposeLoop f

/-- The dictionary of a boundary that `impose_dynamic_bnd` takes as open.  Where it raises, no form exists; the
model then treats the boundary as closed. -/
def openFuncs (f : Option (Funcs m)) : Option (Funcs m) :=
  match imposeDynamic f with
  | .ok true => f
  | _ => none

/-- `get_total_depth` of an elevation value at a point. -/
noncomputable def depthAt (T : Term m) (x : Pt m) (eta : ℝ) : ℝ := (T.depth.total x (Jet.const eta)).v

/-- `get_bnd_functions`, shallowwater_eq.py:232-272, at a boundary point.  `none` where it raises. -/
noncomputable def bndFunctions (T : Term m) (f : Funcs m) (k : ℕ) (b : m.B) (etaIn : ℝ) (uvIn : Fin 2 → ℝ) :
    Option (ℝ × (Fin 2 → ℝ)) :=
  let n := m.nb b
  match f.elev with
  | some e =>
    match f.uv with
    | some u => some (e b, u b)
    | none => match f.un with
      | some u => some (e b, fun i => u b * n i)
      | none => match f.flux with
        | some q =>
          let area := depthAt T (.bnd b) (e b) * T.blen k
          some (e b, fun i => q b / area * n i)
        | none => some (e b, uvIn)
  | none =>
    match f.uv with
    | some u => some (etaIn, u b)
    | none => match f.un with
      | some u => some (etaIn, fun i => u b * n i)
      | none => match f.flux with
        | some q =>
          let area := depthAt T (.bnd b) etaIn * T.blen k
          some (etaIn, fun i => q b / area * n i)
        | none => none

/-- `bndFunctions` with default `(etaIn, uvIn)`, for use where a key is known to be present. -/
noncomputable def bndF (T : Term m) (f : Funcs m) (k : ℕ) (b : m.B) (etaIn : ℝ) (uvIn : Fin 2 → ℝ) :
    ℝ × (Fin 2 → ℝ) := (bndFunctions T f k b etaIn uvIn).getD (etaIn, uvIn)

/-- Value of a vector at a boundary point. -/
def atB (f : Vc m) (b : m.B) : Fin 2 → ℝ := fun i => (f i (.bnd b)).v

/-- `get_total_depth` of an expression. -/
noncomputable def totalH (T : Term m) (eta : Sc m) : Sc m := fun x => T.depth.total x (eta x)

/-- Head at an open boundary in the pressure gradient, shallowwater_eq.py:371-374 and 388-391. -/
noncomputable def headOpen (T : Term m) (f : Funcs m) (k : ℕ) (uv : Vc m) (eta etaOld : Sc m) (b : m.B) : ℝ :=
  let head := (eta (.bnd b)).v
  let r := bndF T f k b head (atB uv b)
  let unJump := ∑ i, (atB uv b i - r.2 i) * m.nb b i
  (1 / 2) * (head + r.1) + Real.sqrt ((totalH T etaOld (.bnd b)).v / T.g) * unJump

/-- Head at a boundary in the form integrated by parts, shallowwater_eq.py:370-381. -/
noncomputable def headBnd (T : Term m) (bc : ℕ → Option (Funcs m)) (uv : Vc m) (eta etaOld : Sc m) (k : ℕ) (b : m.B) :
    ℝ :=
  match openFuncs (bc k) with
  | some f => headOpen T f k uv eta etaOld b
  | none => (eta (.bnd b)).v + Real.sqrt ((totalH T etaOld (.bnd b)).v / T.g) * normalAt uv b

/-- Jump of the head at an open boundary in the form not integrated by parts, shallowwater_eq.py:387-392. -/
noncomputable def headCorr (T : Term m) (bc : ℕ → Option (Funcs m)) (uv : Vc m) (eta etaOld : Sc m) (k : ℕ) (b : m.B) :
    ℝ :=
  match openFuncs (bc k) with
  | some f => headOpen T f k uv eta etaOld b - (eta (.bnd b)).v
  | none => 0

/-- `ExternalPressureGradientTerm.residual`, shallowwater_eq.py:353-393, with a velocity. -/
noncomputable def pressure (T : Term m) (bc : ℕ → Option (Funcs m)) (uv : Vc m) (eta etaOld : Sc m) (w : Vc m) : ℝ :=
  let h := totalH T etaOld
  if T.etaDg then
    let f := m.dx fun x => -(T.g * (eta (.cell x)).v * div w (.cell x))
    let f := f + m.dS fun s =>
      T.g * (avg eta s + Real.sqrt (avg h s / T.g) * jumpV uv s) * jumpV w s
    let f := f + m.bndLoop fun k b => T.g * headBnd T bc uv eta etaOld k b * normalAt w b
    Neg.neg f
  else
    let f := m.dx fun x => T.g * ∑ i, (eta (.cell x)).g i * (w i (.cell x)).v
    let f := f + m.bndLoop fun k b => T.g * headCorr T bc uv eta etaOld k b * normalAt w b
    Neg.neg f

/-- Volume flux through an open boundary, shallowwater_eq.py:432-442. -/
noncomputable def fluxOpen (T : Term m) (f : Funcs m) (k : ℕ) (uv : Vc m) (eta : Sc m) (uvOld : Vc m) (etaOld : Sc m)
    (b : m.B) : ℝ :=
  let r := bndF T f k b (eta (.bnd b)).v (atB uv b)
  let ro := bndF T f k b (etaOld (.bnd b)).v (atB uvOld b)
  let totalHExt := depthAt T (.bnd b) ro.1
  let hAv := (1 / 2) * ((totalH T etaOld (.bnd b)).v + totalHExt)
  let etaJump := (eta (.bnd b)).v - r.1
  let unRie := (1 / 2) * (∑ i, (atB uv b i + r.2 i) * m.nb b i) + Real.sqrt (T.g / hAv) * etaJump
  let unJump := ∑ i, (atB uvOld b i - ro.2 i) * m.nb b i
  let etaRie := (1 / 2) * ((etaOld (.bnd b)).v + ro.1) + Real.sqrt (hAv / T.g) * unJump
  depthAt T (.bnd b) etaRie * unRie

/-- Volume flux through a boundary point in the form integrated by parts, shallowwater_eq.py:431-442. -/
noncomputable def volFlux (T : Term m) (bc : ℕ → Option (Funcs m)) (uv : Vc m) (eta : Sc m) (uvOld : Vc m)
    (etaOld : Sc m) (k : ℕ) (b : m.B) : ℝ :=
  match openFuncs (bc k) with
  | some f => fluxOpen T f k uv eta uvOld etaOld b
  | none => 0

/-- The condition of shallowwater_eq.py:448: the boundary is not open or its dictionary has `un`. -/
def walled (bc : ℕ → Option (Funcs m)) (k : ℕ) : Bool :=
  match openFuncs (bc k) with
  | some f => f.un.isSome
  | none => true

/-- `HUDivTerm.residual`, shallowwater_eq.py:416-450. -/
noncomputable def huDiv (T : Term m) (bc : ℕ → Option (Funcs m)) (uv : Vc m) (eta : Sc m) (uvOld : Vc m)
    (etaOld phi : Sc m) : ℝ :=
  let h := totalH T etaOld
  if T.uDg then
    let f := m.dx fun x => -∑ i, (phi (.cell x)).g i * ((h (.cell x)).v * (uv i (.cell x)).v)
    let f := f + if T.etaDg then
        m.dS fun s => ∑ i, jumpN phi s i *
          (avg h s * (avg (uv i) s + Real.sqrt (T.g / avg h s) * jumpN eta s i))
      else 0
    let f := f + m.bndLoop fun k b => volFlux T bc uv eta uvOld etaOld k b * (phi (.bnd b)).v
    Neg.neg f
  else
    let f := m.dx fun x => div (fun i => h * uv i) (.cell x) * (phi (.cell x)).v
    let f := f + m.bndLoop fun k b => if walled bc k then -((h (.bnd b)).v * normalAt uv b * (phi (.bnd b)).v) else 0
    Neg.neg f

/-- Momentum flux through an open boundary, per unit test velocity, component `i`, shallowwater_eq.py:502-509. -/
noncomputable def momFlux (T : Term m) (f : Funcs m) (k : ℕ) (uv : Vc m) (eta : Sc m) (uvOld : Vc m) (etaOld : Sc m)
    (b : m.B) (i : Fin 2) : ℝ :=
  let r := bndF T f k b (eta (.bnd b)).v (atB uv b)
  let ro := bndF T f k b (etaOld (.bnd b)).v (atB uvOld b)
  let etaJump := (etaOld (.bnd b)).v - ro.1
  let unRie := (1 / 2) * (∑ j, (atB uvOld b j + ro.2 j) * m.nb b j) +
    Real.sqrt (T.g / (totalH T etaOld (.bnd b)).v) * etaJump
  unRie * ((1 / 2) * (r.2 i + atB uv b i))

/-- Boundary integrand of the momentum flux, shallowwater_eq.py:501-509. -/
noncomputable def momBnd (T : Term m) (bc : ℕ → Option (Funcs m)) (uv : Vc m) (eta : Sc m) (uvOld : Vc m)
    (etaOld : Sc m) (w : Vc m) (k : ℕ) (b : m.B) : ℝ :=
  match openFuncs (bc k) with
  | some fu => ∑ i, momFlux T fu k uv eta uvOld etaOld b i * (w i (.bnd b)).v
  | none => 0

/-- Boundary integrand of the Lax-Friedrichs part, shallowwater_eq.py:492-497. -/
noncomputable def lfBnd (T : Term m) (bc : ℕ → Option (Funcs m)) (uv uvOld w : Vc m) (k : ℕ) (b : m.B) : ℝ :=
  match openFuncs (bc k) with
  | some _ => 0
  | none => (1 / 2) * |normalAt uvOld b| * T.lfFactor *
      ∑ i, (w i (.bnd b)).v * (atB uv b i - (atB uv b i - 2 * normalAt uv b * m.nb b i))

/-- `HorizontalAdvectionTerm.residual`, shallowwater_eq.py:470-510. -/
noncomputable def advection (T : Term m) (bc : ℕ → Option (Funcs m)) (uv : Vc m) (eta : Sc m) (uvOld : Vc m)
    (etaOld : Sc m) (w : Vc m) : ℝ :=
  if T.nonlinear then
    let f := m.dx fun x => -∑ i, div (fun j => w i * uvOld j) (.cell x) * (uv i (.cell x)).v
    let f := f + if T.uDg then
        m.dS (fun s => ∑ i, avg (uv i) s * jumpV (fun j => w i * uvOld j) s) +
        if T.lf then
          m.dS (fun s => (1 / 2) * |∑ j, avg (uvOld j) s * m.nm s j| * T.lfFactor *
            ∑ i, jump (w i) s * jump (uv i) s) +
          m.bndLoop fun k b => lfBnd T bc uv uvOld w k b
        else 0
      else 0
    let f := f + m.bndLoop fun k b => momBnd T bc uv eta uvOld etaOld w k b
    Neg.neg f
  else 0

/-- The penalty parameter for one side, shallowwater_eq.py:576-579. -/
noncomputable def sigma (T : Term m) (sipg vol area : ℝ) : ℝ :=
  let cp : ℝ := if T.triangle then (T.p + 1) * (T.p + 2) / 2 else (T.p + 1) ^ 2
  sipg * cp / (vol / area)

/-- `sigma_max`, shallowwater_eq.py:580-582. -/
noncomputable def sigmaMax (T : Term m) (s : m.S) : ℝ :=
  let sp := sigma T (T.sipg (.plus s)).v (m.volP s) (m.areaS s)
  let sm := sigma T (T.sipg (.minus s)).v (m.volM s) (m.areaS s)
  if sp > sm then sp else sm

/-- Twice the symmetric part, or the tensor itself, shallowwater_eq.py:564-569 and 602-605. -/
def symm (T : Term m) (a : Fin 2 → Fin 2 → ℝ) (i j : Fin 2) : ℝ :=
  if T.gradDiv then a i j + a j i else a i j

/-- `tensor_jump`, utility.py:807-818. -/
def tensorJump (u : Vc m) (s : m.S) (i j : Fin 2) : ℝ :=
  (u i (.plus s)).v * m.np s j + (u i (.minus s)).v * m.nm s j

/-- The viscous stress at a point, shallowwater_eq.py:565 and 568. -/
def stress (T : Term m) (nu : Sc m) (u : Vc m) (x : Pt m) (i j : Fin 2) : ℝ :=
  (nu x).v * symm T (fun a b => (u a x).g b) i j

/-- The jump of the velocity at an open boundary in the viscosity term, `none` where the boundary is skipped,
shallowwater_eq.py:593-600.  The code skips when `uv_ext is uv`, that is for a dictionary with `elev` and no velocity. -/
noncomputable def deltaUv (T : Term m) (bc : ℕ → Option (Funcs m)) (uv : Vc m) (eta : Sc m) (k : ℕ) (b : m.B) :
    Option (Fin 2 → ℝ) :=
  match openFuncs (bc k) with
  | none => none
  | some f =>
    match f.un with
    | some u => some fun i => (normalAt uv b - u b) * m.nb b i
    | none =>
      if f.uv.isSome || f.flux.isSome then
        let r := bndF T f k b (eta (.bnd b)).v (atB uv b)
        some fun i => atB uv b i - r.2 i
      else none

/-- Boundary integrand of the viscosity term, shallowwater_eq.py:593-611. -/
noncomputable def viscBnd (T : Term m) (bc : ℕ → Option (Funcs m)) (nu : Sc m) (uv : Vc m) (eta : Sc m) (w : Vc m)
    (k : ℕ) (b : m.B) : ℝ :=
  match deltaUv T bc uv eta k b with
  | none => 0
  | some d =>
    let n := m.nb b
    let sj := fun i j => (nu (.bnd b)).v * symm T (fun a c => d a * n c) i j
    ∑ i, ∑ j, (sigma T (T.sipg (.bnd b)).v (m.volB b) (m.areaB b) * ((w i (.bnd b)).v * n j * sj i j) -
      (w i (.bnd b)).g j * sj i j - (w i (.bnd b)).v * n j * stress T nu uv (.bnd b) i j)

/-- `HorizontalViscosityTerm.residual`, shallowwater_eq.py:554-616. -/
noncomputable def viscosity (T : Term m) (bc : ℕ → Option (Funcs m)) (nu : Option (Sc m)) (uv : Vc m) (eta etaOld : Sc m)
    (w : Vc m) : ℝ :=
  match nu with
  | none => 0
  | some nu =>
    let f := m.dx fun x => ∑ i, ∑ j, (w i (.cell x)).g j * stress T nu uv (.cell x) i j
    let f := f + if T.uDg then
        m.dS (fun s => ∑ i, ∑ j,
          (sigmaMax T s * (tensorJump w s i j * (avg nu s * symm T (tensorJump uv s) i j)) -
            (1 / 2) * ((w i (.plus s)).g j + (w i (.minus s)).g j) * (avg nu s * symm T (tensorJump uv s) i j) -
            tensorJump w s i j * ((1 / 2) * (stress T nu uv (.plus s) i j + stress T nu uv (.minus s) i j)))) +
        m.bndLoop fun k b => viscBnd T bc nu uv eta w k b
      else 0
    let f := f + if T.gradDepth then
        m.dx fun x => -∑ j, (w j (.cell x)).v *
          ∑ i, (totalH T etaOld (.cell x)).g i / (totalH T etaOld (.cell x)).v * stress T nu uv (.cell x) i j
      else 0
    Neg.neg f

/-- `CoriolisTerm.residual` on a plane mesh, shallowwater_eq.py:623-634. -/
def coriolis (f : Option (Sc m)) (uv w : Vc m) : ℝ :=
  match f with
  | none => 0
  | some f => -(m.dx fun x => (f (.cell x)).v *
      (-(uv 1 (.cell x)).v * (w 0 (.cell x)).v + (uv 0 (.cell x)).v * (w 1 (.cell x)).v))

/-- `WindStressTerm.residual`, shallowwater_eq.py:643-649. -/
noncomputable def windStress (T : Term m) (tau : Option (Vc m)) (etaOld : Sc m) (w : Vc m) : ℝ :=
  match tau with
  | none => 0
  | some tau => m.dx fun x => (∑ i, (tau i (.cell x)).v * (w i (.cell x)).v) / (totalH T etaOld (.cell x)).v / T.rho0

/-- `AtmosphericPressureTerm.residual`, shallowwater_eq.py:658-663. -/
noncomputable def atmPressure (T : Term m) (p : Option (Sc m)) (w : Vc m) : ℝ :=
  match p with
  | none => 0
  | some p => -(m.dx fun x => (∑ i, (p (.cell x)).g i * (w i (.cell x)).v) / T.rho0)

/-- The drag coefficient of `QuadraticDragTerm`, shallowwater_eq.py:681-697, at a point of depth `h`; `vk` is the
von Karman constant. -/
noncomputable def dragCoefficient (T : Term m) (vk h : ℝ) (manning nikuradse cd : Option ℝ) :
    Except String (Option ℝ) := do
  let cd ← match manning, cd with
    | some _, some _ => .error "Cannot set both dimensionless and Manning drag parameter"
    | some mu, none => .ok (some (T.g * mu ^ 2 / h ^ (1 / 3 : ℝ)))
    | none, cd => .ok cd
  match nikuradse with
  | none => .ok cd
  | some ks =>
    if manning.isSome then .error "Cannot set both Nikuradse drag and Manning drag parameter"
    else if cd.isSome then .error "Cannot set both dimensionless and Nikuradse drag parameter"
    else .ok (some (if h > ks then 2 * vk ^ 2 / (Real.log (11.036 * h / ks)) ^ 2 else 0))

/-- `QuadraticDragTerm.residual`, shallowwater_eq.py:699-701, with the coefficient at the cell points. -/
noncomputable def quadraticDrag (T : Term m) (cd : Option (m.C → ℝ)) (uv uvOld : Vc m) (etaOld : Sc m) (w : Vc m) : ℝ :=
  match cd with
  | none => 0
  | some cd => -(m.dx fun x => cd x *
      Real.sqrt ((∑ i, (uvOld i (.cell x)).v * (uvOld i (.cell x)).v) + T.smoother ^ 2) *
      (∑ i, (w i (.cell x)).v * (uv i (.cell x)).v) / (totalH T etaOld (.cell x)).v)

/-- The tangential part of a vector at a boundary point, shallowwater_eq.py:721-722. -/
def tangential (u : Vc m) (b : m.B) (i : Fin 2) : ℝ := atB u b i - normalAt u b * m.nb b i

/-- Boundary integrand of `BoundaryDragTerm`, shallowwater_eq.py:717-724. -/
noncomputable def dragBnd (bc : ℕ → Option (Funcs m)) (uv uvOld w : Vc m) (k : ℕ) (b : m.B) : ℝ :=
  match (bc k).bind Funcs.drag with
  | none => 0
  | some cd => cd b * Real.sqrt (∑ i, tangential uvOld b i * tangential uvOld b i) *
      ∑ i, (w i (.bnd b)).v * tangential uv b i

/-- `BoundaryDragTerm.residual`, shallowwater_eq.py:712-725. -/
noncomputable def boundaryDrag (bc : ℕ → Option (Funcs m)) (uv uvOld w : Vc m) : ℝ :=
  -(m.bndLoop fun k b => dragBnd bc uv uvOld w k b)

/-- `LinearDragTerm.residual`, shallowwater_eq.py:734-740. -/
def linearDrag (c : Option (Sc m)) (uv w : Vc m) : ℝ :=
  match c with
  | none => 0
  | some c => -(m.dx fun x => (c (.cell x)).v * ∑ i, (w i (.cell x)).v * (uv i (.cell x)).v)

/-- `BottomDrag3DTerm.residual`, shallowwater_eq.py:752-762. -/
noncomputable def bottomDrag3d (T : Term m) (cd : Option (Sc m)) (ub : Option (Vc m)) (etaOld : Sc m) (w : Vc m) : ℝ :=
  match cd, ub with
  | some cd, some ub => -(m.dx fun x => ∑ i, (cd (.cell x)).v *
      Real.sqrt ((ub 0 (.cell x)).v ^ 2 + (ub 1 (.cell x)).v ^ 2) * (ub i (.cell x)).v /
        (totalH T etaOld (.cell x)).v * (w i (.cell x)).v)
  | _, _ => 0

/-- A turbine farm: its region, density and drag as a function of velocity and depth. -/
structure Farm (m : Mesh 2) where
  inside : m.C → Bool
  density : m.C → ℝ
  ct : (Fin 2 → ℝ) → ℝ → ℝ

/-- `TurbineDragTerm.residual`, shallowwater_eq.py:783-791. -/
noncomputable def turbineDrag (T : Term m) (farms : List (Farm m)) (uv uvOld : Vc m) (etaOld : Sc m) (w : Vc m) : ℝ :=
  Neg.neg ((farms.map fun F => m.dx fun x => if F.inside x then
    F.ct (fun i => (uvOld i (.cell x)).v) (totalH T etaOld (.cell x)).v * F.density x *
      Real.sqrt (∑ i, (uvOld i (.cell x)).v * (uvOld i (.cell x)).v) *
      (∑ i, (w i (.cell x)).v * (uv i (.cell x)).v) / (totalH T etaOld (.cell x)).v else 0).sum)

/-- `MomentumSourceTerm.residual`, shallowwater_eq.py:805-811. -/
def momentumSource (s : Option (Vc m)) (w : Vc m) : ℝ :=
  match s with
  | none => 0
  | some s => m.dx fun x => ∑ i, (s i (.cell x)).v * (w i (.cell x)).v

/-- `ContinuitySourceTerm.residual`, shallowwater_eq.py:825-831. -/
def volumeSource (s : Option (Sc m)) (phi : Sc m) : ℝ :=
  match s with
  | none => 0
  | some s => m.dx fun x => (s (.cell x)).v * (phi (.cell x)).v

/-- `mass_term` of the free surface part, equation.py:105 and shallowwater_eq.py:844-850 and 917-920. -/
noncomputable def massEta (T : Term m) (eta phi : Sc m) : ℝ :=
  let f := m.dx fun x => (eta (.cell x)).v * (phi (.cell x)).v
  let r := -(m.dx fun x => (T.depth.displacement (.cell x) (eta (.cell x))).v * (phi (.cell x)).v)
  f + -r

/-- The coefficient fields that the terms read; `none` is a field that is not set. -/
structure Coeffs (m : Mesh 2) where
  nu : Option (Sc m)
  coriolis : Option (Sc m)
  wind : Option (Vc m)
  pressure : Option (Sc m)
  cd : Option (m.C → ℝ)
  linear : Option (Sc m)
  bottomDrag : Option (Sc m)
  uvBottom : Option (Vc m)
  source : Option (Vc m)
  volume : Option (Sc m)
  farms : List (Farm m)

/-- The momentum part of the residual of `ShallowWaterEquations` for all labels, shallowwater_eq.py:867-880 and
886-890. -/
noncomputable def momentum (T : Term m) (K : Coeffs m) (bc : ℕ → Option (Funcs m)) (uv : Vc m) (eta : Sc m)
    (uvOld : Vc m) (etaOld : Sc m) (w : Vc m) : ℝ :=
  pressure T bc uv eta etaOld w + advection T bc uv eta uvOld etaOld w + viscosity T bc K.nu uv eta etaOld w +
    coriolis K.coriolis uv w + windStress T K.wind etaOld w + atmPressure T K.pressure w +
    quadraticDrag T K.cd uv uvOld etaOld w + linearDrag K.linear uv w + boundaryDrag bc uv uvOld w +
    bottomDrag3d T K.bottomDrag K.uvBottom etaOld w + momentumSource K.source w +
    turbineDrag T K.farms uv uvOld etaOld w

/-- The continuity part, shallowwater_eq.py:882-884. -/
noncomputable def continuity (T : Term m) (K : Coeffs m) (bc : ℕ → Option (Funcs m)) (uv : Vc m) (eta : Sc m)
    (uvOld : Vc m) (etaOld phi : Sc m) : ℝ :=
  huDiv T bc uv eta uvOld etaOld phi + volumeSource K.volume phi

end Verif.Swe
