import Verif.Ext.Model
import Mathlib.Analysis.SpecialFunctions.Log.Basic

/-!
Model of the weak forms of thetis/momentum_eq.py on extruded meshes, in the setting of `Verif.Ext`.  A residual is the
number that the form takes for one test function.
-/

namespace Verif.Mom3

open Verif.Dg Verif.Ext

variable {e : Mesh3}

/-- The entry of `bnd_conditions` for one boundary id: which keys it has, and their values; momentum_eq.py:224-245 and
683-689.  Other keys are ignored if one of these is present. -/
structure BFuncs (e : Mesh3) where
  symm : Bool := false
  uv : Option (e.m.B → Fin 3 → ℝ) := none
  un : Option (e.m.B → ℝ) := none
  flux : Option (e.m.B → ℝ) := none
  barocHead : Option (e.m.B → ℝ) := none

/-- Members of `MomentumTerm`, momentum_eq.py:105-125 and equation.py:30.  `hdg`, `vdg` say that the continuity is in
`['dg', 'hdiv']`, `lf` is `use_lax_friedrichs`, `p`, `q` the polynomial degrees, `z` the value of
`sign(0)`, `kappa`, `rho0`, `g` the physical constants.  `sipg_factor` is a Constant. -/
structure Term (e : Mesh3) where
  hdg : Bool
  vdg : Bool
  nonlinear : Bool
  lf : Bool
  friction : Bool
  sipg : ℝ
  sipgV : Sc e.m
  p : ℕ
  q : ℕ
  triangle : Bool
  bath : Sc e.m
  elemH : Sc e.m
  blen : ℕ → ℝ
  z : ℝ
  kappa : ℝ
  rho0 : ℝ
  g : ℝ

/-- The entries of `fields_old` used by the terms.  `w` is the third component of the vertical velocity. -/
structure Fields (e : Mesh3) where
  uvDav : Option (Vc e.m) := none
  eta : Sc e.m
  w : Option (Sc e.m) := none
  wMesh : Option (Sc e.m) := none
  lfFactor : ℝ
  viscH : Option (Sc e.m) := none
  viscV : Option (Sc e.m) := none
  drag : Option (Sc e.m) := none
  roughness : Option (Sc e.m) := none
  linDrag : Option (Sc e.m) := none
  coriolis : Option (Sc e.m) := none
  source : Option (Vc e.m) := none
  wind : Option (Vc e.m) := none
  intPg : Option (Vc e.m) := none

/-- Sum over the two horizontal components. -/
def h2 (f : Fin 3 → ℝ) : ℝ := f 0 + f 1

/-- `solution + uv_depth_av`, momentum_eq.py:186-192, 288-292, 344-348, 474-480 and 511-515. -/
def total (F : Fields e) (u : Vc e.m) : Vc e.m :=
  match F.uvDav with
  | some d => fun i => u i + d i
  | none => u

/-- `PressureGradientTerm.residual`, momentum_eq.py:153-160. -/
noncomputable def pressureGradient (F : Fields e) (test : Vc e.m) : ℝ :=
  match F.intPg with
  | none => 0
  | some pg => -(e.m.dx fun x => h2 fun i => (pg i (.cell x)).v * (test i (.cell x)).v)

/-- The upwind switch, momentum_eq.py:201, 255 and 302. -/
noncomputable def upwind (T : Term e) (un : ℝ) : ℝ := (1 / 2) * (sgn T.z un + 1)

/-- `un_av`, momentum_eq.py:198-200. -/
noncomputable def unAv (uv : Vc e.m) (s : e.m.S) : ℝ := h2 fun j => avg (uv j) s * e.m.nm s j

/-- The upwind value of one component, momentum_eq.py:202 and 303. -/
noncomputable def uvUp (T : Term e) (u : Sc e.m) (un : ℝ) (s : e.m.S) : ℝ :=
  (u (.minus s)).v * upwind T un + (u (.plus s)).v * (1 - upwind T un)

/-- `uv_ext` at an open side, momentum_eq.py:225-245.  `none` where the code raises `Unsupported bnd type`. -/
noncomputable def extUv (T : Term e) (F : Fields e) (f : BFuncs e) (k : ℕ) (uv : Vc e.m) (b : e.m.B) :
    Option (Fin 3 → ℝ) :=
  if f.symm then some fun i => (uv i (.bnd b)).v
  else match f.uv with
    | some u => some (u b)
    | none => match f.un with
      | some u => some fun i => e.m.nb b i * u b
      | none => match f.flux with
        | some q =>
          let h := (T.bath (.bnd b)).v + (F.eta (.bnd b)).v
          some fun i => e.m.nb b i * (q b / h / T.blen k)
        | none => none

/-- `extUv` with the interior value where the code raises; no form exists then. -/
noncomputable def extF (T : Term e) (F : Fields e) (f : BFuncs e) (k : ℕ) (uv : Vc e.m) (b : e.m.B) : Fin 3 → ℝ :=
  (extUv T F f k uv b).getD fun i => (uv i (.bnd b)).v

/-- The integrand on a closed side, momentum_eq.py:216-222. -/
noncomputable def wall (T : Term e) (F : Fields e) (uv test : Vc e.m) (b : e.m.B) : ℝ :=
  let un := ∑ i, (uv i (.bnd b)).v * e.m.nb b i
  let ext : Fin 3 → ℝ := fun i => (uv i (.bnd b)).v - 2 * un * e.m.nb b i
  if T.lf then
    (1 / 2) * |un| * F.lfFactor * h2 fun i => (test i (.bnd b)).v * ((uv i (.bnd b)).v - ext i)
  else 0

/-- The integrand on an open side, momentum_eq.py:246-259. -/
noncomputable def openSide (T : Term e) (F : Fields e) (f : BFuncs e) (k : ℕ) (uv test : Vc e.m) (b : e.m.B) : ℝ :=
  let n := e.m.nb b
  let uin : Fin 3 → ℝ := fun i => (uv i (.bnd b)).v
  let ext := extF T F f k uv b
  let uvAv : Fin 3 → ℝ := fun i => (1 / 2) * (uin i + ext i)
  let s := upwind T (uvAv 0 * n 0 + uvAv 1 * n 1)
  (h2 fun i => h2 fun j => uin i * (test i (.bnd b)).v * n j * uin j) +
    (1 - s) * h2 fun i => h2 fun j => (ext i - uin i) * (test i (.bnd b)).v * n j * uvAv j

/-- The integrand on a side, momentum_eq.py:213-259. -/
noncomputable def sideTerm (T : Term e) (F : Fields e) (f : Option (BFuncs e)) (k : ℕ) (uv test : Vc e.m) (b : e.m.B) :
    ℝ :=
  match f with
  | none => wall T F uv test b
  | some f => openSide T F f k uv test b

/-- `HorizontalAdvectionTerm.residual`, momentum_eq.py:181-266. -/
noncomputable def hAdvection (T : Term e) (F : Fields e) (bc : ℕ → Option (BFuncs e)) (sol old test : Vc e.m) : ℝ :=
  if T.nonlinear then
    let uv := total F sol
    let uvOld := total F old
    let f := e.m.dx fun x => -(h2 fun i => h2 fun j => (test i (.cell x)).g j * (uv i (.cell x)).v * (uvOld j (.cell x)).v)
    let f := f + if T.hdg then
        let flux : e.m.S → ℝ := fun s =>
          h2 fun i => h2 fun j => uvUp T (uv i) (unAv uvOld s) s * avg (uvOld j) s * jumpN (test i) s j
        let stab : e.m.S → ℝ := fun s =>
          (1 / 2) * |unAv uvOld s| * F.lfFactor * h2 fun i => jump (test i) s * jump (uv i) s
        e.dSv flux + e.dSh flux + (if T.lf then e.dSv stab + e.dSh stab else 0) +
          e.sideLoop fun k b => sideTerm T F (bc k) k uv test b
      else 0
    let f := f + e.dsurf fun b =>
      h2 fun i => h2 fun j => (uvOld i (.bnd b)).v * (uv j (.bnd b)).v * (test i (.bnd b)).v * e.m.nb b j
    Neg.neg f
  else 0

/-- `w[2] - w_mesh`, momentum_eq.py:294-296. -/
def vertVelo (F : Fields e) (w : Sc e.m) : Sc e.m :=
  match F.wMesh with
  | some m => w - m
  | none => w

/-- `VerticalAdvectionTerm.residual`, momentum_eq.py:280-314. -/
noncomputable def vAdvection (T : Term e) (F : Fields e) (sol test : Vc e.m) : ℝ :=
  match F.w with
  | none => 0
  | some w3 =>
    if T.nonlinear then
      let uv := total F sol
      let w := vertVelo F w3
      let f := e.m.dx fun x => -(h2 fun i => (test i (.cell x)).g 2 * (uv i (.cell x)).v * (w (.cell x)).v)
      let f := f + if T.vdg then
          e.dSh (fun s => h2 fun i =>
            uvUp T (uv i) (avg w s * e.m.nm s 2) s * avg w s * jumpN (test i) s 2) +
          if T.lf then
            e.dSh fun s => (1 / 2) * |avg w s * e.m.nm s 2| * F.lfFactor * h2 fun i => jump (test i) s * jump (uv i) s
          else 0
        else 0
      let f := f + e.dsurf fun b => h2 fun i =>
        (uv i (.bnd b)).v * (w (.bnd b)).v * (test i (.bnd b)).v * e.m.nb b 2
      Neg.neg f
    else 0

/-- The penalty factor of the horizontal terms, momentum_eq.py:364-371. -/
noncomputable def sigmaH (T : Term e) (s : e.m.S) : ℝ :=
  let cp : ℝ := if T.triangle then (T.p + 1) * (T.p + 2) / 2 else (T.p + 1) ^ 2
  let sp := cp * e.m.areaS s / e.m.volP s
  let sm := cp * e.m.areaS s / e.m.volM s
  T.sipg * if sp > sm then sp else sm

/-- `avg(dot(visc_tensor, nabla_grad(v)))` of component `c` in the direction `i`, momentum_eq.py:377-380. -/
noncomputable def avgStress (mu : Sc e.m) (v : Sc e.m) (s : e.m.S) (i : Fin 3) : ℝ :=
  (1 / 2) * ((mu (.plus s)).v * (v (.plus s)).g i + (mu (.minus s)).v * (v (.minus s)).g i)

/-- `HorizontalViscosityTerm.residual`, momentum_eq.py:337-389.  The tensors are written out: `visc_tensor` keeps the
horizontal directions; the facet terms contain all three components of the velocity. -/
noncomputable def hViscosity (T : Term e) (F : Fields e) (sol test : Vc e.m) : ℝ :=
  match F.viscH with
  | none => 0
  | some mu =>
    let uv := total F sol
    let f := e.m.dx fun x => h2 fun i => h2 fun j => (test i (.cell x)).g j * ((mu (.cell x)).v * (uv i (.cell x)).g j)
    let f := f + if T.hdg then
        e.m.dS fun s => ∑ c : Fin 3,
          (sigmaH T s * (h2 fun i => jumpN (test c) s i * (avg mu s * jumpN (uv c) s i)) -
            (h2 fun i => avgStress mu (test c) s i * jumpN (uv c) s i) -
            h2 fun i => jumpN (test c) s i * avgStress mu (uv c) s i)
      else 0
    let stress : e.m.B → ℝ := fun b =>
      h2 fun i => h2 fun j => (mu (.bnd b)).v * (uv i (.bnd b)).g j * ((test i (.bnd b)).v * e.m.nb b j)
    let f := f + e.dsurf fun b => -stress b
    let f := f + e.dbottom fun b => -stress b
    Neg.neg f

/-- The penalty factor of the vertical terms, momentum_eq.py:423-430. -/
noncomputable def sigmaV (T : Term e) (s : e.m.S) : ℝ :=
  let cp : ℝ := (T.q + 1) ^ 2
  let sp := (T.sipgV (.plus s)).v * cp / (e.m.volP s / e.m.areaS s)
  let sm := (T.sipgV (.minus s)).v * cp / (e.m.volM s / e.m.areaS s)
  if sp > sm then sp else sm

/-- `VerticalViscosityTerm.residual`, momentum_eq.py:412-440: acts on `solution`, without `uv_depth_av`. -/
noncomputable def vViscosity (T : Term e) (F : Fields e) (sol test : Vc e.m) : ℝ :=
  match F.viscV with
  | none => 0
  | some mu =>
    let f := e.m.dx fun x => ∑ c : Fin 3, (test c (.cell x)).g 2 * ((mu (.cell x)).v * (sol c (.cell x)).g 2)
    let f := f + if T.vdg then
        e.dSh fun s => ∑ c : Fin 3,
          (sigmaV T s * (jumpN (test c) s 2 * (avg mu s * jumpN (sol c) s 2)) -
            avgStress mu (test c) s 2 * jumpN (sol c) s 2 - jumpN (test c) s 2 * avgStress mu (sol c) s 2)
      else 0
    Neg.neg f

/-- The denominator of the drag coefficient, momentum_eq.py:492. -/
noncomputable def dragDenom (h z0 : ℝ) : ℝ :=
  -(7 / 4) * h - (3 / 2) * z0 + (h + (5 / 2) * z0) * Real.log ((h + z0) / z0)

/-- The drag coefficient, momentum_eq.py:482-493.  `none` where the assertion fails. -/
noncomputable def dragAt (T : Term e) (F : Fields e) (b : e.m.B) : Option ℝ :=
  match F.drag with
  | some d => some (d (.bnd b)).v
  | none => match F.roughness with
    | some z0 =>
      let h := (T.elemH (.bnd b)).v
      some ((T.kappa * h / dragDenom h (z0 (.bnd b)).v) ^ 2)
    | none => none

/-- `BottomFrictionTerm.residual`, momentum_eq.py:471-497; without drag and roughness no form exists. -/
noncomputable def bottomFriction (T : Term e) (F : Fields e) (sol old test : Vc e.m) : ℝ :=
  if T.friction then
    let uv := total F sol
    let uvOld := total F old
    Neg.neg (e.dbottom fun b =>
      (dragAt T F b).getD 0 * Real.sqrt ((uvOld 0 (.bnd b)).v ^ 2 + (uvOld 1 (.bnd b)).v ^ 2) *
        h2 fun i => (test i (.bnd b)).v * (uv i (.bnd b)).v)
  else 0

/-- `LinearDragTerm.residual`, momentum_eq.py:506-518. -/
noncomputable def linearDrag (F : Fields e) (sol test : Vc e.m) : ℝ :=
  match F.linDrag with
  | none => 0
  | some c => -(e.m.dx fun x => (c (.cell x)).v * ∑ i, (test i (.cell x)).v * (total F sol i (.cell x)).v)

/-- `CoriolisTerm.residual`, momentum_eq.py:525-531: acts on `solution`, without `uv_depth_av`. -/
noncomputable def coriolis (F : Fields e) (sol test : Vc e.m) : ℝ :=
  match F.coriolis with
  | none => 0
  | some c => -(e.m.dx fun x => (c (.cell x)).v *
      (-(sol 1 (.cell x)).v * (test 0 (.cell x)).v + (sol 0 (.cell x)).v * (test 1 (.cell x)).v))

/-- The wind stress of `SourceTerm.residual`, momentum_eq.py:557-566. -/
noncomputable def windStress (T : Term e) (F : Fields e) (test : Vc e.m) : ℝ :=
  match F.viscV, F.wind with
  | some _, some tau => e.dsurf fun b => (h2 fun i => (tau i (.bnd b)).v * (test i (.bnd b)).v) / T.rho0
  | _, _ => 0

/-- `SourceTerm.residual`, momentum_eq.py:555-569. -/
noncomputable def source (T : Term e) (F : Fields e) (test : Vc e.m) : ℝ :=
  windStress T F test +
    match F.source with
    | none => 0
    | some r => e.m.dx fun x => ∑ i, (r i (.cell x)).v * (test i (.cell x)).v

/-- `MomentumEquation`, momentum_eq.py:601-609 and equation.py:173-176: the sum of the terms. -/
noncomputable def residual (T : Term e) (F : Fields e) (bc : ℕ → Option (BFuncs e)) (sol old test : Vc e.m) : ℝ :=
  pressureGradient F test + hAdvection T F bc sol old test + vAdvection T F sol test + hViscosity T F sol test +
    vViscosity T F sol test + bottomFriction T F sol old test + linearDrag F sol test + coriolis F sol test +
    source T F test

/-! ### Internal pressure gradient -/

/-- `head_star` at a side, momentum_eq.py:682-689. -/
noncomputable def headSide (f : Option (BFuncs e)) (r : Sc e.m) (b : e.m.B) : ℝ :=
  match f with
  | none => (r (.bnd b)).v
  | some f => match f.barocHead with
    | some ext => (1 / 2) * (ext b + (r (.bnd b)).v)
    | none => (r (.bnd b)).v

/-- The right-hand side of `InternalPressureGradientCalculator`, momentum_eq.py:647-648 and 660-699: minus the
residual.  `dg` says that the baroclinic head is discontinuous in the horizontal, `scalar` is
`internal_pg_scalar`, a Constant (options.py:1180). -/
noncomputable def intPgForm (T : Term e) (dg : Bool) (scalar : Option ℝ) (bc : ℕ → Option (BFuncs e))
    (r : Sc e.m) (test : Vc e.m) : ℝ :=
  let nTest : e.m.B → ℝ := fun b => h2 fun i => e.m.nb b i * (test i (.bnd b)).v
  let f := if dg then
      let f := e.m.dx fun x => -(T.g * (r (.cell x)).v * h2 fun i => (test i (.cell x)).g i)
      let flux : e.m.S → ℝ := fun s => T.g * avg r s * h2 fun i => jumpN (test i) s i
      let f := f + (e.dSv flux + e.dSh flux)
      let bnd : e.m.B → ℝ := fun b => T.g * (r (.bnd b)).v * nTest b
      let f := f + (e.dbottom bnd + e.dsurf bnd)
      f + e.sideLoop fun k b => T.g * headSide (bc k) r b * nTest b
    else
      e.m.dx fun x => T.g * h2 fun i => (r (.cell x)).g i * (test i (.cell x)).v
  match scalar with
  | some a => a * f
  | none => f

end Verif.Mom3
