import Mathlib.Logic.Basic
import Mathlib.Data.Nat.Notation

/-!
Model of the assignment of physical processes to the time integrators of the 3D solver:
`CoupledTimeIntegrator._create_*_integrator` (`thetis/coupled_timeintegrator.py`), the equations of
`FlowSolver.create_equations` (`thetis/solver.py`) and the conditions under which the terms of
`thetis/momentum_eq.py`, `thetis/tracer_eq.py` and `thetis/turbulence.py` are nonzero.

An option is modelled by whether it is set (not `None`). `Except` carries the exception of a failing
construction.
-/

namespace Verif.Alloc

/-- Turbulence closure, options `use_turbulence` and `turbulence_model_type`. -/
inductive Turb
  | off | gls | pacanowski
  deriving DecidableEq

/-- Options of the 3D solver that decide which processes take part. -/
structure Opt where
  implicit : Bool
  nonlinear : Bool
  friction : Bool
  baroclinic : Bool
  smag : Bool
  hVisc : Bool
  vVisc : Bool
  hDiff : Bool
  vDiff : Bool
  linDrag : Bool
  quadDrag : Bool
  roughness : Bool
  wind : Bool
  coriolis : Bool
  source : Bool
  tracerSource : Bool
  turb : Turb

/-- Fields passed to a momentum equation; `true` if the entry is there and not `None`. -/
structure Fields where
  intPg : Bool := false
  uvDepthAv : Bool := false
  w : Bool := false
  viscosityV : Bool := false
  viscosityH : Bool := false
  source : Bool := false
  coriolis : Bool := false
  linDrag : Bool := false
  quadDrag : Bool := false
  wind : Bool := false
  roughness : Bool := false

/-- Flags of a `MomentumEquation`. -/
structure Flags where
  nonlinear : Bool
  friction : Bool

/-- `SumFunction.get_sum`, utility.py:72-86, of the vertical viscosity: solver.py:606-608. Both closures
define `eddy_visc_3d` (solver.py:566, 585). -/
def totVVisc (o : Opt) : Bool := o.vVisc || o.turb != .off

/-- Horizontal viscosity, solver.py:603-605. -/
def totHVisc (o : Opt) : Bool := o.hVisc || o.smag

/-- Vertical diffusivity, solver.py:611-613; `eddy_diff_3d` at 567, 586. -/
def totVDiff (o : Opt) : Bool := o.vDiff || o.turb != .off

/-- `_get_vert_diffusivity_functions`, coupled_timeintegrator.py:164-179: implicit and explicit vertical
viscosity. -/
def vertVisc (o : Opt) : Bool × Bool := if o.implicit then (totVVisc o, false) else (false, totVVisc o)

/-- The same for the diffusivity, coupled_timeintegrator.py:164-179. -/
def vertDiff (o : Opt) : Bool × Bool := if o.implicit then (totVDiff o, false) else (false, totVDiff o)

/-- Fields of the explicit momentum equation, coupled_timeintegrator.py:208-229. -/
def explFields (o : Opt) : Fields :=
  { intPg := o.baroclinic
    uvDepthAv := true
    w := true
    viscosityV := (vertVisc o).2
    viscosityH := totHVisc o
    source := o.source
    coriolis := o.coriolis
    linDrag := if o.implicit then false else o.linDrag
    quadDrag := if o.implicit then false else o.quadDrag
    wind := if o.implicit then false else o.wind
    roughness := if o.implicit then false else o.roughness }

/-- Fields of the implicit momentum equation, coupled_timeintegrator.py:219-224, 230-235. -/
def implFields (o : Opt) : Fields :=
  { viscosityV := (vertVisc o).1
    linDrag := o.linDrag
    quadDrag := o.quadDrag
    wind := o.wind
    roughness := o.roughness }

/-- Flags of the equation `momentum`, solver.py:672-682. -/
def explFlags (o : Opt) : Flags := ⟨o.nonlinear, o.friction && !o.implicit⟩

/-- Flags of the equation `vertmomentum`, solver.py:683-693. -/
def implFlags (o : Opt) : Flags := ⟨false, o.friction⟩

/-- Processes of the momentum equation. -/
inductive Process
  | pressure | hAdvection | vAdvection | hViscosity | vViscosity | friction | linDrag | coriolis | source
  | wind
  deriving DecidableEq

/-- Is the term nonzero? momentum_eq.py:154-156, 182-183, 284-285, 340-341, 415-416, 473-487, 510, 528,
555-568. Bottom friction without a coefficient fails. -/
def active (fl : Flags) (f : Fields) : Process → Except String Bool
  | .pressure => .ok f.intPg
  | .hAdvection => .ok fl.nonlinear
  | .vAdvection => .ok (f.w && fl.nonlinear)
  | .hViscosity => .ok f.viscosityH
  | .vViscosity => .ok f.viscosityV
  | .friction =>
    if fl.friction then
      if f.quadDrag || f.roughness then .ok true else .error "AssertionError"
    else .ok false
  | .linDrag => .ok f.linDrag
  | .coriolis => .ok f.coriolis
  | .source => .ok f.source
  | .wind => .ok (f.viscosityV && f.wind)

/-- The integrators of the momentum equation. -/
inductive Part
  | expl | impl
  deriving DecidableEq

/-- Integrators that contain a process, coupled_timeintegrator.py:225-235: the implicit one exists with
`use_implicit_vertical_diffusion` only. -/
def parts (o : Opt) (p : Process) : Except String (List Part) := do
  let a ← active (explFlags o) (explFields o) p
  let b ← if o.implicit then active (implFlags o) (implFields o) p else .ok false
  .ok ((if a then [.expl] else []) ++ (if b then [.impl] else []))

/-- How often the depth averaged velocity is contained in the velocity that the friction terms see: the
solution of the explicit equation is the deviation, that of the implicit one the full velocity
(coupled_timeintegrator.py:550-552, 697-699); `uv_depth_av` is added if given (momentum_eq.py:474-480,
511-515). -/
def averages (f : Fields) : Part → Nat
  | .expl => 0 + (if f.uvDepthAv then 1 else 0)
  | .impl => 1 + (if f.uvDepthAv then 1 else 0)

/-- Fields of a part. -/
def fieldsOf (o : Opt) : Part → Fields
  | .expl => explFields o
  | .impl => implFields o

/-! ### Tracers -/

/-- Processes of the equation of salinity or temperature. -/
inductive TProcess
  | hAdvection | vAdvection | hDiffusion | vDiffusion | source
  deriving DecidableEq

/-- Terms of the explicit tracer equation, coupled_timeintegrator.py:245-257 with tracer_eq.py:140-141, 215-216,
265-266, 327-328, 374-375. -/
def tracerExpl (o : Opt) : TProcess → Bool
  | .hAdvection => true
  | .vAdvection => true
  | .hDiffusion => o.hDiff
  | .vDiffusion => (vertDiff o).2
  | .source => o.tracerSource

/-- Terms of the implicit tracer equation, coupled_timeintegrator.py:258-264. -/
def tracerImpl (o : Opt) : TProcess → Bool
  | .vDiffusion => (vertDiff o).1
  | _ => false

/-- Integrators that contain a process of a tracer equation. -/
def tracerParts (o : Opt) (p : TProcess) : List Part :=
  (if tracerExpl o p then [.expl] else []) ++ (if o.implicit && tracerImpl o p then [.impl] else [])

/-! ### Turbulence -/

/-- `_create_turb_integrator`, coupled_timeintegrator.py:302-333: the production terms and the vertical
diffusion of the turbulent quantities compute with `fields['viscosity_v']` and `fields['diffusivity_v']`
(turbulence.py:639-648, 704-716, 787), which fails for `None`. -/
def createTurb (o : Opt) : Except String Bool :=
  match o.turb with
  | .gls => if (vertVisc o).1 && (vertDiff o).1 then .ok true else .error "TypeError"
  | _ => .ok false

/-- The coupled time integrators. -/
inductive Scheme
  | leapFrog | ssprk22
  deriving DecidableEq

/-- What `advance` does besides solving the equations. -/
inductive Op
  | turbulence | smagorinsky | forcings3d
  deriving DecidableEq

/-- Operations of one step, coupled_timeintegrator.py:421-560 (leap-frog; turbulence at line 542, viscosity
at 555 and 560, `update_forcings3d` not used) and 621-711 (two stages; forcings at line 656 with
timeintegrator.py:756-757, turbulence and viscosity at 704-705). -/
def ops (o : Opt) : Scheme → List Op
  | .leapFrog => if o.implicit then
      (if o.turb != .off then [.turbulence] else []) ++ (if o.smag then [.smagorinsky] else [])
    else (if o.smag then [.smagorinsky] else [])
  | .ssprk22 => [.forcings3d, .forcings3d] ++ (if o.turb != .off then [.turbulence] else [])
      ++ (if o.smag then [.smagorinsky] else [])

/-! ### Function spaces of the baroclinic terms -/

/-- Is the space `P2DGxP2` there? solver.py:454-455 against 464-465. -/
def hasP2DGxP2 (quadPressure : Bool) : Bool := quadPressure

/-- Creation of `density_3d`, solver.py:518-523. -/
def createDensity (baroclinic quadPressure quadDensity : Bool) : Except String Unit :=
  if baroclinic then
    if quadDensity then
      if hasP2DGxP2 quadPressure then .ok () else .error "AttributeError"
    else .ok ()
  else .ok ()

end Verif.Alloc
