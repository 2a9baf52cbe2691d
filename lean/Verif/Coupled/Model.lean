import Mathlib.Data.List.Basic
import Mathlib.Logic.Function.Basic
import Mathlib.Data.Rat.Defs

/-!
Model of the coupled 2D time integrators: `thetis/coupled_timeintegrator_2d.py` and
`FlowSolver2d.create_timestepper`.
-/

namespace Verif.Coupled

/-- Exceptions seen by the user. -/
inductive Err | notImplemented | attributeError | typeError | keyError | assertionError
  deriving DecidableEq, Repr

/-- Options that select what a coupled step does: `tracer_only`, `tracer_fields` (keys, in order),
`use_limiter_for_tracers`, `tracer_picard_iterations` (options.py:930-948), `solve_suspended_sediment`
and `solve_exner`; `picardOk` says whether the tracer integrator implements `advance_picard`
(only `CrankNicolson` does, timeintegrator.py:75-86 and 244-252). -/
structure Cfg where
  tracerOnly : Bool
  tracers : List String
  limiter : Bool
  picard : ℕ
  picardOk : Bool
  suspended : Bool
  exner : Bool

/-- A sediment model exists iff one of the sediment equations is solved, solver2d.py:508-512. -/
def Cfg.sedModel (c : Cfg) : Bool := c.suspended || c.exner

/-- `',' in system`. -/
def mixed (s : String) : Bool := s.toList.contains ','

/-- The operations of a coupled step.  `S` shallow water state, `T` state of a tracer
integrator (new and lagged values), `M` sediment model fields, `B` bed. -/
structure Ops (S T M B : Type*) where
  swe : S → B → S
  tracer : String → S → B → T → T
  picard : String → (lagged fields : Bool) → S → B → T → T
  limit : T → T
  model : S → B → T → M
  sed : S → B → M → T → T
  exner : S → M → T → B → B

/-- Fields of the solver. -/
structure St (S T M B : Type*) where
  swe : S
  tr : String → T
  model : M
  sed : T
  bed : B

variable {S T M B : Type*}

/-- The tracer loop of `advance`, coupled_timeintegrator_2d.py:100-105; on an exception the fields
changed so far stay changed. -/
def tracerLoop (o : Ops S T M B) (limiter : Bool) (adv : String → S → B → T → T) :
    List String → St S T M B → St S T M B × Option Err
  | [], st => (st, none)
  | s :: ss, st =>
    let st := { st with tr := Function.update st.tr s (adv s st.swe st.bed (st.tr s)) }
    if limiter then
      if mixed s then (st, some .notImplemented)
      else
        tracerLoop o limiter adv ss
          { st with tr := Function.update st.tr s (o.limit (st.tr s)) }
    else tracerLoop o limiter adv ss st

/-- The sediment part common to `advance` and `advance_picard`,
coupled_timeintegrator_2d.py:106-113 and 128-135. -/
def sediment (o : Ops S T M B) (c : Cfg) (st : St S T M B) : St S T M B :=
  let st := if c.sedModel then { st with model := o.model st.swe st.bed st.sed } else st
  let st := if c.suspended then
      let st := { st with sed := o.sed st.swe st.bed st.model st.sed }
      if c.limiter then { st with sed := o.limit st.sed } else st
    else st
  if c.exner then { st with bed := o.exner st.swe st.model st.sed st.bed } else st

/-- The Picard loop, coupled_timeintegrator_2d.py:120-127: iterations `i, i+1, …, i+n-1` of `p`. -/
def picardLoop (o : Ops S T M B) (c : Cfg) (p : ℕ) : ℕ → ℕ → St S T M B → St S T M B × Option Err
  | 0, _, st => (st, none)
  | n + 1, i, st =>
    match tracerLoop o c.limiter (fun s => o.picard s (i == 0) (i == p - 1)) c.tracers st with
    | (st, none) => picardLoop o c p n (i + 1) st
    | (st, some e) => (st, some e)

/-- `CoupledTimeIntegrator2D.advance` and `advance_picard`, coupled_timeintegrator_2d.py:93-135. -/
def advance (o : Ops S T M B) (c : Cfg) (st : St S T M B) : St S T M B × Option Err :=
  let st := if c.tracerOnly then st else { st with swe := o.swe st.swe st.bed }
  let r :=
    if 1 < c.picard then
      if !c.picardOk && !c.tracers.isEmpty then (st, some .notImplemented)
      else picardLoop o c c.picard c.picard 0 st
    else tracerLoop o c.limiter o.tracer c.tracers st
  match r with
  | (st, none) => (sediment o c st, none)
  | (st, some e) => (st, some e)

/-! ### Time step of all integrators -/

/-- An integrator holds one time step; the implicit-explicit one holds one per half. -/
inductive Stepper | simple (dt : ℚ) | imex (erk dirk : ℚ)

/-- `set_dt` of timeintegrator.py:70-73 and implicitexplicit.py:110-117. -/
def Stepper.setDt (dt : ℚ) : Stepper → Stepper
  | .simple _ => .simple dt
  | .imex _ _ => .imex dt dt

/-- `CoupledTimeIntegrator2D.set_dt`, coupled_timeintegrator_2d.py:61-68: over the sorted names of
the dictionary `timesteppers` (an association list here). -/
def setDt (dt : ℚ) (names : List String) (d : String → Option Stepper) : String → Option Stepper :=
  names.foldl (fun d n => Function.update d n ((d n).map (Stepper.setDt dt))) d

/-! ### Which integrator is built -/

/-- Further options used by `create_timestepper`. -/
structure Setup extends Cfg where
  nonhydro : Bool
  updateFs : Bool
  sweType : String
  fsType : String

/-- Steppers whose class has an attribute `n_stages`: Runge-Kutta and implicit-explicit schemes
(rungekutta.py:132, implicitexplicit.py:56); the dictionary is solver2d.py:661-672. -/
def hasStages (t : String) : Bool :=
  t == "SSPRK33" || t == "BackwardEuler" || t == "DIRK22" || t == "DIRK33" || t == "SSPIMEX"

/-- Which integrator runs. -/
inductive Kind | nonHydrostatic | coupled | sweOnly
  deriving DecidableEq, Repr

/-- `create_timestepper`, solver2d.py:673-700, with the constructors
coupled_timeintegrator_2d.py:26-59, 144-158 and 171-188.  In the non-hydrostatic class
`tracer_integrator` and `exner_integrator` are the placeholder methods of the base class (calling
them with the integrator arguments is a `TypeError`), `sediment_integrator` does not exist, and
`self.timesteppers.fs2d` is read even if the free surface integrator was not created. -/
def construct (c : Setup) : Except Err Kind :=
  if c.nonhydro then
    if c.suspended then .error .attributeError
    else if !c.tracers.isEmpty then .error .typeError
    else if c.exner then .error .typeError
    else if c.tracerOnly then .error .attributeError
    else if !c.updateFs then .error .attributeError
    else if hasStages c.fsType && c.fsType != "BackwardEuler" && c.sweType != c.fsType then
      .error .assertionError
    else .ok .nonHydrostatic
  else if !c.tracers.isEmpty then
    if c.suspended then .error .keyError
    else if c.exner then .error .keyError
    else .ok .coupled
  else if c.suspended || c.exner then .ok .coupled
  else .ok .sweOnly

/-! ### Non-hydrostatic step -/

/-- The part of the solver state used by the non-hydrostatic step. -/
structure Nh (U E Q : Type*) where
  uv : U
  elev : E
  nh : Q
  elevOld : E

/-- Operations: the shallow water step (or stage `i` of it), the pressure solve (updating the
velocity; `w` only on demand), the free surface step (or stage). -/
structure NhOps (U E Q : Type*) where
  swe : U → E → U × E
  sweStage : ℕ → U → E → U × E
  poisson : (solveW : Bool) → U → E → Q → U × Q
  fs : U → E → E
  fsStage : ℕ → U → E → E

variable {U E Q : Type*}

/-- One pass of the loop at coupled_timeintegrator_2d.py:223-236.  The private copies inside the
integrators are abstracted into the operations. -/
def nhStage (o : NhOps U E Q) (multi : Bool) (n i : ℕ) (st : Nh U E Q) : Nh U E Q :=
  let last := i == n - 1
  let r := o.sweStage i st.uv st.elev
  let st := { st with uv := r.1, elev := r.2 }
  let q := o.poisson last st.uv st.elev st.nh
  let st := { st with uv := q.1, nh := q.2 }
  if multi then
    let e := o.fsStage i st.uv st.elevOld
    { st with elev := e, elevOld := e }
  else if last then { st with elev := o.fs st.uv st.elevOld }
  else st

/-- `NonHydrostaticTimeIntegrator2D.advance`, coupled_timeintegrator_2d.py:204-236, with
`update_free_surface` on (off, the object cannot be built). -/
def nhAdvance (o : NhOps U E Q) (serial multi : Bool) (n : ℕ) (st : Nh U E Q) : Nh U E Q :=
  let st := { st with elevOld := st.elev }
  if serial then
    let r := o.swe st.uv st.elev
    let q := o.poisson true r.1 r.2 st.nh
    { st with uv := q.1, nh := q.2, elev := o.fs q.1 st.elevOld }
  else (List.range n).foldl (fun st i => nhStage o multi n i st) st

end Verif.Coupled
