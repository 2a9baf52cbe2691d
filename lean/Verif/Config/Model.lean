import Mathlib.Data.Rat.Defs
import Mathlib.Algebra.Order.Ring.Rat

/-!
Model of `thetis/configuration.py` (validated options, frozen option objects, paired options), of
`FrozenClass`/`unfrozen` in `thetis/utility.py`, and of the registration methods of
`thetis/options.py`.

The behaviour of the `traitlets` library that is used: assigning a trait first validates the
proposal and stores the validated value only if validation succeeds; `None` is accepted without
validation for a trait declared with `allow_none=True`; change observers run after the new value
has been stored, and only if it differs from the old one; a dynamic default is computed at first
access.
-/

namespace Verif.Config

/-! ### Frozen objects, utility.py:26-57, configuration.py:294-330 -/

/-- An object with its freezing state.  `attrs` are the attributes that exist (instance or class
level); the two bookkeeping attributes `_isfrozen`, `_unfreezedepth` exist on the class
(utility.py:34-35, configuration.py:300-301,319-321), so assigning them never raises; they are kept
apart from `attrs`. -/
structure Obj (K V : Type) where
  frozen : Bool
  depth : ℤ
  attrs : K → Option V

/-- Code acting on one object: attribute assignments, calls of methods decorated with `unfrozen`,
raising an exception, and `try: body except: pass`.  `call body rest` is the call of a decorated
method with the given body, followed by `rest`. -/
inductive Prog (K V : Type)
  | done
  | set (k : K) (v : V) (rest : Prog K V)
  | call (body rest : Prog K V)
  | raise
  | attempt (body rest : Prog K V)

/-- Assign in the attribute map. -/
def assign {K V : Type} [DecidableEq K] (a : K → Option V) (k : K) (v : V) : K → Option V :=
  fun x => if x = k then some v else a x

/-- `__setattr__`, utility.py:37-40, configuration.py:307-310,327-330: the object and whether
`TypeError` was raised. -/
def Obj.setattr {K V : Type} [DecidableEq K] (o : Obj K V) (k : K) (v : V) : Obj K V × Bool :=
  if o.frozen && (o.attrs k).isNone then (o, true)
  else ({ o with attrs := assign o.attrs k v }, false)

/-- Entering the wrapper, utility.py:50-51. -/
def Obj.enter {K V : Type} (o : Obj K V) : Obj K V :=
  { o with frozen := false, depth := o.depth + 1 }

/-- Leaving the wrapper after a normal return, utility.py:53-54. -/
def Obj.leave {K V : Type} (o : Obj K V) : Obj K V :=
  { o with depth := o.depth - 1, frozen := decide (o.depth - 1 = 0) }

/-- Execution; the flag says whether an exception left the program.  There is no `try/finally` in
the wrapper (utility.py:48-55), so an exception skips `leave`. -/
def exec {K V : Type} [DecidableEq K] : Prog K V → Obj K V → Obj K V × Bool
  | .done, o => (o, false)
  | .raise, o => (o, true)
  | .set k v rest, o =>
    match o.setattr k v with
    | (o', true) => (o', true)
    | (o', false) => exec rest o'
  | .call body rest, o =>
    match exec body o.enter with
    | (o', true) => (o', true)
    | (o', false) => exec rest o'.leave
  | .attempt body rest, o => exec rest (exec body o).1

/-- The state of an object before its `__init__` runs (class attributes, utility.py:34-35). -/
def unborn {K V : Type} (a : K → Option V) : Obj K V := ⟨false, 0, a⟩

/-! ### Validated traits, configuration.py:75-144 -/

/-- Python floats. -/
inductive Flt
  | nan
  | negInf
  | posInf
  | fin (q : ℚ)
deriving DecidableEq, Repr

/-- Python values proposed for an option. -/
inductive PyVal
  | none
  | bool (b : Bool)
  | int (n : ℤ)
  | float (x : Flt)
  | other (tag : ℕ)
deriving DecidableEq, Repr

/-- `x > q` for a Python number and a finite bound; `bool` is a subclass of `int`. -/
def PyVal.gt (q : ℚ) : PyVal → Bool
  | .bool b => decide (q < (if b then 1 else 0 : ℚ))
  | .int n => decide (q < (n : ℚ))
  | .float .nan => false
  | .float .negInf => false
  | .float .posInf => true
  | .float (.fin x) => decide (q < x)
  | _ => false

/-- `x >= q` -/
def PyVal.ge (q : ℚ) : PyVal → Bool
  | .bool b => decide (q ≤ (if b then 1 else 0 : ℚ))
  | .int n => decide (q ≤ (n : ℚ))
  | .float .nan => false
  | .float .negInf => false
  | .float .posInf => true
  | .float (.fin x) => decide (q ≤ x)
  | _ => false

/-- `x <= q` -/
def PyVal.le (q : ℚ) : PyVal → Bool
  | .bool b => decide ((if b then 1 else 0 : ℚ) ≤ q)
  | .int n => decide ((n : ℚ) ≤ q)
  | .float .nan => false
  | .float .negInf => true
  | .float .posInf => false
  | .float (.fin x) => decide (x ≤ q)
  | _ => false

/-- `traitlets.Integer.validate` accepts instances of `int`. -/
def PyVal.isInt : PyVal → Bool
  | .bool _ => true
  | .int _ => true
  | _ => false

/-- `traitlets.Float.validate` accepts instances of `int` and `float`. -/
def PyVal.isFloat : PyVal → Bool
  | .bool _ => true
  | .int _ => true
  | .float _ => true
  | _ => false

/-- The validated numeric trait classes. -/
inductive Kind
  | positiveInteger
  | positiveFloat
  | nonNegativeInteger
  | nonNegativeFloat
  | boundedInteger (lo hi : ℚ)
  | boundedFloat (lo hi : ℚ)
deriving DecidableEq, Repr

/-- The `validate` methods, configuration.py:79-82, 89-92, 99-102, 109-112, 124-128, 140-144;
`true` when the proposal is returned (and stored as is). -/
def Kind.validate : Kind → PyVal → Bool
  | .positiveInteger, v => v.isInt && v.gt 0
  | .positiveFloat, v => v.isFloat && v.gt 0
  | .nonNegativeInteger, v => v.isInt && v.ge 0
  | .nonNegativeFloat, v => v.isFloat && v.ge 0
  | .boundedInteger lo hi, v => v.isInt && v.ge lo && v.le hi
  | .boundedFloat lo hi, v => v.isFloat && v.ge lo && v.le hi

/-- A declared option. -/
structure Trait where
  kind : Kind
  allowNone : Bool
deriving DecidableEq, Repr

/-- Outcome of an assignment. -/
inductive Out
  | ok
  | typeError
  | traitError
deriving DecidableEq, Repr

/-- Assigning option `k` on a (frozen) options object: unknown names are refused by `__setattr__`
(configuration.py:307-310), known ones are validated by traitlets. -/
def setOption (traits : String → Option Trait) (vals : String → PyVal) (k : String) (v : PyVal) :
    (String → PyVal) × Out :=
  match traits k with
  | none => (vals, .typeError)
  | some t =>
    if (v = .none ∧ t.allowNone = true) ∨ t.kind.validate v = true then
      (fun x => if x = k then v else vals x, .ok)
    else (vals, .traitError)

/-- `OptionsBase.update` with a dictionary, configuration.py:262-275: assigns in dictionary order
and stops at the first exception. -/
def updateOptions (traits : String → Option Trait) :
    List (String × PyVal) → (String → PyVal) → (String → PyVal) × Out
  | [], vals => (vals, .ok)
  | (k, v) :: rest, vals =>
    match setOption traits vals k v with
    | (vals', .ok) => updateOptions traits rest vals'
    | r => r

/-- All options of the shipped option classes that use a validated numeric trait:
(name, declaration, default value), options.py:77-134, 135, 204, 288-290, 310-314, 342-359, 453-454,
463-471, 475, 485-488, 520, 530, 570, 587, 628-632, 640-648, 943, 1122. -/
def shippedDefaults : List (String × Trait × PyVal) :=
  let f (n : ℤ) (d : ℕ) : PyVal := .float (.fin ((n : ℚ) / (d : ℚ)))
  [ ("CrankNicolsonSWE.implicitness_theta", ⟨.boundedFloat (1/2) 1, false⟩, f 1 2),
    ("CrankNicolsonTracer.implicitness_theta", ⟨.boundedFloat (1/2) 1, false⟩, f 1 2),
    ("PressureProjection.implicitness_theta", ⟨.boundedFloat (1/2) 1, false⟩, f 1 2),
    ("PressureProjection.picard_iterations", ⟨.positiveInteger, false⟩, .int 2),
    ("ImplicitSWE3d.implicitness_theta", ⟨.boundedFloat (1/2) 1, false⟩, f 1 2),
    ("PacanowskiPhilander.max_viscosity", ⟨.positiveFloat, false⟩, f 5 100),
    ("PacanowskiPhilander.alpha", ⟨.positiveFloat, false⟩, f 10 1),
    ("PacanowskiPhilander.exponent", ⟨.positiveFloat, false⟩, f 2 1),
    ("GLS.schmidt_nb_tke", ⟨.positiveFloat, false⟩, f 1 1),
    ("GLS.schmidt_nb_psi", ⟨.positiveFloat, false⟩, f 13 10),
    ("GLS.cmu0", ⟨.positiveFloat, false⟩, f 5477 10000),
    ("GLS.k_min", ⟨.positiveFloat, false⟩, f 1 (10^6)),
    ("GLS.psi_min", ⟨.positiveFloat, false⟩, f 1 (10^14)),
    ("GLS.eps_min", ⟨.positiveFloat, false⟩, f 1 (10^14)),
    ("GLS.len_min", ⟨.positiveFloat, false⟩, f 1 (10^12)),
    ("GLS.visc_min", ⟨.positiveFloat, false⟩, f 1 (10^8)),
    ("GLS.diff_min", ⟨.positiveFloat, false⟩, f 1 (10^8)),
    ("GLS.galperin_clim", ⟨.positiveFloat, false⟩, f 3 10),
    ("LinearEOS.rho_ref", ⟨.nonNegativeFloat, false⟩, f 1000 1),
    ("LinearEOS.s_ref", ⟨.nonNegativeFloat, false⟩, f 35 1),
    ("Turbine.diameter", ⟨.positiveFloat, false⟩, f 18 1),
    ("Turbine.projected_diameter", ⟨.positiveFloat, true⟩, .none),
    ("Turbine.C_support", ⟨.nonNegativeFloat, false⟩, f 0 1),
    ("Turbine.A_support", ⟨.nonNegativeFloat, false⟩, f 0 1),
    ("Turbine.rel_hub_height", ⟨.positiveFloat, true⟩, .none),
    ("Turbine.thrust_coefficient", ⟨.positiveFloat, false⟩, f 8 10),
    ("Turbine.power_coefficient", ⟨.positiveFloat, true⟩, .none),
    ("Farm.break_even_wattage", ⟨.nonNegativeFloat, false⟩, f 0 1),
    ("Farm.quadrature_degree", ⟨.positiveInteger, false⟩, .int 10),
    ("NonHydrostatic.q_degree", ⟨.nonNegativeInteger, true⟩, .none),
    ("Common.polynomial_degree", ⟨.nonNegativeInteger, false⟩, .int 1),
    ("Common.timestep", ⟨.positiveFloat, false⟩, f 10 1),
    ("Common.cfl_2d", ⟨.positiveFloat, false⟩, f 1 1),
    ("Common.cfl_3d", ⟨.positiveFloat, false⟩, f 1 1),
    ("Common.simulation_export_time", ⟨.positiveFloat, false⟩, f 100 1),
    ("Common.simulation_end_time", ⟨.positiveFloat, true⟩, .none),
    ("Model2d.tracer_picard_iterations", ⟨.positiveInteger, false⟩, .int 1),
    ("Model3d.timestep_2d", ⟨.positiveFloat, false⟩, f 10 1) ]

/-! ### Paired options, configuration.py:231-250, 333-368 -/

/-- An options object attached to a choice: its class and its (customised) values. -/
structure OptObj (C S : Type) where
  cls : C
  vals : S
deriving DecidableEq, Repr

/-- A pair of traits: the enum and its slaved options.  `opts = none` means that the dynamic
default has not been computed yet. -/
structure Paired (T C S : Type) where
  type : T
  opts : Option (OptObj C S)
deriving DecidableEq, Repr

/-- Declaration of the pair: `paired_defaults` maps the admissible values of the enum to option
classes (configuration.py:243), `dflt` is the default choice, `fresh` the values of a newly
constructed options object of a class, `isInst` the classes accepted by the `Instance` trait. -/
structure PairDecl (T C S : Type) where
  pairedDefaults : T → Option C
  dflt : T
  fresh : C → S
  isInst : C → Bool

/-- `paired_defaults[t]()`. -/
def PairDecl.build {T C S : Type} (d : PairDecl T C S) (t : T) : Option (OptObj C S) :=
  (d.pairedDefaults t).map (fun c => ⟨c, d.fresh c⟩)

/-- New object: the enum holds its default, the options are not built. -/
def PairDecl.new {T C S : Type} (d : PairDecl T C S) : Paired T C S := ⟨d.dflt, none⟩

/-- Reading the slaved option: the dynamic default of configuration.py:345-348 (built from the
*declared default* choice, not the current one) if nothing has been stored. -/
def PairDecl.read {T C S : Type} (d : PairDecl T C S) (p : Paired T C S) :
    Paired T C S × Option (OptObj C S) :=
  match p.opts with
  | some o => (p, some o)
  | none => ({ p with opts := d.build d.dflt }, d.build d.dflt)

/-- Operations on a pair. -/
inductive PairOp (T C S : Type)
  /-- `options.<type> = t` -/
  | setType (t : T)
  /-- `options.<paired_name> = o` -/
  | setOpts (o : OptObj C S)
  /-- customising the attached object in place, e.g. `options.<paired_name>.x = v` -/
  | modify (f : S → S)

/-- One operation; the flag says whether a `TraitError` was raised (nothing changes then).  The
observer of configuration.py:340-343 runs after the enum has changed, only on a real change. -/
def PairDecl.step {T C S : Type} [DecidableEq T] (d : PairDecl T C S) (p : Paired T C S) :
    PairOp T C S → Paired T C S × Bool
  | .setType t =>
    match d.build t with
    | none => (p, true)
    | some o => if t = p.type then (p, false) else (⟨t, some o⟩, false)
  | .setOpts o => if d.isInst o.cls then ({ p with opts := some o }, false) else (p, true)
  | .modify f =>
    match (d.read p).2 with
    | some o => ({ p with opts := some { o with vals := f o.vals } }, false)
    | none => (p, true)

/-- Run a sequence of operations (failing ones change nothing and the user goes on). -/
def PairDecl.run {T C S : Type} [DecidableEq T] (d : PairDecl T C S) :
    Paired T C S → List (PairOp T C S) → Paired T C S
  | p, [] => p
  | p, op :: ops => d.run (d.step p op).1 ops

/-! ### Tracer registration, options.py:946-1018 -/

/-- The registry: labels of `options.tracer` in insertion order with the function given for each of
them, and `options.tracer_fields`, an ordered dictionary from the comma separated names of systems
to functions.  `F` are user supplied functions. -/
structure Tracers (F : Type) where
  tracer : List (List Char × Option F)
  fields : List (List Char × Option F)
deriving DecidableEq, Repr

inductive RegErr
  | assertion
  | keyError
  | traitError
deriving DecidableEq, Repr

/-- Insertion in an ordered dictionary. -/
def dictSet {α β : Type} [DecidableEq α] (k : α) (v : β) : List (α × β) → List (α × β)
  | [] => [(k, v)]
  | (k', v') :: d => if k' = k then (k', v) :: d else (k', v') :: dictSet k v d

/-- Arguments of one tracer that matter for the registry.  `validArgs` is false when one of the
values assigned to the trait options at options.py:983-986 is refused (wrong type of function,
source, diffusivity or flag). -/
structure TracerArgs (F : Type) where
  label : List Char
  filename : List Char
  function : Option F
  validArgs : Bool := true
deriving DecidableEq, Repr

/-- `add_tracer_2d`, options.py:951-988 (the type assertions on `str` arguments are typing here). -/
def addTracer {F : Type} (s : Tracers F) (a : TracerArgs F) (mixed : Bool) :
    Tracers F × Option RegErr :=
  if a.label ∈ s.tracer.map Prod.fst then (s, some .assertion)
  else if ' ' ∈ a.label then (s, some .assertion)
  else if ',' ∈ a.label then (s, some .assertion)
  else if ' ' ∈ a.filename then (s, some .assertion)
  else
    let s1 := { s with tracer := s.tracer ++ [(a.label, if a.validArgs then a.function else none)] }
    if a.validArgs then
      (if mixed then s1 else { s1 with fields := dictSet a.label a.function s1.fields }, none)
    else (s1, some .traitError)

/-- The loop of options.py:1017-1018. -/
def addTracers {F : Type} : Tracers F → List (TracerArgs F) → Tracers F × Option RegErr
  | s, [] => (s, none)
  | s, a :: as =>
    match addTracer s a true with
    | (s', none) => addTracers s' as
    | r => r

/-- `','.join(labels)` -/
def joinLabels (ls : List (List Char)) : List Char := [','].intercalate ls

/-- `add_tracer_system_2d`, options.py:990-1018.  `kwOk` is false when per-label keyword arguments
were given for some but not all labels, or for other labels (assertion at 1010, `KeyError` at 1012);
lists of unequal length are excluded by the type (assertion at 1007). -/
def addSystem {F : Type} (s : Tracers F) (as : List (TracerArgs F)) (function : Option F)
    (kwOk : Bool) : Tracers F × Option RegErr :=
  if kwOk then
    addTracers { s with fields := dictSet (joinLabels (as.map TracerArgs.label)) function s.fields } as
  else (s, some .keyError)

/-- Registration calls. -/
inductive RegOp (F : Type)
  | tracer (a : TracerArgs F)
  | system (as : List (TracerArgs F)) (function : Option F) (kwOk : Bool)

def regStep {F : Type} (s : Tracers F) : RegOp F → Tracers F × Option RegErr
  | .tracer a => addTracer s a false
  | .system as f kw => addSystem s as f kw

/-- A sequence of calls that all succeed; `none` if one raises. -/
def regRun {F : Type} : Tracers F → List (RegOp F) → Option (Tracers F)
  | s, [] => some s
  | s, op :: ops =>
    match regStep s op with
    | (s', none) => regRun s' ops
    | (_, some _) => none

/-- The systems that the solver builds, solver2d.py:417-418: each key split at commas. -/
def solvedSystems {F : Type} (s : Tracers F) : List (List (List Char)) :=
  s.fields.map (fun kv => kv.1.splitOn ',')

/-! ### set_timestepper_type, options.py:1020-1041 -/

/-- Names of time steppers. -/
inductive Stepper
  | ssprk33 | forwardEuler | backwardEuler | crankNicolson | dirk22 | dirk33 | steadyState
  | pressureProjectionPicard | sspimex | unknown
deriving DecidableEq, Repr

/-- Admissible values of `swe_timestepper_type`, options.py:838-848. -/
def sweAllowed : List Stepper :=
  [.ssprk33, .forwardEuler, .backwardEuler, .crankNicolson, .dirk22, .dirk33, .steadyState,
   .pressureProjectionPicard, .sspimex]

/-- Admissible values of `tracer_timestepper_type`, options.py:853-861. -/
def tracerAllowed : List Stepper :=
  [.ssprk33, .forwardEuler, .backwardEuler, .crankNicolson, .dirk22, .dirk33, .steadyState]

/-- Admissible values of the sediment, Exner and free surface types, options.py:736-758, 554-562. -/
def otherAllowed : List Stepper :=
  [.ssprk33, .forwardEuler, .backwardEuler, .crankNicolson, .dirk22, .dirk33]

/-- Types currently chosen and which optional components are switched on. -/
structure StepperTypes where
  swe : Stepper
  tracer : Stepper
  sediment : Stepper
  exner : Stepper
  freeSurface : Stepper
  solveSediment : Bool
  solveExner : Bool
  solveNh : Bool
deriving DecidableEq, Repr

/-- `set_timestepper_type` without keyword arguments: assignments in order, stopping at the first
`TraitError`; the flag says whether one was raised. -/
def setStepperType (o : StepperTypes) (t : Stepper) : StepperTypes × Bool :=
  if t ∉ sweAllowed then (o, true) else
  let o := { o with swe := t }
  if t ∉ tracerAllowed then (o, true) else
  let o := { o with tracer := t }
  if o.solveSediment ∧ t ∉ otherAllowed then (o, true) else
  let o := if o.solveSediment then { o with sediment := t } else o
  if o.solveExner ∧ t ∉ otherAllowed then (o, true) else
  let o := if o.solveExner then { o with exner := t } else o
  if o.solveNh ∧ t ∉ otherAllowed then (o, true) else
  let o := if o.solveNh then { o with freeSurface := t } else o
  (o, false)

end Verif.Config
