import Mathlib.Data.List.Basic

/-!
Model of options that are fields, dates or dictionaries: the traits of `thetis/configuration.py:147-228`, assignments to an options object
and `update`.

Simplifications: of an object only what the traits look at is kept (class, shape and number of free indices of UFL expressions, time zone
of dates); observers of other options are left out (C34).  `ufl.checks.is_ufl_scalar` is taken from the documentation of UFL: true if the
shape is empty, whatever the free indices.
-/

namespace Verif.FieldOpt

/-- Classes of UFL expressions: `Constant` and `Function` of Firedrake are expressions too. -/
inductive Cls
  | constant
  | function
  | other
deriving DecidableEq, Repr

/-- Python objects, as far as the traits tell them apart.  `id` stands for the identity of the object. -/
inductive Obj
  | none
  | number (id : ℕ)
  | expr (cls : Cls) (shape : List ℕ) (free : ℕ) (id : ℕ)
  | date (zone : Bool) (id : ℕ)
  | dict (id : ℕ)
  | other (id : ℕ)
deriving DecidableEq, Repr

/-- The trait classes, configuration.py:147, 160, 175, 193, 211, 221. -/
inductive Kind
  | constant
  | coefficient
  | scalar
  | vector
  | date
  | solver
deriving DecidableEq, Repr

/-- `ufl.checks.is_ufl_scalar` -/
def isScalar (shape : List ℕ) : Bool := shape.isEmpty

/-- The `validate` methods, configuration.py:151-154, 164-167, 179-183, 197-201, 215-218, 225-228: `true` if the value is returned. -/
def validate : Kind → Obj → Bool
  | .constant, .expr .constant _ _ _ => true
  | .coefficient, .expr .constant _ _ _ => true
  | .coefficient, .expr .function _ _ _ => true
  | .scalar, .expr _ sh _ _ => isScalar sh
  | .vector, .expr _ sh _ _ => !isScalar sh
  | .date, .date zone _ => zone
  | .solver, .dict _ => true
  | _, _ => false

/-- A declared option; `allow_none` of traitlets. -/
structure Trait where
  kind : Kind
  allowNone : Bool

/-- What traitlets does before it calls `validate`: `None` is taken as it is if that is allowed. -/
def accepts (t : Trait) (v : Obj) : Bool := (decide (v = .none) && t.allowNone) || validate t.kind v

variable {K : Type} [DecidableEq K]

/-- One assignment `options.k = v`: unknown names are refused by `__setattr__`, configuration.py:307-310, others validated.  The flag
says whether an exception is raised. -/
def assign (traits : K → Option Trait) (vals : K → Obj) (k : K) (v : Obj) : (K → Obj) × Bool :=
  match traits k with
  | none => (vals, true)
  | some t => if accepts t v then (Function.update vals k v, false) else (vals, true)

/-- `OptionsBase.update`, configuration.py:262-275, with the items of a dictionary or of the values of another options object: stops at the
first exception. -/
def update (traits : K → Option Trait) : List (K × Obj) → (K → Obj) → (K → Obj) × Bool
  | [], vals => (vals, false)
  | (k, v) :: l, vals => match assign traits vals k v with
    | (vals', false) => update traits l vals'
    | (vals', true) => (vals', true)

/-- A history of updates, exceptions being caught by the user in between.  An assignment is an update with one item. -/
def history (traits : K → Option Trait) (us : List (List (K × Obj))) (vals : K → Obj) : K → Obj :=
  us.foldl (fun vals l => (update traits l vals).1) vals

end Verif.FieldOpt
