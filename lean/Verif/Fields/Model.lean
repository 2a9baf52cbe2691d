import Mathlib.Data.Real.Basic
import Mathlib.Data.List.Nodup

/-!
Model of the handling of coefficient fields at two time levels by `ForwardEuler` and `CrankNicolson`:
`create_fields_old` and `update_fields_old` of thetis/timeintegrator.py and the order in which a step
uses them.

Functions and Constants are objects with a number and a value in a heap; an expression is any function of
the heap.  Spatial dependence is left out: a value stands for the nodal vector of a function.
-/

namespace Verif.Fields

/-- The values of all Function and Constant objects. -/
abbrev Heap (V : Type) := ℕ → V

/-- A coefficient in the dictionary `fields`: a Function, a Constant, any other UFL expression or number,
or None. -/
inductive Coef (V : Type) where
  | fn (id : ℕ)
  | const (id : ℕ)
  | expr (ev : Heap V → V)
  | none

/-- The time integrator: `fields` and `fields_old`, which maps names to objects, timeintegrator.py:60 and
93.  `fields` is listed in sorted order of the names. -/
structure Integ (V : Type) where
  fields : List (String × Coef V)
  old : List (String × ℕ)

/-- The loop of `create_fields_old`, timeintegrator.py:94-104; `base` is the number of the first of the
objects that are created. -/
def createOld {V : Type} : List (String × Coef V) → ℕ → List (String × ℕ)
  | [], _ => []
  | (k, .fn _) :: fs, base => (k, base) :: createOld fs (base + 1)
  | (k, .const id) :: fs, base => (k, id) :: createOld fs base
  | (_, .expr _) :: fs, base => createOld fs base
  | (_, .none) :: fs, base => createOld fs base

/-- `dict.get` on a list with the names as keys. -/
def get {β : Type} (d : List (String × β)) (k : String) : Option β :=
  (d.find? fun p => p.1 = k).map Prod.snd

/-- The value of a coefficient; None stays None. -/
def Coef.eval {V : Type} (h : Heap V) : Coef V → Option V
  | .fn id => some (h id)
  | .const id => some (h id)
  | .expr ev => some (ev h)
  | .none => .none

/-- What a term sees when it asks `fields` for a name. -/
def Integ.new {V : Type} (it : Integ V) (h : Heap V) (k : String) : Option V :=
  (get it.fields k).bind (Coef.eval h)

/-- What a term sees when it asks `fields_old` for a name. -/
def Integ.prev {V : Type} (it : Integ V) (h : Heap V) (k : String) : Option V :=
  (get it.old k).map h

/-- `update_fields_old`, timeintegrator.py:106-112. -/
def updateOld {V : Type} (it : Integ V) (h : Heap V) : Heap V :=
  it.fields.foldl (fun h p =>
    match p.2 with
    | .fn id => match get it.old p.1 with
      | some j => fun x => if x = j then h id else h x
      | none => h
    | _ => h) h

/-- The constructor, timeintegrator.py:134 and 192: the copies are new objects, numbered from `base`. -/
def construct {V : Type} (fields : List (String × Coef V)) (base : ℕ) : Integ V :=
  ⟨fields, createOld fields base⟩

/-- One `advance`, timeintegrator.py:159-165 and 235-241: the forcings are updated, the system is solved
with the coefficients of both levels, and the old ones are updated.  Returned are the coefficients at
the old and at the new level in the solve, and the heap afterwards.  `solve` is the effect of the
assignment to `solution_old` and of the solver. -/
def advance {V : Type} (it : Integ V) (forcing solve : Heap V → Heap V) (h : Heap V) :
    ((String → Option V) × (String → Option V)) × Heap V :=
  let h1 := forcing h
  ((it.prev h1, it.new h1), updateOld it (solve h1))

/-- `initialize` (timeintegrator.py:153-156 and 229-232) and a sequence of steps: the coefficients at the
two levels, step by step. -/
def runSteps {V : Type} (it : Integ V) :
    List ((Heap V → Heap V) × (Heap V → Heap V)) → Heap V →
      List ((String → Option V) × (String → Option V))
  | [], _ => []
  | (f, s) :: rest, h => (advance it f s h).1 :: runSteps it rest (advance it f s h).2

/-- The whole run from the initialisation on. -/
def simulate {V : Type} (it : Integ V) (steps : List ((Heap V → Heap V) × (Heap V → Heap V)))
    (h : Heap V) : List ((String → Option V) × (String → Option V)) :=
  runSteps it steps (updateOld it h)

/-- The Crank-Nicolson residual of timeintegrator.py:209-212 for an equation with one unknown whose
residual is `res u coefficients`; the step solves for the `u` that makes it zero. -/
def cnResidual (res : ℝ → (String → Option ℝ) → ℝ) (θ dt uOld u : ℝ)
    (lv : (String → Option ℝ) × (String → Option ℝ)) : ℝ :=
  u - uOld - dt * (θ * res u lv.2 + (1 - θ) * res uOld lv.1)

/-- The forward Euler residual, timeintegrator.py:138-141. -/
def feResidual (res : ℝ → (String → Option ℝ) → ℝ) (dt uOld u : ℝ)
    (lv : (String → Option ℝ) × (String → Option ℝ)) : ℝ :=
  u - uOld - dt * res uOld lv.1

/-- A source term, tracer_eq_2d.py:293-298 (and the same in shallowwater_eq.py): it is left out if the
dictionary has no such name. -/
def sourceRes (k : String) (_u : ℝ) (c : String → Option ℝ) : ℝ :=
  match c k with
  | some s => s
  | none => 0

/-- The corrected velocity of tracer_eq_2d.py:148-154.  `none` is the exception of line 154 for a factor
that is missing. -/
def corrected (c : String → Option ℝ) : Option ℝ :=
  match c "uv_2d" with
  | none => some 0
  | some uv =>
    match c "tracer_advective_velocity_factor" with
    | none => none
    | some f => some (f * uv)

end Verif.Fields
