import Verif.TimeLoop.Setup
import Verif.Coupled.Props
import Mathlib.Algebra.Order.Round

/-!
The time step of the 3D solver on its way from `set_time_step` to the integrators.
-/

namespace Verif.Setdt

open Verif.Coupled (Stepper)
open Verif.TimeLoop (DtMode)

/-- Exceptions: division by zero, the assertion, `NotImplementedError`, and those of `set_time_step`. -/
inductive Err
  | zeroDivision
  | assertion
  | notImplemented
  | setup (e : TimeLoop.SetupErr)
deriving DecidableEq

/-- `numpy.isclose(a, b)` with its default tolerances. -/
def isClose (a b : ℚ) : Prop := |a - b| ≤ 1 / 10 ^ 8 + 1 / 10 ^ 5 * |b|

instance (a b : ℚ) : Decidable (isClose a b) := by unfold isClose; infer_instance

/-- `CoupledTimeIntegrator.set_dt`, coupled_timeintegrator.py:350-367.  Halves are rounded up here, to even numbers by numpy; both are as
far away. -/
def setDt3 (dt dt2 : ℚ) (names : List String) (d : String → Option Stepper) : Except Err (String → Option Stepper) :=
  if dt2 = 0 then .error .zeroDivision
  else if isClose (dt / dt2) (round (dt / dt2)) then
    if dt ≠ dt2 then .error .notImplemented else .ok (Coupled.setDt dt names d)
  else .error .assertion

/-- `create_timestepper`, solver.py:846 and 857-858, for any mode: `dt`, and the integrators. -/
def create (mode : DtMode) (auto : Bool) (ts ts2d : Option ℚ) (max2d max3d expT : ℚ) (names : List String) (d : String → Option Stepper) :
    Except Err (ℚ × (String → Option Stepper)) :=
  match TimeLoop.setTimeStep mode auto ts ts2d max2d max3d expT with
  | .error e => .error (.setup e)
  | .ok (dt, dt2, _) =>
    match setDt3 dt dt2 names d with
    | .error e => .error e
    | .ok d' => .ok (dt, d')

/-- The mode of the solver, solver.py:846. -/
def solverMode : DtMode := .three

end Verif.Setdt
