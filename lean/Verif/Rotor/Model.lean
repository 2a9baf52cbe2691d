import Mathlib.Analysis.SpecialFunctions.Pow.Real
import Mathlib.Data.Fin.VecNotation
import Verif.Turbine.Model

/-!
Model of turbines in a sheared current (turbines.py) and of turbine definition files.

Simplifications: expressions are their values at one point, speeds are magnitudes of the velocity (the direction does not
enter), numbers are real.  The thrust area and the upwind correction are those of `Verif.Turbine`.
-/

namespace Verif.Rotor

open Verif.Turbine

/-! ### Rotor average -/

/-- Weights of the samples, turbines.py:29-34. -/
noncomputable def defaultWeights : Fin 10 → ℝ :=
  ![0.052, 0.0903, 0.1099, 0.1212, 0.1266, 0.1266, 0.1212, 0.1099, 0.0903, 0.052]

/-- Heights of the samples, turbines.py:76-77, `numpy.linspace` with `n + 2` points from tip to tip. -/
noncomputable def zVals (n : ℕ) (hub diameter : ℝ) (i : Fin (n + 2)) : ℝ :=
  (hub - diameter / 2) + i.val * (((hub + diameter / 2) - (hub - diameter / 2)) / (n + 1))

/-- Speed at height `z`, turbines.py:80, for a depth-averaged speed `U`. -/
noncomputable def shear (alpha beta depth U z : ℝ) : ℝ := U * (z / (beta * depth)) ^ (1 / alpha)

/-- The sampled average, turbines.py:76-83. -/
noncomputable def rotorAverage {n : ℕ} (w : Fin (n + 2) → ℝ) (alpha beta depth hub diameter U : ℝ) : ℝ :=
  (∑ i, shear alpha beta depth U (zVals n hub diameter i) ^ 3 * w i) ^ (1 / 3 : ℝ)

/-- `structure_type`, options.py:478-479. -/
inductive Structure
  | bottomFixed
  | floating

/-- Height of the hub above the bed, turbines.py:67-73. -/
def hubHeight (s : Structure) (rel depth : ℝ) : ℝ :=
  match s with
  | .bottomFixed => rel
  | .floating => depth - rel

/-- A turbine, turbines.py:18-35; `CT` and `CP` are the coefficients at a given speed. -/
structure Turb where
  diameter : ℝ
  projected : Option ℝ
  Csupport : ℝ
  Asupport : ℝ
  upwind : Bool
  applyShear : Bool
  alpha : ℝ
  beta : ℝ
  rel : Option ℝ
  struct : Structure
  CT : ℝ → ℝ
  CP : ℝ → ℝ

/-- `projected_diameter`, turbines.py:20 (positive if given, options.py:465). -/
def Turb.projDiameter (t : Turb) : ℝ := t.projected.getD t.diameter

/-- `rotor_averaged_velocity`, turbines.py:60-83; `none` is the `ValueError`. -/
noncomputable def Turb.effective (t : Turb) (U depth : ℝ) : Option ℝ :=
  if t.applyShear then
    t.rel.map fun r =>
      rotorAverage (n := 8) defaultWeights t.alpha t.beta depth (hubHeight t.struct r depth) t.diameter U
  else some U

/-- `_thrust_area`, turbines.py:36-42, at a speed. -/
noncomputable def Turb.area (t : Turb) (U : ℝ) : ℝ := thrustArea Real.pi (t.CT U) t.diameter t.Csupport t.Asupport

/-- `velocity_correction`, turbines.py:44-49, at a speed. -/
noncomputable def Turb.correction (t : Turb) (U depth : ℝ) : ℝ :=
  velocityCorrection t.upwind (t.area U) t.projDiameter depth

/-- `friction_coefficient`, turbines.py:51-58. -/
noncomputable def Turb.friction (t : Turb) (U depth : ℝ) : Option ℝ :=
  (t.effective U depth).map fun e => t.area e / 2 / t.correction e depth ^ 2

/-- `power`, turbines.py:85-93: the correction is that of the depth-averaged speed. -/
noncomputable def Turb.power (t : Turb) (rho U depth : ℝ) : Option ℝ :=
  (t.effective U depth).map fun e =>
    1 / 2 * rho * (Real.pi * t.diameter ^ 2 / 4) * t.CP (e / t.correction U depth) * (e ^ 3 / t.correction U depth ^ 3)

/-- Energy that the drag of a density of one turbine takes from the flow in unit time: density times depth times speed times
the drag term, shallowwater_eq.py:783-791. -/
noncomputable def Turb.loss (t : Turb) (rho U depth : ℝ) : Option ℝ :=
  (t.friction U depth).map fun c => rho * depth * U * (c * 1 * U * U / depth)

/-! ### Turbine definition files -/

/-- The entry `support_structure`. -/
structure Support where
  type : Option Structure
  relHub : Option ℚ
  C : Option ℚ
  A : Option ℚ

/-- The entry `curves`. -/
structure Curves where
  speeds : Option (List ℚ)
  thrust : Option (List ℚ)
  power : Option (List ℚ)

/-- The thrust definition, turbines.py:397: missing, or one of two names, or something else. -/
inductive Def
  | constant
  | table
  | other

/-- A turbine definition file; `none` is a missing key. -/
structure TurbFile where
  name : Option String
  thrustDef : Option Def
  curves : Option Curves
  CT : Option ℚ
  CP : Option ℚ
  support : Option Support
  diameter : Option ℚ
  projected : Option ℚ
  upwind : Option Bool
  shear : Option Bool

/-- Coefficients of the options, options.py:482-504. -/
inductive Coefs
  | constant (CT CP : ℚ)
  | table (speeds CT CP : List ℚ)

/-- The farm options that a file can set, options.py:460-530. -/
structure Farm where
  coefs : Coefs
  struct : Structure
  rel : Option ℚ
  C : ℚ
  A : ℚ
  diameter : ℚ
  projected : Option ℚ
  applyShear : Bool
  upwind : Bool

/-- Coefficients, turbines.py:399-405; `none` is a `KeyError`, or the `TraitError` of an unknown type. -/
def loadCoefs (f : TurbFile) : Option Coefs :=
  match f.thrustDef.getD .constant with
  | .table => do
    let c ← f.curves
    let s ← c.speeds
    let t ← c.thrust
    let p ← c.power
    pure (.table s t p)
  | .constant => do
    let t ← f.CT
    let p ← f.CP
    if 0 < t ∧ 0 < p then pure (.constant t p) else none
  | .other => none

/-- Support, turbines.py:407-411: structure, hub height, coefficient and area; defaults of options.py:468-479. -/
def loadSupport (withSupport : Bool) (f : TurbFile) : Option (Structure × Option ℚ × ℚ × ℚ) :=
  match withSupport, f.support with
  | true, some s => do
    let t ← s.type
    let r ← s.relHub
    let c ← s.C
    let a ← s.A
    if 0 < r ∧ 0 ≤ c ∧ 0 ≤ a then pure (t, some r, c, a) else none
  | _, _ => some (.bottomFixed, none, 0, 0)

/-- `load_turbine`, turbines.py:392-419: `upwind` is absent from the options of continuous farms and then `False`
(turbines.py:155); the density is zero. -/
def loadTurbine (withSupport discrete : Bool) (f : TurbFile) : Option Farm := do
  let c ← loadCoefs f
  let s ← loadSupport withSupport f
  let d ← f.diameter
  if 0 < d then
    let _ ← f.name
    pure { coefs := c, struct := s.1, rel := s.2.1, C := s.2.2.1, A := s.2.2.2, diameter := d, projected := none,
           applyShear := false, upwind := if discrete then f.upwind.getD true else false }
  else none

end Verif.Rotor
