import Mathlib.Algebra.Order.Field.Basic
import Mathlib.Analysis.Real.Sqrt
import Mathlib.Analysis.SpecialFunctions.Exp

/-!
Model of `thetis/turbines.py`.
-/

namespace Verif.Turbine

/-! ### Tabulated curves -/

section Table
variable {K : Type} [Field K] [LinearOrder K]

/-- `linearly_interpolate_table`, turbines.py:109-125.  `none` is Python's `IndexError`.  The UFL
`conditional` is evaluated at one point `x`; both of its branches are built, so an error in
either is an error of the whole. -/
def interpTable : List K → List K → K → K → Option K
  | x0 :: x1 :: xs, y0 :: y1 :: ys, yFinal, x =>
    let below := ((x1 - x) * y0 + (x - x0) * y1) / (x1 - x0)
    match xs with
    | [] => some (if x < x1 then below else yFinal)
    | x2 :: xs' =>
      (interpTable (x1 :: x2 :: xs') (y1 :: ys) yFinal x).map
        (fun above => if x < x1 then below else above)
  | _, _, _, _ => none

/-- `TabulatedThrustTurbine.thrust_coefficient` and `power_coefficient`, turbines.py:139-145, with
the length check of the constructor (turbines.py:134-137); the speed `x` is `|uv|`. -/
def tabulated (speeds coefs : List K) (x : K) : Option K :=
  if coefs.length ≠ speeds.length then none
  else
    match speeds with
    | [] => none
    | s0 :: _ => (interpTable speeds coefs 0 x).map (fun v => if x < s0 then 0 else v)

end Table

/-! ### Upwind correction and power -/

/-- `TidalTurbine._thrust_area`, turbines.py:36-42; a zero support coefficient is falsy. -/
noncomputable def thrustArea (π CT diameter Csupport Asupport : ℝ) : ℝ :=
  let fric := CT * (π * diameter ^ 2 / 4)
  if Csupport ≠ 0 then fric + Csupport * Asupport else fric

/-- `TidalTurbine.velocity_correction`, turbines.py:44-49, given the thrust area. -/
noncomputable def velocityCorrection (upwind : Bool) (fric projDiameter depth : ℝ) : ℝ :=
  if upwind then 1 / 2 * (1 + Real.sqrt (1 - fric / (projDiameter * depth))) else 1

/-- `TidalTurbine.friction_coefficient`, turbines.py:51-58, without shear profile. -/
noncomputable def frictionCoefficient (upwind : Bool) (fric projDiameter depth : ℝ) : ℝ :=
  fric / 2 / velocityCorrection upwind fric projDiameter depth ^ 2

/-- Default power coefficient, turbines.py:100 and 132. -/
noncomputable def defaultCP (CT : ℝ) : ℝ := 1 / 2 * CT * (1 + Real.sqrt (1 - CT))

/-- `TidalTurbine.power`, turbines.py:85-93, without shear profile and for a constant power
coefficient; `speed` is `|uv|` at the turbine. -/
noncomputable def power (rho π diameter CP speed α : ℝ) : ℝ :=
  1 / 2 * rho * (π * diameter ^ 2 / 4) * CP * (speed ^ 3 / α ^ 3)

/-- The bump in one direction, turbines.py:205-206. -/
noncomputable def bump (r : ℝ) : ℝ := if |r| < 1 then Real.exp (1 - 1 / (1 - r ^ 2)) else 0

/-- `DiscreteTidalTurbineFarm.add_turbines`, turbines.py:194-210: the density at one point. -/
noncomputable def addTurbines (radius : ℝ) (x y : ℝ) (density : ℝ) (coords : List (ℝ × ℝ)) : ℝ :=
  coords.foldl (fun d c =>
    d + bump ((x - c.1) / radius) * bump ((y - c.2) / radius) / (radius ^ 2 * 1.45661)) density

/-! ### TurbineFunctionalCallback, turbines.py:213-261 -/

/-- Accumulated state for `n` farms. -/
structure Acc (n : ℕ) where
  timePeriod : ℚ
  instantaneous : Fin n → ℚ
  integrated : Fin n → ℚ
  average : Fin n → ℚ
  profit : Fin n → ℚ

/-- Initial state, turbines.py:240-245. -/
def Acc.init (n : ℕ) : Acc n := ⟨0, fun _ => 0, fun _ => 0, fun _ => 0, fun _ => 0⟩

/-- `_evaluate_timestep`, turbines.py:247-258.  `power` is `farm.power_output(uv, depth)`, `cost`
the number of turbines. -/
def Acc.step {n : ℕ} (dt : ℚ) (breakEven cost : Fin n → ℚ) (s : Acc n) (power : Fin n → ℚ) :
    Acc n :=
  let period := s.timePeriod + dt
  let integrated := fun i => s.integrated i + power i * dt
  let average := fun i => integrated i / period
  { timePeriod := period
    instantaneous := power
    integrated := integrated
    average := average
    profit := fun i => average i - breakEven i * cost i }

/-! ### MinimumDistanceConstraints, turbines.py:293-366 -/

/-- The double loop with `continue`, turbines.py:327-330 and 355-358, as the list of visited
pairs. -/
def pairs (n : ℕ) : List (ℕ × ℕ) :=
  (List.range n).flatMap (fun i =>
    ((List.range n).filter (fun j => ¬ i ≤ j)).map (fun j => (i, j)))

/-- `length`, turbines.py:313-315. -/
def nConstraints (n : ℕ) : ℕ := n * (n - 1) / 2

/-- One entry of `function`, turbines.py:331. -/
def constraint {K : Type} [Field K] (d : K) (m : ℕ → K) (p : ℕ × ℕ) : K :=
  (m (2 * p.1) - m (2 * p.2)) ^ 2 + (m (2 * p.1 + 1) - m (2 * p.2 + 1)) ^ 2 - d ^ 2

/-- `function`, turbines.py:317-338. -/
def constraints {K : Type} [Field K] (d : K) (n : ℕ) (m : ℕ → K) : List K :=
  (pairs n).map (constraint d m)

/-- One row of `jacobian`: assignments in source order into a zero row, turbines.py:360-363. -/
def jacobianRow {K : Type} [Field K] (m : ℕ → K) (p : ℕ × ℕ) : ℕ → K :=
  let row0 : ℕ → K := fun _ => 0
  let row1 := Function.update row0 (2 * p.1) (2 * (m (2 * p.1) - m (2 * p.2)))
  let row2 := Function.update row1 (2 * p.2) (-2 * (m (2 * p.1) - m (2 * p.2)))
  let row3 := Function.update row2 (2 * p.1 + 1) (2 * (m (2 * p.1 + 1) - m (2 * p.2 + 1)))
  Function.update row3 (2 * p.2 + 1) (-2 * (m (2 * p.1 + 1) - m (2 * p.2 + 1)))

/-- `jacobian`, turbines.py:340-366: one row per visited pair (there are exactly `length()` rows,
see `C41_length`, so the row counter never leaves the array). -/
def jacobian {K : Type} [Field K] (n : ℕ) (m : ℕ → K) : List (ℕ → K) := (pairs n).map (jacobianRow m)

end Verif.Turbine
