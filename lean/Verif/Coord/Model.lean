import Mathlib.Analysis.SpecialFunctions.Complex.Arg
import Mathlib.Algebra.Order.ToIntervalMod

/-!
Model of `thetis/coordsys.py`.  The pyproj transformation is a function of a point (pyproj is trusted);
floats are real numbers, and a value that is not finite is `none`.
-/

namespace Verif.Coord

open Real

/-- A float: `none` is nan or infinite. -/
abbrev Val := Option ℝ

/-- Assignment through a boolean mask, `a[good_ix] = values`. -/
def scatter {α : Type} : List Bool → List α → List α → List α
  | true :: m, v :: vs, _ :: base => v :: scatter m vs base
  | false :: m, vs, b :: base => b :: scatter m vs base
  | _, _, base => base

/-- Selection through a boolean mask, `x[good_ix]`. -/
def gather {α : Type} : List Bool → List α → List α
  | true :: m, v :: vs => v :: gather m vs
  | false :: m, _ :: vs => gather m vs
  | _, _ => []

/-- `good_ix`, coordsys.py:51. -/
def goodIx (x y : List Val) : List Bool := List.zipWith (fun a b => a.isSome && b.isSome) x y

/-- `proj_transform` for arrays, coordsys.py:45-52; `none` is the AssertionError for different shapes
(coordsys.py:47).  Arrays are one-dimensional here, and both have the same element type.
`cast` is the conversion to the element type of the input arrays (`full_like`, coordsys.py:49-50): the
identity for floats, truncation for integers. -/
noncomputable def projTransform (cast : Val → Val) (trans : ℝ → ℝ → Val × Val) (x y : List Val) :
    Option (List Val × List Val) :=
  if x.length = y.length then
    let a := x.map fun _ => cast none
    let b := y.map fun _ => cast none
    let good := goodIx x y
    let r := List.zipWith (fun p q => match p, q with
      | some p, some q => trans p q
      | _, _ => (none, none)) (gather good x) (gather good y)
    some (scatter good (r.map fun v => cast v.1) a, scatter good (r.map fun v => cast v.2) b)
  else none

/-- Conversion of a float to an integer element: truncation (nan becomes an arbitrary number, here 0). -/
noncomputable def castInt : Val → Val
  | some v => some (if 0 ≤ v then (⌊v⌋ : ℝ) else (⌈v⌉ : ℝ))
  | none => some 0

/-- `to_lonlat` with `positive_lon`, coordsys.py:81-83: `numpy.mod(lon, 360)`. -/
noncomputable def positiveLon (lon : ℝ) : ℝ := lon - 360 * ⌊lon / 360⌋

/-- `numpy.arctan2(y, x)`. -/
noncomputable def atan2 (y x : ℝ) : ℝ := Complex.arg ⟨x, y⟩

/-- `theta` of `get_vector_rotation_matrix`, coordsys.py:150-154, at one point, for a
transformation with finite values. -/
noncomputable def theta (trans : ℝ → ℝ → ℝ × ℝ) (x y delta : ℝ) : ℝ :=
  let p1 := trans x y
  let p2 := trans x (y + delta)
  let dxdl := (p2.1 - p1.1) / delta
  let dydl := (p2.2 - p1.2) / delta
  atan2 (-dxdl) dydl

/-- Default `delta`, coordsys.py:148-149. -/
noncomputable def delta0 : ℝ := 1e-6

/-- `R`, coordsys.py:156-158, applied to a vector as in the documentation (matmul). -/
noncomputable def applyR (th : ℝ) (v : ℝ × ℝ) : ℝ × ℝ :=
  (cos th * v.1 + -sin th * v.2, sin th * v.1 + cos th * v.2)

/-- One element of `VectorCoordSysRotation.__call__`, coordsys.py:189-190. -/
noncomputable def rotate (s c vx vy : ℝ) : ℝ × ℝ := (vx * c - vy * s, vx * s + vy * c)

/-- `VectorCoordSysRotation`, coordsys.py:163-191: sines and cosines of the rotation at each point. -/
structure Rotator where
  sin' : List ℝ
  cos' : List ℝ

/-- `__init__`, coordsys.py:169-176, for arrays of points. -/
noncomputable def Rotator.mk' (trans : ℝ → ℝ → ℝ × ℝ) (pts : List (ℝ × ℝ)) : Rotator :=
  let th := pts.map fun p => theta trans p.1 p.2 delta0
  ⟨th.map sin, th.map cos⟩

/-- `__call__` on whole arrays, coordsys.py:188-191; `none` is the shape mismatch.  The components are
arrays of one number per point: broadcasting of scalars and of arrays of length one is left out. -/
noncomputable def Rotator.all (r : Rotator) (vx vy : List ℝ) : Option (List (ℝ × ℝ)) :=
  if vx.length = r.sin'.length ∧ vy.length = r.sin'.length then
    some (List.zipWith (fun v p => rotate p.1 p.2 v.1 v.2) (vx.zip vy) (r.sin'.zip r.cos'))
  else none

/-- `__call__` with `i_node`, coordsys.py:188-191; `none` is the IndexError.  The code returns arrays of
length one, here numbers; negative `i_node` is left out. -/
noncomputable def Rotator.one (r : Rotator) (vx vy : ℝ) (i : ℕ) : Option (ℝ × ℝ) := do
  let s ← r.sin'[i]?
  let c ← r.cos'[i]?
  pure (rotate s c vx vy)

end Verif.Coord
