import Mathlib.Data.Real.Basic
import Mathlib.Data.List.Basic

/-!
Model of the callbacks that sample fields at stations, in profiles and along transects: `TimeSeriesCallback2D`,
`TimeSeriesCallback3D`, `VerticalProfileCallback` and `TransectCallback`, callback.py:629-1108.

Simplifications: strings are lists of characters; coordinates are real numbers; a field is a function of the point, which is
defined for points in the water.
-/

namespace Verif.Probe

abbrev Str := List Char

/-- `f.split('_')[0]`, callback.py:670, 787, 888 and 997. -/
def short (f : Str) : Str := f.takeWhile (· ≠ '_')

/-- `'-'.join(field_short_names)`, callback.py:671, 788, 889 and 998. -/
def fieldStr (fields : List Str) : Str := List.intercalate ['-'] (fields.map short)

/-- `self.name`, callback.py:673-674, 790-791, 891-892 and 999-1000; `base` is the name of the class. -/
def name (base loc : Str) (fields : List Str) : Str := base ++ '_' :: (loc ++ '_' :: fieldStr fields)

/-- The part of the file name that depends on the callback, callback.py:230. -/
def fileName (n : Str) : Str := n.map fun c => if c = ' ' then '_' else c

/-- Creation of the file, callback.py:91-112: h5py refuses to create two datasets of one name; the time axis is the dataset
`time`. -/
def createFile (vars : List Str) : Option (List Str) := if ("time".toList :: vars).Nodup then some ("time".toList :: vars) else none

/-- The `z` at which a station of the 3D model is sampled, callback.py:812-824. -/
noncomputable def stationZ (z depth : ℝ) : ℝ := if z < -depth then -depth + 0.1 else z

/-- What is written to the file about a station of the 3D model, callback.py:785 (`attrs['z']`), and the `z` used. -/
noncomputable def station (z depth : ℝ) : ℝ × ℝ := (z, stationZ z depth)

/-- `numpy.linspace(a, b, n)`. -/
noncomputable def linspace (a b : ℝ) (n k : ℕ) : ℝ := if n ≤ 1 then a else a + (b - a) * (k / (n - 1))

/-- Entry `k` of the `z` array of a profile, callback.py:907-908 and 926-928. -/
noncomputable def profileZ (eps depth elev : ℝ) (n k : ℕ) : ℝ :=
  let zmin := -(depth - eps)
  let zmax := elev - eps
  zmax + (zmin - zmax) * linspace 0 1 n k

/-- `epsilon`, callback.py:907. -/
noncomputable def profileEps : ℝ := 1e-2

/-- Limits of a column of a transect, callback.py:1062-1067. -/
noncomputable def limits (eps : ℝ) (fmin fmax : Option ℝ) (depth elev : ℝ) : ℝ × ℝ :=
  let zmin := -(depth - eps)
  let zmax := elev - eps
  let zmin := match fmin with | none => zmin | some f => max zmin f
  let zmax := match fmax with | none => zmax | some f => min zmax f
  (zmin, zmax)

/-- `trans_z`, callback.py:1068-1069: level `k` of column `j`. -/
noncomputable def transZ (eps : ℝ) (fmin fmax : Option ℝ) (depth elev : ℕ → ℝ) (n k j : ℕ) : ℝ :=
  let l := limits eps fmin fmax (depth j) (elev j)
  linspace l.2 l.1 n k

/-- `ravel` of an array with `nc` columns. -/
def ravel {α : Type} (nr nc : ℕ) (a : ℕ → ℕ → α) : List α := (List.range (nr * nc)).map fun q => a (q / nc) (q % nc)

/-- The points `xyz` of a transect, callback.py:1050-1051 and 1070-1072. -/
noncomputable def points (eps : ℝ) (fmin fmax : Option ℝ) (x y depth elev : ℕ → ℝ) (nz nxy : ℕ) : List (ℝ × ℝ × ℝ) :=
  (ravel nz nxy fun _ j => x j).zip ((ravel nz nxy fun _ j => y j).zip (ravel nz nxy (transZ eps fmin fmax depth elev nz)))

/-- Component `i` of a field at level `k` of column `j` of the output, callback.py:1085-1095: `reshape` of the values at the
points. -/
noncomputable def component (field : ℝ × ℝ × ℝ → ℕ → ℝ) (pts : List (ℝ × ℝ × ℝ)) (nxy k j i : ℕ) : Option ℝ :=
  ((pts.map field)[k * nxy + j]?).map (· i)

/-- Coordinates `x` and `y` made equally long, callback.py:1002-1007. -/
def broadcast {α : Type} (x y : List α) : List α × List α :=
  let x' := match x with | [a] => y.map fun _ => a | _ => x
  let y' := match y with | [b] => x'.map fun _ => b | _ => y
  (x', y')

/-- `variable_names` of a transect, callback.py:1023-1031; `none` is an IndexError. `dims` are the fields with their numbers
of components. -/
def variableNames (dims : List (Str × ℕ)) : Option (List Str) :=
  (dims.mapM fun fd => if fd.2 = 1 then some [short fd.1]
    else (List.range fd.2).mapM fun k => (["x".toList, "y".toList, "z".toList][k]?).map (short fd.1 ++ '_' :: ·)).map
      fun l => "z_coord".toList :: l.flatten

/-- The number of arrays `__call__` of a transect returns, callback.py:1080-1096. -/
def numOutputs (dims : List (Str × ℕ)) : ℕ := 1 + (dims.map Prod.snd).sum

end Verif.Probe
