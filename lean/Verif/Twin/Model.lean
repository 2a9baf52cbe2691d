import Verif.Probe.Model
import Verif.Invert.Model
import Mathlib.Logic.Function.Basic

/-!
Time series at stations that a run writes and an inversion reads: `TimeSeriesCallback2D`, callback.py:629-741, and
`load_scalar_observation_data`, inversion_tools.py:733-773.

The directory is a map of file names to files.  Names leave out `diagnostic_` and `.hdf5`, which are the same in both.  Fields are scalar;
times and values are rational numbers.
-/

namespace Verif.Twin

open Verif.Probe (Str)

/-- Arguments of a callback. -/
structure Station where
  loc : Str
  fields : List Str
  x : ℚ
  y : ℚ

/-- A file: attributes, datasets, and rows of time and values in the order of the datasets; flattening leaves out the second axis, which
has length one. -/
structure File where
  x : ℚ
  y : ℚ
  vars : List Str
  rows : List (ℚ × List ℚ)
deriving DecidableEq

/-- The directory and `_hdf5_initialized` of the callbacks. -/
structure State (ι : Type) where
  disk : Str → Option File
  init : ι → Bool

/-- The name of the class, callback.py:635. -/
def base : Str := ['t', 'i', 'm', 'e', 's', 'e', 'r', 'i', 'e', 's']

/-- The file of a callback, callback.py:673-674 and 230. -/
def written (c : Station) : Str := Probe.fileName (Probe.name base c.loc c.fields)

/-- The file that is read, inversion_tools.py:748-752. -/
def wanted (s var : Str) : Str := base ++ '_' :: (s ++ '_' :: var)

/-- An evaluation of a callback: which, when, and the values of the fields at the station. -/
structure Event (ι : Type) where
  who : ι
  time : ℚ
  value : Str → ℚ

/-- The row of an evaluation, callback.py:726-741 and 154-158. -/
def row (c : Station) {ι : Type} (e : Event ι) : ℚ × List ℚ := (e.time, c.fields.map e.value)

/-- `_create_hdf5_file` at the first evaluation in mode `create`, callback.py:223-239 and 91-112. -/
def opened {ι : Type} [DecidableEq ι] (cb : ι → Station) (i : ι) (s : State ι) : Option (State ι) :=
  if s.init i then some s
  else match Probe.createFile ((cb i).fields.map Probe.short) with
    | none => none
    | some _ => some
      { disk := Function.update s.disk (written (cb i)) (some ⟨(cb i).x, (cb i).y, (cb i).fields.map Probe.short, []⟩)
        init := Function.update s.init i true }

/-- `push_to_hdf5` without index, as in the 2D solver (solver2d.py:809), callback.py:280-289 and 151-158. -/
def push {ι : Type} [DecidableEq ι] (cb : ι → Station) (s : State ι) (e : Event ι) : Option (State ι) :=
  match opened cb e.who s with
  | none => none
  | some s => match s.disk (written (cb e.who)) with
    | none => none
    | some f => some
      { s with disk := Function.update s.disk (written (cb e.who)) (some { f with rows := f.rows ++ [row (cb e.who) e] }) }

/-- A run: evaluations in any order. `none` is an exception. -/
def run {ι : Type} [DecidableEq ι] (cb : ι → Station) (s : State ι) : List (Event ι) → Option (State ι)
  | [] => some s
  | e :: es => match push cb s e with
    | none => none
    | some s => run cb s es

/-- What is registered for a station: coordinates, times, values. -/
structure Obs where
  x : ℚ
  y : ℚ
  time : List ℚ
  data : List ℚ
deriving DecidableEq

/-- One file, inversion_tools.py:757-765. `none` is an exception: no file, or no such dataset. -/
def loadOne (disk : Str → Option File) (var s : Str) : Option Obs :=
  match disk (wanted s var) with
  | none => none
  | some f =>
    if var ∈ f.vars then
      some ⟨f.x, f.y, f.rows.map Prod.fst, f.rows.map fun r => ((f.vars.zip r.2).lookup var).getD 0⟩
    else none

/-- `load_scalar_observation_data`, inversion_tools.py:748-771: the data in the order of the names. -/
def load (disk : Str → Option File) (var : Str) : List Str → Option (List Obs)
  | [] => some []
  | s :: ss => match loadOne disk var s, load disk var ss with
    | some o, some os => some (o :: os)
    | _, _ => none

/-- What `register_observation_data` and `construct_evaluator` make of the observations, inversion_tools.py:717-725 and 766-773, without
start and end times.  `interp1d` is any function that goes through the points it is given, if their times are different. -/
noncomputable def manager (os : List Obs) (interp1d : List ℚ → List ℚ → ℝ → Option ℝ) (scaling : ℝ) (weight : ℕ → ℝ) : Invert.Data where
  xy := os.map fun o => ((o.x : ℝ), (o.y : ℝ))
  obs j t := (os[j]?).bind fun o => interp1d o.time o.data t
  startT _ := none
  endT _ := none
  scaling := scaling
  weight := weight

/-- `eval_cost_function`, inversion_tools.py:887-913: the field is projected onto continuous functions before it is compared.  `proj` is
that projection. -/
noncomputable def cost (os : List Obs) (interp1d : List ℚ → List ℚ → ℝ → Option ℝ) (scaling : ℝ) (weight : ℕ → ℝ)
    (proj : (ℝ × ℝ → ℝ) → ℝ × ℝ → ℝ) (u : ℝ × ℝ → ℝ) (t : ℝ) (pts : List (ℝ × ℝ)) : Option ℝ :=
  Invert.misfit (manager os interp1d scaling weight) (proj u) t pts

end Verif.Twin
