import Mathlib.Data.List.Basic
import Mathlib.Tactic.Ring

/-!
Model of `NetCDFTimeSeriesReader` (thetis/interpolation.py:259-306): reading one time level of a list of
netCDF variables.

An array is its shape with a value for every list of indices.  netCDF4 reads a list of slices as one
slice per dimension and one integer as an index of the first dimension.  Left out: masks and types of the
values, and `os.path.isfile` (a missing file is a file without variables, both raise an exception).
-/

namespace Verif.Reader

/-- A numpy array: its shape, and its values at lists of indices. -/
structure Arr (V : Type) where
  shape : List ℕ
  get : List ℕ → V

/-- A netCDF variable: names of its dimensions and data. -/
structure Var (V : Type) where
  dims : List String
  data : Arr V

/-- An open netCDF file: names of its dimensions and its variables. -/
structure File (V : Type) where
  dims : List String
  var : String → Option (Var V)

/-- What the reader remembers: `self.time_dim`, `self.ndims`, interpolation.py:266-270.  Both are `None`
until the first file is read. -/
abbrev Memory := Option (ℕ × ℕ)

/-- `_detect_time_dim`, interpolation.py:272-277.  `none` is an exception: a failed assertion, an empty list
of variables or a missing variable. -/
def detect {V : Type} (vars : List String) (time : String) (f : File V) : Option (ℕ × ℕ) :=
  if time ∈ f.dims then
    match vars with
    | [] => none
    | v :: _ =>
      match f.var v with
      | none => none
      | some x => if time ∈ x.dims then some (x.dims.idxOf time, x.dims.length) else none
  else none

/-- `x[t]` with an integer: entry `t` of the first dimension, `none` is an IndexError. -/
def index {V : Type} (x : Arr V) (t : ℕ) : Option (Arr V) :=
  match x.shape with
  | [] => none
  | n :: s => if t < n then some ⟨s, fun i => x.get (t :: i)⟩ else none

/-- `x[:, …, t:t+1, …, :]` with `n` slices of which number `a` is `t:t+1`; too many slices raise an
IndexError.  A slice beyond the end is empty. -/
def slice {V : Type} (x : Arr V) (n a t : ℕ) : Option (Arr V) :=
  if n ≤ x.shape.length then
    some ⟨x.shape.modify a (fun m => min 1 (m - t)), fun i => x.get (i.modify a (· + t))⟩
  else none

/-- `ncfile[var][self._get_slice(time_index)]`, interpolation.py:279-287 and 304. -/
def take {V : Type} (m : ℕ × ℕ) (t : ℕ) (x : Arr V) : Option (Arr V) :=
  if m.2 = 1 then index x t else slice x m.2 m.1 t

/-- The loop over the variables, interpolation.py:302-306. -/
def readVars {V : Type} (m : ℕ × ℕ) (f : File V) (t : ℕ) : List String → Option (List (Arr V))
  | [] => some []
  | v :: vs =>
    match f.var v with
    | none => none
    | some x =>
      match take m t x.data, readVars m f t vs with
      | some a, some l => some (a :: l)
      | _, _ => none

/-- `__call__`, interpolation.py:289-306: the memory after the call and the result. -/
def read {V : Type} (vars : List String) (time : String) (m : Memory) (f : File V) (t : ℕ) :
    Memory × Option (List (Arr V)) :=
  match m with
  | some d => (some d, readVars d f t vars)
  | none =>
    match detect vars time f with
    | none => (none, none)
    | some d => (some d, readVars d f t vars)

/-- The memory after a sequence of calls with one reader. -/
def after {V : Type} (vars : List String) (time : String) (calls : List (File V × ℕ)) : Memory :=
  calls.foldl (fun m c => (read vars time m c.1 c.2).1) none

end Verif.Reader
