import Verif.Export.Model
import Mathlib.Data.List.Sort
import Mathlib.Order.WithBot

/-!
Model of `thetis/callback.py`: callback registry, diagnostics files, time windows,
conservation and overshoot diagnostics, detector bookkeeping, accumulators.
-/

namespace Verif.Callback

/-! ### CallbackManager, callback.py:14-59 -/

/-- Insertion into an ordered dictionary: an existing key keeps its place and gets the new
value, a new key is appended. -/
def dictSet {α β : Type} [DecidableEq α] (k : α) (v : β) : List (α × β) → List (α × β)
  | [] => [(k, v)]
  | (k', v') :: d => if k' = k then (k', v) :: d else (k', v') :: dictSet k v d

/-- Dictionary lookup. -/
def dictGet {α β : Type} [DecidableEq α] (k : α) : List (α × β) → Option β
  | [] => none
  | (k', v) :: d => if k' = k then some v else dictGet k d

/-- `CallbackManager`: a default dictionary from modes to ordered dictionaries. -/
abbrev Registry (Mode Name Cb : Type) := Mode → List (Name × Cb)

/-- `CallbackManager.add`, callback.py:40-48. -/
def Registry.add {Mode Name Cb : Type} [DecidableEq Mode] [DecidableEq Name]
    (r : Registry Mode Name Cb) (cb : Cb) (name : Name) (mode : Mode) : Registry Mode Name Cb :=
  fun m => if m = mode then dictSet name cb (r m) else r m

/-- `CallbackManager.evaluate`, callback.py:50-59: the callbacks in the order in which their
`evaluate` is called (`sorted` on the keys, then a lookup per key). -/
def Registry.evaluate {Mode Name Cb : Type} [LinearOrder Name]
    (r : Registry Mode Name Cb) (mode : Mode) : List (Name × Cb) :=
  (((r mode).map Prod.fst).mergeSort (fun a b => decide (a ≤ b))).filterMap
    (fun k => (dictGet k (r mode)).map (fun cb => (k, cb)))

/-! ### DiagnosticHDF5, callback.py:62-159 -/

inductive Err
  | assertion
  | keyError
  | zeroDivision
deriving DecidableEq, Repr

/-- A diagnostics file with `n + 1` variables: one dataset per variable and the `time` dataset
(present iff `include_time`, otherwise left empty). -/
structure H5File (n : ℕ) (V : Type) where
  cols : Fin (n + 1) → List V
  time : List ℚ

/-- A file with empty datasets, callback.py:91-112. -/
def H5File.empty (n : ℕ) (V : Type) : H5File n V := ⟨fun _ => [], []⟩

/-- `_nentries`, callback.py:128-129. -/
def H5File.nentries {n : ℕ} {V : Type} (f : H5File n V) : ℕ := (f.cols 0).length

/-- `_expand`, callback.py:114-126; new entries hold the fill value. -/
def H5File.expand {n : ℕ} {V : Type} (fill : V) (inclTime : Bool) (f : H5File n V) : H5File n V :=
  { cols := fun i => f.cols i ++ [fill]
    time := if inclTime then f.time ++ [0] else f.time }

/-- The assignments of callback.py:154-158, with the time assertion. -/
def H5File.assign {n : ℕ} {V : Type} (inclTime : Bool) (f : H5File n V) (ix : ℕ)
    (vars : Fin (n + 1) → V) (time : Option ℚ) : H5File n V × Option Err :=
  if inclTime then
    match time with
    | none => (f, some .assertion)
    | some t => ({ cols := fun i => (f.cols i).set ix (vars i), time := f.time.set ix t }, none)
  else ({ cols := fun i => (f.cols i).set ix (vars i), time := f.time }, none)

/-- `DiagnosticHDF5.export` on rank 0, callback.py:131-159. -/
def H5File.export {n : ℕ} {V : Type} (fill : V) (inclTime : Bool) (f : H5File n V)
    (vars : Fin (n + 1) → V) (time : Option ℚ) (index : Option ℕ) : H5File n V × Option Err :=
  match index with
  | none =>
    let f' := f.expand fill inclTime
    f'.assign inclTime (f'.nentries - 1) vars time
  | some i =>
    if i ≤ f.nentries then
      if i = f.nentries then
        let f' := f.expand fill inclTime
        f'.assign inclTime (f'.nentries - 1) vars time
      else f.assign inclTime i vars time
    else (f, some .assertion)

/-! ### DiagnosticCallback, callback.py:162-302 -/

/-- Python `x or default` for an optional number: `None` and `0` are falsy. -/
def orDefault {β : Type} (x : Option ℚ) (coe : ℚ → β) (dflt : β) : β :=
  match x with
  | none => dflt
  | some v => if v = 0 then dflt else coe v

/-- The window test, callback.py:205-206 and 296-297: `true` when the callback is evaluated. -/
def inWindow (start stop : Option ℚ) (t : ℚ) : Bool :=
  let s : WithBot ℚ := orDefault start (fun v => (v : WithBot ℚ)) ⊥
  let e : WithTop ℚ := orDefault stop (fun v => (v : WithTop ℚ)) ⊤
  decide (¬ ((t : WithBot ℚ) < s) ∧ ¬ (e < (t : WithTop ℚ)))

/-- Persistent part of a callback's diagnostics output: the file on disk (if any), and the
in-memory flags `_create_new_file`, `_hdf5_initialized` (callback.py:203-204).  `rows` is the
abstract content, see `C08`. -/
structure Diag (R : Type) where
  disk : Option (List R)
  createNew : Bool
  initialized : Bool
deriving DecidableEq, Repr

/-- `push_to_hdf5`, callback.py:280-289 with `_create_hdf5_file` (223-239) and the row semantics
of `DiagnosticHDF5.export`.  In append mode no file is created; pushing then fails with a
`KeyError` if there is none (h5py opens an empty file). -/
def Diag.push {R : Type} (c : Diag R) (row : R) (index : Option ℕ) : Diag R × Option Err :=
  let disk := if c.initialized then c.disk else if c.createNew then some [] else c.disk
  let c' := { c with disk := disk, initialized := true }
  match disk with
  | none => (c', some .keyError)
  | some rows =>
    match index with
    | none => ({ c' with disk := some (rows ++ [row]) }, none)
    | some i =>
      if i < rows.length then ({ c' with disk := some (rows.set i row) }, none)
      else if i = rows.length then ({ c' with disk := some (rows ++ [row]) }, none)
      else (c', some .assertion)

/-- Push a list of (row, index) pairs, stopping at the first error. -/
def Diag.pushAll {R : Type} (c : Diag R) : List (R × Option ℕ) → Diag R × Option Err
  | [] => (c, none)
  | (r, i) :: rest =>
    match c.push r i with
    | (c', none) => c'.pushAll rest
    | (c', some e) => (c', some e)

/-- A new process: the flags of a freshly constructed callback, with the disk kept.  `append` is
what the driver then sets: in 3D `set_write_mode('append')` for a continued simulation
(solver.py:1284-1288); the 2D driver never does this. -/
def Diag.restart {R : Type} (c : Diag R) (append : Bool) : Diag R :=
  { disk := c.disk, createNew := !append, initialized := false }

/-! ### Conservation diagnostics -/

/-- `ScalarConservationCallback.__call__`, callback.py:323-328: state is `initial_value`. -/
def conservation (init : Option ℚ) (v : ℚ) : Option ℚ × Except Err (ℚ × ℚ) :=
  let i := init.getD v
  (some i, if i = 0 then .error .zeroDivision else .ok (v, (v - i) / i))

/-- `MinMaxConservationCallback.__call__`, callback.py:450-456: returns
(min, max, undershoot, overshoot). -/
def minMax (init : Option (ℚ × ℚ)) (v : ℚ × ℚ) : Option (ℚ × ℚ) × (ℚ × ℚ × ℚ × ℚ) :=
  let i := init.getD v
  (some i, (v.1, v.2, min (v.1 - i.1) 0, max (v.2 - i.2) 0))

/-- Feed a list of observations to a stateful callback. -/
def feed {S A B : Type} (f : S → A → S × B) : S → List A → List B
  | _, [] => []
  | s, a :: as => (f s a).2 :: feed f (f s a).1 as

/-- `AccumulatorCallback.__call__`, callback.py:613-619: state is `(integrant, old_value)`. -/
def accumulate (dt : ℚ) (s : ℚ × Option ℚ) (v : ℚ) : ℚ × Option ℚ :=
  match s.2 with
  | none => (s.1, some v)
  | some o => (s.1 + 1 / 2 * (o + v) * dt, some v)

/-! ### Detectors -/

/-- `_values_per_field`, callback.py:549-558 (Python slices clip at the end of the list). -/
def valuesPerField {V : Type} (values : List V) : ℕ → List ℕ → List (List V)
  | _, [] => []
  | i, dim :: dims => ((values.drop i).take dim) :: valuesPerField values (i + dim) dims

/-- Automatic detector names, callback.py:521-524, as digit lists after the common prefix
"detector". -/
def detectorName (ndetectors i : ℕ) : List ℕ :=
  Export.zeroPad (Export.decimal ndetectors).length i

end Verif.Callback
