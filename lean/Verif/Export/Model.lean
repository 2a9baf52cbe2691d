import Mathlib.Data.Nat.Digits.Defs

/-!
Model of `thetis/exporter.py` (numbered checkpoint files, export managers) and of the
`export` method of the solvers.

File contents are abstract values; the disk is a map from file names (lists of characters)
to contents.  The VTK back end is modelled by the file counter of `VTKFile` only.
-/

namespace Verif.Export

/-- Decimal digits, most significant first, as `str(i)` prints them. -/
def decimal (i : ℕ) : List ℕ := if i = 0 then [0] else (Nat.digits 10 i).reverse

/-- Format specification `{:0wd}`: zero padding to width `w`. -/
def zeroPad (w i : ℕ) : List ℕ := List.replicate (w - (decimal i).length) 0 ++ decimal i

/-- Characters '0'..'9'. -/
def digitChar (d : ℕ) : Char := Char.ofNat ('0'.toNat + d)

/-- `HDF5Exporter.gen_filename`, exporter.py:150-159 (without the directory, which is common to
all files of an exporter). -/
def genFilename (pfx : List Char) (legacy : Bool) (i : ℕ) : List Char :=
  pfx ++ '_' :: (zeroPad 5 i).map digitChar ++ (if legacy then [] else ['.', 'h', '5'])

/-- Exceptions of interest. -/
inductive Err
  | typeError
  | valueError
  | keyError
  | ioError
deriving DecidableEq, Repr

/-- What is in a checkpoint file: a complete function with an optional time stamp, or a file
that was opened for writing and abandoned. -/
inductive File (V : Type)
  | stored (v : V) (time : Option ℚ)
  | broken

/-- The disk. -/
abbrev Disk (V : Type) := List Char → Option (File V)

/-- Write (truncate) a file. -/
def Disk.put {V : Type} (d : Disk V) (f : List Char) (x : File V) : Disk V :=
  fun g => if g = f then some x else d g

/-- A HDF5 exporter: prefix, `include_time`, legacy flag and `next_export_ix`
(exporter.py:123-148). -/
structure H5 where
  pfx : List Char
  legacy : Bool
  includeTime : Bool
  nextIx : ℕ
deriving DecidableEq, Repr

/-- `HDF5Exporter.export_as_index`, exporter.py:161-191.  The file is opened with mode 'w' before
the missing time is noticed, so a failing export leaves a broken file; the legacy branch ignores
the time.  (The function-space assertion is not modelled.) -/
def exportAsIndex {V : Type} (e : H5) (d : Disk V) (i : ℕ) (v : V) (time : Option ℚ) :
    H5 × Disk V × Option Err :=
  let f := genFilename e.pfx e.legacy i
  if e.legacy then ({ e with nextIx := i + 1 }, d.put f (.stored v none), none)
  else if e.includeTime && time.isNone then (e, d.put f .broken, some .valueError)
  else ({ e with nextIx := i + 1 }, d.put f (.stored v (if e.includeTime then time else none)), none)

/-- `HDF5Exporter.export`, exporter.py:194-202. -/
def exportH5 {V : Type} (e : H5) (d : Disk V) (v : V) (time : Option ℚ) :
    H5 × Disk V × Option Err := exportAsIndex e d e.nextIx v time

/-- `HDF5Exporter.load`, exporter.py:205-242, data and time part.  The inner option is the `time`
entry of the metadata (`None` if the attribute is missing). -/
def load {V : Type} (e : H5) (d : Disk V) (i : ℕ) : Except Err (V × Option ℚ) :=
  match d (genFilename e.pfx e.legacy i) with
  | some (.stored v t) => .ok (v, t)
  | _ => .error .ioError

/-- `set_next_export_ix` of the base class, exporter.py:55-57. -/
def H5.setNext (e : H5) (i : ℕ) : H5 := { e with nextIx := i }

/-- A VTK exporter: `next_export_ix` and the counter of the `VTKFile` object, which determines
the file number (exporter.py:64-120). -/
structure Vtk where
  nextIx : ℕ
  counter : ℕ
deriving DecidableEq, Repr

/-- Constructor, exporter.py:69-94: a new `VTKFile` counts from zero whatever `next_export_ix`. -/
def Vtk.new (nextIx : ℕ) : Vtk := ⟨nextIx, 0⟩

/-- exporter.py:96-101 -/
def Vtk.setNext (_ : Vtk) (i : ℕ) : Vtk := ⟨i, i⟩

/-- exporter.py:104-120: writes file number `counter` labelled with time `nextIx`. -/
def Vtk.export (e : Vtk) : Vtk × (ℕ × ℕ) := (⟨e.nextIx + 1, e.counter + 1⟩, (e.counter, e.nextIx))

/-! ### Export manager -/

/-- One HDF5 manager: its exporters in insertion order (`OrderedDict`, exporter.py:290-296). -/
abbrev Manager := List H5

/-- `ExportManager.set_next_export_ix`, exporter.py:348-351. -/
def Manager.setNext (m : Manager) (i : ℕ) : Manager := m.map (·.setNext i)

/-- `ExportManager.export`, exporter.py:353-375: loops over the exporters in order and stops at
the first exception.  `vals` gives the current function of each exporter by position.  Preprocessing
callbacks are not modelled here (see `tryExport`). -/
def Manager.export {V : Type} (vals : ℕ → V) (time : Option ℚ) :
    Manager → Disk V → ℕ → Manager × Disk V × Option Err
  | [], d, _ => ([], d, none)
  | e :: es, d, k =>
    match exportH5 e d (vals k) time with
    | (e', d', some err) => (e' :: es, d', some err)
    | (e', d', none) =>
      let r := Manager.export vals time es d' (k + 1)
      (e' :: r.1, r.2.1, r.2.2)

/-- Operations a user/solver performs on a manager. -/
inductive Op (V : Type)
  | export (vals : ℕ → V) (time : ℚ)
  | setNext (i : ℕ)

/-- Run operations. -/
def runOps {V : Type} : List (Op V) → Manager × Disk V → Manager × Disk V
  | [], w => w
  | .export vals time :: ops, (m, d) =>
    let r := Manager.export vals (some time) m d 0
    runOps ops (r.1, r.2.1)
  | .setNext i :: ops, (m, d) => runOps ops (m.setNext i, d)

/-! ### The solver's export method -/

/-- Outcome of writing one field, as seen by the manager loop. -/
inductive Write | ok | typeError | other
deriving DecidableEq, Repr

/-- A manager reduced to the write log: attempts to write the fields `(name, next index)` in order;
`out attempt name` is the outcome of the given attempt.  Returns the advanced fields, the log of
completed writes and the error. -/
def tryExport (out : String → Write) :
    List (String × ℕ) → List (String × ℕ) × List (String × ℕ) × Option Write
  | [] => ([], [], none)
  | (f, ix) :: fs =>
    match out f with
    | .ok =>
      let r := tryExport out fs
      ((f, ix + 1) :: r.1, (f, ix) :: r.2.1, r.2.2)
    | .typeError => ((f, ix) :: fs, [], some .typeError)
    | .other => ((f, ix) :: fs, [], some .other)

/-- `FlowSolver2d.export`, solver2d.py:811-817, and `FlowSolver.export`, solver.py:997-1002, for one
manager: on `TypeError` the *whole* manager is exported again without time.  `out1`/`out2` are the
outcomes of the fields in the first and second attempt. -/
def solverExport (out1 out2 : String → Write) (fs : List (String × ℕ)) :
    List (String × ℕ) × List (String × ℕ) × Option Write :=
  match tryExport out1 fs with
  | (fs', log, some .typeError) =>
    let r := tryExport out2 fs'
    (r.1, log ++ r.2.1, r.2.2)
  | r => r

end Verif.Export
