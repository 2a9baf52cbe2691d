import Mathlib.Data.List.Basic
import Mathlib.Data.Fintype.Basic

/-!
Model of `create_directory`, `thetis/utility.py:260-273`, on several MPI processes that share a file system: all schedules of the
processes, other programs possibly working on the same file system.

Simplifications: paths are lists of names without links, `..` or access rights; an exception ends the function on the process that raises
it and the process does not reach the barrier any more (MPI does not abort by itself; Python's default handler ends one process only).
-/

namespace Verif.Directory

/-- What is at a path. -/
inductive Node
  | file
  | dir
deriving DecidableEq, Repr

/-- A path from the root. -/
abbrev Path := List ℕ

/-- File systems. -/
abbrev Fs := Path → Option Node

/-- `os.makedirs(path)` with `exist_ok=False`, from the documentation of Python: raises an exception if the path exists or if one of its
parents is a file, and creates the path and all missing parents otherwise. -/
def makedirs (fs : Fs) (p : Path) : Option Fs :=
  if fs p ≠ none then none
  else if ∃ q ∈ p.inits, fs q = some .file then none
  else some fun q => if q ∈ p.inits then some .dir else fs q

/-- Where process 0 is: before line 267, before line 271, at the barrier of line 272, returned, or ended by an exception. -/
inductive Root
  | start
  | absent
  | waiting
  | gone
  | raised
deriving DecidableEq, Repr

/-- Where another process is: before line 266, at the barrier, or returned. -/
inductive Other
  | start
  | waiting
  | gone
deriving DecidableEq, Repr

/-- The processes and the file system.  There are `n + 1` processes. -/
structure State (n : ℕ) where
  fs : Fs
  root : Root
  others : Fin n → Other

variable {n : ℕ}

/-- All have come to the barrier. -/
def State.met (s : State n) : Prop := (s.root = .waiting ∨ s.root = .gone) ∧ ∀ i, s.others i ≠ .start

/-- One step of one process, utility.py:266-273. -/
inductive Step (p : Path) : State n → State n → Prop
  /-- Lines 267-268: there is a directory. -/
  | found {s : State n} : s.root = .start → s.fs p = some .dir → Step p s { s with root := .waiting }
  /-- Lines 267-269: there is a file. -/
  | clash {s : State n} : s.root = .start → s.fs p = some .file → Step p s { s with root := .raised }
  /-- Line 267: there is nothing. -/
  | missing {s : State n} : s.root = .start → s.fs p = none → Step p s { s with root := .absent }
  /-- Line 271. -/
  | made {s : State n} {fs : Fs} : s.root = .absent → makedirs s.fs p = some fs → Step p s { s with fs := fs, root := .waiting }
  /-- Line 271, with an exception. -/
  | failed {s : State n} : s.root = .absent → makedirs s.fs p = none → Step p s { s with root := .raised }
  /-- Lines 266 and 272 on another process. -/
  | arrive {s : State n} (i : Fin n) : s.others i = .start → Step p s { s with others := Function.update s.others i .waiting }
  /-- Process 0 leaves the barrier. -/
  | leaveRoot {s : State n} : s.root = .waiting → s.met → Step p s { s with root := .gone }
  /-- Another process leaves the barrier. -/
  | leave {s : State n} (i : Fin n) : s.others i = .waiting → s.met → Step p s { s with others := Function.update s.others i .gone }

/-- Other programs create files and directories. -/
def Grow (s s' : State n) : Prop := s'.root = s.root ∧ s'.others = s.others ∧ ∀ q v, s.fs q = some v → s'.fs q = some v

/-- All processes call the function. -/
def begin (fs : Fs) : State n := ⟨fs, .start, fun _ => .start⟩

end Verif.Directory
