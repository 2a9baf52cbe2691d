import Mathlib.Data.Rat.Floor
import Mathlib.Algebra.Order.Floor.Ring

/-!
Model of the time loop, the export schedule, and the restart bookkeeping of
`thetis/solver2d.py` and `thetis/solver.py`.

Floats are modelled by `ℚ`.  Only the clock/bookkeeping state is modelled; the
fields advanced by `timestepper.advance` are not (they are the subject of other
modules).
-/

namespace Verif.TimeLoop

/-- `t_epsilon = 1.0e-5` : solver2d.py:1036, solver.py:1245. -/
def tEps : ℚ := 1 / 100000

/-- The two drivers: `FlowSolver2d.create_iterator` and `FlowSolver.iterate`. -/
inductive Dim | two | three
deriving DecidableEq, Repr

/-- The options read by the loop: `self.dt`, `options.simulation_export_time`,
`options.simulation_end_time`. -/
structure Cfg where
  dt : ℚ
  expT : ℚ
  tEnd : ℚ
deriving DecidableEq, Repr

/-- Bookkeeping attributes of the solver object (solver2d.py:111-114,135;
solver.py:129-132,157).  `nextIx` is the `next_export_ix` shared by all exporters
(exporter.py:53, 348-351; see module `Export` for the per-field version).
`time` is an `Option` because `load_state` may assign `None` to it. -/
structure Solver where
  iteration : ℕ
  time : Option ℚ
  iExport : ℕ
  nextExportT : ℚ
  exportInit : Bool
  nextIx : ℕ
deriving DecidableEq, Repr

/-- Freshly constructed solver: solver2d.py:111-114,135; solver.py:129-132,157,859. -/
def fresh (c : Cfg) : Solver :=
  { iteration := 0, time := some 0, iExport := 0, nextExportT := 0 + c.expT,
    exportInit := true, nextIx := 0 }

/-- Observable events of a run. -/
inductive Ev
  /-- `timestepper.advance(t, ...)` -/
  | adv (t : ℚ)
  /-- `callbacks.evaluate(mode='timestep')` at `(iteration, time)` -/
  | cb (iteration : ℕ) (t : ℚ)
  /-- `self.export(time=t)`: the solver's export counter, the file index used by the
  exporters, and the time stamp stored in the file -/
  | exp (iExport : ℕ) (fileIx : ℕ) (t : ℚ)
deriving DecidableEq, Repr

/-- Loop variables: `internal` is `internal_iteration`, `nextT` is the variable the
loop compares with (`next_export_t`: a local in 2D, `self.next_export_t` in 3D). -/
structure LoopSt where
  internal : ℕ
  iteration : ℕ
  t : ℚ
  iExport : ℕ
  nextT : ℚ
  nextIx : ℕ
deriving DecidableEq, Repr

/-- Loop guard, solver2d.py:1115, solver.py:1318. -/
def guard (c : Cfg) (s : LoopSt) : Bool := s.t ≤ c.tEnd - tEps

/-- Loop body, solver2d.py:1116-1142, solver.py:1320-1341 (`update_forcings`,
`adj_timestepper`, `print_state` and `export_func` have no effect on the
bookkeeping and are left out; the generator's `yield` is the `adv` event). -/
def body (c : Cfg) (t0 : ℚ) (s : LoopSt) : LoopSt × List Ev :=
  let iteration := s.iteration + 1
  let internal := s.internal + 1
  let t := t0 + internal * c.dt
  if t ≥ s.nextT - tEps then
    ({ internal, iteration, t, iExport := s.iExport + 1, nextT := s.nextT + c.expT,
       nextIx := s.nextIx + 1 },
     [.adv s.t, .cb iteration t, .exp (s.iExport + 1) s.nextIx t])
  else
    ({ internal, iteration, t, iExport := s.iExport, nextT := s.nextT, nextIx := s.nextIx },
     [.adv s.t, .cb iteration t])

/-- The `while` loop with a bound on the number of guard evaluations; `none` means
that the bound was hit before the loop stopped. -/
def loop (c : Cfg) (t0 : ℚ) : ℕ → LoopSt → Option (LoopSt × List Ev)
  | 0, _ => none
  | fuel + 1, s =>
    if guard c s then
      let r := body c t0 s
      match loop c t0 fuel r.1 with
      | none => none
      | some (s', evs) => some (s', r.2 ++ evs)
    else some (s, [])

/-- Result of running the driver. -/
inductive Outcome
  /-- `simulation_time` is `None`: arithmetic on it raises `TypeError`
  (solver2d.py:1038; solver.py:1318) -/
  | typeError
  /-- fuel exhausted -/
  | unfinished
  | done (s : Solver) (evs : List Ev)
deriving DecidableEq, Repr

/-- Events of a finished run (`[]` otherwise). -/
def Outcome.events : Outcome → List Ev
  | .done _ evs => evs
  | _ => []

/-- Final solver of a finished run. -/
def Outcome.solver? : Outcome → Option Solver
  | .done s _ => some s
  | _ => none

/-- Loop variables on entry of the loop.  In 2D the local `next_export_t` is recomputed
from the current time (solver2d.py:1038); in 3D `self.next_export_t` is used.  The exporter
index has been advanced if the initial state was exported (solver2d.py:1108-1113,
solver.py:1311-1316). -/
def startLoop (d : Dim) (c : Cfg) (s : Solver) (t0 : ℚ) : LoopSt :=
  { internal := 0, iteration := s.iteration, t := t0, iExport := s.iExport,
    nextT := (match d with
      | .two => t0 + c.expT
      | .three => s.nextExportT),
    nextIx := (if s.exportInit then s.nextIx + 1 else s.nextIx) }

/-- The initial export: solver2d.py:1108-1109, solver.py:1311-1312 (the separate bathymetry
file is left out). -/
def startEvents (s : Solver) (t0 : ℚ) : List Ev :=
  if s.exportInit then [Ev.exp s.iExport s.nextIx t0] else []

/-- Solver attributes after the loop: in 2D `self.next_export_t` is not updated. -/
def finish (d : Dim) (s : Solver) (l : LoopSt) : Solver :=
  { iteration := l.iteration, time := some l.t, iExport := l.iExport,
    nextExportT := (match d with
      | .two => s.nextExportT
      | .three => l.nextT),
    exportInit := s.exportInit, nextIx := l.nextIx }

/-- The driver: solver2d.py:1036-1144 and solver.py:1245-1341.  Callback creation and the
end-date computation are modelled elsewhere. -/
def iterate (d : Dim) (c : Cfg) (fuel : ℕ) (s : Solver) : Outcome :=
  match s.time with
  | none => .typeError
  | some t0 =>
    match loop c t0 fuel (startLoop d c s t0) with
    | none => .unfinished
    | some (l, evs) => .done (finish d s l) (startEvents s t0 ++ evs)

/-- The time stamp an event writes to file `ix`, if any. -/
def stampOf (ix : ℕ) : Ev → Option ℚ
  | .exp _ j t => if j = ix then some t else none
  | _ => none

/-- The time stamp found in the checkpoint with a given file index: that of the last
write to that file (`CheckpointFile(filename, 'w')` truncates, exporter.py:177-189). -/
def storedTime (evs : List Ev) (ix : ℕ) : Option ℚ := evs.reverse.findSome? (stampOf ix)

/-- What `HDF5Exporter.load` reports about time, exporter.py:218-242:
`absent` – empty metadata (legacy `DumbCheckpoint` files), `noAttr` – the file has no
`time` attribute and the entry is `None`, `stamp t` – the attribute. -/
inductive Meta
  | absent
  | noAttr
  | stamp (t : ℚ)
deriving DecidableEq, Repr

/-- Python `metadata.get('time', default)`. -/
def Meta.get (m : Meta) (dflt : ℚ) : Option ℚ :=
  match m with
  | .absent => some dflt
  | .noAttr => none
  | .stamp t => some t

/-- User overrides of `load_state`. -/
structure Overrides where
  t : Option ℚ := none
  iteration : Option ℕ := none
  iExport : Option ℕ := none

/-- `load_state`, bookkeeping part: solver2d.py:887-921, solver.py:1095-1130.
`sameDir` is `outputdir == options.output_directory`.  The start-date handling
(`initial_time_iso`) is modelled in module `EndDate`. -/
def loadState (c : Cfg) (m : Meta) (iStored : ℕ) (sameDir : Bool) (o : Overrides) : Solver :=
  let iExport := o.iExport.getD iStored
  let next := (iExport : ℚ) * c.expT
  let iteration := o.iteration.getD (⌈next / c.dt⌉).toNat
  let t := match o.t with
    | some t => some t
    | none => m.get (iteration * c.dt)
  let exportInit := !sameDir
  let offset := if exportInit then 0 else 1
  { iteration := iteration, time := t, iExport := iExport,
    nextExportT := next + c.expT, exportInit := exportInit, nextIx := iExport + offset }

end Verif.TimeLoop
