import Mathlib.Data.List.Basic
import Mathlib.Logic.Function.Basic

/-!
Model of the setup of a 2D run in `FlowSolver2d` (solver2d.py): initial conditions, restart, boundary conditions of the
tracers, and the table of field names shared by all solvers of a process (field_defs.py).

Simplifications: fields are elements of arbitrary types, projections of a field to its own space are exact and files return
what was stored (C06).
-/

namespace Verif.Solver2

/-- Names are lists of characters. -/
abbrev Name := List Char

/-- The suffix of the names of 2D fields. -/
def suffix : Name := ['_', '2', 'd']

/-- `l[-3:]` -/
def last3 (l : Name) : Name := l.drop (l.length - 3)

/-- `l[:-3]` -/
def drop3 (l : Name) : Name := l.take (l.length - 3)

/-! ### Initial conditions and restart -/

/-- Types of velocity, elevation, tracers and sediment, bed, and the fields of the non-hydrostatic mode. -/
structure Types where
  V : Type
  E : Type
  Q : Type
  B : Type
  N : Type

/-- Prognostic fields of a 2D run; tracers by label, solver2d.py:410-449. -/
@[ext] structure St (T : Types) where
  uv : T.V
  elev : T.E
  tracer : Name → T.Q
  sed : T.Q
  bath : T.B
  nh : T.N

/-- Options: labels of the tracers, `solve_suspended_sediment`, `use_sediment_conservative_form`. -/
structure Opts where
  labels : List Name
  sediment : Bool
  conservative : Bool

/-- The sediment model: equilibrium concentration of a flow (`get_equilibrium_tracer` after `update`), and a concentration
times the total depth. -/
structure Sed (T : Types) where
  equil : T.V → T.E → T.B → T.Q
  timesDepth : T.E → T.B → T.Q → T.Q

variable {T : Types}

/-- The label meant by a keyword argument, solver2d.py:769. -/
def label (l : Name) : Name := if l.length > 3 ∧ last3 l = suffix then l else l ++ suffix

/-- The loop over the tracers, solver2d.py:768-771: stops with an error at an unknown label. -/
def assignTracers (labels : List Name) : List (Name × T.Q) → St T → St T × Bool
  | [], s => (s, true)
  | (l, q) :: rest, s =>
    if label l ∈ labels then assignTracers labels rest { s with tracer := Function.update s.tracer (label l) q }
    else (s, false)

/-- The sediment, solver2d.py:773-783; not reached after an error. -/
def settle (o : Opts) (m : Sed T) (sediment : Option T.Q) (r : St T × Bool) : St T × Bool :=
  if r.2 ∧ o.sediment then
    let c := m.equil r.1.uv r.1.elev r.1.bath
    ({ r.1 with sed := sediment.getD (if o.conservative then m.timesDepth r.1.elev r.1.bath c else c) }, true)
  else r

/-- `assign_initial_conditions`, solver2d.py:762-785; `false` is the assertion error.  The time integrators copy the fields
(785) and keep nothing else. -/
def assign (o : Opts) (m : Sed T) (elev : Option T.E) (uv : Option T.V) (sediment : Option T.Q)
    (tracers : List (Name × T.Q)) (s : St T) : St T × Bool :=
  settle o m sediment (assignTracers o.labels tracers { s with elev := elev.getD s.elev, uv := uv.getD s.uv })

/-- What `load_state` reads, solver2d.py:870. -/
structure File (T : Types) where
  uv : T.V
  elev : T.E

/-- Stored by an export of `uv_2d` and `elev_2d`. -/
def save (s : St T) : File T := ⟨s.uv, s.elev⟩

/-- `load_state`, solver2d.py:880-882. -/
def loadState (o : Opts) (m : Sed T) (f : File T) (s : St T) : St T :=
  (assign o m none none none [] { s with uv := f.uv, elev := f.elev }).1

/-! ### Boundary conditions of tracers -/

/-- The boundary conditions of a system of tracers, solver2d.py:591-597; `none` is the empty dictionary.  `bnd` is
`bnd_functions`. -/
def bcOf {β : Type} (bnd : Name → Option β) (system : Name) : Option β :=
  match bnd system with
  | some b => some b
  | none => bnd (drop3 system)

/-- Conditions on one boundary as far as tracers go: the value, if given. -/
structure Bc (α : Type) where
  value : Option α

/-- External value of the tracer with index `i` in its system, tracer_eq_2d.py:95-102: the terms of all tracers of a system
get the same conditions (equation.py:158-201). -/
def external {α : Type} (b : Bc α) (inside : ℕ → α) (i : ℕ) : α := b.value.getD (inside i)

/-! ### Field names -/

/-- `field_metadata`: names known to the process, field_defs.py:5. -/
abbrev Meta := List Name

/-- Name of the default tracer. -/
def tracer2d : Name := ['t', 'r', 'a', 'c', 'e', 'r', '_', '2', 'd']

/-- Creation of a solver, solver2d.py:143-144. -/
def newSolver (t : Meta) : Meta := t.filter (· ≠ tracer2d)

/-- `add_new_field`, solver2d.py:374-384; `none` is the assertion error. -/
def addField (l : Name) (t : Meta) : Option Meta := if l ∈ t then none else some (t ++ [l])

/-- Fields of the tracers of a solver, solver2d.py:421-446. -/
def addFields : List Name → Meta → Option Meta
  | [], t => some t
  | l :: ls, t => (addField l t).bind (addFields ls)

/-- A whole solver: created, then its fields. -/
def setup (ls : List Name) (t : Meta) : Option Meta := addFields ls (newSolver t)

/-- `create_exporters`, solver2d.py:704-730 and exporter.py:323-325: every field to export must have an entry. -/
def canExport (exports : List Name) (t : Meta) : Bool := exports.all (· ∈ t)

end Verif.Solver2
