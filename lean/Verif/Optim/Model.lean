import Mathlib.Data.List.Basic
import Mathlib.Data.List.Nodup

/-!
Model of thetis/optimisation.py: the callbacks of a reduced functional, lists of them, the recorded
diagnostics, and the export managers for user functions and for controls and derivatives.

Files, plotting spaces and the HDF5 containers of the diagnostics are left out.
-/

namespace Verif.Optim

/-! ### Callbacks and lists of callbacks -/

/-- What Python raises: `user e` for an exception of a callback body, `index` for the IndexError of
optimisation.py:45 when there are no arguments. -/
inductive Err (ε : Type) where
  | user (e : ε)
  | index
deriving DecidableEq

/-- The body of a callback that is not a list (`callback` of optimisation.py:33-35): it may change the
state of the program and may raise. -/
abbrev Act (α σ ε : Type) := List α → σ → σ × Option ε

/-- An `OptimisationCallback`, optimisation.py:22-45, or an `OptimisationCallbackList`,
optimisation.py:213-220, whose entries are again callbacks. -/
inductive Cb (α σ ε : Type) where
  | leaf (act : Act α σ ε)
  | list (cbs : List (Cb α σ ε))

/-- What `__call__` returns after the body, optimisation.py:42-45. -/
def returned {α ε : Type} (args : List α) : Except (Err ε) α :=
  if args.length > 1 then
    match args[1]? with
    | some a => .ok a
    | none => .error .index
  else
    match args[0]? with
    | some a => .ok a
    | none => .error .index

mutual
/-- `callback`, optimisation.py:33-35 and, for a list, 218-220: the entries are called one after the
other and their return values are thrown away. -/
def run {α σ ε : Type} : Cb α σ ε → List α → σ → σ × Option (Err ε)
  | .leaf act, args, s => ((act args s).1, (act args s).2.map Err.user)
  | .list cbs, args, s => runAll cbs args s

/-- The loop of optimisation.py:219-220 around `__call__` of lines 37-45: an exception of an entry ends
the loop. -/
def runAll {α σ ε : Type} : List (Cb α σ ε) → List α → σ → σ × Option (Err ε)
  | [], _, s => (s, none)
  | cb :: cbs, args, s =>
    match run cb args s with
    | (s', some e) => (s', some e)
    | (s', none) =>
      match (returned args : Except (Err ε) α) with
      | .error e => (s', some e)
      | .ok _ => runAll cbs args s'
end

/-- `__call__`, optimisation.py:37-45. -/
def call {α σ ε : Type} (cb : Cb α σ ε) (args : List α) (s : σ) : σ × Except (Err ε) α :=
  match run cb args s with
  | (s', some e) => (s', .error e)
  | (s', none) => (s', returned args)

/-! ### Recorded values -/

/-- Exceptions raised by the `compute_values` methods. -/
inductive DErr where
  | typeError
  | valueError
  | indexError
deriving DecidableEq

/-- An argument of a callback: a number, or a list of numbers (controls or derivatives that are
Constants). -/
inductive DArg (R : Type) where
  | num (x : R)
  | nums (xs : List R)
deriving DecidableEq

/-- `FunctionalOptimisationCallback.compute_values`, optimisation.py:276-279. -/
def functionalValues {R : Type} (args : List (DArg R)) : Except DErr (DArg R) :=
  if args.length = 0 then .error .typeError
  else match args[0]? with
    | some a => .ok a
    | none => .error .indexError

/-- `ConstantControlOptimisationCallback.compute_values`, optimisation.py:291-295.  A number in the
place of a list has no length, which raises a TypeError. -/
def controlValues {R : Type} (arrayDim : ℕ) (args : List (DArg R)) : Except DErr (List R) :=
  match args.getLast? with
  | none => .error .indexError
  | some (.num _) => .error .typeError
  | some (.nums xs) => if arrayDim ≠ xs.length then .error .valueError else .ok xs

/-- `DerivativeConstantControlOptimisationCallback.compute_values`, optimisation.py:307-313. -/
def derivativeValues {R : Type} (arrayDim : ℕ) (args : List (DArg R)) : Except DErr (List R) :=
  if args.length ≠ 3 then .error .typeError
  else match (args[1]? : Option (DArg R)) with
    | none => .error .indexError
    | some (.num _) => .error .typeError
    | some (.nums xs) => if arrayDim ≠ xs.length then .error .valueError else .ok xs

/-- `DiagnosticOptimisationCallback.evaluate`, optimisation.py:253-264, as the body of a callback
(line 266-267): the values go to the log and to the file if these are switched on.  The state is the
pair of the log and the rows of the file. -/
def diagnostic {α ρ ε : Type} (toLog toFile : Bool) (values : List α → Except ε ρ) :
    Act α (List ρ × List ρ) ε := fun args s =>
  match values args with
  | .error e => (s, some e)
  | .ok v => ((if toLog then s.1 ++ [v] else s.1, if toFile then s.2 ++ [v] else s.2), none)

/-! ### Export managers -/

/-- An exporter of an export manager: the key of the field, its short name, its file and the position of
the function in the list handed over by the user. -/
structure Entry where
  key : String
  short : String
  file : String
  idx : ℕ
deriving DecidableEq

/-- A Python dictionary with the given assignments, later ones first. -/
def lookup {β : Type} (d : List (String × β)) (k : String) : Option β :=
  (d.find? (fun p => p.1 = k)).map Prod.snd

/-- `field_dict` of optimisation.py:81-84. -/
def fieldDict (fieldNames : List String) (n : ℕ) : List (String × ℕ) :=
  (fieldNames.zip (List.range n)).reverse

/-- The short name of optimisation.py:85-88; `known` is `field_defs.field_metadata`, which gives the
short name and the file name of the standard fields. -/
def shortOf (known : String → Option (String × String)) (userShort : Bool) (k : String) : String :=
  if userShort then k
  else match known k with
    | some p => p.1
    | none => k

/-- The file names of optimisation.py:90-98, as dictionary assignments. `none` is the KeyError of lines
93, 95 or 98 for a name that has no function. -/
def fileDict (known : String → Option (String × String)) (fieldNames : List String) (n : ℕ)
    (filenames : Option (List String)) (pre : String) : Option (List (String × String)) :=
  match filenames with
  | none =>
    if ∀ k ∈ fieldNames, (lookup (fieldDict fieldNames n) k).isSome then
      some ((fieldNames.map fun k =>
        (k, match known k with
            | some p => pre ++ p.2
            | none => pre ++ k)).reverse)
    else none
  | some fs =>
    if ∀ p ∈ fieldNames.zip fs, (lookup (fieldDict fieldNames n) p.1).isSome then
      some (fieldNames.zip fs).reverse
    else none

/-- The loop of `ExportManager.__init__`, exporter.py:290-296 with `add_export` (exporter.py:326-339): a
name without a function is left out, a name without a file is a KeyError (line 329), and a name that
occurs again replaces its exporter, which is the same one, without moving it. -/
def exporters (files : List (String × String)) (short : String → String)
    (dict : List (String × ℕ)) : List String → List Entry → Option (List Entry)
  | [], acc => some acc
  | k :: ks, acc =>
    match lookup dict k with
    | none => exporters files short dict ks acc
    | some i =>
      match lookup files k with
      | none => none
      | some f =>
        if k ∈ acc.map Entry.key then exporters files short dict ks acc
        else exporters files short dict ks (acc ++ [⟨k, short k, f, i⟩])

/-- `UserExportManager.__init__`, optimisation.py:76-100, for functions with the given names. -/
def userExport (known : String → Option (String × String)) (names : List String)
    (filenames : Option (List String)) (pre : String) (shortnames : Option (List String)) :
    Option (List Entry) :=
  let fieldNames := shortnames.getD names
  let dict := fieldDict fieldNames names.length
  match fileDict known fieldNames names.length filenames pre with
  | none => none
  | some files => exporters files (shortOf known shortnames.isSome) dict fieldNames []

/-- A Firedrake function: its name, its space (identified by a number) and its values. -/
structure Fn (V : Type) where
  name : String
  space : ℕ
  val : V

/-- The argument of `DeferredExportManager.export`: a list, a single scalar function, which has no
length, or a single vector function, whose length is its number of components. -/
inductive FArg (V : Type) where
  | list (fs : List (Fn V))
  | scalar (f : Fn V)
  | vector (f : Fn V)

/-- optimisation.py:128-131.  `none` is the AttributeError of line 135 or 140 for a component of a
vector function, which has no function space. -/
def enlist {V : Type} : FArg V → Option (List (Fn V))
  | .list fs => some fs
  | .scalar f => some [f]
  | .vector _ => none

/-- The keyword arguments that `DeferredExportManager` passes on, optimisation.py:111-118. -/
structure Kw where
  filenames : Option (List String)
  pre : String
  shortnames : Option (List String)

/-- `self.functions` and `self.export_manager`, optimisation.py:118 and 133-138. -/
structure Def (V : Type) where
  funcs : List (Fn V)
  entries : List Entry

/-- `ExportManager.export`, exporter.py:361-372: what is written to which file. -/
def written {V : Type} (d : Def V) : List (String × V) :=
  d.entries.filterMap fun e => (d.funcs[e.idx]?).map fun f => (e.file, f.val)

/-- The construction of the copies and the manager at the first call, optimisation.py:133-138; `zero` is
the value of a new function. -/
def create {V : Type} (known : String → Option (String × String)) (kw : Kw) (zero : V)
    (fs : List (Fn V)) (suggested : Option (List String)) : Option (Def V) :=
  let copies : List (Fn V) := match suggested with
    | none => fs.map fun f => ⟨f.name, f.space, zero⟩
    | some ns => (fs.zip ns).map fun p => ⟨p.2, p.1.space, zero⟩
  match userExport known (copies.map Fn.name) kw.filenames kw.pre kw.shortnames with
  | none => none
  | some es => some ⟨copies, es⟩

/-- The loop of optimisation.py:139-141; `none` is the AssertionError of line 140. -/
def assignAll {V : Type} : List (Fn V) → List (Fn V) → Option (List (Fn V))
  | g :: gs, f :: fs =>
    if g.space = f.space then
      match assignAll gs fs with
      | none => none
      | some r => some (⟨g.name, g.space, f.val⟩ :: r)
    else none
  | gs, _ => some gs

/-- `DeferredExportManager.export`, optimisation.py:120-142.  The state is `none` before the first
call. -/
def deferred {V : Type} (known : String → Option (String × String)) (kw : Kw) (zero : V)
    (st : Option (Def V)) (arg : FArg V) (suggested : Option (List String)) :
    Option (Def V × List (String × V)) :=
  match enlist arg with
  | none => none
  | some fs =>
    match (match st with
           | none => create known kw zero fs suggested
           | some d => some d) with
    | none => none
    | some d =>
      match assignAll d.funcs fs with
      | none => none
      | some gs => some (⟨gs, d.entries⟩, written ⟨gs, d.entries⟩)

/-- A sequence of calls of `export`; the list of what each of them writes. -/
def deferredRuns {V : Type} (known : String → Option (String × String)) (kw : Kw) (zero : V) :
    Option (Def V) → List (FArg V × Option (List String)) → Option (List (List (String × V)))
  | _, [] => some []
  | st, c :: cs =>
    match deferred known kw zero st c.1 c.2 with
    | none => none
    | some (d, w) => (deferredRuns known kw zero (some d) cs).map fun ws => w :: ws

/-- `ControlsExportOptimisationCallback.callback`, optimisation.py:176-185, for a sequence of calls with
these last arguments. -/
def controlsExport {V : Type} (known : String → Option (String × String)) (zero : V)
    (calls : List (List (FArg V))) : Option (List (List (String × V))) :=
  match calls.mapM (fun args => args.getLast?) with
  | none => none
  | some cs => deferredRuns known ⟨none, "control_", none⟩ zero none (cs.map fun c => (c, none))

/-- The names of optimisation.py:204-209. `none` is the AttributeError of line 206 for a component of a
vector function. -/
def controlNames {V : Type} : FArg V → Option (List String)
  | .list fs => some (fs.map Fn.name)
  | .scalar f => some [f.name]
  | .vector _ => none

/-- The arguments of `export` in `DerivativesExportOptimisationCallback.callback`,
optimisation.py:201-210; the functional value is not looked at and left out, so the arguments are given
as the part after the first one, `none` standing for a call with another number of arguments, which is
a TypeError (lines 202-203). -/
def derivativeCall {V : Type} (derivAndControls : Option (FArg V × FArg V)) :
    Option (FArg V × Option (List String)) :=
  match derivAndControls with
  | none => none
  | some (d, c) =>
    match controlNames c with
    | none => none
    | some ns => some (d, some ns)

/-- A sequence of calls of `DerivativesExportOptimisationCallback`, optimisation.py:193-210. -/
def derivativesExport {V : Type} (known : String → Option (String × String)) (zero : V)
    (calls : List (Option (FArg V × FArg V))) : Option (List (List (String × V))) :=
  match calls.mapM derivativeCall with
  | none => none
  | some cs => deferredRuns known ⟨none, "derivative_", none⟩ zero none cs

/-! ### The default argument of the export manager -/

/-- An export manager as far as the preprocessing functions are concerned: the keys of its exporters and
the dictionary object it refers to (`preproc_callbacks`, exporter.py:286). -/
structure Mgr where
  keys : List String
  dict : ℕ
deriving DecidableEq

/-- The program state: the export managers and the contents of the dictionary objects.  Dictionary 0 is
the object made once by the default argument `preproc_funcs={}` of exporter.py:265. -/
structure World where
  mgrs : List Mgr
  dicts : ℕ → String → Option ℕ

/-- `ExportManager.__init__`, exporter.py:262-296: `dict` is the dictionary passed as `preproc_funcs`,
`none` when the argument is left out. -/
def newMgr (w : World) (keys : List String) (dict : Option ℕ) : World :=
  { w with mgrs := w.mgrs ++ [⟨keys, dict.getD 0⟩] }

/-- `add_export`, exporter.py:298-346, on manager `m` with a preprocessing function (identified by a
number) or without. -/
def addExport (w : World) (m : ℕ) (key : String) (pre : Option ℕ) : World :=
  match w.mgrs[m]? with
  | none => w
  | some g =>
    { mgrs := w.mgrs.set m
        ⟨if key ∈ g.keys then g.keys else g.keys ++ [key], g.dict⟩,
      dicts := match pre with
        | none => w.dicts
        | some p => fun d k => if d = g.dict ∧ k = key then some p else w.dicts d k }

/-- The preprocessing functions that `export` of manager `m` calls, exporter.py:361-368. -/
def preprocCalled (w : World) (m : ℕ) : List ℕ :=
  match w.mgrs[m]? with
  | none => []
  | some g => g.keys.filterMap fun k => w.dicts g.dict k

end Verif.Optim
