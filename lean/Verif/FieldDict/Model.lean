import Mathlib.Data.List.Basic
import Mathlib.Logic.Function.Basic

/-!
The dictionary of the fields of a solver: `AttrDict` and `FieldDict`, utility.py:89-136, and `add_new_field` of
the solvers.

Objects are numbers; the state is the dictionary and the names of all objects.  Keys are names that are no data descriptors of the class
`dict`, such as `__dict__` and `__class__`: these are found before the dictionary of an instance is read.
-/

namespace Verif.FieldDict

/-- What is assigned: a `Function`, in a mixed space or not, a `Constant`, or something else. -/
inductive Kind
  | function (mixed : Bool)
  | constant
  | other
deriving DecidableEq

/-- The state: `items` is the dictionary, which is `__dict__` as well, utility.py:99; `name` is `function.name()` of every object. -/
structure State where
  items : String → Option ℕ
  name : ℕ → String

/-- The program around it: kinds of objects, keys of `field_metadata`, names of the methods of `dict`. -/
structure World where
  kind : ℕ → Kind
  meta_ : String → Prop
  method : String → Prop

/-- `_check_inputs`, utility.py:108-121: no exception. -/
def Accepts (W : World) (key : String) (o : ℕ) : Prop :=
  match W.kind o with
  | .other => False
  | .constant => W.meta_ key
  | .function mixed => mixed = true ∨ W.meta_ key

/-- `_set_functionname`, utility.py:123-126. -/
def rename (W : World) (key : String) (o : ℕ) (name : ℕ → String) : ℕ → String :=
  match W.kind o with
  | .function _ => Function.update name o key
  | _ => name

/-- `dict.__setitem__`, and `object.__setattr__` on an object whose `__dict__` is itself. -/
def put (key : String) (o : ℕ) (s : State) : State := { s with items := Function.update s.items key (some o) }

/-- Operations on the dictionary: assignment of an item, utility.py:128-131, of an attribute, utility.py:133-136, deletion of either, and
`update` with one item, which `dict` does without calling `__setitem__`. -/
inductive Op
  | setItem (key : String) (o : ℕ)
  | setAttr (key : String) (o : ℕ)
  | del (key : String)
  | update (key : String) (o : ℕ)

/-- One operation: the state after it, and whether it raised no exception. -/
inductive Step (W : World) : State → Op → State → Bool → Prop
  | item {s key o} : Accepts W key o → Step W s (.setItem key o) (put key o { s with name := rename W key o s.name }) true
  | itemFail {s key o} : ¬ Accepts W key o → Step W s (.setItem key o) s false
  | attr {s key o} : Accepts W key o → Step W s (.setAttr key o) (put key o { s with name := rename W key o s.name }) true
  | attrFail {s key o} : ¬ Accepts W key o → Step W s (.setAttr key o) s false
  | del {s key} : s.items key ≠ none → Step W s (.del key) { s with items := Function.update s.items key none } true
  | delFail {s key} : s.items key = none → Step W s (.del key) s false
  | update {s key o} : Step W s (.update key o) (put key o s) true

/-- A sequence of operations. -/
inductive Run (W : World) : State → List Op → State → Prop
  | nil {s} : Run W s [] s
  | cons {s op t ok ops u} : Step W s op t ok → Run W t ops u → Run W s (op :: ops) u

/-- What reading gives: an object of the dictionary, a method of `dict`, an exception. -/
inductive Value
  | object (o : ℕ)
  | method
  | error
deriving DecidableEq

/-- `self[key]`. -/
def getItem (s : State) (key : String) : Value :=
  match s.items key with
  | some o => .object o
  | none => .error

open Classical in
/-- `self.key`: methods are no data descriptors, so that `__dict__` is read first. -/
noncomputable def getAttr (W : World) (s : State) (key : String) : Value :=
  match s.items key with
  | some o => .object o
  | none => if W.method key then .method else .error

/-- An entry of `field_metadata`. -/
structure Entry where
  name : String
  shortname : String
  unit : String
  filename : String
deriving DecidableEq

/-- The program with the dictionary `field_metadata`, of which `FieldDict` reads the keys only. -/
def World.withMeta (W : World) (md : String → Option Entry) : World := { W with meta_ := fun k => md k ≠ none }

/-- `shortname or name`: `None` and the empty string give way to the name. -/
def orName (shortname : Option String) (name : String) : String :=
  match shortname with
  | none => name
  | some x => if x = "" then name else x

/-- `add_new_field`, solver.py:616-646, with the same body in solver2d.py:355-385.  The preprocessor and the assertions on the types of
the other arguments are left out. -/
inductive AddField (W : World) (md : String → Option Entry) (s : State) (o : ℕ) (label name filename : String) (shortname : Option String)
    (unit : String) : (String → Option Entry) → State → Bool → Prop
  | done {m t} : W.kind o = .function m → md label = none → ' ' ∉ label.toList → ' ' ∉ filename.toList →
      Step (W.withMeta (Function.update md label (some ⟨name, orName shortname name, unit, filename⟩))) s (.setItem label o) t true →
      AddField W md s o label name filename shortname unit (Function.update md label (some ⟨name, orName shortname name, unit, filename⟩)) t true
  | refused : ((∀ m, W.kind o ≠ .function m) ∨ md label ≠ none ∨ ' ' ∈ label.toList ∨ ' ' ∈ filename.toList) →
      AddField W md s o label name filename shortname unit md s false

end Verif.FieldDict
