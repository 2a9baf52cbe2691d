import Mathlib.Algebra.BigOperators.Group.List.Basic
import Mathlib.Data.List.Nodup

/-!
Model of thetis/equation.py: an equation as a collection of named, labelled terms.

A term is an arbitrary value `T`; what its residual or Jacobian evaluates to for given solution, fields
and boundary conditions is a function into a commutative monoid, the UFL forms with their sum.
-/

namespace Verif.Equation

/-- `Equation.terms` (an ordered dictionary) and `Equation.labels`, equation.py:88-89. -/
structure Eqn (T : Type) where
  terms : List (String × T)
  labels : String → Option String

/-- A new equation, equation.py:84-97. -/
def empty {T : Type} : Eqn T := ⟨[], fun _ => none⟩

/-- `SUPPORTED_LABELS`, equation.py:66. -/
def supported : List String := ["source", "explicit", "implicit", "nonlinear"]

/-- Assignment to a key of an ordered dictionary: an existing key keeps its place. -/
def dictSet {T : Type} : List (String × T) → String → T → List (String × T)
  | [], k, v => [(k, v)]
  | (k', v') :: d, k, v => if k' = k then (k, v) :: d else (k', v') :: dictSet d k v

/-- The key of a term, equation.py:116-118. -/
def keyOf (cls : String) (suffix : Option String) : String :=
  match suffix with
  | none => cls
  | some s => String.intercalate "_" [cls, s]

/-- The argument `term` of `label_term`: a key or a collection of such arguments. -/
inductive Keys where
  | one (k : String)
  | many (ks : List Keys)

mutual
/-- `label_term`, equation.py:122-135.  The second component tells whether it returned without an
AssertionError (lines 130-131); labels assigned before the error stay. -/
def labelTerm {T : Type} : Keys → String → Eqn T → Eqn T × Bool
  | .one k, l, e =>
    if ¬ (k ∈ e.terms.map Prod.fst) then (e, false)
    else if ¬ (l ∈ supported) then (e, false)
    else (⟨e.terms, fun x => if x = k then some l else e.labels x⟩, true)
  | .many ks, l, e => labelAll ks l e

/-- The loop of equation.py:134-135. -/
def labelAll {T : Type} : List Keys → String → Eqn T → Eqn T × Bool
  | [], _, e => (e, true)
  | k :: ks, l, e =>
    match labelTerm k l e with
    | (e', false) => (e', false)
    | (e', true) => labelAll ks l e'
end

/-- `add_term`, equation.py:107-120; `cls` is the class name of the term.  The second component is as in
`labelTerm`. -/
def addTerm {T : Type} (e : Eqn T) (cls : String) (term : T) (label : String)
    (suffix : Option String) : Eqn T × Bool :=
  labelTerm (.one (keyOf cls suffix)) label
    ⟨dictSet e.terms (keyOf cls suffix) term, e.labels⟩

/-- The argument `label` of `select_terms`: a string or a collection of strings. -/
inductive Sel where
  | str (l : String)
  | coll (ls : List String)

/-- The set of labels of equation.py:144-150. -/
def labelSet : Sel → List String
  | .str l => if l = "all" then supported else [l]
  | .coll ls => ls

/-- `select_terms`, equation.py:137-153; `none` is the KeyError of line 152 for a term without label. -/
def selectTerms {T : Type} (e : Eqn T) (s : Sel) : Option (List T) :=
  e.terms.foldr (fun p acc =>
    match e.labels p.1 with
    | none => none
    | some l => acc.map fun r => if l ∈ labelSet s then p.2 :: r else r) (some [])

/-- `residual`, equation.py:155-176, and `jacobian`, equation.py:178-200: the sum of `val t` over the
selected terms. -/
def residual {T M : Type} [AddCommMonoid M] (e : Eqn T) (val : T → M) (s : Sel) : Option M :=
  match selectTerms e s with
  | none => none
  | some ts => some (ts.foldl (fun f t => f + val t) 0)

/-- One step of the construction of an equation: `add_term` or `label_term`. -/
inductive Step (T : Type) where
  | add (cls : String) (suffix : Option String) (term : T) (label : String)
  | label (keys : Keys) (label : String)

/-- A sequence of such steps; `none` if one of them raises. -/
def build {T : Type} : List (Step T) → Eqn T → Option (Eqn T)
  | [], e => some e
  | .add cls suffix term label :: ss, e =>
    match addTerm e cls term label suffix with
    | (_, false) => none
    | (e', true) => build ss e'
  | .label keys label :: ss, e =>
    match labelTerm keys label e with
    | (_, false) => none
    | (e', true) => build ss e'

end Verif.Equation
