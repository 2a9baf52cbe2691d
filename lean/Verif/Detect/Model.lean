import Mathlib.Analysis.Real.Sqrt

/-!
Model of `select_and_move_detectors`, thetis/utility.py:864-933.  Coordinates are real numbers.  The
point-in-domain test (evaluation of a function at the location, utility.py:919-921) is a predicate of
the location.
-/

namespace Verif.Detect

open Real Classical

/-- A point of the plane. -/
abbrev Pt := ℝ × ℝ

/-- `dot(xy-loc_const, xy-loc_const)` at a cell centre, utility.py:903. -/
def dist2 (loc c : Pt) : ℝ := (c.1 - loc.1) * (c.1 - loc.1) + (c.2 - loc.2) * (c.2 - loc.2)

/-- Which argument `min_lexsort` returns, utility.py:891-898: `true` for the first. -/
noncomputable def firstIsMin : List ℝ → List ℝ → Bool
  | xi :: x, yi :: y => if xi < yi then true else if yi < xi then false else firstIsMin x y
  | _, _ => true

/-- `min_lexsort`, utility.py:891-898. -/
noncomputable def minLexsort (x y : List ℝ) : List ℝ := if firstIsMin x y then x else y

/-- Possible results of an MPI reduction with a non-commutative operation (utility.py:899): any
bracketing of the operands in rank order. -/
inductive Reduces : List (List ℝ) → List ℝ → Prop
  | one (a : List ℝ) : Reduces [a] a
  | op {l l' : List (List ℝ)} {a b : List ℝ} : Reduces l a → Reduces l' b →
      Reduces (l ++ l') (minLexsort a b)

/-- `argmin` on the cells of one process, utility.py:904: the first smallest entry; `none` is the
ValueError on an empty array. -/
noncomputable def firstMin (f : Pt → ℝ) : List Pt → Option Pt
  | [] => none
  | a :: l =>
    match firstMin f l with
    | none => some a
    | some b => if f b < f a then some b else some a

/-- The operand of one process, utility.py:902-909. -/
noncomputable def localEntry (loc : Pt) (cells : List Pt) : Option (List ℝ) :=
  (firstMin (dist2 loc) cells).map fun c => [sqrt (dist2 loc c), c.1, c.2]

/-- `move_to_nearest_cell_center`, utility.py:901-910; `procs` are the cell centres of each process,
`red` the reduction. -/
noncomputable def move (red : List (List ℝ) → List ℝ) (procs : List (List Pt)) (loc : Pt) :
    Option (ℝ × Pt) := do
  let entries ← procs.mapM (localEntry loc)
  match red entries with
  | [d, x, y] => some (d, (x, y))
  | _ => none

/-- The loop of utility.py:918-926; `none` is an exception. -/
noncomputable def select (red : List (List ℝ) → List ℝ) (procs : List (List Pt)) (dom : Pt → Bool)
    (maxDist : ℝ) : List (Pt × String) → Option (List (Pt × String))
  | [] => some []
  | (loc, name) :: l =>
    if dom loc then (select red procs dom maxDist l).map ((loc, name) :: ·)
    else
      match move red procs loc with
      | none => none
      | some (d, p) =>
        if d > maxDist then select red procs dom maxDist l
        else (select red procs dom maxDist l).map ((p, name) :: ·)

/-- The whole function with names, utility.py:879-933: `loc_const` needs a first location (line 886),
and `zip` stops at the shorter list. -/
noncomputable def selectAndMove (red : List (List ℝ) → List ℝ) (procs : List (List Pt))
    (dom : Pt → Bool) (maxDist : ℝ) (locs : List Pt) (names : List String) :
    Option (List (Pt × String)) :=
  if locs = [] then none else select red procs dom maxDist (locs.zip names)

end Verif.Detect
