import Mathlib.Tactic.Basic

/-!
Model of the function spaces of the solvers and of `element_continuity`: thetis/utility.py:163-258,
thetis/solver2d.py:301-352 and thetis/solver.py:410-469.  Degrees are left out: continuity does not depend on them.
-/

namespace Verif.Space

/-- Cells of plane and vertical meshes. -/
inductive Cell
  | triangle | quad | interval
deriving DecidableEq, Repr

/-- Finite elements as UFL builds them.  `fin` has the name that `family()` returns. -/
inductive Elt
  | fin (family : String) (cell : Cell)
  | tensor (a b : Elt)
  | hdiv (e : Elt)
  | vector (e : Elt)
  | mixed (first : Elt) (rest : List Elt)
  | enriched (first : Elt) (rest : List Elt)

/-- `FiniteElement(name, cell, degree)`: UFL replaces short names by the full name, and the Lagrange families by those
of the cell; `none` where it raises.  Only the names used by the solvers. -/
def finiteElement (name : String) (c : Cell) : Option Elt :=
  let f : Option String := match name, c with
    | "DG", .quad => some "DQ"
    | "DG", _ => some "Discontinuous Lagrange"
    | "DQ", .quad => some "DQ"
    | "CG", .quad => some "Q"
    | "CG", _ => some "Lagrange"
    | "RTF", .triangle => some "Raviart-Thomas"
    | "BDMF", .triangle => some "Brezzi-Douglas-Marini"
    | "RTCF", .quad => some "RTCF"
    | "BDMCF", .quad => some "BDMCF"
    | _, _ => none
  f.map fun f => .fin f c

/-- The element of `get_functionspace` on a plane mesh, utility.py:193-198: vector spaces are made of the element. -/
def space2 (c : Cell) (fam : String) (vector : Bool) : Option Elt := do
  let e ← finiteElement fam c
  return if vector then .vector e else e

/-- The element of `get_functionspace` on an extruded mesh, utility.py:181-198. -/
def space3 (c : Cell) (hfam vfam : String) (vector hdiv : Bool) : Option Elt := do
  let h ← finiteElement hfam c
  let v ← finiteElement vfam .interval
  let e := Elt.tensor h v
  let e := if hdiv then .hdiv e else e
  return if vector then .vector e else e

/-- First test of `get_extruded_base_element`, utility.py:207-208. -/
def dropHdiv : Elt → Elt
  | .hdiv e => e
  | e => e

/-- Second and third test, utility.py:209-212; a `VectorElement` is a `MixedElement`. -/
def dropMixed : Elt → Elt
  | .mixed e _ => e
  | .vector e => e
  | e => e

/-- Third test, utility.py:211-212. -/
def dropVector : Elt → Elt
  | .vector e => e
  | e => e

/-- Last test, utility.py:213-214. -/
def dropEnriched : Elt → Elt
  | .enriched e _ => e
  | e => e

/-- `get_extruded_base_element`, utility.py:201-215. -/
def baseElement (e : Elt) : Elt := dropEnriched (dropVector (dropMixed (dropHdiv e)))

/-- Values of `ElementContinuity`, utility.py:218-223. -/
inductive Conf
  | cg | hdiv | dg
deriving DecidableEq, Repr

/-- The dictionary `elem_types`, utility.py:235-244. -/
def elemTypes : List (String × Conf) :=
  [("Discontinuous Lagrange", .dg), ("Lagrange", .cg), ("Raviart-Thomas", .hdiv), ("RTCF", .hdiv),
    ("Brezzi-Douglas-Marini", .hdiv), ("BDMCF", .hdiv), ("Q", .cg), ("DQ", .dg)]

/-- `elem_types[e.family()]`; `none` for a missing key.  `TensorProductElement` and other elements have family names
that are no keys. -/
def typeOf : Elt → Option Conf
  | .fin f _ => elemTypes.lookup f
  | _ => none

/-- `element_continuity`, utility.py:226-258: horizontal and vertical continuity; `none` where it raises. -/
def continuity (e : Elt) : Option (Conf × Conf) :=
  match e with
  | .hdiv _ => some (.hdiv, .hdiv)
  | e => match baseElement e with
    | .tensor a b => do return (← typeOf a, ← typeOf b)
    | b => do let t ← typeOf b; return (t, t)

/-- Spaces of the 2D solver that carry equations: velocity, elevation and tracers. -/
structure Spaces2 where
  u : Elt
  eta : Elt
  q : Elt

/-- The names of the normal continuous families, solver2d.py:330-333 and solver.py:425-428. -/
def hdivName (c : Cell) (p : String) : String := if c = .triangle then p ++ "F" else p ++ "CF"

/-- Velocity and elevation, solver2d.py:320 and 328-344; `none` where it raises. -/
def flow2 (c : Cell) (family : String) : Option (Elt × Elt) :=
  let dg := if c = .triangle then "DG" else "DQ"
  match family with
  | "rt-dg" => do return (← space2 c (hdivName c "RT") false, ← space2 c dg false)
  | "bdm-dg" => do return (← space2 c (hdivName c "BDM") false, ← space2 c dg false)
  | "dg-cg" => do return (← space2 c dg true, ← space2 c "CG" false)
  | "dg-dg" => do return (← space2 c dg true, ← space2 c dg false)
  | _ => none

/-- Tracers, solver2d.py:347-352; `none` where it raises. -/
def tracer2 (c : Cell) (tracer : String) : Option Elt :=
  match tracer with
  | "dg" => space2 c "DG" false
  | "cg" => space2 c "CG" false
  | _ => none

/-- `FlowSolver2d.create_function_spaces`, solver2d.py:320-352; `none` where it raises. -/
def spaces2 (c : Cell) (family tracer : String) : Option Spaces2 := do
  let f ← flow2 c family
  let q ← tracer2 c tracer
  return ⟨f.1, f.2, q⟩

/-- Spaces of the 3D solver that carry equations: velocity, vertical velocity, tracers, baroclinic head, and the plane
spaces of velocity and elevation. -/
structure Spaces3 where
  u : Elt
  w : Elt
  h : Elt
  bhead : Elt
  u2 : Elt
  eta2 : Elt

/-- Velocities, solver.py:424-438; `none` where it raises. -/
def flow3 (c : Cell) (family : String) : Option (Elt × Elt × Elt) :=
  match family with
  | "rt-dg" => do
    return (← space3 c (hdivName c "RT") "DG" false true, ← space3 c "DG" "CG" false true,
      ← space2 c (hdivName c "RT") false)
  | "bdm-dg" => do
    return (← space3 c (hdivName c "BDM") "DG" false true, ← space3 c "DG" "CG" false true,
      ← space2 c (hdivName c "BDM") false)
  | "dg-dg" => do
    return (← space3 c "DG" "DG" true false, ← space3 c "DG" "DG" true false, ← space2 c "DG" true)
  | _ => none

/-- `FlowSolver.create_function_spaces`, solver.py:417-469; `none` where it raises. -/
def spaces3 (c : Cell) (family : String) : Option Spaces3 := do
  let f ← flow3 c family
  return ⟨f.1, f.2.1, ← space3 c "DG" "DG" false false, ← space3 c "DG" "CG" false false, f.2.2,
    ← space2 c "DG" false⟩

end Verif.Space
