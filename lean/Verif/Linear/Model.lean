import Verif.Dg.Model

/-!
Linear combinations of fields, for the principle of superposition.  Nothing here models code: the definitions say what
"the sum of two runs" means for fields, coefficients and boundary conditions.
-/

namespace Verif.Linear

open Verif.Dg

variable {d : ℕ}

/-- `a x + b y` of values with gradients. -/
def jet (a b : ℝ) (x y : Jet d) : Jet d := ⟨a * x.v + b * y.v, fun i => a * x.g i + b * y.g i⟩

/-- `a f + b g` of scalar fields. -/
def sc {m : Mesh d} (a b : ℝ) (f g : Sc m) : Sc m := fun x => jet a b (f x) (g x)

/-- `a u + b v` of vector fields. -/
def vc {m : Mesh d} (a b : ℝ) (u v : Vc m) : Vc m := fun i => sc a b (u i) (v i)

/-- Three optional values, all absent, or all present and in relation. -/
def Opt3 {α : Type*} (R : α → α → α → Prop) : Option α → Option α → Option α → Prop
  | none, none, none => True
  | some x, some y, some z => R x y z
  | _, _, _ => False

/-- A scalar field, zero if it is not set. -/
def scOr {m : Mesh d} : Option (Sc m) → Sc m
  | some f => f
  | none => 0

/-- A vector field, zero if it is not set. -/
def vcOr {m : Mesh d} : Option (Vc m) → Vc m
  | some u => u
  | none => fun _ => 0

end Verif.Linear
