import Verif.Turb.Closure

/-!
Parameters of the two-equation closure as set up by `GenericLengthScaleModel` (turbulence.py) and `GLSModelOptions`
(options.py), on the model of the closure in `Verif.Turb`.

Simplifications: numbers are real; the numerical minimiser of `compute_c3_minus` is a parameter of `Verif.Turb`.
-/

namespace Verif.Wall

open Verif.Turb

/-- The options that enter the balance near a wall, options.py:304-346. -/
@[ext] structure Par where
  p : ℝ
  m : ℝ
  n : ℝ
  cmu0 : ℝ
  schmidtTke : ℝ
  schmidtPsi : ℝ
  c1 : ℝ
  c2 : ℝ
  c3plus : ℝ
  c3minus : ℝ
  fWall : ℝ
  kMin : ℝ
  epsMin : ℝ
  psiMin : ℝ
  kappa : ℝ
  computeCmu0 : Bool
  computeKappa : Bool
  computeSchmidt : Bool

/-- Names of the closures, options.py:296-299. -/
inductive Closure
  | kEpsilon
  | kOmega
  | gls

/-- `apply_defaults`, options.py:369-442: other options are kept. -/
noncomputable def applyDefaults (c : Closure) (o : Par) : Par :=
  match c with
  | .kEpsilon => { o with
      p := 3, m := 1.5, n := -1.0, cmu0 := 0.5477, schmidtTke := 1.0, schmidtPsi := 1.3, c1 := 1.44, c2 := 1.92,
      c3plus := 1.0, c3minus := -0.52, fWall := 1.0, kMin := 1.0e-6, epsMin := 1.0e-14, psiMin := 1.0e-14 }
  | .kOmega => { o with
      p := -1.0, m := 0.5, n := -1.0, cmu0 := 0.5477, schmidtTke := 2.0, schmidtPsi := 2.0, c1 := 0.555, c2 := 0.833,
      c3plus := 1.0, c3minus := -0.52, fWall := 1.0, kMin := 7.6e-6, epsMin := 1.0e-14, psiMin := 1.0e-14 }
  | .gls => { o with
      p := 2.0, m := 1.0, n := -0.67, cmu0 := 0.5477, schmidtTke := 0.8, schmidtPsi := 1.07, c1 := 1.0, c2 := 1.22,
      c3plus := 1.0, c3minus := 0.05, fWall := 1.0, kMin := 1.0e-6, epsMin := 1.0e-14, psiMin := 1.0e-14 }

/-- The parameters computed on creation, turbulence.py:434-442; the second component is the constant
`physical_constants['von_karman']` of the process, before and after. -/
noncomputable def construct (c : Coef) (o : Par) (g : ℝ) : Par × ℝ :=
  let o := { o with cmu0 := if o.computeCmu0 then c.cmu0 else o.cmu0 }
  if o.computeKappa then
    let kappa := computeKappa o.schmidtPsi o.cmu0 o.n o.c1 o.c2
    ({ o with kappa := kappa }, kappa)
  else if o.computeSchmidt then ({ o with schmidtPsi := computeSigmaPsi o.kappa o.cmu0 o.n o.c1 o.c2 }, g)
  else (o, g)

/-- Constants of the source of psi. -/
def Par.consts (o : Par) : PsiConsts := ⟨o.c1, o.c2, o.c3minus, o.c3plus, o.fWall⟩

end Verif.Wall
