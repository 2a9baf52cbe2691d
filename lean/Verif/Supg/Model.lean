import Verif.Tracer2.Model

/-!
Model of the streamline-upwind Petrov-Galerkin option of the tracer equations, tracer_eq_2d.py:448-501.

Simplifications:
* The tracer terms are those of `Verif.Tracer2`; the cell size (utility.py:743-767) is a given number at every
  point, constant in every cell.
* The velocity and diffusivity scales are numbers (`options.horizontal_velocity_scale`,
  `options.horizontal_diffusivity_scale` are Constants).
* The second derivatives of the test function, which enter the gradient of the modified test function, are
  given point by point.
-/

namespace Verif.Supg

open Verif.Dg

variable {m : Mesh 2}

/-- The parameter `tau`, tracer_eq_2d.py:494-499, for velocity scale `U`, diffusivity scale `D`, cell size `h`. -/
noncomputable def supgTau (U D h : ℝ) : ℝ :=
  let tau := 1 / 2 * h / U
  let pe := 1 / 2 * U * h / D
  if 0 < D then min tau (pe / 3) else tau

/-- `TracerEquation2D.apply_supg`, tracer_eq_2d.py:490-501, for a system of one tracer (`self.test` is the test
function itself).  `H x i j` is the second derivative of the test function. -/
noncomputable def applySupg (U D : ℝ) (h : Pt m → ℝ) (vel : Vc m) (test : Sc m)
    (H : Pt m → Fin 2 → Fin 2 → ℝ) : Sc m := fun x =>
  if 0 < U then
    ⟨(test x).v + supgTau U D (h x) * ((vel 0 x).v * (test x).g 0 + (vel 1 x).v * (test x).g 1),
      fun j => (test x).g j + supgTau U D (h x) *
        ((vel 0 x).g j * (test x).g 0 + (vel 0 x).v * H x 0 j +
          ((vel 1 x).g j * (test x).g 1 + (vel 1 x).v * H x 1 j))⟩
  else test x

/-- The semi-discrete tracer equation without diffusion and sources: the mass term (`Equation.mass_term`,
equation.py:99-105) is tested with the test function of the space, the terms with the modified one
(tracer_eq_2d.py:467-478). `ct` is the time derivative. -/
noncomputable def unsteady (T : Tracer2.Term m) (F : Tracer2.Flow m) (bc : ℕ → Option (Tracer2.BFuncs m))
    (ct c test modified : Sc m) : ℝ :=
  m.dx (fun x => (ct (.cell x)).v * (test (.cell x)).v) - Tracer2.advection T F bc c modified

/-- Shape of the test function of a system of `n` tracers (`Equation.test`, equation.py:92): a scalar for one
tracer, a vector for a mixed space. -/
def systemShape (n : ℕ) : List ℕ := if n = 1 then [] else [n]

/-- Shape of `dot(a, b)` in the form language; `none` is the error for scalars or different dimensions. -/
def dotShape (a b : List ℕ) : Option (List ℕ) :=
  match a.getLast?, b with
  | some k, l :: rest => if k = l then some (a.dropLast ++ rest) else none
  | _, _ => none

/-- Shape of the modified test function of one tracer of a system of `n`, tracer_eq_2d.py:500-501:
`grad(self.test)` is the gradient of the test function of the system, the velocity has two components, and both
the conditional (whose other branch is the scalar zero) and the sum (with the test function of the tracer) want
equal shapes. -/
def supgShape (n : ℕ) : Option (List ℕ) :=
  match dotShape [2] (systemShape n ++ [2]) with
  | some s => if s = [] then some [] else none
  | none => none

end Verif.Supg
