import Verif.Tracer2.Model
import Verif.Swe.Model

/-!
Model of the check `check_tracer_conservation` of the two-dimensional solver and of the equations it watches: the tracer
equation of `Verif.Tracer2` and the free surface equation of `Verif.Swe` with one depth and one velocity.
-/

namespace Verif.Mass2

open Verif.Dg

variable {m : Mesh 2}

/-- The two callbacks for the mass of a tracer. -/
inductive Check where
  | weighted
  | plain
deriving DecidableEq

/-- Choice of the callback for tracers, solver2d.py:1047-1059, and for sediment, solver2d.py:1060-1071;
`conservative` is the option `use_conservative_form` or `use_sediment_conservative_form`. -/
def chooseCheck (conservative : Bool) : Check := if conservative then .plain else .weighted

/-- The reported mass: `TracerMassConservation2DCallback` (callback.py:367-389) with `comp_tracer_mass_2d`
(utility.py:436-443), and `ConservativeTracerMassConservation2DCallback` (callback.py:392-413). -/
noncomputable def reported (W : Swe.Term m) (k : Check) (eta c : Sc m) : ℝ :=
  match k with
  | .weighted => m.dx fun x => (c (.cell x)).v * (Swe.totalH W eta (.cell x)).v
  | .plain => m.dx fun x => (c (.cell x)).v

/-- The rate at which the two equations change the depth weighted mass: the advection term of the tracer equation
(tracer_eq_2d.py:147-193) for the depth as test function, and the divergence term of the free surface
equation (shallowwater_eq.py:416-450) for the tracer as test function.  Both equations take the same velocity and
elevation.  That depth and tracer belong to the test spaces is the hypothesis of `C124_step`. -/
noncomputable def massRate (T : Tracer2.Term m) (F : Tracer2.Flow m) (bc : ℕ → Option (Tracer2.BFuncs m))
    (W : Swe.Term m) (bcW : ℕ → Option (Swe.Funcs m)) (u : Vc m) (eta c : Sc m) : ℝ :=
  Tracer2.advection T F bc c (Swe.totalH W eta) + Swe.huDiv W bcW u eta u eta c

end Verif.Mass2
