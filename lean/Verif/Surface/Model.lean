import Verif.Contract.Model

/-!
Model of the parts of the shallow water equations and of the free surface correction of the two-dimensional non-hydrostatic model:
`FreeSurfaceEquation` and `ShallowWaterMomentumEquation` (shallowwater_eq.py:969-1022), `get_fs_timestepper` (solver2d.py:637-647) and
`NonHydrostaticTimeIntegrator2D.advance` (coupled_timeintegrator_2d.py:203-237).

As in `Verif.Contract` the solvers are taken to find a zero of the form.  With wetting and drying the mass term is not linear, and the single
linear solve that `use_semi_implicit_linearization` asks for does not find one (`C126_semi_violated`): these steps are left out.

The step of the shallow water equations and the Poisson solver are relations.  The vertical velocity and the pressure, which do not enter
the free surface equation, are left out.
-/

namespace Verif.Surface

open Verif.Dg Verif.Contract

variable {m : Mesh 2}

/-- `FreeSurfaceEquation`, shallowwater_eq.py:981-997: `u` is `fields['uv']` and `uOld` is `fields_old['uv']` of the call of `residual`. -/
noncomputable def fs (T : Swe.Term m) (K : Swe.Coeffs m) (bc : ℕ → Option (Swe.Funcs m)) (u uOld : Vc m) : Eqn (Sc m) where
  mass := Swe.massEta T
  inner := ip
  res eta etaOld phi := Swe.continuity T K bc u eta uOld etaOld phi

/-- `ShallowWaterMomentumEquation`, shallowwater_eq.py:1005-1022: `eta` is `fields['eta']` and `etaOld` is `fields_old['eta']`. -/
noncomputable def mom (T : Swe.Term m) (K : Swe.Coeffs m) (bc : ℕ → Option (Swe.Funcs m)) (eta etaOld : Sc m) : Eqn (Vc m) where
  mass u w := ∑ i, ip (u i) (w i)
  inner u w := ∑ i, ip (u i) (w i)
  res u uOld w := Swe.momentum T K bc u eta uOld etaOld w

/-- The step of the free surface after velocity `u` was found, with `CrankNicolson`, timeintegrator.py:206-212: both velocities of the new part are
`fields['uv']`, those of the old part `fields_old['uv']`, which `update_fields_old` sets to the velocity at the end of the step before. -/
def FsStep (T : Swe.Term m) (K Kold : Swe.Coeffs m) (bc : ℕ → Option (Swe.Funcs m)) (dt theta : ℝ) (semi : Bool) (He : Submodule ℝ (Sc m))
    (old : State m) (u : Vc m) (eta : Sc m) : Prop :=
  ThetaStep (fs T K bc u u) (fs T Kold bc old.1 old.1) dt theta semi He old.2 eta

/-- `advance` with `update_free_surface` and an integrator of the free surface without stages, coupled_timeintegrator_2d.py:206-216 and
235-237: a step `S` of the shallow water equations, a correction `P` of its velocity by the Poisson solver, and the step of
the free surface from the old elevation, which line 214 or 236 has put back. -/
def NhStep (S : State m → State m → Prop) (P : State m → Vc m → Prop) (T : Swe.Term m) (K Kold : Swe.Coeffs m)
    (bc : ℕ → Option (Swe.Funcs m)) (dt theta : ℝ) (semi : Bool) (He : Submodule ℝ (Sc m)) (old new : State m) : Prop :=
  ∃ mid, S old mid ∧ P mid new.1 ∧ FsStep T K Kold bc dt theta semi He old new.1 new.2

/-- `advance` with an integrator of the free surface with stages, coupled_timeintegrator_2d.py:223-234 (`DIRK22`, `DIRK33`), or
`BackwardEuler`: stage `i` of the free surface has the velocity `u i` that the Poisson solver left. -/
def NhStages (T : Swe.Term m) (K : ℕ → Swe.Coeffs m) (bc : ℕ → Option (Swe.Funcs m)) (R : RK.Tableau) (dt : ℝ) (semi : Bool)
    (He : Submodule ℝ (Sc m)) (old new : State m) : Prop :=
  ∃ u : ℕ → Vc m, new.1 = u (R.n - 1) ∧ UStep (fun i => fs T (K i) bc (u i) (u i)) R dt semi He old.2 new.2

end Verif.Surface
