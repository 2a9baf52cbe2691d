import Verif.Tracer2.Model
import Verif.Sediment.Model

/-!
Model of one step of the coupled equations of suspended sediment and bed: the weak forms of
`thetis/sediment_eq_2d.py` and `thetis/exner_eq.py` on the meshes of `Verif.Dg`, and the order of the solves
in `CoupledTimeIntegrator2D.advance` with `CrankNicolson` steps (the default for both).

Simplifications: exact arithmetic; the equations are solved exactly; the same quadrature rule for the water
and for the bed (true if both spaces have the same degree); the limiter is off. The fluxes and coefficients
of the sediment model are given fields (their formulas are in `Verif.Sediment`).
-/

namespace Verif.Morph

open Verif.Dg Verif.Tracer2 Verif.Sediment

variable {m : Mesh 2}

/-- What the two equations take from the sediment model: erosion rate and deposition coefficient
(sediment_model.py:209-211), bedload flux and slide coefficient for a given bed (sediment_model.py:222-354),
the penalty of the slide term. They are functions stored by `update`, so the same in all parts of a step. -/
structure Coef (m : Mesh 2) where
  ero : Sc m
  dep : Sc m
  bedload : Sc m → Vc m
  slide : Sc m → Sc m
  sigma : Sc m

/-- Options of the sediment equations; `fac` is `morfac/(1-porosity)`, exner_eq.py:75, 108. `swe` are the
boundary conditions of the shallow water equations, solver2d.py:631-634. -/
structure Opts where
  cons : Bool
  suspended : Bool
  useBedload : Bool
  useSlide : Bool
  fac : ℝ
  swe : ℕ → Option (List (String × BndVal))

/-- `SedimentErosionTerm.residual`, sediment_eq_2d.py:87-93. -/
noncomputable def erosion (D : Depth m) (cons : Bool) (ero elev test : Sc m) : ℝ :=
  m.dx fun x => (test (.cell x)).v *
    (if cons then (ero (.cell x)).v else (ero (.cell x)).v / (D.total (.cell x) (elev (.cell x))).v)

/-- `SedimentDepositionTerm.residual`, sediment_eq_2d.py:99-104. -/
noncomputable def deposition (D : Depth m) (dep elev c test : Sc m) : ℝ :=
  m.dx fun x => -(test (.cell x)).v * (dep (.cell x)).v / (D.total (.cell x) (elev (.cell x))).v * (c (.cell x)).v

/-- Residual of `SedimentEquation2D`, sediment_eq_2d.py:119-127. -/
noncomputable def sedimentResidual (o : Opts) (T : Term m) (k : Coef m) (F : Flow m) (mu : Option (Sc m))
    (bc : ℕ → Option (BFuncs m)) (c test : Sc m) : ℝ :=
  (if o.cons then consAdvection T F (some bc) c test else advection T F bc c test)
    + diffusion T F mu bc c test + erosion T.depth o.cons k.ero F.elev test
    + deposition T.depth k.dep F.elev c test

/-- `ExnerSourceTerm.residual`, exner_eq.py:68-84. -/
noncomputable def exnerSource (o : Opts) (D : Depth m) (k : Coef m) (elev sed test : Sc m) : ℝ :=
  m.dx fun x =>
    let dep := (k.dep (.cell x)).v * (sed (.cell x)).v
    let dep := if o.cons then dep / (D.total (.cell x) (elev (.cell x))).v else dep
    (test (.cell x)).v * o.fac * ((k.ero (.cell x)).v - dep)

/-- `ExnerBedloadTerm.residual`, exner_eq.py:100-129; for `noContr` (and its type errors) see `Verif.Sediment`. -/
noncomputable def exnerBedload (o : Opts) (q : Vc m) (test : Sc m) : ℝ :=
  let f := m.bndLoop fun k b => match o.swe k with
    | none => 0
    | some l => if noContr l = some true then 0 else
      -(test (.bnd b)).v * (o.fac * (q 0 (.bnd b)).v * m.nb b 0 + o.fac * (q 1 (.bnd b)).v * m.nb b 1)
  let f := f + m.dx fun x => o.fac * (q 0 (.cell x)).v * (test (.cell x)).g 0
    + o.fac * (q 1 (.cell x)).v * (test (.cell x)).g 1
  Neg.neg f

/-- `ExnerSedimentSlideTerm.residual`, exner_eq.py:136-149. -/
noncomputable def exnerSlide (K sigma h test : Sc m) : ℝ :=
  let f := m.dx fun x => ∑ i, (test (.cell x)).g i * ((K (.cell x)).v * -(h (.cell x)).g i)
  let f := f + m.dS fun s => -(avg sigma s * ∑ i, jumpN test s i * (avg K s * jumpN h s i))
  let f := f + m.dS fun s => -∑ i, avgFlux K test s i * jumpN h s i
  let f := f + m.dS fun s => -∑ i, jumpN test s i * avgFlux K h s i
  Neg.neg f

/-- Residual of `ExnerEquation`, exner_eq.py:170-176. -/
noncomputable def exnerResidual (o : Opts) (D : Depth m) (k : Coef m) (elev sed h test : Sc m) : ℝ :=
  (if o.suspended then exnerSource o D k elev sed test else 0)
    + (if o.useBedload then exnerBedload o (k.bedload h) test else 0)
    + (if o.useSlide then exnerSlide (k.slide h) k.sigma h test else 0)

/-- Solution of the equation of `CrankNicolson`, timeintegrator.py:204-212, for all test functions of the space
`V`: `R1` is the residual at the new level, `R0` that at the old level. -/
def Theta (V : Set (Sc m)) (dt theta : ℝ) (u1 u0 : Sc m) (R1 R0 : Sc m → ℝ) : Prop :=
  ∀ test ∈ V, (m.dx fun x => (u1 (.cell x)).v * (test (.cell x)).v)
    - (m.dx fun x => (u0 (.cell x)).v * (test (.cell x)).v) = dt * (theta * R1 test + (1 - theta) * R0 test)

/-- The depth with another bed: `DepthExpression` holds the field `bathymetry_2d` (solver2d.py:404), which is
the solution of the Exner equation (solver2d.py:632). -/
def withBed (D : Depth m) (h : Sc m) : Depth m := { D with bathymetry := h }

/-- One step of sediment and bed, coupled_timeintegrator_2d.py:106-113: sediment `c0` to `c1` with the bed `h0`
in the depth at both levels, then bed `h0` to `h1` with the unknown bed in the depth at both levels. `F1`, `F0`
are `fields` and `fields_old` (updated after each solve, timeintegrator.py:241). -/
structure Step (o : Opts) (T : Term m) (k : Coef m) (mu : Option (Sc m)) (bc : ℕ → Option (BFuncs m))
    (V W : Set (Sc m)) (dt theta theta' : ℝ) (F1 F0 : Flow m) (c1 c0 h1 h0 : Sc m) : Prop where
  sediment : Theta V dt theta c1 c0
    (sedimentResidual o { T with depth := withBed T.depth h0 } k F1 mu bc c1)
    (sedimentResidual o { T with depth := withBed T.depth h0 } k F0 mu bc c0)
  bed : Theta W dt theta' h1 h0 (exnerResidual o (withBed T.depth h1) k F1.elev c1 h1)
    (exnerResidual o (withBed T.depth h1) k F0.elev c0 h0)

end Verif.Morph
