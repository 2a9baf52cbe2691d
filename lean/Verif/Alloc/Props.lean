import Verif.Alloc.Model

/-!
C98: every requested process acts once, whichever way vertical diffusion is treated.
-/

namespace Verif.Alloc

/-- What the user asks for: a process takes part if its option is set; the eddy viscosity of a turbulence
model and of Smagorinsky count as viscosities. Wind needs a vertical viscosity (documented). -/
def Wanted (o : Opt) : Process → Prop
  | .pressure => o.baroclinic = true
  | .hAdvection => o.nonlinear = true
  | .vAdvection => o.nonlinear = true
  | .hViscosity => o.hVisc = true ∨ o.smag = true
  | .vViscosity => o.vVisc = true ∨ o.turb ≠ .off
  | .friction => o.friction = true
  | .linDrag => o.linDrag = true
  | .coriolis => o.coriolis = true
  | .source => o.source = true
  | .wind => o.wind = true ∧ (o.vVisc = true ∨ o.turb ≠ .off)

/-- Friction has a coefficient whenever it is switched on. -/
def Complete (o : Opt) : Prop := o.friction = true → o.quadDrag = true ∨ o.roughness = true

/-- Every process asked for is in exactly one of the two momentum equations, every other process in none;
vertical viscosity, friction, drag and wind are in the implicit one if vertical diffusion is implicit, the
rest always in the explicit one. -/
theorem C98_once (o : Opt) (hc : Complete o) (p : Process) :
    (Wanted o p → parts o p = .ok [if o.implicit = true ∧ (p = .vViscosity ∨ p = .friction ∨ p = .linDrag ∨ p = .wind)
      then .impl else .expl]) ∧ (¬ Wanted o p → parts o p = .ok []) := by
  obtain ⟨im, nl, fr, ba, sm, hv, vv, hd, vd, ld, qd, ro, wi, co, so, ts, tu⟩ := o
  cases p
  case pressure => cases im <;> cases ba <;> simp [Wanted, parts, active, explFields, implFields, explFlags, implFlags, bind, Except.bind]
  case hAdvection => cases im <;> cases nl <;> simp [Wanted, parts, active, explFields, implFields, explFlags, implFlags, bind, Except.bind]
  case vAdvection => cases im <;> cases nl <;> simp [Wanted, parts, active, explFields, implFields, explFlags, implFlags, bind, Except.bind]
  case hViscosity => cases im <;> cases hv <;> cases sm <;> simp [Wanted, parts, active, explFields, implFields, totHVisc, bind, Except.bind]
  case vViscosity => cases im <;> cases vv <;> cases tu <;> simp [Wanted, parts, active, explFields, implFields, vertVisc, totVVisc, bind, Except.bind]
  case friction =>
    cases im <;> cases fr <;> cases qd <;> cases ro <;>
      simp_all [Complete, Wanted, parts, active, explFields, implFields, explFlags, implFlags, bind, Except.bind]
  case linDrag => cases im <;> cases ld <;> simp [Wanted, parts, active, explFields, implFields, bind, Except.bind]
  case coriolis => cases im <;> cases co <;> simp [Wanted, parts, active, explFields, implFields, bind, Except.bind]
  case source => cases im <;> cases so <;> simp [Wanted, parts, active, explFields, implFields, bind, Except.bind]
  case wind => cases im <;> cases vv <;> cases tu <;> cases wi <;> simp [Wanted, parts, active, explFields, implFields, vertVisc, totVVisc, bind, Except.bind]

/-- Friction without a coefficient is refused when the integrators are made, in both treatments. -/
theorem C98_refused (o : Opt) (hc : ¬ Complete o) : ∃ e, parts o .friction = .error e := by
  obtain ⟨im, nl, fr, ba, sm, hv, vv, hd, vd, ld, qd, ro, wi, co, so, ts, tu⟩ := o
  cases im <;> cases fr <;> cases qd <;> cases ro <;>
    simp_all [Complete, parts, active, explFields, implFields, explFlags, implFlags, bind, Except.bind]

/-- Friction and drag see the full velocity, with the depth average contained once. -/
theorem C98_full_velocity (o : Opt) (part : Part) : averages (fieldsOf o part) part = 1 := by
  cases part <;> rfl

/-- Salinity and temperature: advection always, the rest if asked for, each in one equation. -/
theorem C98_tracer (o : Opt) (p : TProcess) :
    tracerParts o p = match p with
      | .hAdvection => [.expl]
      | .vAdvection => [.expl]
      | .hDiffusion => if o.hDiff then [.expl] else []
      | .vDiffusion => if o.vDiff = true ∨ o.turb ≠ .off then (if o.implicit then [.impl] else [.expl]) else []
      | .source => if o.tracerSource then [.expl] else [] := by
  obtain ⟨im, nl, fr, ba, sm, hv, vv, hd, vd, ld, qd, ro, wi, co, so, ts, tu⟩ := o
  cases p
  case vDiffusion => cases im <;> cases vd <;> cases tu <;> simp [tracerParts, tracerExpl, tracerImpl, vertDiff, totVDiff]
  all_goals cases hd <;> cases ts <;> simp [tracerParts, tracerExpl, tracerImpl]

/-- The turbulence equations can be set up with implicit vertical diffusion. -/
theorem C98_turbulence (o : Opt) (hi : o.implicit = true) : ∃ b, createTurb o = .ok b := by
  obtain ⟨im, nl, fr, ba, sm, hv, vv, hd, vd, ld, qd, ro, wi, co, so, ts, tu⟩ := o
  subst hi
  cases tu <;> simp [createTurb, vertVisc, vertDiff, totVVisc, totVDiff]

/-- They cannot with explicit vertical diffusion: for all other options the `gls` closure fails, as it is
given the viscosity of the (missing) implicit part. -/
theorem C98_turbulence_violated (o : Opt) (hi : o.implicit = false) (ht : o.turb = .gls) :
    createTurb o = .error "TypeError" := by
  simp [createTurb, ht, vertVisc, hi]

/-- With SSPRK22 the turbulence and Smagorinsky viscosities that are asked for are updated in every step and
the user's function for 3D forcings is called in every stage. -/
theorem C98_updates (o : Opt) : ((o.turb ≠ .off ↔ Op.turbulence ∈ ops o .ssprk22) ∧
    (o.smag = true ↔ Op.smagorinsky ∈ ops o .ssprk22)) ∧ (ops o .ssprk22).count .forcings3d = 2 := by
  obtain ⟨im, nl, fr, ba, sm, hv, vv, hd, vd, ld, qd, ro, wi, co, so, ts, tu⟩ := o
  cases sm <;> cases tu <;> simp [ops]

/-- With LeapFrog the function for 3D forcings is never called, and the eddy viscosity of a turbulence
model is never updated if vertical diffusion is explicit (`pacanowski` can be set up in this way). -/
theorem C98_updates_violated (o : Opt) : Op.forcings3d ∉ ops o .leapFrog ∧
    (o.implicit = false → Op.turbulence ∉ ops o .leapFrog) := by
  obtain ⟨im, nl, fr, ba, sm, hv, vv, hd, vd, ld, qd, ro, wi, co, so, ts, tu⟩ := o
  cases im <;> cases sm <;> cases tu <;> simp [ops]

/-- Otherwise LeapFrog updates what is asked for. -/
theorem C98_updates_leapfrog (o : Opt) : (o.implicit = true → (o.turb ≠ .off ↔ Op.turbulence ∈ ops o .leapFrog)) ∧
    (o.smag = true ↔ Op.smagorinsky ∈ ops o .leapFrog) := by
  obtain ⟨im, nl, fr, ba, sm, hv, vv, hd, vd, ld, qd, ro, wi, co, so, ts, tu⟩ := o
  cases im <;> cases sm <;> cases tu <;> simp [ops]

/-- The density field can be made for all combinations of the options but one: quadratic density without
quadratic pressure, for which the space does not exist. -/
theorem C98_density (b qp qd : Bool) (h : qd = true → qp = true) : createDensity b qp qd = .ok () := by
  cases b <;> cases qp <;> cases qd <;> simp_all [createDensity, hasP2DGxP2]

theorem C98_density_violated : createDensity true false true = .error "AttributeError" := rfl

/-- A usual configuration. -/
example : Complete ⟨true, true, true, true, false, true, true, false, false, false, false, true, true, true,
    false, false, .gls⟩ := by simp [Complete]

end Verif.Alloc
