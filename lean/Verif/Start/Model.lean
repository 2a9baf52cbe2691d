import Mathlib.Tactic.Simps.Basic
import Verif.Split.Model
import Verif.Turb.Closure

/-!
Model of what the 3D solver computes in which order: initial conditions and restart (solver.py:916-972, 985-1130) and the
two coupled time integrators (coupled_timeintegrator.py), with all fields that are computed from others.

Simplifications: the fields and the solvers are arbitrary types and functions, so that a field is up to date iff it equals
the function of the current fields it is computed from; projections of a field to its own space are exact; files return
what was stored.  The mesh velocity is left out (C31, C86).
-/

namespace Verif.Start

/-- Types of the fields: elevation, 3D mesh, 3D velocity, 2D velocity, tracers, vertical velocity, baroclinic fields
(density, head, pressure gradient), shear and buoyancy frequencies, turbulence state, eddy viscosity and diffusivity,
Smagorinsky viscosity, right hand sides. -/
structure Types where
  E : Type
  M : Type
  U : Type
  A : Type
  S : Type
  W : Type
  R : Type
  F : Type
  K : Type
  D : Type
  G : Type
  P : Type

/-- Options. -/
structure Opts where
  ale : Bool
  implicit : Bool
  salinity : Bool
  temperature : Bool
  baroclinic : Bool
  turbulence : Bool
  gls : Bool
  smagorinsky : Bool

/-- The fields of the solver. -/
@[ext] structure St (T : Types) where
  elev : T.E
  elevDom : T.E
  mesh : T.M
  uv2 : T.A
  uv3 : T.U
  dav3 : T.A
  split : T.A
  salt : T.S
  temp : T.S
  w : T.W
  baro : T.R
  freq : T.F
  k : T.K
  visc : T.D
  smag : T.G

/-- The solvers.  Diagnostic ones are functions of the fields they read:
* `meshOf` `update_mesh_coordinates` (utility3d.py:853-878), of the elevation;
* `meanOf`, `plus`, `minus`, `perDt`: depth average on a mesh, adding and removing it, division by the time step
  (coupled_timeintegrator.py:51-71);
* `wOf` vertical velocity of the full velocity (solver.py:774-778), `baroOf` density, head and pressure gradient
  (utility.py:479-492), `freqOf` frequencies of `uv_3d` and the density (turbulence.py:487-507), `smagOf` viscosity of
  `uv_3d` (solver.py:831-836);
* `post` `postprocess` (turbulence.py:509-577): limits the turbulence state and computes viscosity and diffusivity;
* `kInit` the initial turbulence state (turbulence.py:473-478).
Prognostic ones are arbitrary functions of all fields: `swe i` stage of the 2D mode, `prep i` right hand sides,
`solve i` explicit 3D equations with limiters, `impl` the implicit vertical equations (tracers, and the full velocity),
`turb` the implicit turbulence equations. -/
structure Ops (T : Types) where
  meshOf : T.E → T.M
  meanOf : T.M → T.U → T.A
  plus : T.U → T.A → T.U
  minus : T.U → T.A → T.U
  perDt : T.A → T.A
  wOf : T.M → T.U → T.W
  baroOf : T.M → T.S → T.S → T.R
  freqOf : T.M → T.U → T.R → T.F
  smagOf : T.M → T.U → T.G
  post : T.F → T.K → T.K × T.D
  kInit : T.K
  swe : ℕ → St T → T.E × T.A
  prep : ℕ → St T → T.P
  solve : ℕ → T.P → St T → T.S × T.S × T.K × T.U
  implTracer : St T → T.S × T.S
  implVel : St T → T.U → T.U
  turb : St T → T.K
  half : St T → T.E × T.A

variable {T : Types}

/-- `_update_3d_elevation`, coupled_timeintegrator.py:27-30. -/
@[simps] def upElev (s : St T) : St T := { s with elevDom := s.elev }

/-- `_update_moving_mesh`, coupled_timeintegrator.py:37-41. -/
@[simps] def upMesh (c : Opts) (o : Ops T) (s : St T) : St T :=
  { s with mesh := if c.ale then o.meshOf s.elev else s.mesh }

/-- `_remove_depth_average_from_uv_3d`, coupled_timeintegrator.py:50-58. -/
@[simps] def removeMean (o : Ops T) (s : St T) : St T :=
  { s with uv3 := o.minus s.uv3 (o.meanOf s.mesh s.uv3), dav3 := o.meanOf s.mesh s.uv3 }

/-- `_update_2d_coupling`, coupled_timeintegrator.py:43-48, with lines 50-70. -/
@[simps] def coupling (o : Ops T) (s : St T) : St T :=
  { removeMean o s with split := o.perDt (removeMean o s).dav3, dav3 := s.uv2 }

/-- `_update_vertical_velocity`, coupled_timeintegrator.py:32-35. -/
@[simps] def upW (o : Ops T) (s : St T) : St T := { s with w := o.wOf s.mesh (o.plus s.uv3 s.dav3) }

/-- `_update_baroclinicity`, coupled_timeintegrator.py:72-75. -/
@[simps] def upBaro (c : Opts) (o : Ops T) (s : St T) : St T :=
  { s with baro := if c.baroclinic then o.baroOf s.mesh s.salt s.temp else s.baro }

/-- `preprocess` of a turbulence model. -/
@[simps] def pre (o : Ops T) (s : St T) : St T := { s with freq := o.freqOf s.mesh s.uv3 s.baro }

/-- `postprocess` of a turbulence model. -/
@[simps] def postp (o : Ops T) (s : St T) : St T := { s with k := (o.post s.freq s.k).1, visc := (o.post s.freq s.k).2 }

/-- Implicit equations of the `gls` model, coupled_timeintegrator.py:84-90. -/
@[simps] def turbEq (c : Opts) (o : Ops T) (s : St T) : St T := { s with k := if c.gls then o.turb s else s.k }

/-- `_update_turbulence`, coupled_timeintegrator.py:77-91. -/
def upTurb (c : Opts) (o : Ops T) (s : St T) : St T :=
  if c.turbulence then postp o (turbEq c o (pre o s)) else s

/-- `_update_stabilization_params`, coupled_timeintegrator.py:93-99. -/
@[simps] def upSmag (c : Opts) (o : Ops T) (s : St T) : St T :=
  { s with smag := if c.smagorinsky then o.smagOf s.mesh s.uv3 else s.smag }

/-- Implicit vertical steps of the tracers, coupled_timeintegrator.py:542-548, 688-694. -/
@[simps] def verticalTracers (c : Opts) (o : Ops T) (s : St T) : St T :=
  { s with salt := if c.salinity then (o.implTracer s).1 else s.salt
           temp := if c.temperature then (o.implTracer s).2 else s.temp }

/-- Implicit vertical steps, coupled_timeintegrator.py:542-552, 688-699: tracers, then velocity with the depth average put
back. -/
@[simps] def vertical (c : Opts) (o : Ops T) (s : St T) : St T :=
  { verticalTracers c o s with uv3 := o.minus (o.implVel (verticalTracers c o s) (o.plus s.uv3 s.dav3)) s.dav3 }

/-- Explicit 3D equations: the solutions of the equations that are solved, coupled_timeintegrator.py:664-681. -/
@[simps] def explicit (c : Opts) (o : Ops T) (i : ℕ) (p : T.P) (s : St T) : St T :=
  { s with salt := if c.salinity then (o.solve i p s).1 else s.salt
           temp := if c.temperature then (o.solve i p s).2.1 else s.temp
           k := if c.turbulence && c.gls then (o.solve i p s).2.2.1 else s.k
           uv3 := (o.solve i p s).2.2.2 }

/-- One stage of `CoupledTwoStageRK.advance`, coupled_timeintegrator.py:635-681, up to the coupling. -/
def stageRK (c : Opts) (o : Ops T) (i : ℕ) (s : St T) : St T :=
  let s1 := { s with elev := (o.swe i s).1, uv2 := (o.swe i s).2 }
  let p := o.prep i s1
  coupling o (explicit c o i p (upMesh c o (upElev s1)))

/-- `CoupledTwoStageRK.advance`, coupled_timeintegrator.py:621-710. -/
def advanceRK (c : Opts) (o : Ops T) (s : St T) : St T :=
  let s1 := upW o (upBaro c o (stageRK c o 0 s))
  let s2 := stageRK c o 1 s1
  let s3 := if c.implicit then vertical c o s2 else s2
  upSmag c o (upTurb c o (upW o (upBaro c o s3)))

/-- `CoupledLeapFrogAM3.advance`, coupled_timeintegrator.py:421-560: prediction (`solve 0`), 2D mode, fields at half step
(`half` gives elevation and depth averaged velocity there), right hand sides, mesh, correction (`solve 1`). -/
def advanceLF (c : Opts) (o : Ops T) (s : St T) : St T :=
  let s1 := upBaro c o (coupling o (explicit c o 0 (o.prep 0 s) s))
  let s2 := { s1 with elev := (o.swe 0 s1).1, uv2 := (o.swe 0 s1).2 }
  let s3 := { s2 with elevDom := (o.half s2).1, uv2 := (o.half s2).2 }
  let s4 := upBaro c o (upW o { coupling o s3 with uv2 := s2.uv2 })
  let p := o.prep 1 s4
  let s5 := explicit c o 1 p (upMesh c o (upElev s4))
  if c.implicit then
    let s6 := upTurb c o (upBaro c o (coupling o s5))
    upSmag c o (upW o (upBaro c o (vertical c o s6)))
  else
    upSmag c o (upW o (upBaro c o (coupling o s5)))

/-- Arguments of `assign_initial_conditions`, solver.py:917-918. -/
structure Init (T : Types) where
  elev : Option T.E := none
  salt : Option T.S := none
  temp : Option T.S := none
  uv2 : Option T.A := none
  uv3 : Option T.U := none
  k : Option T.K := none

/-- `TurbulenceModel.initialize`, turbulence.py:462-486 and 925-931: unless the simulation is continued, the `gls` model
sets its state; then it computes the diagnostic fields. -/
def turbInit (c : Opts) (o : Ops T) (continued : Bool) (s : St T) : St T :=
  postp o (pre o { s with k := if c.gls && !continued then o.kInit else s.k })

/-- `_update_all_dependencies` with the arguments of solver.py:964-969, coupled_timeintegrator.py:101-129. -/
def updateAll (c : Opts) (o : Ops T) (s : St T) : St T :=
  upSmag c o (upBaro c o (upW o (upMesh c o (upElev s))))

/-- Fields set by `assign_initial_conditions`, solver.py:938-956: `uv_dav_3d` is set if only `uv_2d` is given. -/
@[simps] def assignFields (c : Opts) (a : Init T) (s : St T) : St T :=
  { s with
    elev := a.elev.getD s.elev
    uv2 := a.uv2.getD s.uv2
    dav3 := if a.uv3.isNone then a.uv2.getD s.dav3 else s.dav3
    uv3 := a.uv3.getD s.uv3
    salt := if c.salinity then a.salt.getD s.salt else s.salt
    temp := if c.temperature then a.temp.getD s.temp else s.temp
    k := if c.turbulence && c.gls then a.k.getD s.k else s.k }

/-- `assign_initial_conditions`, solver.py:938-971 (`tke` and `psi` are one argument, they are treated alike). -/
def assignInitial (c : Opts) (o : Ops T) (continued : Bool) (a : Init T) (s : St T) : St T :=
  let s := assignFields c a s
  let s := if c.turbulence && c.gls then turbInit c o continued s else s
  let s := if c.ale then upMesh c o (upElev s) else s
  let s := updateAll c o s
  if c.turbulence then turbInit c o continued s else s

/-- What the restart needs of an export: solver.py:985-1004 (`uv_3d` is stored with the depth average) and 1058-1059. -/
structure File (T : Types) where
  elev : T.E
  uv2 : T.A
  uv3 : T.U
  salt : T.S
  temp : T.S
  k : T.K

/-- `export`. -/
def save (o : Ops T) (s : St T) : File T := ⟨s.elev, s.uv2, o.plus s.uv3 s.dav3, s.salt, s.temp, s.k⟩

/-- Fields read by `load_state`, solver.py:1069-1090, before the call of `assign_initial_conditions`. -/
@[simps] def loadFields (c : Opts) (o : Ops T) (f : File T) (s : St T) : St T :=
  { s with
    elev := f.elev
    uv2 := f.uv2
    uv3 := o.minus f.uv3 (o.meanOf s.mesh f.uv3)
    dav3 := o.meanOf s.mesh f.uv3
    salt := if c.salinity then f.salt else s.salt
    temp := if c.temperature then f.temp else s.temp
    k := if c.turbulence && c.gls then f.k else s.k }

/-- `load_state`, solver.py:1069-1093, on the fields of a solver that was just created. -/
def loadState (c : Opts) (o : Ops T) (f : File T) (s : St T) : St T :=
  let s := loadFields c o f s
  assignInitial c o true
    { elev := some s.elev, uv2 := some s.uv2, uv3 := some s.uv3
      salt := if c.salinity then some s.salt else none
      temp := if c.temperature then some s.temp else none
      k := if c.turbulence && c.gls then some s.k else none } s

/-! ### Frequencies on a moving mesh -/

/-- Value of a field at the bottom of the layer `i` in the weak gradient: mean of both sides between layers, its own value at
the bed, turbulence.py:199-200.  The field is linear in each of the `n` layers, with the values `pb i` below and `pt i` above. -/
def atBottom (pb pt : ℕ → ℚ) (i : ℕ) : ℚ := if i = 0 then pb i else (pt (i - 1) + pb i) / 2

/-- The same at the top of the layer `i`; its own value at the surface. -/
def atTop (n : ℕ) (pb pt : ℕ → ℚ) (i : ℕ) : ℚ := if i + 1 = n then pt i else (pt i + pb (i + 1)) / 2

/-- Weak vertical gradient in a column of prisms of horizontal area `area`: `VerticalGradSolver`, turbulence.py:194-203.  The
test functions are constant in the layers, so only the terms on interfaces are left.  The matrix is assembled when the
solver is used for the first time (`constant_jacobian=True`), when the layer is `h0 i` thick. -/
def weakGrad (n : ℕ) (area : ℚ) (h0 pb pt : ℕ → ℚ) (i : ℕ) : ℚ :=
  (area * atTop n pb pt i - area * atBottom pb pt i) / (area * h0 i)

/-- `ShearFrequencySolver.solve`, turbulence.py:249-266 (`relaxation` is 1), for the gradients `gu`, `gv`. -/
def shear2 (gu gv : ℚ) : ℚ := max (gu * gu + gv * gv) (1 / 10 ^ 12)

/-! ### One column -/

/-- The velocities after `assign_initial_conditions`, solver.py:940-947, in a column (`Verif.Split`); `LeapFrogAM3.initialize`
(timeintegrator.py:527-534) keeps the velocity as the old one. -/
def initialVel {n : ℕ} (uv2 : Option ℚ) (uv3 : Option (Fin n → ℚ)) (s : Split.St n) : Split.St n :=
  let s := match uv2 with
    | some u => { s with uv2 := u, dav3 := if uv3.isNone then u else s.dav3 }
    | none => s
  let s := { s with uv3 := uv3.getD s.uv3 }
  { s with old := s.uv3 }

/-- The velocities after `load_state`, solver.py:1069-1090, of a solver that was just created: all fields are zero. -/
def restartVel {n : ℕ} (w : Fin n → ℚ) (f : ℚ × (Fin n → ℚ)) : Split.St n :=
  let m := Split.mean w f.2
  initialVel (some f.1) (some fun i => f.2 i - m) ⟨fun i => f.2 i - m, m, f.1, 0, fun _ => 0⟩

/-- What an export stores of the velocity. -/
def savedVel {n : ℕ} (s : Split.St n) : ℚ × (Fin n → ℚ) := (s.uv2, fun i => s.uv3 i + s.dav3)

end Verif.Start
