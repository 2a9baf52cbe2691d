import Verif.Tracer3.Model
import Verif.RK.Model

/-!
A tracer in the coupled time integrators of thetis/coupled_timeintegrator.py: the order in which `advance` solves the
2D mode, moves the mesh, assembles and solves the tracer equation and updates the velocities.

Each 2D node `h` carries a vertical line of nodes.  `Ref` holds what a quadrature point of a cell sees of the mesh at
rest; the mesh for a given elevation is a `Mesh3` of `Verif.Ext`.  Spaces of finite element functions are types of
coefficients, with a map that gives the function on the mesh for each elevation.

All solvers except those of the tracer, the vertical velocity and the mass matrix are arbitrary functions of the
state: nothing is assumed of the 2D solver and of the momentum solver.  Turbulence and baroclinicity change no
field that is modelled here other than the diffusivities, which are arbitrary.
-/

namespace Verif.Ale

open Verif.Dg Verif.Ext Verif.Tracer3

/-- `kernel_z_coord`, utility3d.py:763-780. -/
noncomputable def newZ (bath eta zref : ℝ) : ℝ := eta * (zref + bath) / bath + zref

/-- `kernel_w_mesh`, utility3d.py:782-799. -/
noncomputable def newW (bath ws zref : ℝ) : ℝ := ws * (zref + bath) / bath

/-- The mesh at rest.  `phi x h` is the horizontal basis function of node `h` at the point `x`, `lo x h` and `hi x h`
the vertical coordinates of the ends of the edge over `h` of the cell of `x`, `wq` the quadrature weight times the area
ratio of the horizontal map. -/
structure Ref (H Q : Type) where
  bath : H → ℝ
  wq : Q → ℝ
  phi : Q → H → ℝ
  lo : Q → H → ℝ
  hi : Q → H → ℝ

variable {H Q ι U W E2 U2 T : Type} [Fintype H] [Fintype Q] [Fintype ι] [DecidableEq ι]

/-- Derivative of the vertical coordinate along the vertical direction of the reference cell, of length one; the
coordinates of the nodes are those of `kernel_z_coord`, utility3d.py:763-780. -/
noncomputable def Ref.jac (R : Ref H Q) (eta : H → ℝ) (x : Q) : ℝ :=
  ∑ h, R.phi x h * (newZ (R.bath h) (eta h) (R.hi x h) - newZ (R.bath h) (eta h) (R.lo x h))

/-- The same derivative of `w_mesh_3d`, with the nodal values of `kernel_w_mesh`, utility3d.py:782-799. -/
noncomputable def Ref.rate (R : Ref H Q) (ws : H → ℝ) (x : Q) : ℝ :=
  ∑ h, R.phi x h * (newW (R.bath h) (ws h) (R.hi x h) - newW (R.bath h) (ws h) (R.lo x h))

/-- Meshes and functions for each elevation at the 2D nodes: tracers `tr`, horizontal velocities `vel`, the vertical
velocity `wf` and the mesh velocity `wm` given by its values at the surface. -/
structure Geo (H Q ι U W : Type) where
  ref : Ref H Q
  mesh : (H → ℝ) → Mesh3
  pt : ∀ eta, (mesh eta).m.C ≃ Q
  tr : ∀ eta, (ι → ℝ) → Sc (mesh eta).m
  vel : ∀ eta, U → Vc (mesh eta).m
  wf : ∀ eta, W → Sc (mesh eta).m
  wm : ∀ eta, (H → ℝ) → Sc (mesh eta).m

/-- Test functions. -/
def Geo.test (G : Geo H Q ι U W) (eta : H → ℝ) (i : ι) : Sc (G.mesh eta).m := G.tr eta (Pi.single i 1)

/-- `inner(solution, test)*dx` and `mass_term`, timeintegrator.py:654 and 647. -/
def Geo.mass (G : Geo H Q ι U W) (eta : H → ℝ) (u : ι → ℝ) : ι → ℝ := fun i =>
  (G.mesh eta).m.dx fun x => (G.tr eta u (.cell x)).v * (G.test eta i (.cell x)).v

/-- The state of the solver: `elev`, `uv2` are the parts of `solution_2d`, `e0`, `e1` the `elev_fields` of
coupled_timeintegrator.py:579-582, `geo` is the elevation to which the mesh was moved last, `ws` is `w_mesh_surf_2d`,
`uv` is `uv_3d`, `dav` is `uv_dav_3d`, `w` is `w_3d` and `tr` the time integrator of the tracer. -/
structure St (H U W E2 U2 T : Type) where
  elev : E2
  uv2 : U2
  e0 : H → ℝ
  e1 : H → ℝ
  geo : H → ℝ
  ws : H → ℝ
  uv : U
  dav : U
  w : W
  tr : T

/-- Options and the other procedures of the solver.  `ale` is `use_ale_moving_mesh`, `limit` is
`use_limiter_for_tracers`, `implicit` is `use_implicit_vertical_diffusion`; `cg` projects the elevation to the
continuous space and to that of the coordinates, `average` gives the depth average as a 3D field, `copy` a 2D
velocity as a 3D field, `wSolve` solves for the vertical velocity, `massSolve` solves with the mass matrix, `lim` is the
limiter and `diffuse` solves the implicit diffusion of the tracer.  `rest` gives the fields of the tracer equation that
are not in the state.  The first argument of the time dependent procedures counts the steps, the second the stages. -/
structure Env (H U W E2 U2 T ι Q : Type) (G : Geo H Q ι U W) where
  dt : ℝ
  ale : Bool
  limit : Bool
  implicit : Bool
  cg : E2 → H → ℝ
  average : (H → ℝ) → U → U
  copy : U2 → U
  wSolve : (H → ℝ) → U → W
  massSolve : (H → ℝ) → (ι → ℝ) → ι → ℝ
  lim : (H → ℝ) → (ι → ℝ) → ι → ℝ
  diffuse : ℕ → St H U W E2 U2 T → (ι → ℝ) → ι → ℝ
  swe : ℕ → ℕ → St H U W E2 U2 T → E2 × U2
  mom : ℕ → ℕ → St H U W E2 U2 T → U
  term : ∀ eta, Term (G.mesh eta)
  bc : ℕ → ℕ → ∀ eta, ℕ → Option (BFuncs (G.mesh eta))
  rest : ℕ → ℕ → ∀ s : St H U W E2 U2 T, Fields (G.mesh s.geo)

variable {G : Geo H Q ι U W}

/-- The fields of the explicit tracer equation, coupled_timeintegrator.py:245-254. -/
def Env.fields (P : Env H U W E2 U2 T ι Q G) (n i : ℕ) (s : St H U W E2 U2 T) : Fields (G.mesh s.geo) :=
  { P.rest n i s with
    uv := some (G.vel s.geo s.uv)
    uvDav := some (G.vel s.geo s.dav)
    w := some (G.wf s.geo s.w)
    wMesh := if P.ale then some (G.wm s.geo s.ws) else none }

/-- The assembled residual of the tracer equation without the time step, on the current mesh. -/
noncomputable def Env.rhs (P : Env H U W E2 U2 T ι Q G) (n i : ℕ) (s : St H U W E2 U2 T) (u : ι → ℝ) : ι → ℝ := fun j =>
  residual (P.term s.geo) (P.fields n i s) (P.bc n i s.geo) (G.tr s.geo u) (G.test s.geo j)

/-- The limiter, where it is used; coupled_timeintegrator.py:666-667. -/
def Env.limited (P : Env H U W E2 U2 T ι Q G) (geo : H → ℝ) (u : ι → ℝ) : ι → ℝ := if P.limit then P.lim geo u else u

/-- `_update_moving_mesh`, coupled_timeintegrator.py:37-41 and utility3d.py:853-875. -/
def Env.moveMesh (P : Env H U W E2 U2 T ι Q G) (s : St H U W E2 U2 T) : St H U W E2 U2 T :=
  { s with geo := if P.ale then P.cg s.elev else s.geo }

/-- `_update_vertical_velocity`, coupled_timeintegrator.py:32-35, with the total velocity of solver.py:774-778. -/
def Env.vertical [Add U] (P : Env H U W E2 U2 T ι Q G) (s : St H U W E2 U2 T) : St H U W E2 U2 T :=
  { s with w := P.wSolve s.geo (s.uv + s.dav) }

/-- `_update_2d_coupling`, coupled_timeintegrator.py:43-63: the depth average is removed from `uv_3d`, the 2D velocity
is copied to `uv_dav_3d`. -/
def Env.couple [Sub U] (P : Env H U W E2 U2 T ι Q G) (s : St H U W E2 U2 T) : St H U W E2 U2 T :=
  { s with uv := s.uv - P.average s.geo s.uv, dav := P.copy s.uv2 }

/-! ### `CoupledTwoStageRK` -/

/-- `store_elevation`, coupled_timeintegrator.py:585-596. -/
def Env.store (P : Env H U W E2 U2 T ι Q G) (i : ℕ) (s : St H U W E2 U2 T) : St H U W E2 U2 T :=
  if P.ale then (if i = 0 then { s with e0 := P.cg s.elev } else { s with e1 := P.cg s.elev }) else s

/-- The 2D mode, coupled_timeintegrator.py:639-640. -/
def Env.mode2d (P : Env H U W E2 U2 T ι Q G) (n i : ℕ) (s : St H U W E2 U2 T) : St H U W E2 U2 T :=
  { s with elev := (P.swe n i s).1, uv2 := (P.swe n i s).2 }

/-- `compute_mesh_velocity`, coupled_timeintegrator.py:599-618. -/
noncomputable def Env.meshVelocity (P : Env H U W E2 U2 T ι Q G) (i : ℕ) (s : St H U W E2 U2 T) : St H U W E2 U2 T :=
  if P.ale then
    { s with ws := fun h => if i = 0 then (P.cg s.elev h - s.e0 h) / P.dt
                            else (2 * P.cg s.elev h - s.e1 h - s.e0 h) / P.dt }
  else s

variable [AddCommGroup U] {A : Type}

/-- The momentum solver with its limiter, which leaves the other fields as they are; coupled_timeintegrator.py:678-681. -/
def Env.momentum (P : Env H U W E2 U2 T ι Q G) (n i : ℕ) (s : St H U W E2 U2 T) : St H U W E2 U2 T :=
  { s with uv := P.mom n i s }

/-- Implicit diffusion of momentum, coupled_timeintegrator.py:695-699. -/
def Env.momentumImpl (P : Env H U W E2 U2 T ι Q G) (n i : ℕ) (s : St H U W E2 U2 T) : St H U W E2 U2 T :=
  let s1 := { s with uv := s.uv + s.dav }
  { s with uv := P.mom n i s1 - s.dav }

/-- The tracer of `CoupledTwoStageRK`. -/
abbrev StA (H U W E2 U2 ι : Type) := St H U W E2 U2 (RK.Ale (ι → ℝ) (ι → ℝ))

/-- `prepare_stage`, timeintegrator.py:749-761. -/
noncomputable def prepare (P : Env H U W E2 U2 (RK.Ale (ι → ℝ) (ι → ℝ)) ι Q G) (n i : ℕ) (s : StA H U W E2 U2 ι) :
    StA H U W E2 U2 ι :=
  { s with tr := if i = 0 then s.tr.prep1 P.dt (G.mass s.geo) (P.rhs n i s) else s.tr.prep2 P.dt (P.rhs n i s) }

/-- `solve_stage` and the limiter, coupled_timeintegrator.py:665-667. -/
def solveStage (P : Env H U W E2 U2 (RK.Ale (ι → ℝ) (ι → ℝ)) ι Q G) (s : StA H U W E2 U2 ι) : StA H U W E2 U2 ι :=
  let t := s.tr.solve (P.massSolve s.geo)
  { s with tr := { t with sol := P.limited s.geo t.sol } }

/-- `salt_impl.advance`, coupled_timeintegrator.py:689-691. -/
def diffusion (P : Env H U W E2 U2 (RK.Ale (ι → ℝ) (ι → ℝ)) ι Q G) (n : ℕ) (s : StA H U W E2 U2 ι) :
    StA H U W E2 U2 ι :=
  { s with tr := { s.tr with sol := P.diffuse n s s.tr.sol } }

/-- One stage, coupled_timeintegrator.py:637-710. -/
noncomputable def stage (P : Env H U W E2 U2 (RK.Ale (ι → ℝ) (ι → ℝ)) ι Q G) (n i : ℕ) (s : StA H U W E2 U2 ι) :
    StA H U W E2 U2 ι :=
  let s := P.store i s
  let s := P.mode2d n i s
  let s := P.meshVelocity i s
  let s := prepare P n i s
  let s := P.moveMesh s
  let s := solveStage P s
  let s := P.momentum n i s
  let s := P.couple s
  let s := if i = 1 then (if P.implicit then P.momentumImpl n 2 (diffusion P n s) else s) else s
  P.vertical s

/-- `CoupledTwoStageRK.advance`, coupled_timeintegrator.py:621-710. -/
noncomputable def advance (P : Env H U W E2 U2 (RK.Ale (ι → ℝ) (ι → ℝ)) ι Q G) (n : ℕ) (s : StA H U W E2 U2 ι) :
    StA H U W E2 U2 ι := stage P n 1 (stage P n 0 s)

/-- The end of `assign_initial_conditions`, solver.py:959-969 with coupled_timeintegrator.py:101-114. -/
def start (P : Env H U W E2 U2 T ι Q G) (s : St H U W E2 U2 T) : St H U W E2 U2 T := P.vertical (P.moveMesh s)

/-- The state after `n` steps. -/
noncomputable def run (P : Env H U W E2 U2 (RK.Ale (ι → ℝ) (ι → ℝ)) ι Q G) (s : StA H U W E2 U2 ι) :
    ℕ → StA H U W E2 U2 ι
  | 0 => start P s
  | n + 1 => advance P n (run P s n)

/-! ### `CoupledLeapFrogAM3` -/

/-- The tracer of `CoupledLeapFrogAM3`. -/
abbrev StL (H U W E2 U2 ι : Type) := St H U W E2 U2 (RK.Leap (ι → ℝ) (ι → ℝ))

/-- `predict` with the limiter, coupled_timeintegrator.py:446-449. -/
noncomputable def predict (P : Env H U W E2 U2 (RK.Leap (ι → ℝ) (ι → ℝ)) ι Q G) (n : ℕ) (s : StL H U W E2 U2 ι) :
    StL H U W E2 U2 ι :=
  let t := s.tr.predict P.dt (G.mass s.geo) (P.rhs n 0 s)
  { s with tr := { t with sol := P.limited s.geo t.sol } }

/-- `w_mesh_3d.assign(0.0)`, coupled_timeintegrator.py:442-443. -/
def still (P : Env H U W E2 U2 T ι Q G) (s : St H U W E2 U2 T) : St H U W E2 U2 T :=
  if P.ale then { s with ws := fun _ => 0 } else s

/-- `compute_mesh_velocity_begin` and `compute_mesh_velocity_finalize` around the 2D mode,
coupled_timeintegrator.py:471-477 and utility3d.py:815-838 with `c = 1`. -/
noncomputable def leapMode2d (P : Env H U W E2 U2 T ι Q G) (n : ℕ) (s : St H U W E2 U2 T) : St H U W E2 U2 T :=
  let old := P.cg s.elev
  let s := P.mode2d n 0 s
  if P.ale then { s with ws := fun h => (old h + -P.cg s.elev h) * (-1 / P.dt / 1) } else s

/-- The velocity between the time levels, coupled_timeintegrator.py:487-491: `mix old new` is
`(0.5 + 2*gamma)*new + (0.5 - 2*gamma)*old`; `uv_2d` is restored afterwards. -/
def halfCouple (P : Env H U W E2 U2 T ι Q G) (mix : U2 → U2 → U2) (old : U2) (s : St H U W E2 U2 T) :
    St H U W E2 U2 T :=
  let s1 := P.couple { s with uv2 := mix old s.uv2 }
  { s1 with uv2 := s.uv2 }

/-- `eval_rhs`, coupled_timeintegrator.py:503-504. -/
noncomputable def evalRhs (P : Env H U W E2 U2 (RK.Leap (ι → ℝ) (ι → ℝ)) ι Q G) (n : ℕ) (s : StL H U W E2 U2 ι) :
    StL H U W E2 U2 ι := { s with tr := s.tr.evalRhs P.dt (P.rhs n 1 s) }

/-- `correct` with the limiter, coupled_timeintegrator.py:520-523. -/
def correct (P : Env H U W E2 U2 (RK.Leap (ι → ℝ) (ι → ℝ)) ι Q G) (s : StL H U W E2 U2 ι) : StL H U W E2 U2 ι :=
  let t := s.tr.correct (P.massSolve s.geo)
  { s with tr := { t with sol := P.limited s.geo t.sol } }

/-- `salt_impl.advance`, coupled_timeintegrator.py:543-545. -/
def leapDiffusion (P : Env H U W E2 U2 (RK.Leap (ι → ℝ) (ι → ℝ)) ι Q G) (n : ℕ) (s : StL H U W E2 U2 ι) :
    StL H U W E2 U2 ι :=
  { s with tr := { s.tr with sol := P.diffuse n s s.tr.sol } }

/-- `CoupledLeapFrogAM3.advance`, coupled_timeintegrator.py:421-560. -/
noncomputable def leapAdvance (P : Env H U W E2 U2 (RK.Leap (ι → ℝ) (ι → ℝ)) ι Q G) (mix : U2 → U2 → U2) (n : ℕ)
    (s : StL H U W E2 U2 ι) : StL H U W E2 U2 ι :=
  let s := still P s
  let s := predict P n s
  let s := P.momentum n 0 s
  let s := P.couple s
  let old := s.uv2
  let s := leapMode2d P n s
  let s := halfCouple P mix old s
  let s := P.vertical s
  let s := evalRhs P n s
  let s := P.moveMesh s
  let s := correct P s
  let s := P.momentum n 1 s
  let s := P.couple s
  let s := if P.implicit then P.momentumImpl n 2 (leapDiffusion P n s) else s
  P.vertical s

/-- `salt_expl.initialize` on the mesh for the initial elevation, solver.py:959-962 and timeintegrator.py:527-533. -/
def leapStart (P : Env H U W E2 U2 (RK.Leap (ι → ℝ) (ι → ℝ)) ι Q G) (s : StL H U W E2 U2 ι) : StL H U W E2 U2 ι :=
  let s := P.moveMesh s
  let s := { s with tr := RK.Leap.initialize (G.mass s.geo) (P.massSolve s.geo) s.tr.sol s.tr.rhs }
  start P s

/-- The state after `n` steps. -/
noncomputable def leapRun (P : Env H U W E2 U2 (RK.Leap (ι → ℝ) (ι → ℝ)) ι Q G) (mix : U2 → U2 → U2)
    (s : StL H U W E2 U2 ι) : ℕ → StL H U W E2 U2 ι
  | 0 => leapStart P s
  | n + 1 => leapAdvance P mix n (leapRun P mix s n)

end Verif.Ale
