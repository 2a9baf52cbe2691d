import Verif.RK.Model
import Mathlib.Algebra.Module.Prod

/-!
All prognostic fields of the 3D solver in the coupled time integrators of thetis/coupled_timeintegrator.py: the 2D mode with its
tendencies, the velocity, the tracers, the mesh, and the fields through which they act on each other.

Spaces of finite element functions are types of coefficients, assembled forms take values in dual spaces.  `E2`, `U2` are the spaces
of the parts of `solution_2d`, `U` that of 3D velocities, `W` that of `w_3d`, `X` that of tracers, `σ` the set of
tracers that are solved for (salinity, temperature, and the turbulent quantities where they are advected), `H` the 2D nodes of the
mesh, `A` everything else that the solver updates (turbulence, viscosities), which is arbitrary.
-/

namespace Verif.Still

open Finset RK

/-- The state.  `two` is the time integrator of the 2D mode, `split` is `split_residual_2d`, `ed` is `elev_domain_2d`, `e0`, `e1` are
the `elev_fields` of coupled_timeintegrator.py:579-582, `geo` is the elevation to which the mesh was moved last, `ws` is
`w_mesh_surf_2d`, `mom` and `tr` are the time integrators of velocity and tracers, `dav` is `uv_dav_3d`, `w` is `w_3d`, `pg` is
`int_pg_3d`. -/
structure St (E2 U2 U W H A σ M T : Type) where
  two : Dirk (E2 × U2)
  split : U2
  ed : E2
  e0 : H → ℝ
  e1 : H → ℝ
  geo : H → ℝ
  ws : H → ℝ
  mom : M
  dav : U
  w : W
  pg : U
  tr : σ → T
  aux : A

/-- What the explicit equations of momentum and tracers see of the state, coupled_timeintegrator.py:205-215 and 245-254. -/
structure View (E2 U W H A : Type) where
  geo : H → ℝ
  ed : E2
  uv : U
  dav : U
  w : W
  ws : H → ℝ
  pg : U
  aux : A

/-- Options and procedures of the solver.  `ale`, `limitT`, `limitU`, `implicit`, `baroclinic` are the options
`use_ale_moving_mesh`, `use_limiter_for_tracers`, `use_limiter_for_velocity`, `use_implicit_vertical_diffusion`,
`use_baroclinic_formulation`.  `cg` projects the elevation to the continuous space and to that of the coordinates, `average` is
the depth average as a 2D field, `copy` gives a 2D velocity as a 3D field.  `mass2`, `res2` are the forms of the 2D mode, `solve2 F k`
its solver with the initial guess `k`.  `massU`, `massX` are mass operators on the mesh of an elevation, `invU`, `invX` their
solvers, `resU`, `resX` the assembled residuals without the time step.  The first argument of the time dependent procedures counts
the steps, the second the stages. -/
structure Env (E2 U2 U W H A σ X D2 D DX : Type) where
  dt : ℝ
  ale : Bool
  limitT : Bool
  limitU : Bool
  implicit : Bool
  baroclinic : Bool
  cg : E2 → H → ℝ
  average : (H → ℝ) → U → U2
  copy : U2 → U
  wSolve : (H → ℝ) → U → W
  head : (H → ℝ) → (σ → X) → U
  mass2 : E2 × U2 → D2
  res2 : ℕ → ℕ → U2 → E2 × U2 → E2 × U2 → D2
  solve2 : (E2 × U2 → D2) → E2 × U2 → E2 × U2
  massU : (H → ℝ) → U → D
  invU : (H → ℝ) → D → U
  resU : ℕ → ℕ → View E2 U W H A → U → D
  massX : (H → ℝ) → X → DX
  invX : (H → ℝ) → DX → X
  resX : ℕ → ℕ → σ → View E2 U W H A → X → DX
  limX : (H → ℝ) → X → X
  limV : (H → ℝ) → U → U
  implU : ℕ → View E2 U W H A → U → U
  implX : ℕ → σ → View E2 U W H A → X → X

variable {E2 U2 U W H A σ X D2 D DX M T : Type} [AddCommGroup D2] [Module ℝ D2]
  [AddCommGroup E2] [Module ℝ E2] [AddCommGroup U2] [Module ℝ U2] [AddCommGroup U] [Module ℝ U] [AddCommGroup D] [Module ℝ D] [AddCommGroup X] [Module ℝ X]
  [AddCommGroup DX] [Module ℝ DX]

/-! ### The 2D mode -/

/-- `solve_stage` of `DIRKGeneric`, rungekutta.py:555-577 with the forms of rungekutta.py:495-516; the unknown keeps its last value
as the initial guess. -/
noncomputable def Env.stage2 (P : Env E2 U2 U W H A σ X D2 D DX) (B : Tableau) (semi : Bool) (n i : ℕ) (split : U2)
    (s : Dirk (E2 × U2)) : Dirk (E2 × U2) :=
  let old := if i = 0 then s.sol else s.old
  let nl := if semi then old else s.sol
  let k := P.solve2 (fun k => -P.mass2 k +
    P.res2 n i split (old + ∑ j ∈ range i, (B.a i j * P.dt) • s.k j + (B.a i i * P.dt) • k) nl) (s.k i)
  let ks := Function.update s.k i k
  { sol := old + ∑ j ∈ range (i + 1), (P.dt * B.a i j) • ks j, old := old, k := ks }

/-- `advance` of the 2D mode, rungekutta.py:429-435 and 569-571. -/
noncomputable def Env.advance2 (P : Env E2 U2 U W H A σ X D2 D DX) (B : Tableau) (semi : Bool) (n : ℕ) (split : U2)
    (s : Dirk (E2 × U2)) : Dirk (E2 × U2) :=
  (loop (P.stage2 B semi n · split ·) B.n s).getFinal B P.dt

/-! ### Coupling -/

/-- The view of the state; `uv` is `uv_3d`, the solution of the momentum equation. -/
def St.view (uv : M → U) (s : St E2 U2 U W H A σ M T) : View E2 U W H A :=
  ⟨s.geo, s.ed, uv s.mom, s.dav, s.w, s.ws, s.pg, s.aux⟩

/-- `_update_moving_mesh`, coupled_timeintegrator.py:37-41, after `_update_3d_elevation`, coupled_timeintegrator.py:27-30. -/
def Env.moveMesh (P : Env E2 U2 U W H A σ X D2 D DX) (s : St E2 U2 U W H A σ M T) : St E2 U2 U W H A σ M T :=
  { s with ed := s.two.sol.1, geo := if P.ale then P.cg (s.two.sol.1) else s.geo }

/-- `_update_vertical_velocity`, coupled_timeintegrator.py:32-35, with the total velocity of solver.py:774-778. -/
def Env.vertical (P : Env E2 U2 U W H A σ X D2 D DX) (uv : M → U) (s : St E2 U2 U W H A σ M T) :
    St E2 U2 U W H A σ M T :=
  { s with w := P.wSolve s.geo (uv s.mom + s.dav) }

/-- `_update_2d_coupling`, coupled_timeintegrator.py:43-69: the depth average is removed from `uv_3d` and, divided by the time step,
forces the 2D mode; the 2D velocity is copied to `uv_dav_3d`.  `set` assigns `uv_3d`. -/
noncomputable def Env.couple (P : Env E2 U2 U W H A σ X D2 D DX) (uv : M → U) (set : U → M → M)
    (s : St E2 U2 U W H A σ M T) : St E2 U2 U W H A σ M T :=
  let a := P.average s.geo (uv s.mom)
  { s with mom := set (uv s.mom - P.copy a) s.mom, split := (1 / P.dt) • a, dav := P.copy (s.two.sol.2) }

/-- `_update_baroclinicity`, coupled_timeintegrator.py:71-74. -/
def Env.baroc (P : Env E2 U2 U W H A σ X D2 D DX) (sol : T → X) (s : St E2 U2 U W H A σ M T) :
    St E2 U2 U W H A σ M T :=
  { s with pg := if P.baroclinic then P.head s.geo fun c => sol (s.tr c) else s.pg }

/-- `mom_impl.advance` on the full velocity, coupled_timeintegrator.py:547-550 and 695-699. -/
def Env.momentumImpl (P : Env E2 U2 U W H A σ X D2 D DX) (uv : M → U) (set : U → M → M) (n : ℕ)
    (s : St E2 U2 U W H A σ M T) : St E2 U2 U W H A σ M T :=
  { s with mom := set (P.implU n (s.view uv) (uv s.mom + s.dav) - s.dav) s.mom }

/-- `salt_impl.advance` and `temp_impl.advance`, coupled_timeintegrator.py:541-546 and 688-694. -/
def Env.tracersImpl (P : Env E2 U2 U W H A σ X D2 D DX) (uv : M → U) (sol : T → X) (set : X → T → T) (n : ℕ)
    (s : St E2 U2 U W H A σ M T) : St E2 U2 U W H A σ M T :=
  { s with tr := fun c => set (P.implX n c (s.view uv) (sol (s.tr c))) (s.tr c) }

/-- `_update_turbulence` and `_update_stabilization_params`, coupled_timeintegrator.py:76-99: an arbitrary function of the state. -/
def other (f : St E2 U2 U W H A σ M T → A) (s : St E2 U2 U W H A σ M T) : St E2 U2 U W H A σ M T := { s with aux := f s }

/-! ### `CoupledTwoStageRK` -/

/-- `uv_3d` and `salt_3d` of `SSPRK22ALE`. -/
def setAle (u : U) (s : Ale U D) : Ale U D := { s with sol := u }

abbrev StA (E2 U2 U W H A σ X D DX : Type) := St E2 U2 U W H A σ (Ale U D) (Ale X DX)

/-- `store_elevation`, coupled_timeintegrator.py:585-596. -/
def Env.store (P : Env E2 U2 U W H A σ X D2 D DX) (i : ℕ) (s : St E2 U2 U W H A σ M T) : St E2 U2 U W H A σ M T :=
  if P.ale then (if i = 0 then { s with e0 := P.cg (s.two.sol.1) } else { s with e1 := P.cg (s.two.sol.1) }) else s

/-- `compute_mesh_velocity`, coupled_timeintegrator.py:599-618. -/
noncomputable def Env.meshVelocity (P : Env E2 U2 U W H A σ X D2 D DX) (i : ℕ) (s : St E2 U2 U W H A σ M T) :
    St E2 U2 U W H A σ M T :=
  if P.ale then
    { s with ws := fun h => if i = 0 then (P.cg (s.two.sol.1) h - s.e0 h) / P.dt
                            else (2 * P.cg (s.two.sol.1) h - s.e1 h - s.e0 h) / P.dt }
  else s

/-- `prepare_stage` of all equations, coupled_timeintegrator.py:644-657 and timeintegrator.py:749-761. -/
noncomputable def prepare (P : Env E2 U2 U W H A σ X D2 D DX) (n i : ℕ) (s : StA E2 U2 U W H A σ X D DX) :
    StA E2 U2 U W H A σ X D DX :=
  let v := s.view Ale.sol
  { s with
    tr := fun c => if i = 0 then (s.tr c).prep1 P.dt (P.massX s.geo) (P.resX n i c v) else (s.tr c).prep2 P.dt (P.resX n i c v)
    mom := if i = 0 then s.mom.prep1 P.dt (P.massU s.geo) (P.resU n i v) else s.mom.prep2 P.dt (P.resU n i v) }

/-- `solve_stage` and the limiters, coupled_timeintegrator.py:664-682. -/
def solveStage (P : Env E2 U2 U W H A σ X D2 D DX) (s : StA E2 U2 U W H A σ X D DX) : StA E2 U2 U W H A σ X D DX :=
  { s with
    tr := fun c =>
      let t := (s.tr c).solve (P.invX s.geo)
      { t with sol := if P.limitT then P.limX s.geo t.sol else t.sol }
    mom :=
      let t := s.mom.solve (P.invU s.geo)
      { t with sol := if P.limitU then P.limV s.geo t.sol else t.sol } }

/-- One stage of `CoupledTwoStageRK`, coupled_timeintegrator.py:636-710. -/
noncomputable def stage (P : Env E2 U2 U W H A σ X D2 D DX) (semi : Bool) (turb : ℕ → StA E2 U2 U W H A σ X D DX → A) (n i : ℕ)
    (s : StA E2 U2 U W H A σ X D DX) : StA E2 U2 U W H A σ X D DX :=
  let s := P.store i s
  let s := { s with two := P.stage2 esdirkTrapezoid semi n i s.split s.two }
  let s := P.meshVelocity i s
  let s := prepare P n i s
  let s := P.moveMesh s
  let s := solveStage P s
  let s := P.couple Ale.sol setAle s
  let s := if i = 1 then
      (if P.implicit then P.momentumImpl Ale.sol setAle n (P.tracersImpl Ale.sol Ale.sol setAle n s) else s)
    else s
  let s := P.baroc Ale.sol s
  let s := P.vertical Ale.sol s
  if i = 1 then other (turb n) s else s

/-- `CoupledTwoStageRK.advance`, coupled_timeintegrator.py:621-710; `get_final_solution` of the 2D mode is not called. -/
noncomputable def advance (P : Env E2 U2 U W H A σ X D2 D DX) (semi : Bool) (turb : ℕ → StA E2 U2 U W H A σ X D DX → A) (n : ℕ)
    (s : StA E2 U2 U W H A σ X D DX) : StA E2 U2 U W H A σ X D DX := stage P semi turb n 1 (stage P semi turb n 0 s)

/-- The end of `assign_initial_conditions`, solver.py:959-969 with coupled_timeintegrator.py:101-129. -/
def start (P : Env E2 U2 U W H A σ X D2 D DX) (f : St E2 U2 U W H A σ M T → A) (uv : M → U) (sol : T → X)
    (s : St E2 U2 U W H A σ M T) : St E2 U2 U W H A σ M T :=
  other f (P.baroc sol (P.vertical uv (P.moveMesh s)))

/-- The state after `n` steps. -/
noncomputable def run (P : Env E2 U2 U W H A σ X D2 D DX) (semi : Bool) (turb : ℕ → StA E2 U2 U W H A σ X D DX → A)
    (init : StA E2 U2 U W H A σ X D DX → A) (s : StA E2 U2 U W H A σ X D DX) : ℕ → StA E2 U2 U W H A σ X D DX
  | 0 => start P init Ale.sol Ale.sol s
  | n + 1 => advance P semi turb n (run P semi turb init s n)

/-! ### `CoupledLeapFrogAM3` -/

abbrev StL (E2 U2 U W H A σ X D DX : Type) := St E2 U2 U W H A σ (Leap U D) (Leap X DX)

/-- `uv_3d` and `salt_3d` of `LeapFrogAM3`. -/
def setLeap (u : U) (s : Leap U D) : Leap U D := { s with sol := u }

/-- `w_mesh_3d.assign(0.0)`, coupled_timeintegrator.py:442-443. -/
def Env.still (P : Env E2 U2 U W H A σ X D2 D DX) (s : St E2 U2 U W H A σ M T) : St E2 U2 U W H A σ M T :=
  if P.ale then { s with ws := fun _ => 0 } else s

/-- `predict` of all equations with the limiters, coupled_timeintegrator.py:445-464. -/
noncomputable def predict (P : Env E2 U2 U W H A σ X D2 D DX) (n : ℕ) (s : StL E2 U2 U W H A σ X D DX) :
    StL E2 U2 U W H A σ X D DX :=
  let s1 : StL E2 U2 U W H A σ X D DX := { s with
    tr := fun c =>
      let t := (s.tr c).predict P.dt (P.massX s.geo) (P.resX n 0 c (s.view Leap.sol))
      { t with sol := if P.limitT then P.limX s.geo t.sol else t.sol } }
  let t := s.mom.predict P.dt (P.massU s.geo) (P.resU n 0 (s.view Leap.sol))
  { s1 with mom := { t with sol := if P.limitU then P.limV s.geo t.sol else t.sol } }

/-- The 2D mode between `compute_mesh_velocity_begin` and `compute_mesh_velocity_finalize`, coupled_timeintegrator.py:471-477 and
utility3d.py:815-838 with `c = 1`. -/
noncomputable def leapMode2d (P : Env E2 U2 U W H A σ X D2 D DX) (semi : Bool) (n : ℕ) (s : St E2 U2 U W H A σ M T) :
    St E2 U2 U W H A σ M T :=
  let old := P.cg s.two.sol.1
  let s := { s with two := P.advance2 dirk22 semi n s.split s.two }
  if P.ale then { s with ws := fun h => (old h + -P.cg s.two.sol.1 h) * (-1 / P.dt / 1) } else s

/-- Elevation and 2D velocity between the time levels, coupled_timeintegrator.py:480-491; `uv_2d` is restored afterwards. -/
noncomputable def halfCouple (P : Env E2 U2 U W H A σ X D2 D DX) (old : U2) (s : StL E2 U2 U W H A σ X D DX) :
    StL E2 U2 U W H A σ X D DX :=
  let s1 := { s with
    ed := (1 / 2 + 2 * lfγ) • s.two.sol.1 + (1 / 2 - 2 * lfγ) • s.ed
    two := { s.two with sol := (s.two.sol.1, (1 / 2 + 2 * lfγ) • s.two.sol.2 + (1 / 2 - 2 * lfγ) • old) } }
  let s2 := P.couple Leap.sol setLeap s1
  { s2 with two := s.two }

/-- `eval_rhs` of all equations, coupled_timeintegrator.py:502-514. -/
noncomputable def evalRhs (P : Env E2 U2 U W H A σ X D2 D DX) (n : ℕ) (s : StL E2 U2 U W H A σ X D DX) :
    StL E2 U2 U W H A σ X D DX :=
  let v := s.view Leap.sol
  { s with tr := fun c => (s.tr c).evalRhs P.dt (P.resX n 1 c v), mom := s.mom.evalRhs P.dt (P.resU n 1 v) }

/-- `correct` of all equations with the limiters, coupled_timeintegrator.py:519-537. -/
def correct (P : Env E2 U2 U W H A σ X D2 D DX) (s : StL E2 U2 U W H A σ X D DX) : StL E2 U2 U W H A σ X D DX :=
  { s with
    tr := fun c =>
      let t := (s.tr c).correct (P.invX s.geo)
      { t with sol := if P.limitT then P.limX s.geo t.sol else t.sol }
    mom :=
      let t := s.mom.correct (P.invU s.geo)
      { t with sol := if P.limitU then P.limV s.geo t.sol else t.sol } }

/-- `CoupledLeapFrogAM3.advance`, coupled_timeintegrator.py:421-560. -/
noncomputable def leapAdvance (P : Env E2 U2 U W H A σ X D2 D DX) (semi : Bool) (turb stab : ℕ → StL E2 U2 U W H A σ X D DX → A) (n : ℕ)
    (s : StL E2 U2 U W H A σ X D DX) : StL E2 U2 U W H A σ X D DX :=
  let s := P.still s
  let s := predict P n s
  let s := P.couple Leap.sol setLeap s
  let s := P.baroc Leap.sol s
  let old := s.two.sol.2
  let s := leapMode2d P semi n s
  let s := halfCouple P old s
  let s := P.vertical Leap.sol s
  let s := P.baroc Leap.sol s
  let s := evalRhs P n s
  let s := P.moveMesh s
  let s := correct P s
  let s := P.couple Leap.sol setLeap s
  let s := P.baroc Leap.sol s
  let s := if P.implicit then
      P.baroc Leap.sol (P.momentumImpl Leap.sol setLeap n (P.tracersImpl Leap.sol Leap.sol setLeap n (other (turb n) s)))
    else s
  let s := P.vertical Leap.sol s
  other (stab n) s

/-- `initialize` of all equations on the mesh for the initial elevation, solver.py:959-962, coupled_timeintegrator.py:369-395 and
timeintegrator.py:527-533. -/
def leapStart (P : Env E2 U2 U W H A σ X D2 D DX) (init : StL E2 U2 U W H A σ X D DX → A) (s : StL E2 U2 U W H A σ X D DX) :
    StL E2 U2 U W H A σ X D DX :=
  let s := P.moveMesh s
  let s := { s with
    mom := Leap.initialize (P.massU s.geo) (P.invU s.geo) s.mom.sol s.mom.rhs
    tr := fun c => Leap.initialize (P.massX s.geo) (P.invX s.geo) (s.tr c).sol (s.tr c).rhs }
  start P init Leap.sol Leap.sol s

/-- The state after `n` steps. -/
noncomputable def leapRun (P : Env E2 U2 U W H A σ X D2 D DX) (semi : Bool) (turb stab : ℕ → StL E2 U2 U W H A σ X D DX → A)
    (init : StL E2 U2 U W H A σ X D DX → A) (s : StL E2 U2 U W H A σ X D DX) : ℕ → StL E2 U2 U W H A σ X D DX
  | 0 => leapStart P init s
  | n + 1 => leapAdvance P semi turb stab n (leapRun P semi turb stab init s n)

end Verif.Still
