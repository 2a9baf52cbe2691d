import Mathlib.Algebra.BigOperators.Group.Finset.Basic
import Mathlib.Algebra.BigOperators.Fin
import Mathlib.Algebra.Order.Field.Rat
import Mathlib.Data.Rat.Defs

/-!
Model of the exchange of momentum between the 3D and the 2D mode in the coupled time integrators
`CoupledTwoStageRK` and `CoupledLeapFrogAM3` (`thetis/coupled_timeintegrator.py`).

One velocity component in one column of water with `n` elements; the mesh does not move
(`use_ale_moving_mesh = False`), so depth averages are fixed weighted means; exact arithmetic. The
tendencies of the equations, the limiter and the implicit vertical solver are arbitrary functions of the
state of the column (the state of the neighbouring columns is part of these functions).
-/

namespace Verif.Split

/-- The fields exchanged between the modes; `uv3` is `uv_3d` (deviation), `dav3` is `uv_dav_3d` (uniform
over the column), `uv2` is `uv_2d`, `split` is `split_residual_2d`, `old` is `solution_old` of
`LeapFrogAM3`. -/
structure St (n : ℕ) where
  uv3 : Fin n → ℚ
  dav3 : ℚ
  uv2 : ℚ
  split : ℚ
  old : Fin n → ℚ

/-- Depth average with the weights `w` of the elements (thickness over depth), utility3d.py:197-203. -/
def mean {n : ℕ} (w u : Fin n → ℚ) : ℚ := ∑ i, w i * u i

/-- What the equations do to a column: `expl` the tendency of the explicit 3D momentum equation, `ext` that
of the 2D momentum equation without the coupling term in the stage `i`, `lim` the limiter, `impl` the
implicit vertical solver applied to the full velocity. -/
structure Eqs (n : ℕ) where
  expl : St n → Fin n → ℚ
  ext : ℕ → St n → ℚ
  lim : (Fin n → ℚ) → Fin n → ℚ
  impl : St n → (Fin n → ℚ) → Fin n → ℚ

/-- `_update_2d_coupling`, coupled_timeintegrator.py:43-71. -/
def coupling {n : ℕ} (w : Fin n → ℚ) (dt : ℚ) (s : St n) : St n :=
  let m := mean w s.uv3
  { s with uv3 := fun i => s.uv3 i - m, split := m / dt, dav3 := s.uv2 }

/-- Implicit vertical step on the full velocity, coupled_timeintegrator.py:549-552, 695-699. -/
def vertical {n : ℕ} (q : Eqs n) (s : St n) : St n :=
  { s with uv3 := fun i => q.impl s (fun j => s.uv3 j + s.dav3) i - s.dav3 }

/-! ### `CoupledTwoStageRK` -/

/-- Tendency of the first stage of the 2D mode: source `split_residual_2d`
(coupled_timeintegrator.py:186-194) and the other terms. -/
def k0 {n : ℕ} (q : Eqs n) (s : St n) : ℚ := q.ext 0 s + s.split

/-- State after the first stage, coupled_timeintegrator.py:635-681, 706-710: the first stage of `ESDIRKTrapezoid`
(rungekutta.py:403-407) has the coefficient 0, so `uv_2d` is not changed; `uv_3d` makes a forward Euler
step (timeintegrator.py:672-705) and is limited; coupling. -/
def stageOne {n : ℕ} (w : Fin n → ℚ) (dt : ℚ) (q : Eqs n) (s : St n) : St n :=
  let s1 := { s with uv2 := s.uv2 + dt * (0 * k0 q s) }
  coupling w dt { s1 with uv3 := q.lim (fun i => s.uv3 i + dt * q.expl s1 i) }

/-- State after the second stage and the coupling, coupled_timeintegrator.py:635-687; `mu` is the
velocity at the end of the first stage before limiting, kept with the start value (`mu`, `mu_old` of
timeintegrator.py:677-686, 707-718). -/
def stageTwo {n : ℕ} (w : Fin n → ℚ) (dt : ℚ) (q : Eqs n) (s s' : St n) : St n :=
  let s2 := { s' with uv2 := s.uv2 + dt * (1 / 2 * k0 q s + 1 / 2 * (q.ext 1 s' + s'.split)) }
  let mu : Fin n → ℚ := fun i => s.uv3 i + dt * q.expl { s with uv2 := s.uv2 + dt * (0 * k0 q s) } i
  coupling w dt { s2 with
    uv3 := q.lim (fun i => 1 / 2 * mu i + 1 / 2 * s.uv3 i + 1 / 2 * (dt * q.expl s2 i)) }

/-- `CoupledTwoStageRK.advance`, coupled_timeintegrator.py:621-710; `implicit` is
`use_implicit_vertical_diffusion`. -/
def advanceRK {n : ℕ} (w : Fin n → ℚ) (dt : ℚ) (implicit : Bool) (q : Eqs n) (s : St n) : St n :=
  let s2 := stageTwo w dt q s (stageOne w dt q s)
  if implicit then vertical q s2 else s2

/-! ### `CoupledLeapFrogAM3` -/

/-- `gamma` of `LeapFrogAM3`, timeintegrator.py:501. -/
def gam : ℚ := 1 / 12

/-- Prediction step, limiter and coupling, coupled_timeintegrator.py:461-467 and
timeintegrator.py:519-522, 560-568. -/
def predict {n : ℕ} (w : Fin n → ℚ) (dt : ℚ) (q : Eqs n) (s : St n) : St n :=
  coupling w dt { s with
    uv3 := q.lim (fun i => (1 / 2 - 2 * gam) * s.old i + (1 / 2 + 2 * gam) * s.uv3 i
      + (1 - 2 * gam) * (dt * q.expl s i))
    old := s.uv3 }

/-- Step of the 2D mode (the weights of `DIRK22` add up to one, rungekutta.py:213-216; the coupling term is
the same in both stages), coupled_timeintegrator.py:473-478. -/
def step2d {n : ℕ} (dt : ℚ) (q : Eqs n) (s : St n) : St n :=
  { s with uv2 := s.uv2 + dt * (q.ext 0 s + s.split) }

/-- Correction of `uv_3d` to `uv_2d` at half step, coupled_timeintegrator.py:487-491; `u` is `uv_old_2d`. -/
def halfStep {n : ℕ} (w : Fin n → ℚ) (dt u : ℚ) (s : St n) : St n :=
  let c := coupling w dt { s with uv2 := (1 / 2 + 2 * gam) * s.uv2 + (1 / 2 - 2 * gam) * u }
  { c with uv2 := s.uv2 }

/-- Correction step, limiter and coupling, coupled_timeintegrator.py:534-540, 557 and
timeintegrator.py:570-597; `old` is also the solution stored by the prediction (`msolution_old`,
timeintegrator.py:562, 566). -/
def correct {n : ℕ} (w : Fin n → ℚ) (dt : ℚ) (q : Eqs n) (s : St n) : St n :=
  coupling w dt { s with uv3 := q.lim (fun i => s.old i + dt * q.expl s i) }

/-- `CoupledLeapFrogAM3.advance`, coupled_timeintegrator.py:421-560. -/
def advanceLF {n : ℕ} (w : Fin n → ℚ) (dt : ℚ) (implicit : Bool) (q : Eqs n) (s : St n) : St n :=
  let s1 := predict w dt q s
  let s2 := step2d dt q s1
  let s3 := halfStep w dt s1.uv2 s2
  let s4 := correct w dt q s3
  if implicit then vertical q s4 else s4

end Verif.Split
