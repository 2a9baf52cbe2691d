import Verif.RK.Model

/-!
Runs of the two schemes of the 3D solver, `LeapFrogAM3` and `SSPRK22ALE` (thetis/timeintegrator.py), with the times at which
forcings are evaluated.
-/

namespace Verif.Leap

open RK

variable {V W : Type*} [AddCommGroup V] [Module ℝ V] [AddCommGroup W] [Module ℝ W]

/-- `SSPRK22ALE.c`, timeintegrator.py:656. -/
def aleNodes : ℕ → ℝ := vec [0, 1]

/-- `SSPRK22ALE.advance(t)`, timeintegrator.py:764-770, with the forcings of `prepare_stage`, timeintegrator.py:749-761.  `L τ` is the
right-hand side with the forcings of time `τ`, on the mesh of time `τ`; the mesh of time `t + dt` is in place when the first stage is
solved, and stays. -/
noncomputable def aleAt (dt : ℝ) (M : ℝ → V → W) (Minv : ℝ → W → V) (L : ℝ → V → W) (t : ℝ) (s : Ale V W) : Ale V W :=
  s.advance dt (M t) (L (t + aleNodes 0 * dt)) (L (t + aleNodes 1 * dt)) (Minv (t + dt)) (Minv (t + dt))

/-- A run of `SSPRK22ALE` from time zero. -/
noncomputable def aleRun (dt : ℝ) (M : ℝ → V → W) (Minv : ℝ → W → V) (L : ℝ → V → W) (s : Ale V W) : ℕ → Ale V W
  | 0 => s
  | n + 1 => aleAt dt M Minv L (n * dt) (aleRun dt M Minv L s n)

/-- The first stage of a step of `SSPRK22ALE`, timeintegrator.py:749-761 and 689-705. -/
noncomputable def aleFirst (dt : ℝ) (M : ℝ → V → W) (Minv : ℝ → W → V) (L : ℝ → V → W) (t : ℝ) (s : Ale V W) : V :=
  ((s.prep1 dt (M t) (L (t + aleNodes 0 * dt))).solve (Minv (t + dt))).sol

/-- `LeapFrogAM3.advance(t)`, timeintegrator.py:599-606, on a fixed mesh: the forcings are updated once, to time `t + dt`. -/
noncomputable def leapAt (dt : ℝ) (M : V → W) (Minv : W → V) (L : ℝ → V → W) (t : ℝ) (s : RK.Leap V W) : RK.Leap V W :=
  s.advance dt M (L (t + dt)) (L (t + dt)) Minv

/-- A run of `LeapFrogAM3` from time zero, started by `initialize`, timeintegrator.py:527-533. -/
noncomputable def leapRun (dt : ℝ) (M : V → W) (Minv : W → V) (L : ℝ → V → W) (u : V) (rhs : W) : ℕ → RK.Leap V W
  | 0 => RK.Leap.initialize M Minv u rhs
  | n + 1 => leapAt dt M Minv L (n * dt) (leapRun dt M Minv L u rhs n)

/-- The predicted value of a step of `LeapFrogAM3`, timeintegrator.py:546-568. -/
noncomputable def leapHalf (dt : ℝ) (M : V → W) (L : ℝ → V → W) (t : ℝ) (s : RK.Leap V W) : V :=
  (s.predict dt M (L (t + dt))).sol

end Verif.Leap
