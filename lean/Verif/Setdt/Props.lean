import Verif.Setdt.Model
import Mathlib.Tactic.NormNum

/-!
C155: the time step of the 3D solver reaches all its integrators.
-/

namespace Verif.Setdt

open Verif.Coupled (Stepper)
open Verif.TimeLoop (DtMode)

variable {names : List String} {d d' : String → Option Stepper}

/-- C155: `set_dt` is accepted if and only if both steps are equal and not zero. -/
theorem C155_accepts {dt dt2 : ℚ} : (∃ d', setDt3 dt dt2 names d = .ok d') ↔ dt = dt2 ∧ dt2 ≠ 0 := by
  unfold setDt3
  by_cases h0 : dt2 = 0
  · simp [h0]
  by_cases he : dt = dt2
  · subst he
    have hc : isClose (dt / dt) (round (dt / dt)) := by
      rw [div_self h0]
      unfold isClose
      norm_num
    rw [if_neg h0, if_pos hc, if_neg (by simp)]
    exact ⟨fun _ => ⟨rfl, h0⟩, fun _ => ⟨_, rfl⟩⟩
  · rw [if_neg h0]
    split_ifs <;> simp [he]

/-- C155: an integer fraction that is not the whole is refused as not implemented, although it is what the documentation asks for. -/
theorem C155_fraction_violated (dt : ℚ) (n : ℕ) (hdt : dt ≠ 0) (hn : 1 < n) :
    setDt3 dt (dt / n) names d = .error .notImplemented := by
  have hn0 : (n : ℚ) ≠ 0 := by exact_mod_cast (by omega : n ≠ 0)
  have hne : dt ≠ dt / n := by
    intro h
    rw [eq_div_iff hn0] at h
    have h1 : (n : ℚ) = 1 := mul_left_cancel₀ hdt (by rw [h, mul_one])
    have : n = 1 := by exact_mod_cast h1
    omega
  have hq : dt / (dt / n) = n := by field_simp
  have hc : isClose (dt / (dt / n)) (round (dt / (dt / n))) := by
    rw [hq, round_natCast]
    unfold isClose
    simp only [Int.cast_natCast, sub_self, abs_zero]
    positivity
  unfold setDt3
  rw [if_neg (div_ne_zero hdt hn0), if_pos hc, if_pos hne]

/-- C155: steps whose ratio is not within the tolerance of any whole number are refused by the assertion. -/
theorem C155_ratio {dt dt2 : ℚ} (h0 : dt2 ≠ 0) (h : ∀ k : ℤ, 1 / 10 ^ 8 + 1 / 10 ^ 5 * |(k : ℚ)| < |dt / dt2 - k|) :
    setDt3 dt dt2 names d = .error .assertion := by
  have hc : ¬ isClose (dt / dt2) (round (dt / dt2)) := by
    unfold isClose
    exact not_le.2 (h _)
  unfold setDt3
  rw [if_neg h0, if_neg hc]

/-- A ratio of five halves. -/
example : setDt3 5 2 names d = .error .assertion := by
  have hr : round ((5 : ℚ) / 2) = 3 := by rw [round_eq]; norm_num
  have hc : ¬ isClose (5 / 2) (round ((5 : ℚ) / 2)) := by
    rw [hr]
    unfold isClose
    norm_num [abs_of_neg]
  unfold setDt3
  rw [if_neg (by norm_num), if_neg hc]

/-- The ratio of one and three thousandths is not within the tolerance of any whole number. -/
example (k : ℤ) : 1 / 10 ^ 8 + 1 / 10 ^ 5 * |(k : ℚ)| < |(1003 / 1000 : ℚ) / 1 - k| := by
  rcases le_or_gt k 1 with hk | hk
  · have h1 : (k : ℚ) ≤ 1 := by exact_mod_cast hk
    rw [abs_of_pos (a := (1003 / 1000 : ℚ) / 1 - k) (by linarith)]
    rcases abs_cases (k : ℚ) with ⟨e, _⟩ | ⟨e, _⟩ <;> rw [e] <;> linarith
  · have h1 : (2 : ℚ) ≤ k := by exact_mod_cast hk
    rw [abs_of_neg (a := (1003 / 1000 : ℚ) / 1 - k) (by linarith), abs_of_pos (by linarith)]
    linarith

/-- C155: in every mode, if `set_time_step` gives more than one step of the 2D mode per step, then the solver cannot be set up. -/
theorem C155_split_violated {mode : DtMode} {auto : Bool} {ts ts2d : Option ℚ} {max2d max3d expT dt dt2 : ℚ} {M : ℕ} (hd2 : dt2 ≠ 0)
    (hM : 1 < M) (hMd : M * dt2 = dt) (h : TimeLoop.setTimeStep mode auto ts ts2d max2d max3d expT = .ok (dt, dt2, M)) :
    create mode auto ts ts2d max2d max3d expT names d = .error .notImplemented := by
  have hM0 : (M : ℚ) ≠ 0 := by exact_mod_cast (by omega : M ≠ 0)
  have e : dt2 = dt / M := by rw [← hMd]; field_simp
  have h1 := C155_fraction_violated (names := names) (d := d) dt M (by rw [← hMd]; exact mul_ne_zero hM0 hd2) hM
  rw [← e] at h1
  unfold create
  rw [h]
  simp only [h1]

/-- C155: whatever steps are asked for or computed, every integrator of the 3D solver has the step of the solver, which is positive, not
longer than asked for and a whole fraction of the export interval. -/
theorem C155_reach (auto : Bool) (ts ts2d max2d max3d expT : ℚ) (h1 : 0 < ts) (h2 : 0 < ts2d) (h3 : 0 < max2d) (h4 : 0 < max3d)
    (hT : 0 < expT) (hall : ∀ n, d n ≠ none → n ∈ names) :
    ∃ dt d', create solverMode auto (some ts) (some ts2d) max2d max3d expT names d = .ok (dt, d') ∧ 0 < dt ∧
      (dt ≤ if auto then max3d else ts) ∧ (∃ m : ℤ, 1 ≤ m ∧ (m : ℚ) * dt = expT) ∧
      ∀ n, (d' n = none ↔ d n = none) ∧ ∀ s, d' n = some s → ∀ x ∈ s.steps, x = dt := by
  obtain ⟨dt, dt2, M, m, he, hp, hle, hm, hmd, -, hp2, -, hM, hM1, -⟩ := TimeLoop.C05_time_step_fit solverMode auto ts ts2d max2d max3d expT h1 h2 h3 h4 hT
  have e2 : dt = dt2 := by
    rw [hM1 (by decide)] at hM
    simpa using hM.symm
  obtain ⟨d', hd'⟩ := (C155_accepts (names := names) (d := d)).2 ⟨e2, hp2.ne'⟩
  have hd : d' = Coupled.setDt dt names d := by
    unfold setDt3 at hd'
    split_ifs at hd'
    cases hd'
    rfl
  refine ⟨dt, d', by simp [create, he, hd'], hp, ?_, ⟨m, hm, hmd⟩, fun n => ?_⟩
  · cases auto <;> simpa [TimeLoop.requestedStep, solverMode] using hle
  · have hs := Coupled.C29_set_dt_parts dt names d hall n
    rw [hd]
    refine ⟨hs.1, fun s hs' => ?_⟩
    cases hdn : d n with
    | none => rw [hs.1.2 hdn] at hs'; cases hs'
    | some s0 => exact (hs.2 s0 s hdn hs').2

/-- C155: the time step asked for the 2D mode has no effect, nor has its limit: integrators of the 2D mode can have any longer step. -/
theorem C155_option_violated (ts ts2d ts2d' max2d max2d' max3d expT : ℚ) (h2 : 0 < ts2d) (h2' : 0 < ts2d') (auto : Bool) :
    create solverMode auto (some ts) (some ts2d) max2d max3d expT names d =
      create solverMode auto (some ts) (some ts2d') max2d' max3d expT names d := by
  simp [create, solverMode, TimeLoop.setTimeStep, h2, h2']

/-- The integrators of the example. -/
def steppers : String → Option Stepper := fun n => if n = "swe2d" then some (.simple 0) else none

/-- Ten seconds are asked for, one for the 2D mode: the 2D mode has ten. -/
example : create solverMode false (some 10) (some 1) 1 10 60 ["swe2d"] steppers = .ok (10, Coupled.setDt 10 ["swe2d"] steppers) ∧
    Coupled.setDt 10 ["swe2d"] steppers "swe2d" = some (.simple 10) := by
  refine ⟨?_, by simp [Coupled.setDt, Stepper.setDt, steppers]⟩
  have h : TimeLoop.setTimeStep solverMode false (some 10) (some 1) 1 10 60 = .ok (10, 10, 1) := by decide +kernel
  have hc : isClose (10 / 10) (round ((10 : ℚ) / 10)) := by
    rw [div_self (by norm_num)]
    unfold isClose
    norm_num
  unfold create setDt3
  rw [h]
  simp only [if_pos hc]
  rw [if_neg (by norm_num), if_neg (by norm_num)]

/-- In split mode with the same request the solver cannot be set up. -/
example : create .split false (some 10) (some 1) 1 10 60 ["swe2d"] steppers = .error .notImplemented := by
  have h : TimeLoop.setTimeStep .split false (some 10) (some 1) 1 10 60 = .ok (10, 10 / (10 : ℕ), 10) := by decide +kernel
  exact C155_split_violated (M := 10) (by norm_num) (by norm_num) (by norm_num) h

end Verif.Setdt
