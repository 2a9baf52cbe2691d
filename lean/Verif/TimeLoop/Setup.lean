import Verif.TimeLoop.Lemmas

/-!
End-date handling (C04) and 3D time step fitting (C05).
-/

namespace Verif.TimeLoop

/-! ### Model -/

/-- Errors raised during set-up. -/
inductive SetupErr
  | assertion
  | typeError
deriving DecidableEq, Repr

/-- Seconds added by `datetime.timedelta(x)`: the first positional argument of `timedelta`
is a number of **days**. -/
def timedeltaPositional (x : ℚ) : ℚ := 86400 * x

/-- `end_time` computed from the dates, solver2d.py:1090-1103 and solver.py:1293-1306.
Dates are seconds since the epoch.  `initDate`, `endDate` and `optEnd`
(`options.simulation_end_time`) are optional. -/
def endTime (initDate endDate optEnd : Option ℚ) (t0 : ℚ) : Except SetupErr ℚ :=
  match initDate, endDate with
  | some i, some e =>
    let now := i + timedeltaPositional t0
    if now < e then .ok ((e - now) + t0) else .error .assertion
  | _, _ =>
    match optEnd with
    | some e => .ok e
    | none => .error .assertion

/-- Initial date after `load_state`: solver2d.py:897-908 (only when `t` is not overridden),
solver.py:1113-1120 (always). -/
def loadInitialDate (d : Dim) (tOverride fileDate optDate : Option ℚ) : Option ℚ :=
  match d with
  | .two => match tOverride with
    | none => fileDate.or optDate
    | some _ => optDate
  | .three => fileDate.or optDate

/-- `dt_mode` -/
inductive DtMode | split | two | three
deriving DecidableEq, Repr

/-- `FlowSolver.set_time_step`, solver.py:345-398.  `ts`, `ts2d` are `options.timestep`,
`options.timestep_2d`; `max2d`, `max3d` are the CFL-adjusted limits.  `int(ceil(·))` is
`⌈·⌉`; the unit assertion of lines 365-369 is kept as in the source (it guards the automatic
case).  `None / x` is a `TypeError`. -/
def setTimeStep (mode : DtMode) (auto : Bool) (ts ts2d : Option ℚ) (max2d max3d expT : ℚ) :
    Except SetupErr (ℚ × ℚ × ℤ) :=
  if auto && !((ts.any (fun x => 0 < x)) && (ts2d.any (fun x => 0 < x))) then .error .assertion
  else
    let chosen : Option (ℚ × ℚ) :=
      match mode with
      | .split =>
        let dts := if auto then (some max3d, some max2d) else (ts, ts2d)
        match dts with
        | (some dt, some dt2) =>
          let M := ⌈dt / dt2⌉
          some (dt, dt / M)
        | _ => none
      | .two => (if auto then some (min max2d max3d) else ts).map fun dt => (dt, dt)
      | .three => (if auto then some max3d else ts).map fun dt => (dt, dt)
    match chosen with
    | none => .error .typeError
    | some (dt, dt2) =>
      let mExp := ⌈expT / dt⌉
      let dt' := expT / mExp
      match mode with
      | .split =>
        let M := ⌈dt' / dt2⌉
        .ok (dt', dt' / M, M)
      | _ => .ok (dt', dt', 1)

/-! ### C04 -/

/-- C04, provable part: a run started at simulation time zero ends at the end date.  Missing
for the full property: restart times different from zero, where it is false (next theorem). -/
theorem C04_end_date_partial (i e : ℚ) (optEnd : Option ℚ) (h : i < e) :
    endTime (some i) (some e) optEnd 0 = .ok (e - i) := by
  simp [endTime, timedeltaPositional, h]

example : endTime (some 1000) (some 4600) (some 7) 0 = .ok 3600 := by decide +kernel

/-- C04 is violated for *every* run resumed at a non-zero time: whenever an end time is
computed it differs from the simulation time of the end date by `86399 * t0`, and it is refused
altogether when fewer than `86400 * t0` seconds separate the two dates. -/
theorem C04_end_date_violated (i e t0 : ℚ) (optEnd : Option ℚ) (ht : t0 ≠ 0) :
    (i + 86400 * t0 < e →
      ∃ x, endTime (some i) (some e) optEnd t0 = .ok x ∧ x = (e - i) - 86399 * t0 ∧ x ≠ e - i) ∧
    (e ≤ i + 86400 * t0 → endTime (some i) (some e) optEnd t0 = .error .assertion) := by
  constructor
  · intro h
    refine ⟨(e - (i + 86400 * t0)) + t0, by simp [endTime, timedeltaPositional, h], by ring, ?_⟩
    intro hcon
    apply ht
    linarith
  · intro h
    simp [endTime, timedeltaPositional, not_lt.2 h]

/-- A restart after one hour of a one-week simulation is refused. -/
example : endTime (some 0) (some 604800) none 3600 = .error .assertion := by decide +kernel

/-- C04, no dates: the explicitly given end time is used, and one of the two is required. -/
theorem C04_end_time_option (initDate endDate optEnd : Option ℚ) (t0 : ℚ)
    (h : initDate = none ∨ endDate = none) :
    endTime initDate endDate optEnd t0 =
      match optEnd with
      | some e => .ok e
      | none => .error .assertion := by
  rcases h with rfl | rfl
  · cases optEnd <;> rfl
  · cases initDate <;> cases optEnd <;> rfl

example : endTime none (some 5) (some 7) 3 = .ok 7 := by decide +kernel

/-- C04: the start date of a continued run is the stored one when the file has one and the
user does not override the time in 2D. -/
theorem C04_start_date (d : Dim) (tOverride fileDate optDate : Option ℚ) :
    loadInitialDate d tOverride fileDate optDate =
      if fileDate.isSome ∧ (d = .two → tOverride = none) then fileDate else optDate := by
  cases d <;> cases tOverride <;> cases fileDate <;> simp [loadInitialDate]

example : loadInitialDate .two none (some 3) (some 4) = some 3 := rfl

/-! ### C05 -/

/-- The step the user (or the CFL limit) asks for. -/
def requestedStep (mode : DtMode) (auto : Bool) (ts max2d max3d : ℚ) : ℚ :=
  match mode, auto with
  | .two, true => min max2d max3d
  | _, true => max3d
  | _, false => ts

theorem fit_lemma (T dt : ℚ) (hT : 0 < T) (hdt : 0 < dt) :
    1 ≤ ⌈T / dt⌉ ∧ 0 < T / (⌈T / dt⌉ : ℚ) ∧ T / (⌈T / dt⌉ : ℚ) ≤ dt ∧
      (⌈T / dt⌉ : ℚ) * (T / (⌈T / dt⌉ : ℚ)) = T := by
  have h1 : 1 ≤ ⌈T / dt⌉ := Int.one_le_ceil_iff.2 (div_pos hT hdt)
  have h1q : (1 : ℚ) ≤ (⌈T / dt⌉ : ℚ) := by exact_mod_cast h1
  have hpos : (0 : ℚ) < (⌈T / dt⌉ : ℚ) := by linarith
  refine ⟨h1, div_pos hT hpos, ?_, ?_⟩
  · rw [div_le_iff₀ hpos]
    have := Int.le_ceil (T / dt)
    rw [div_le_iff₀ hdt] at this
    linarith
  · field_simp

/-- C05: for positive inputs the fitted step exists, is positive, does not exceed the
requested one and divides the export interval; the 2D step divides it `M` times, equals it
unless in split mode, and in split mode does not exceed the 2D limit. -/
theorem C05_time_step_fit (mode : DtMode) (auto : Bool) (ts ts2d max2d max3d expT : ℚ)
    (h1 : 0 < ts) (h2 : 0 < ts2d) (h3 : 0 < max2d) (h4 : 0 < max3d) (hT : 0 < expT) :
    ∃ (dt dt2 : ℚ) (M mExp : ℤ),
      setTimeStep mode auto (some ts) (some ts2d) max2d max3d expT = .ok (dt, dt2, M) ∧
      0 < dt ∧ dt ≤ requestedStep mode auto ts max2d max3d ∧
      1 ≤ mExp ∧ (mExp : ℚ) * dt = expT ∧
      (∀ k : ℤ, 1 ≤ k → expT / k ≤ requestedStep mode auto ts max2d max3d → mExp ≤ k) ∧
      0 < dt2 ∧ 1 ≤ M ∧ (M : ℚ) * dt2 = dt ∧
      (mode ≠ .split → M = 1) ∧
      (mode = .split → dt2 ≤ if auto then max2d else ts2d) := by
  have least : ∀ dt : ℚ, 0 < dt → ∀ k : ℤ, 1 ≤ k → expT / k ≤ dt → ⌈expT / dt⌉ ≤ k := by
    intro dt hdt k hk hle
    have hkq : (0 : ℚ) < k := by exact_mod_cast (by omega : (0 : ℤ) < k)
    rw [Int.ceil_le, div_le_iff₀ hdt]
    rw [div_le_iff₀ hkq] at hle
    linarith
  have single : ∀ dt : ℚ, 0 < dt → ∃ (a b : ℚ) (M mExp : ℤ),
      (expT / (⌈expT / dt⌉ : ℚ), expT / (⌈expT / dt⌉ : ℚ), (1 : ℤ)) = (a, b, M) ∧
      0 < a ∧ a ≤ dt ∧ 1 ≤ mExp ∧ (mExp : ℚ) * a = expT ∧
      (∀ k : ℤ, 1 ≤ k → expT / k ≤ dt → mExp ≤ k) ∧ 0 < b ∧ 1 ≤ M ∧
      (M : ℚ) * b = a ∧ M = 1 := by
    intro dt hdt
    obtain ⟨g1, g2, g3, g4⟩ := fit_lemma expT dt hT hdt
    exact ⟨_, _, 1, ⌈expT / dt⌉, rfl, g2, g3, g1, g4, least dt hdt, g2, le_refl _, by simp, rfl⟩
  have split : ∀ dt d2 : ℚ, 0 < dt → 0 < d2 → ∃ (a b : ℚ) (M mExp : ℤ),
      (expT / (⌈expT / dt⌉ : ℚ),
        (expT / (⌈expT / dt⌉ : ℚ)) / (⌈(expT / (⌈expT / dt⌉ : ℚ)) / (dt / (⌈dt / d2⌉ : ℚ))⌉ : ℚ),
        ⌈(expT / (⌈expT / dt⌉ : ℚ)) / (dt / (⌈dt / d2⌉ : ℚ))⌉) = (a, b, M) ∧
      0 < a ∧ a ≤ dt ∧ 1 ≤ mExp ∧ (mExp : ℚ) * a = expT ∧
      (∀ k : ℤ, 1 ≤ k → expT / k ≤ dt → mExp ≤ k) ∧ 0 < b ∧ 1 ≤ M ∧
      (M : ℚ) * b = a ∧ b ≤ d2 := by
    intro dt d2 hdt hd2
    obtain ⟨g1, g2, g3, g4⟩ := fit_lemma expT dt hT hdt
    obtain ⟨e1, e2, e3, e4⟩ := fit_lemma dt d2 hdt hd2
    obtain ⟨f1, f2, f3, f4⟩ := fit_lemma (expT / (⌈expT / dt⌉ : ℚ)) (dt / (⌈dt / d2⌉ : ℚ)) g2 e2
    exact ⟨_, _, _, ⌈expT / dt⌉, rfl, g2, g3, g1, g4, least dt hdt, f2, f1, f4, le_trans f3 e3⟩
  cases mode <;> cases auto
  · obtain ⟨a, b, M, m, he, p1, p2, p3, p4, p5, p6, p7, p8, p9⟩ := split ts ts2d h1 h2
    exact ⟨a, b, M, m, by simp only [setTimeStep]; simpa using he, p1, p2, p3, p4, p5, p6, p7, p8,
      by simp, fun _ => by simpa using p9⟩
  · obtain ⟨a, b, M, m, he, p1, p2, p3, p4, p5, p6, p7, p8, p9⟩ := split max3d max2d h4 h3
    exact ⟨a, b, M, m, by simp only [setTimeStep]; simpa [h1, h2] using he, p1, p2, p3, p4, p5, p6,
      p7, p8, by simp, fun _ => by simpa using p9⟩
  · obtain ⟨a, b, M, m, he, p1, p2, p3, p4, p5, p6, p7, p8, p9⟩ := single ts h1
    exact ⟨a, b, M, m, by simp only [setTimeStep]; simpa using he, p1, p2, p3, p4, p5, p6, p7, p8,
      fun _ => p9, by simp⟩
  · obtain ⟨a, b, M, m, he, p1, p2, p3, p4, p5, p6, p7, p8, p9⟩ :=
      single (min max2d max3d) (lt_min h3 h4)
    exact ⟨a, b, M, m, by simp only [setTimeStep]; simpa [h1, h2] using he, p1, p2, p3, p4, p5, p6,
      p7, p8, fun _ => p9, by simp⟩
  · obtain ⟨a, b, M, m, he, p1, p2, p3, p4, p5, p6, p7, p8, p9⟩ := single ts h1
    exact ⟨a, b, M, m, by simp only [setTimeStep]; simpa using he, p1, p2, p3, p4, p5, p6, p7, p8,
      fun _ => p9, by simp⟩
  · obtain ⟨a, b, M, m, he, p1, p2, p3, p4, p5, p6, p7, p8, p9⟩ := single max3d h4
    exact ⟨a, b, M, m, by simp only [setTimeStep]; simpa [h1, h2] using he, p1, p2, p3, p4, p5, p6,
      p7, p8, fun _ => p9, by simp⟩

/-- Requested 7 s, 2D limit 2 s, export every 60 s: 9 steps of 20/3 s, 4 substeps of 5/3 s. -/
example : setTimeStep .split false (some 7) (some 2) 1 1 60 = .ok (20/3, 5/3, 4) := by
  decide +kernel

/-- C05, error branches: without user steps the automatic mode fails on its assertion (although
the values would not be used) and the manual mode fails with a type error. -/
theorem C05_missing_step (mode : DtMode) (ts2d : Option ℚ) (max2d max3d expT : ℚ) :
    setTimeStep mode true none ts2d max2d max3d expT = .error .assertion ∧
    setTimeStep mode false none ts2d max2d max3d expT = .error .typeError := by
  cases mode <;> simp [setTimeStep]

end Verif.TimeLoop
