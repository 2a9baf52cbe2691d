import Verif.Start.Model
import Mathlib.Tactic.Linarith

/-!
C113: fields computed from others are up to date after initialisation and after every step.
C115: restart.
-/

namespace Verif.Start

variable {T : Types}

/-- Elevation, mesh, vertical velocity, baroclinic fields and horizontal viscosity belong to the current state. -/
def FreshFlow (c : Opts) (o : Ops T) (s : St T) : Prop :=
  s.elevDom = s.elev ∧ (c.ale = true → s.mesh = o.meshOf s.elev) ∧ s.w = o.wOf s.mesh (o.plus s.uv3 s.dav3) ∧
    (c.baroclinic = true → s.baro = o.baroOf s.mesh s.salt s.temp) ∧
    (c.smagorinsky = true → s.smag = o.smagOf s.mesh s.uv3)

/-- The vertical viscosity belongs to the current state, and the limits of the closure hold. -/
def FreshTurb (c : Opts) (o : Ops T) (s : St T) : Prop :=
  c.turbulence = true → s.freq = o.freqOf s.mesh s.uv3 s.baro ∧ (s.k, s.visc) = o.post s.freq s.k

/-- Elevation and mesh. -/
def FreshMesh (c : Opts) (o : Ops T) (s : St T) : Prop :=
  s.elevDom = s.elev ∧ (c.ale = true → s.mesh = o.meshOf s.elev)

theorem freshMesh_up (c : Opts) (o : Ops T) (s : St T) : FreshMesh c o (upMesh c o (upElev s)) :=
  ⟨rfl, fun h => by simp [h]⟩

theorem freshMesh_explicit (c : Opts) (o : Ops T) (i : ℕ) (p : T.P) (s : St T) (h : FreshMesh c o s) :
    FreshMesh c o (explicit c o i p s) := h

theorem freshMesh_coupling (c : Opts) (o : Ops T) (s : St T) (h : FreshMesh c o s) :
    FreshMesh c o (coupling o s) := h

theorem freshMesh_vertical (c : Opts) (o : Ops T) (s : St T) (h : FreshMesh c o s) :
    FreshMesh c o (vertical c o s) := h

theorem freshMesh_turb (c : Opts) (o : Ops T) (s : St T) (h : FreshMesh c o s) : FreshMesh c o (upTurb c o s) := by
  unfold upTurb
  split
  · exact h
  · exact h

theorem freshMesh_baro (c : Opts) (o : Ops T) (s : St T) (h : FreshMesh c o s) : FreshMesh c o (upBaro c o s) := h

/-- The diagnostic fields computed last. -/
theorem fresh_flow (c : Opts) (o : Ops T) (s : St T) (h : FreshMesh c o s) :
    FreshFlow c o (upSmag c o (upW o (upBaro c o s))) :=
  ⟨h.1, h.2, by simp, fun hb => by simp [hb], fun hs => by simp [hs]⟩

theorem fresh_flow_turb (c : Opts) (o : Ops T) (s : St T) (h : FreshMesh c o s)
    (hpost : ∀ f k, o.post f (o.post f k).1 = o.post f k) :
    FreshFlow c o (upSmag c o (upTurb c o (upW o (upBaro c o s)))) ∧
      FreshTurb c o (upSmag c o (upTurb c o (upW o (upBaro c o s)))) := by
  unfold upTurb
  by_cases ht : c.turbulence = true
  · rw [if_pos ht]
    refine ⟨⟨?_, fun ha => ?_, ?_, fun hb => ?_, fun hs => ?_⟩, fun _ => ⟨?_, ?_⟩⟩
    · simpa using h.1
    · simpa using h.2 ha
    · simp
    · simp [hb]
    · simp [hs]
    · simp
    · simp [hpost]
  · rw [if_neg ht]
    exact ⟨fresh_flow c o s h, fun h => absurd h ht⟩

/-- C113: after every step of the two-stage scheme the elevation and the mesh of the 3D equations, the vertical velocity,
density, pressure gradient, turbulent and Smagorinsky viscosities are those of the state that the step ends with, whatever
the equations do and whatever the state before. -/
theorem C113_rk (c : Opts) (o : Ops T) (hpost : ∀ f k, o.post f (o.post f k).1 = o.post f k) (s : St T) :
    FreshFlow c o (advanceRK c o s) ∧ FreshTurb c o (advanceRK c o s) := by
  have h : ∀ i s, FreshMesh c o (stageRK c o i s) := fun i s =>
    freshMesh_coupling c o _ (freshMesh_explicit c o i _ _ (freshMesh_up c o _))
  unfold advanceRK
  refine fresh_flow_turb c o _ ?_ hpost
  split
  · exact freshMesh_vertical c o _ (h _ _)
  · exact h _ _

/-- C113: in the two-stage scheme the second evaluation of the 3D equations finds density, pressure gradient and vertical
velocity of the first stage. -/
theorem C113_rk_stage (c : Opts) (o : Ops T) (s : St T) :
    let s1 := upW o (upBaro c o (stageRK c o 0 s))
    FreshMesh c o s1 ∧ s1.w = o.wOf s1.mesh (o.plus s1.uv3 s1.dav3) ∧
      (c.baroclinic = true → s1.baro = o.baroOf s1.mesh s1.salt s1.temp) ∧ s1.dav3 = s1.uv2 := by
  have h : FreshMesh c o (stageRK c o 0 s) :=
    freshMesh_coupling c o _ (freshMesh_explicit c o 0 _ _ (freshMesh_up c o _))
  exact ⟨h, by simp, fun hb => by simp [hb], rfl⟩

/-- C113: the elevation, the 2D velocity and (without implicit steps) the tracers at the end of a step of the two-stage
scheme are those of the second stage, computed from the up to date state `s1` after the first. -/
theorem C113_rk_stages (c : Opts) (o : Ops T) (s : St T) : ∃ s1 s2 : St T,
    s1.elev = (o.swe 0 s).1 ∧ s1.uv2 = (o.swe 0 s).2 ∧ s1.dav3 = s1.uv2 ∧ FreshMesh c o s1 ∧
    s1.w = o.wOf s1.mesh (o.plus s1.uv3 s1.dav3) ∧
    (c.baroclinic = true → s1.baro = o.baroOf s1.mesh s1.salt s1.temp) ∧
    s2.elev = (o.swe 1 s1).1 ∧ s2.uv2 = (o.swe 1 s1).2 ∧ s2.w = s1.w ∧ s2.uv3 = s1.uv3 ∧ s2.salt = s1.salt ∧
    FreshMesh c o s2 ∧
    (advanceRK c o s).elev = s2.elev ∧ (advanceRK c o s).uv2 = s2.uv2 ∧ (advanceRK c o s).dav3 = s2.uv2 ∧
    (advanceRK c o s).mesh = s2.mesh ∧
    (c.implicit = false → c.salinity = true →
      (advanceRK c o s).salt =
        (o.solve 1 (o.prep 1 { s1 with elev := (o.swe 1 s1).1, uv2 := (o.swe 1 s1).2 }) s2).1) := by
  have h : FreshMesh c o (stageRK c o 0 s) :=
    freshMesh_coupling c o _ (freshMesh_explicit c o 0 _ _ (freshMesh_up c o _))
  refine ⟨upW o (upBaro c o (stageRK c o 0 s)),
    upMesh c o (upElev { upW o (upBaro c o (stageRK c o 0 s)) with
      elev := (o.swe 1 (upW o (upBaro c o (stageRK c o 0 s)))).1
      uv2 := (o.swe 1 (upW o (upBaro c o (stageRK c o 0 s)))).2 }),
    rfl, rfl, rfl, h, by simp, fun hb => by simp [hb], rfl, rfl, rfl, rfl, rfl, freshMesh_up c o _, ?_⟩
  unfold advanceRK upTurb
  cases c.implicit <;> cases c.turbulence <;>
    exact ⟨rfl, rfl, rfl, rfl, fun h1 h2 => by first | (cases h1; done) | simp [stageRK, h2]⟩

/-- C113: the coupling takes the depth average out of the 3D velocity, hands it to the 2D mode as a forcing per time step,
and puts the 2D velocity in its place. -/
theorem C113_coupling (o : Ops T) (h : ∀ u a, o.plus (o.minus u a) a = u) (s : St T) :
    o.plus (coupling o s).uv3 (o.meanOf s.mesh s.uv3) = s.uv3 ∧
    (coupling o s).split = o.perDt (o.meanOf s.mesh s.uv3) ∧ (coupling o s).dav3 = s.uv2 ∧
    (coupling o s).uv2 = s.uv2 ∧ (coupling o s).salt = s.salt :=
  ⟨by simp [h], rfl, rfl, rfl, rfl⟩

/-- C113: the implicit steps act on the full velocity, after the tracers, and keep the depth averaged velocity. -/
theorem C113_vertical (c : Opts) (o : Ops T) (h : ∀ u a, o.plus (o.minus u a) a = u) (s : St T) :
    o.plus (vertical c o s).uv3 (vertical c o s).dav3 =
      o.implVel (verticalTracers c o s) (o.plus s.uv3 s.dav3) ∧ (vertical c o s).dav3 = s.dav3 ∧
    (c.salinity = true → (vertical c o s).salt = (o.implTracer s).1) ∧
    (c.temperature = true → (vertical c o s).temp = (o.implTracer s).2) :=
  ⟨by simp [h], rfl, fun hs => by simp [hs], fun ht => by simp [ht]⟩

/-- C113: after every step of the leap-frog scheme all of them but the turbulent viscosity. -/
theorem C113_leapfrog (c : Opts) (o : Ops T) (s : St T) : FreshFlow c o (advanceLF c o s) := by
  unfold advanceLF
  have h : ∀ (i : ℕ) (p : T.P) (s : St T), FreshMesh c o (coupling o (explicit c o i p (upMesh c o (upElev s)))) :=
    fun i p s => freshMesh_coupling c o _ (freshMesh_explicit c o i p _ (freshMesh_up c o s))
  by_cases hi : c.implicit = true
  · simp only [hi, if_true]
    exact fresh_flow c o _ (freshMesh_vertical c o _ (freshMesh_turb c o _ (freshMesh_baro c o _ (h _ _ _))))
  · simp only [hi]
    exact fresh_flow c o _ (h _ _ _)

/-- C113: the vertical velocity and the pressure gradient used in the correction of the leap-frog scheme are those of the
predicted state with the depth averaged velocity of the half step, and of its mesh. -/
theorem C113_leapfrog_half (c : Opts) (o : Ops T) (s3 : St T) (u : T.A) :
    let s4 := upBaro c o (upW o { coupling o s3 with uv2 := u })
    s4.w = o.wOf s3.mesh (o.plus s4.uv3 s3.uv2) ∧
      (c.baroclinic = true → s4.baro = o.baroOf s3.mesh s3.salt s3.temp) ∧ s4.uv2 = u := by
  exact ⟨by simp, fun hb => by simp [hb], rfl⟩

/-- C113: the step of the leap-frog scheme ends with the elevation and the 2D velocity of the 2D mode, not with those of
the half step; the tracers are solved on the new mesh with right hand sides of a state `s4` with up to date vertical
velocity and pressure gradient, the predicted mesh being that of the old elevation. -/
theorem C113_leapfrog_stages (c : Opts) (o : Ops T) (s : St T) : ∃ s2 s4 : St T,
    s2.elev = (o.swe 0 { s2 with elev := s.elev, uv2 := s.uv2 }).1 ∧
    s2.uv2 = (o.swe 0 { s2 with elev := s.elev, uv2 := s.uv2 }).2 ∧ s2.dav3 = s.uv2 ∧
    (c.baroclinic = true → s2.baro = o.baroOf s2.mesh s2.salt s2.temp) ∧
    s4.elevDom = (o.half s2).1 ∧ s4.dav3 = (o.half s2).2 ∧ s4.elev = s2.elev ∧ s4.uv2 = s2.uv2 ∧ s4.mesh = s.mesh ∧
    s4.w = o.wOf s4.mesh (o.plus s4.uv3 s4.dav3) ∧
    (c.baroclinic = true → s4.baro = o.baroOf s4.mesh s4.salt s4.temp) ∧
    (advanceLF c o s).elev = s2.elev ∧ (advanceLF c o s).uv2 = s2.uv2 ∧ (advanceLF c o s).dav3 = s2.uv2 ∧
    (c.implicit = false → c.salinity = true →
      (advanceLF c o s).salt = (o.solve 1 (o.prep 1 s4) (upMesh c o (upElev s4))).1) := by
  let s1 := upBaro c o (coupling o (explicit c o 0 (o.prep 0 s) s))
  let s2 : St T := { s1 with elev := (o.swe 0 s1).1, uv2 := (o.swe 0 s1).2 }
  let s3 : St T := { s2 with elevDom := (o.half s2).1, uv2 := (o.half s2).2 }
  let s4 := upBaro c o (upW o { coupling o s3 with uv2 := s2.uv2 })
  have e : ({ s2 with elev := s.elev, uv2 := s.uv2 } : St T) = s1 := rfl
  refine ⟨s2, s4, by rw [e], by rw [e], rfl, fun hb => by simp [s2, s1, hb], rfl, rfl, rfl, rfl, rfl, by simp [s4],
    fun hb => by simp [s4, hb], ?_⟩
  have e5 : advanceLF c o s = if c.implicit then
      upSmag c o (upW o (upBaro c o (vertical c o (upTurb c o (upBaro c o (coupling o
        (explicit c o 1 (o.prep 1 s4) (upMesh c o (upElev s4)))))))))
    else upSmag c o (upW o (upBaro c o (coupling o (explicit c o 1 (o.prep 1 s4) (upMesh c o (upElev s4)))))) := rfl
  have hu : s4.uv2 = s2.uv2 := rfl
  have he : s4.elev = s2.elev := rfl
  rw [e5]
  clear_value s4 s2
  unfold upTurb
  cases c.implicit <;> cases c.turbulence <;>
    exact ⟨he, hu, hu, fun h1 h2 => by first | (cases h1; done) | simp [h2]⟩

/-- C113 violated: without implicit vertical diffusion the leap-frog scheme never updates the turbulent viscosity. -/
theorem C113_leapfrog_frozen_violated (c : Opts) (o : Ops T) (hi : c.implicit = false) (s : St T) :
    (advanceLF c o s).visc = s.visc ∧ (advanceLF c o s).freq = s.freq := by
  unfold advanceLF
  simp only [hi, Bool.false_eq_true, if_false]
  exact ⟨rfl, rfl⟩

/-- Rational numbers for all fields. -/
abbrev qT : Types := ⟨ℚ, ℚ, ℚ, ℚ, ℚ, ℚ, ℚ, ℚ, ℚ, ℚ, ℚ, ℚ⟩

/-- Shear equal to the velocity, viscosity equal to the shear; the implicit step halves the velocity. -/
def qOps : Ops qT where
  meshOf := fun e : ℚ => 1 + e
  meanOf := fun _ (u : ℚ) => u / 2
  plus := fun u a : ℚ => u + a
  minus := fun u a : ℚ => u - a
  perDt := fun a : ℚ => a
  wOf := fun m u : ℚ => m * u
  baroOf := fun m s t : ℚ => m + s + t
  freqOf := fun _ (u : ℚ) _ => u
  smagOf := fun m u : ℚ => m * u
  post := fun f k : ℚ => (max k 1, f)
  kInit := (1 : ℚ)
  swe _ s := (s.elev, s.uv2)
  prep _ _ := (0 : ℚ)
  solve _ _ s := (s.salt, s.temp, s.k, s.uv3)
  implTracer s := (s.salt, s.temp)
  implVel := fun _ (u : ℚ) => u / 2
  turb s := s.k
  half s := (s.elev, s.uv2)

/-- All options on. -/
def allOn : Opts := ⟨true, true, true, true, true, true, true, true⟩

/-- All fields one. -/
def qOne : St qT :=
  ⟨(1 : ℚ), (1 : ℚ), (1 : ℚ), (1 : ℚ), (1 : ℚ), (1 : ℚ), (1 : ℚ), (1 : ℚ), (1 : ℚ), (1 : ℚ), (1 : ℚ), (1 : ℚ), (1 : ℚ),
    (1 : ℚ), (1 : ℚ)⟩

/-- C113: the assumption on the closure holds in the example. -/
example : ∀ f k, qOps.post f (qOps.post f k).1 = qOps.post f k := by
  intro f k
  simp [qOps]

/-- C113 violated: with implicit vertical diffusion the leap-frog scheme computes the turbulent viscosity before the
implicit steps, so that it does not belong to the velocity at the end of the step. -/
theorem C113_leapfrog_violated : ¬ FreshTurb allOn qOps (advanceLF allOn qOps qOne) := by
  intro h
  have h1 := (h rfl).1
  revert h1
  simp [advanceLF, allOn, qOps, qOne, upTurb]
  norm_num

/-- C113: after `assign_initial_conditions`, whatever is given. -/
theorem C113_initial (c : Opts) (o : Ops T) (hpost : ∀ f k, o.post f (o.post f k).1 = o.post f k)
    (continued : Bool) (a : Init T) (s : St T) :
    FreshFlow c o (assignInitial c o continued a s) ∧ FreshTurb c o (assignInitial c o continued a s) := by
  have key : ∀ s : St T, FreshFlow c o (updateAll c o s) := fun s =>
    ⟨rfl, fun h => by simp [updateAll, h], by simp [updateAll], fun h => by simp [updateAll, h],
      fun h => by simp [updateAll, h]⟩
  have turb : ∀ s : St T, FreshFlow c o s → FreshFlow c o (turbInit c o continued s) ∧
      FreshTurb c o (turbInit c o continued s) := fun s h =>
    ⟨h, fun _ => ⟨rfl, by simp [turbInit, hpost]⟩⟩
  unfold assignInitial
  by_cases ht : c.turbulence = true
  · simp only [if_pos ht]
    exact turb _ (key _)
  · simp only [if_neg ht]
    exact ⟨key _, fun h => absurd h ht⟩

/-- C113: the fields given to `assign_initial_conditions` are the fields of the solver afterwards; others are kept. -/
theorem C113_initial_values (c : Opts) (o : Ops T) (continued : Bool) (a : Init T) (s : St T) :
    (assignInitial c o continued a s).elev = a.elev.getD s.elev ∧
    (assignInitial c o continued a s).uv2 = a.uv2.getD s.uv2 ∧
    (assignInitial c o continued a s).uv3 = a.uv3.getD s.uv3 ∧
    (a.uv3 = none → (assignInitial c o continued a s).dav3 = a.uv2.getD s.dav3) ∧
    (a.uv3 ≠ none → (assignInitial c o continued a s).dav3 = s.dav3) ∧
    (c.salinity = true → (assignInitial c o continued a s).salt = a.salt.getD s.salt) ∧
    (c.temperature = true → (assignInitial c o continued a s).temp = a.temp.getD s.temp) := by
  unfold assignInitial updateAll turbInit
  refine ⟨?_, ?_, ?_, ?_, ?_, ?_, ?_⟩
  all_goals
    try intro h
    split_ifs <;> simp_all

/-- C113 violated: the initial turbulence state given to `assign_initial_conditions` has no effect. -/
theorem C113_tke_violated (c : Opts) (o : Ops T) (a : Init T) (k : Option T.K) (s : St T) :
    assignInitial c o false { a with k := k } s = assignInitial c o false a s := by
  unfold assignInitial
  by_cases h : (c.turbulence && c.gls) = true
  · have hg : c.gls = true := by simp_all
    have : turbInit c o false (assignFields c { a with k := k } s) = turbInit c o false (assignFields c a s) := by
      unfold turbInit
      congr 2
      simp [hg, assignFields]
    simp only [if_pos h, this]
  · have : assignFields c { a with k := k } s = assignFields c a s := by
      simp only [assignFields, if_neg h]
    rw [this]

/-! ### Restart -/

/-- The fields that the run does not compute agree between the stored run and the solver just created (the mesh if it does
not move, constant tracers, density and viscosities that are not used). -/
def SameSetup (c : Opts) (s s0 : St T) : Prop :=
  (c.ale = false → s0.mesh = s.mesh) ∧ (c.salinity = false → s0.salt = s.salt) ∧
  (c.temperature = false → s0.temp = s.temp) ∧ (c.baroclinic = false → s0.baro = s.baro) ∧
  (c.turbulence = false → s0.freq = s.freq ∧ s0.k = s.k ∧ s0.visc = s.visc) ∧ (c.gls = false → s0.k = s.k) ∧
  (c.smagorinsky = false → s0.smag = s.smag)

/-- What the solvers are assumed to satisfy: adding and removing a depth average are inverse, the frequencies do not see
it, and the limits of the closure are idempotent. -/
structure Laws (o : Ops T) : Prop where
  plus_minus : ∀ u a, o.plus (o.minus u a) a = u
  minus_plus : ∀ u a, o.minus (o.plus u a) a = u
  freq_plus : ∀ m u a r, o.freqOf m (o.plus u a) r = o.freqOf m u r
  post_post : ∀ f k, o.post f (o.post f k).1 = o.post f k

theorem Laws.freq_minus {o : Ops T} (h : Laws o) (m : T.M) (u : T.U) (a : T.A) (r : T.R) :
    o.freqOf m (o.minus u a) r = o.freqOf m u r := by
  rw [← h.freq_plus m (o.minus u a) a r, h.plus_minus]

/-- The state after a restart. -/
def restarted (c : Opts) (o : Ops T) (s s0 : St T) : St T := loadState c o (save o s) s0

/-- The state after a restart, field by field. -/
theorem restarted_eq (c : Opts) (o : Ops T) (hl : Laws o) (s s0 : St T) (hf : FreshFlow c o s) (ht : FreshTurb c o s)
    (hs : SameSetup c s s0)
    (hk : c.turbulence = true → c.gls = true → (o.post (o.freqOf s0.mesh s.uv3 s0.baro) s.k).1 = s.k) :
    restarted c o s s0 = { s with
      dav3 := o.meanOf s0.mesh (o.plus s.uv3 s.dav3)
      uv3 := o.minus (o.plus s.uv3 s.dav3) (o.meanOf s0.mesh (o.plus s.uv3 s.dav3))
      split := s0.split
      smag := if c.smagorinsky then
          o.smagOf s.mesh (o.minus (o.plus s.uv3 s.dav3) (o.meanOf s0.mesh (o.plus s.uv3 s.dav3)))
        else s.smag } := by
  obtain ⟨f1, f2, f3, f4, f5⟩ := hf
  obtain ⟨g1, g2, g3, g4, g5, g6, g7⟩ := hs
  have hbaro : (if c.baroclinic = true then o.baroOf s.mesh s.salt s.temp else s0.baro) = s.baro := by
    split_ifs with h
    · exact (f4 h).symm
    · exact g4 (by simpa using h)
  have hsm : ∀ x, (if c.smagorinsky = true then x else s0.smag) = if c.smagorinsky = true then x else s.smag := by
    intro x
    split_ifs with h
    · rfl
    · exact g7 (by simpa using h)
  let v := o.meanOf s0.mesh (o.plus s.uv3 s.dav3)
  let u := o.minus (o.plus s.uv3 s.dav3) v
  -- after the fields are read
  let t : St T := { s0 with elev := s.elev, uv2 := s.uv2, uv3 := u, dav3 := v, salt := s.salt, temp := s.temp, k := s.k }
  have hk0 : (c.turbulence && c.gls) = false → s0.k = s.k := by
    intro h
    cases ht : c.turbulence
    · exact (g5 ht).2.1
    · exact g6 (by simpa [ht] using h)
  have hread : assignFields c
      { elev := some (loadFields c o (save o s) s0).elev
        uv2 := some (loadFields c o (save o s) s0).uv2
        uv3 := some (loadFields c o (save o s) s0).uv3
        salt := if c.salinity then some (loadFields c o (save o s) s0).salt else none
        temp := if c.temperature then some (loadFields c o (save o s) s0).temp else none
        k := if c.turbulence && c.gls then some (loadFields c o (save o s) s0).k else none }
      (loadFields c o (save o s) s0) = t := by
    apply St.ext
    case salt =>
      change _ = s.salt
      simp only [assignFields_salt, loadFields_salt, save]
      split_ifs with h
      · rfl
      · exact g2 (by simpa using h)
    case temp =>
      change _ = s.temp
      simp only [assignFields_temp, loadFields_temp, save]
      split_ifs with h
      · rfl
      · exact g3 (by simpa using h)
    case k =>
      change _ = s.k
      simp only [assignFields_k, loadFields_k, save]
      split_ifs with h
      · rfl
      · exact hk0 (by simpa using h)
    all_goals rfl
  unfold restarted loadState assignInitial
  simp only [hread]
  -- the first initialisation of the turbulence model does not change its state
  obtain ⟨t2, ht2, e1, e2, e3, e4, e5, e6, e7, e8, e9, e10, e11⟩ :
      ∃ t2 : St T, (if (c.turbulence && c.gls) = true then turbInit c o true t else t) = t2 ∧ t2.elev = s.elev ∧
        t2.uv2 = s.uv2 ∧ t2.uv3 = u ∧ t2.dav3 = v ∧ t2.salt = s.salt ∧ t2.temp = s.temp ∧ t2.k = s.k ∧
        t2.mesh = s0.mesh ∧ t2.baro = s0.baro ∧ t2.split = s0.split ∧ t2.smag = s0.smag := by
    refine ⟨_, rfl, ?_⟩
    split_ifs with h
    · have hh : c.turbulence = true ∧ c.gls = true := by simpa using h
      refine ⟨rfl, rfl, rfl, rfl, rfl, rfl, ?_, rfl, rfl, rfl, rfl⟩
      have := hk hh.1 hh.2
      simpa [turbInit, t, u, hl.freq_minus, hl.freq_plus] using this
    · exact ⟨rfl, rfl, rfl, rfl, rfl, rfl, rfl, rfl, rfl, rfl, rfl⟩
  have h3 : c.turbulence = false → t2.freq = s.freq ∧ t2.visc = s.visc := by
    intro h
    have : t2 = t := by rw [← ht2]; simp [h]
    rw [this]
    exact ⟨(g5 h).1, (g5 h).2.2⟩
  rw [ht2]
  -- the diagnostic fields
  obtain ⟨t3, ht3, k1, k2, k3, k4, k5, k6, k7, k8, k9, k10, k11, k12⟩ :
      ∃ t3 : St T, (if c.ale = true then upMesh c o (upElev t2) else t2) = t3 ∧ t3.elev = s.elev ∧
        t3.uv2 = s.uv2 ∧ t3.uv3 = u ∧ t3.dav3 = v ∧ t3.salt = s.salt ∧ t3.temp = s.temp ∧ t3.k = s.k ∧
        t3.mesh = s.mesh ∧ t3.baro = s0.baro ∧ t3.split = s0.split ∧ t3.smag = s0.smag ∧
        (c.turbulence = false → t3.freq = s.freq ∧ t3.visc = s.visc) := by
    refine ⟨_, rfl, ?_⟩
    split_ifs with h
    · exact ⟨e1, e2, e3, e4, e5, e6, e7, by simp [h, e1, f2 h], e9, e10, e11, h3⟩
    · exact ⟨e1, e2, e3, e4, e5, e6, e7, by rw [e8]; exact g1 (by simpa using h), e9, e10, e11, h3⟩
  rw [ht3]
  obtain ⟨t4, ht4, l1, l2, l3, l4, l5, l6, l7, l8, l9, l10, l11, l12, l13, l14⟩ :
      ∃ t4 : St T, updateAll c o t3 = t4 ∧ t4.elev = s.elev ∧
        t4.uv2 = s.uv2 ∧ t4.uv3 = u ∧ t4.dav3 = v ∧ t4.salt = s.salt ∧ t4.temp = s.temp ∧ t4.k = s.k ∧
        t4.mesh = s.mesh ∧ t4.baro = s.baro ∧ t4.split = s0.split ∧
        t4.smag = (if c.smagorinsky = true then o.smagOf s.mesh u else s.smag) ∧ t4.elevDom = s.elevDom ∧
        t4.w = s.w ∧ (c.turbulence = false → t4.freq = s.freq ∧ t4.visc = s.visc) := by
    have hm : (if c.ale = true then o.meshOf s.elev else s.mesh) = s.mesh := by
      split_ifs with h
      · exact (f2 h).symm
      · rfl
    refine ⟨_, rfl, k1, k2, k3, k4, k5, k6, k7, ?_, ?_, k10, ?_, ?_, ?_, k12⟩
    · simp [updateAll, k1, k8, hm]
    · simp [updateAll, k1, k5, k6, k8, k9, hm, hbaro]
    · simp only [updateAll, upSmag_smag, upBaro_mesh, upW_mesh, upMesh_mesh, upElev_elev, upElev_mesh, upBaro_uv3, upW_uv3,
        upMesh_uv3, upElev_uv3, upBaro_smag, upW_smag, upMesh_smag, upElev_smag, k1, k3, k8, k11, hm, hsm]
    · simp [updateAll, k1, f1]
    · simp [updateAll, k1, k3, k4, k8, hm, f3, u, hl.plus_minus]
  rw [ht4]
  by_cases h : c.turbulence = true
  · rw [if_pos h]
    obtain ⟨p1, p2⟩ := ht h
    have q1 : (o.post s.freq s.k).1 = s.k := by rw [← p2]
    have q2 : (o.post s.freq s.k).2 = s.visc := by rw [← p2]
    have hfr : o.freqOf t4.mesh t4.uv3 t4.baro = s.freq := by
      rw [l8, l3, l9, p1]
      simp [u, hl.freq_minus, hl.freq_plus]
    exact St.ext l1 l12 l8 l2 l3 l4 l10 l5 l6 l13 l9 hfr (by simp [turbInit, hfr, l7, q1])
      (by simp [turbInit, hfr, l7, q2]) l11
  · rw [if_neg h]
    obtain ⟨n1, n2⟩ := l14 (by simpa using h)
    exact St.ext l1 l12 l8 l2 l3 l4 l10 l5 l6 l13 l9 n1 l7 n2 l11

/-- C115: a run restarted from an export has elevation, mesh, depth averaged velocity, full velocity, tracers, vertical
velocity, density, turbulence state and viscosities of the run that was stored. -/
theorem C115_fields (c : Opts) (o : Ops T) (hl : Laws o) (s s0 : St T) (hf : FreshFlow c o s) (ht : FreshTurb c o s)
    (hs : SameSetup c s s0)
    (hk : c.turbulence = true → c.gls = true → (o.post (o.freqOf s0.mesh s.uv3 s0.baro) s.k).1 = s.k) :
    let r := restarted c o s s0
    r.elev = s.elev ∧ r.elevDom = s.elevDom ∧ r.mesh = s.mesh ∧ r.uv2 = s.uv2 ∧
      o.plus r.uv3 r.dav3 = o.plus s.uv3 s.dav3 ∧ r.salt = s.salt ∧ r.temp = s.temp ∧ r.w = s.w ∧ r.baro = s.baro ∧
      r.freq = s.freq ∧ r.k = s.k ∧ r.visc = s.visc := by
  rw [restarted_eq c o hl s s0 hf ht hs hk]
  simp [hl.plus_minus]

/-- C115: the run continues exactly as if it had not been stopped if, in the stored state, the full velocity averages to the
velocity of the 2D mode (no implicit friction in the last step) and the coupling term of the 2D mode is that of a new
solver. -/
theorem C115_exact (c : Opts) (o : Ops T) (hl : Laws o) (s s0 : St T) (hf : FreshFlow c o s) (ht : FreshTurb c o s)
    (hs : SameSetup c s s0)
    (hk : c.turbulence = true → c.gls = true → (o.post (o.freqOf s0.mesh s.uv3 s0.baro) s.k).1 = s.k)
    (hmean : o.meanOf s0.mesh (o.plus s.uv3 s.dav3) = s.dav3) (hsplit : s0.split = s.split) (N : ℕ) :
    (advanceRK c o)^[N] (restarted c o s s0) = (advanceRK c o)^[N] s := by
  congr 1
  rw [restarted_eq c o hl s s0 hf ht hs hk, hmean, hsplit, hl.minus_plus]
  obtain ⟨_, _, _, _, f5⟩ := hf
  obtain ⟨s_elev, s_elevDom, s_mesh, s_uv2, s_uv3, s_dav3, s_split, s_salt, s_temp, s_w, s_baro, s_freq, s_k, s_visc,
    s_smag⟩ := s
  cases hsm : c.smagorinsky
  · simp
  · have := f5 hsm
    simp only at this
    simp [this]

/-- Operations with the assumed laws. -/
def qLawful : Ops qT := { qOps with freqOf := fun _ _ r => r }

/-- C115: the assumptions hold in the example, after any step. -/
example (s : St qT) : Laws qLawful ∧ FreshFlow allOn qLawful (advanceRK allOn qLawful s) ∧
    FreshTurb allOn qLawful (advanceRK allOn qLawful s) ∧
    SameSetup allOn (advanceRK allOn qLawful s) s ∧
    (qLawful.post (qLawful.freqOf s.mesh (advanceRK allOn qLawful s).uv3 s.baro) (advanceRK allOn qLawful s).k).1
      = (advanceRK allOn qLawful s).k := by
  have hpost : ∀ f k, qLawful.post f (qLawful.post f k).1 = qLawful.post f k := by
    intro f k
    simp [qLawful, qOps]
  have h := C113_rk allOn qLawful hpost s
  refine ⟨⟨?_, ?_, ?_, hpost⟩, h.1, h.2, ?_, ?_⟩
  · intro u a
    simp [qLawful, qOps]
  · intro u a
    simp [qLawful, qOps]
  · intro m u a r
    rfl
  · simp [SameSetup, allOn]
  · have h2 := (h.2 rfl).2
    have h3 : (advanceRK allOn qLawful s).k
        = (qLawful.post (advanceRK allOn qLawful s).freq (advanceRK allOn qLawful s).k).1 := by rw [← h2]
    exact h3.symm

end Verif.Start
