import Verif.Coupled.Model
import Mathlib.Data.List.Nodup
import Mathlib.Data.List.Perm.Basic

/-!
Properties C29, C30, C63: coupled 2D step, non-hydrostatic step, component combinations.
-/

namespace Verif.Coupled

variable {S T M B : Type*}

/-! ### C29 -/

/-- A configuration the step supports: no limiter on monolithic tracer systems, and an integrator
that implements Picard iterations if these are asked for. -/
def Cfg.Supported (c : Cfg) : Prop :=
  (c.limiter = true → ∀ s ∈ c.tracers, mixed s = false) ∧
  (1 < c.picard → c.tracers ≠ [] → c.picardOk = true)

/-- What the limiter option does to a tracer. -/
def limitIf (o : Ops S T M B) (b : Bool) (x : T) : T := if b then o.limit x else x

/-- Specification of the value of one advanced tracer system: `p` iterations, each followed by the
limiter; lagged values stored in the first, forcings refreshed in the last. -/
def tracerSpec (o : Ops S T M B) (c : Cfg) (s : String) (swe : S) (bed : B) (x : T) : T :=
  if 1 < c.picard then
    (List.range c.picard).foldl (fun x i =>
      limitIf o c.limiter (o.picard s (decide (i = 0)) (decide (i + 1 = c.picard)) swe bed x)) x
  else limitIf o c.limiter (o.tracer s swe bed x)

theorem tracerLoop_ok (o : Ops S T M B) (limiter : Bool) (adv : String → S → B → T → T)
    (ss : List String) (hm : limiter = true → ∀ s ∈ ss, mixed s = false) (hnd : ss.Nodup)
    (st : St S T M B) :
    tracerLoop o limiter adv ss st = ({ st with tr := (fun s => if s ∈ ss then
      limitIf o limiter (adv s st.swe st.bed (st.tr s)) else st.tr s) }, none) := by
  induction ss generalizing st with
  | nil => simp [tracerLoop]
  | cons a ss ih =>
    have hnd' := List.nodup_cons.1 hnd
    rw [tracerLoop]
    cases limiter with
    | false =>
      simp only [Bool.false_eq_true, if_false]
      rw [ih (by simp) hnd'.2]
      congr 2
      funext s
      by_cases hsa : s = a
      · subst hsa; simp [hnd'.1, limitIf]
      · simp [hsa, Function.update_of_ne]
    | true =>
      have ha : mixed a = false := hm rfl a (by simp)
      simp only [if_true, ha, Bool.false_eq_true, if_false]
      rw [ih (fun h s hs => hm h s (by simp [hs])) hnd'.2]
      congr 2
      funext s
      by_cases hsa : s = a
      · subst hsa; simp [hnd'.1, limitIf]
      · simp [hsa, Function.update_of_ne]

theorem picardLoop_ok (o : Ops S T M B) (c : Cfg) (hm : c.limiter = true → ∀ s ∈ c.tracers, mixed s = false)
    (hnd : c.tracers.Nodup) (p n i : ℕ) (st : St S T M B) :
    picardLoop o c p n i st = ({ st with tr := (fun s => if s ∈ c.tracers then
      (List.range' i n).foldl (fun x j =>
        limitIf o c.limiter (o.picard s (j == 0) (j == p - 1) st.swe st.bed x)) (st.tr s)
      else st.tr s) }, none) := by
  induction n generalizing i st with
  | zero => simp [picardLoop]
  | succ n ih =>
    rw [picardLoop, tracerLoop_ok o _ _ _ hm hnd]
    simp only
    rw [ih]
    congr 2
    funext s
    by_cases hs : s ∈ c.tracers
    · simp [hs, List.range'_succ]
    · simp [hs]

theorem foldl_range_congr {α : Type*} (f g : α → ℕ → α) (n : ℕ) (x : α)
    (h : ∀ x, ∀ i < n, f x i = g x i) : (List.range n).foldl f x = (List.range n).foldl g x := by
  have : ∀ l : List ℕ, (∀ i ∈ l, i < n) → ∀ x, l.foldl f x = l.foldl g x := by
    intro l
    induction l with
    | nil => intro _ _; rfl
    | cons a l ih =>
      intro hl x
      rw [List.foldl_cons, List.foldl_cons, h x a (hl a (by simp)), ih fun i hi => hl i (by simp [hi])]
  exact this _ (fun i hi => List.mem_range.1 hi) x

/-- C29: the state after one coupled step.  Shallow water is advanced first (unless held), each
tracer system is advanced on the new shallow water state and limited, the sediment model sees the
new shallow water state, sediment is advanced and limited with the updated model, and the bed last,
with the new sediment. -/
theorem C29_step (o : Ops S T M B) (c : Cfg) (hc : c.Supported) (hnd : c.tracers.Nodup)
    (st : St S T M B) :
    (advance o c st).2 = none ∧
    (advance o c st).1.swe = (if c.tracerOnly then st.swe else o.swe st.swe st.bed) ∧
    (∀ s ∈ c.tracers, (advance o c st).1.tr s
      = tracerSpec o c s (advance o c st).1.swe st.bed (st.tr s)) ∧
    (∀ s ∉ c.tracers, (advance o c st).1.tr s = st.tr s) ∧
    (advance o c st).1.model = (if c.suspended || c.exner
      then o.model (advance o c st).1.swe st.bed st.sed else st.model) ∧
    (advance o c st).1.sed = (if c.suspended
      then limitIf o c.limiter (o.sed (advance o c st).1.swe st.bed (advance o c st).1.model st.sed)
      else st.sed) ∧
    (advance o c st).1.bed = (if c.exner
      then o.exner (advance o c st).1.swe (advance o c st).1.model (advance o c st).1.sed st.bed
      else st.bed) := by
  obtain ⟨hm, hp⟩ := hc
  have key : advance o c st = (sediment o c
      { st with
        swe := if c.tracerOnly then st.swe else o.swe st.swe st.bed
        tr := fun s => if s ∈ c.tracers then tracerSpec o c s
          (if c.tracerOnly then st.swe else o.swe st.swe st.bed) st.bed (st.tr s) else st.tr s }, none) := by
    have e0 : (if c.tracerOnly then st else { st with swe := o.swe st.swe st.bed })
        = { st with swe := if c.tracerOnly then st.swe else o.swe st.swe st.bed } := by
      cases c.tracerOnly <;> rfl
    simp only [advance, e0]
    by_cases h1 : 1 < c.picard
    · by_cases he : c.tracers = []
      · simp only [h1, if_true, he, List.isEmpty_nil, Bool.not_true, Bool.and_false,
          Bool.false_eq_true, if_false]
        rw [picardLoop_ok o c hm hnd]
        simp [he]
      · have hok := hp h1 he
        simp only [h1, if_true, hok, Bool.not_true, Bool.false_and, Bool.false_eq_true, if_false]
        rw [picardLoop_ok o c hm hnd]
        simp only [tracerSpec, if_pos h1, ← List.range_eq_range']
        congr 3
        funext s
        split_ifs with hs
        all_goals first
          | rfl
          | (refine foldl_range_congr _ _ _ _ fun x i hi => ?_
             have e1 : (i == 0) = decide (i = 0) := by
               by_cases h : i = 0 <;> simp [h]
             have e2 : (i == c.picard - 1) = decide (i + 1 = c.picard) := by
               by_cases h : i + 1 = c.picard
               · have : i = c.picard - 1 := by omega
                 simp [h, ← this]
               · have : i ≠ c.picard - 1 := by omega
                 simp [h, this]
             rw [e1, e2])
    · simp only [h1, if_false]
      rw [tracerLoop_ok o _ _ _ hm hnd]
      simp only [tracerSpec, if_neg h1]
  rw [key]
  rcases c with ⟨tro, trs, li, pi, po, su, ex⟩
  cases su <;> cases ex <;> cases li <;>
    simp +contextual [sediment, Cfg.sedModel, limitIf]

/-- C29: an exception is raised exactly for unsupported configurations. -/
theorem C29_error (o : Ops S T M B) (c : Cfg) (hnd : c.tracers.Nodup) (st : St S T M B) :
    (advance o c st).2 = none ↔ c.Supported := by
  constructor
  · intro h
    have hloop : ∀ (adv : String → S → B → T → T) (ss : List String) (st : St S T M B),
        (tracerLoop o c.limiter adv ss st).2 = none →
        c.limiter = true → ∀ s ∈ ss, mixed s = false := by
      intro adv ss
      induction ss with
      | nil => intro st _ _ s hs; simp at hs
      | cons a ss ih =>
        intro st h hl s hs
        rw [tracerLoop] at h
        simp only [hl, if_true] at h
        by_cases ha : mixed a = true
        · simp [ha] at h
        · have ha : mixed a = false := by simpa using ha
          simp only [ha, Bool.false_eq_true, if_false] at h
          rcases List.mem_cons.1 hs with rfl | hs
          · exact ha
          · exact ih _ (by rw [hl]; exact h) hl s hs
    simp only [advance] at h
    set st0 := (if c.tracerOnly then st else { st with swe := o.swe st.swe st.bed })
    by_cases h1 : 1 < c.picard
    · simp only [h1, if_true] at h
      by_cases he : c.tracers = []
      · exact ⟨fun _ s hs => by simp [he] at hs, fun _ h => absurd he h⟩
      · by_cases hok : c.picardOk = true
        · simp only [hok, Bool.not_true, Bool.false_and, Bool.false_eq_true, if_false] at h
          refine ⟨fun hl s hs => ?_, fun _ _ => hok⟩
          obtain ⟨n, hn⟩ : ∃ n, c.picard = n + 1 := ⟨c.picard - 1, by omega⟩
          rw [show picardLoop o c c.picard c.picard 0 st0
            = picardLoop o c c.picard (n + 1) 0 st0 by rw [hn]] at h
          rw [picardLoop] at h
          rcases hr : tracerLoop o c.limiter (fun s => o.picard s (0 == 0) (0 == c.picard - 1))
            c.tracers st0 with ⟨st1, e⟩
          rw [hr] at h
          cases e with
          | none => exact hloop _ _ _ (by rw [hr]) hl s hs
          | some e => simp at h
        · have hok : c.picardOk = false := by simpa using hok
          have : c.tracers.isEmpty = false := by simpa using he
          simp [hok, this] at h
    · simp only [h1, if_false] at h
      rcases hr : tracerLoop o c.limiter o.tracer c.tracers st0 with ⟨st1, e⟩
      rw [hr] at h
      cases e with
      | none => exact ⟨fun hl s hs => hloop _ _ _ (by rw [hr]) hl s hs, fun h => absurd h h1⟩
      | some e => simp at h
  · intro h; exact (C29_step o c h hnd st).1

/-- C29: the order in which tracer systems were registered does not matter. -/
theorem C29_order_of_tracers (o : Ops S T M B) (c : Cfg) (ts : List String)
    (hperm : ts.Perm c.tracers) (hc : c.Supported) (hnd : c.tracers.Nodup) (st : St S T M B) :
    advance o { c with tracers := ts } st = advance o c st := by
  have hc' : ({ c with tracers := ts } : Cfg).Supported := by
    refine ⟨fun hl s hs => hc.1 hl s (hperm.mem_iff.1 hs), fun hp hne => hc.2 hp ?_⟩
    intro h
    rw [h] at hperm
    exact hne (List.Perm.eq_nil hperm)
  obtain ⟨a1, a2, a3, a4, a5, a6, a7⟩ := C29_step o { c with tracers := ts } hc' (hperm.nodup_iff.2 hnd) st
  obtain ⟨b1, b2, b3, b4, b5, b6, b7⟩ := C29_step o c hc hnd st
  set A := advance o { c with tracers := ts } st
  set X := advance o c st
  simp only at a2 a3 a4 a5 a6 a7
  have e2 : A.1.swe = X.1.swe := by rw [a2, b2]
  have e5 : A.1.model = X.1.model := by rw [a5, b5, e2]
  have e6 : A.1.sed = X.1.sed := by rw [a6, b6, e2, e5]
  have e7 : A.1.bed = X.1.bed := by rw [a7, b7, e2, e5, e6]
  have etr : A.1.tr = X.1.tr := by
    funext s
    by_cases hs : s ∈ c.tracers
    · rw [a3 s (hperm.mem_iff.2 hs), b3 s hs, e2]; rfl
    · rw [a4 s (fun h => hs (hperm.mem_iff.1 h)), b4 s hs]
  have : A.1 = X.1 := by
    rcases hA : A.1 with ⟨p1, p2, p3, p4, p5⟩
    rcases hX : X.1 with ⟨q1, q2, q3, q4, q5⟩
    rw [hA, hX] at e2 e5 e6 e7 etr
    simp_all
  exact Prod.ext this (by rw [a1, b1])

/-- Two tracers, a limiter that caps at 10, three Picard iterations (tracer `x` becomes `2 x`
each), bed and sediment: the hypotheses are met and the result is not trivial. -/
def demoOps : Ops ℕ ℕ ℕ ℕ where
  swe s b := s + b
  tracer _ s _ x := x + s
  picard _ _ _ _ _ x := 2 * x
  limit x := min x 10
  model s _ _ := s
  sed _ _ m x := x + m
  exner _ m x b := b + m + x

/-- Options of the demonstration. -/
def demoCfg : Cfg := ⟨false, ["salt_2d", "temp_2d"], true, 3, true, true, true⟩

example : demoCfg.Supported ∧ demoCfg.tracers.Nodup := by
  refine ⟨⟨?_, ?_⟩, ?_⟩ <;> decide

example : (advance demoOps demoCfg ⟨1, fun _ => 1, 0, 2, 3⟩).1.tr "salt_2d" = 8 ∧
    (advance demoOps demoCfg ⟨1, fun _ => 1, 0, 2, 3⟩).1.sed = 6 ∧
    (advance demoOps demoCfg ⟨1, fun _ => 1, 0, 2, 3⟩).1.bed = 13 := by decide

example : (advance demoOps { demoCfg with tracers := ["a,b"] } ⟨1, fun _ => 1, 0, 2, 3⟩).2
    = some .notImplemented := by decide

/-- C29: after `set_dt` every integrator has the new step in every part. -/
theorem C29_set_dt (dt : ℚ) (names : List String) (d : String → Option Stepper)
    (hall : ∀ n, d n ≠ none → n ∈ names) (n : String) :
    setDt dt names d n = (d n).map (Stepper.setDt dt) := by
  have hidem : ∀ x : Option Stepper, (x.map (Stepper.setDt dt)).map (Stepper.setDt dt)
      = x.map (Stepper.setDt dt) := by
    intro x; cases x with
    | none => rfl
    | some x => cases x <;> rfl
  have key : ∀ (l : List String) (d : String → Option Stepper),
      setDt dt l d n = if n ∈ l then (d n).map (Stepper.setDt dt) else d n := by
    intro l
    induction l with
    | nil => intro d; simp [setDt]
    | cons a l ih =>
      intro d
      have : setDt dt (a :: l) d = setDt dt l (Function.update d a ((d a).map (Stepper.setDt dt))) := rfl
      rw [this, ih]
      by_cases hna : n = a
      · subst hna
        simp only [Function.update_self, hidem, List.mem_cons, true_or, if_true, ite_self]
      · rw [Function.update_of_ne hna]
        simp [hna]
  rw [key]
  by_cases h : d n = none
  · simp [h]
  · rw [if_pos (hall n h)]

example : setDt 5 ["exner", "swe2d"] (fun n => if n = "swe2d" then some (.imex 1 2)
    else if n = "exner" then some (.simple 3) else none) "swe2d" = some (.imex 5 5) := by
  rw [C29_set_dt]
  · simp [Stepper.setDt]
  · intro n; by_cases h : n = "swe2d" <;> by_cases h' : n = "exner" <;> simp [h, h']

/-- The time steps held inside an integrator. -/
def Stepper.steps : Stepper → List ℚ
  | .simple dt => [dt]
  | .imex e d => [e, d]

/-- C29: after `set_dt` every time step held by any integrator is the new one, no integrator is lost
and none changes its kind. -/
theorem C29_set_dt_parts (dt : ℚ) (names : List String) (d : String → Option Stepper)
    (hall : ∀ n, d n ≠ none → n ∈ names) (n : String) :
    (setDt dt names d n = none ↔ d n = none) ∧
    ∀ s s', d n = some s → setDt dt names d n = some s' →
      s'.steps.length = s.steps.length ∧ ∀ x ∈ s'.steps, x = dt := by
  rw [C29_set_dt dt names d hall n]
  refine ⟨by simp, fun s s' h h' => ?_⟩
  rw [h] at h'
  simp only [Option.map_some, Option.some.injEq] at h'
  subst h'
  cases s <;> simp [Stepper.setDt, Stepper.steps]

/-! ### C30 -/

/-- C30 is violated: whatever else is configured, the non-hydrostatic integrator cannot be built
without free surface update. -/
theorem C30_no_update_violation (c : Setup) (hn : c.nonhydro = true) (hu : c.updateFs = false) :
    ∃ e, construct c = .error e := by
  simp only [construct, hn, hu, if_true, Bool.not_false]
  split_ifs <;> exact ⟨_, rfl⟩

/-- In particular the plain configuration fails with an attribute error. -/
example : construct ⟨⟨false, [], false, 1, true, false, false⟩, true, false, "CrankNicolson",
    "CrankNicolson"⟩ = .error .attributeError := by decide

section

variable {U E Q : Type*}

/-- C30 (partial: with free surface update).  The new elevation is produced by the free surface
integrator from the elevation at the start of the step and the corrected velocity; the
hydrostatic elevation does not enter.  Missing: the case without free surface update, which the
code rejects. -/
theorem C30_elevation_partial (o : NhOps U E Q) (serial : Bool) (n : ℕ) (hn : 0 < n)
    (st : Nh U E Q) :
    (nhAdvance o serial false n st).elev
      = o.fs (nhAdvance o serial false n st).uv st.elev := by
  cases serial with
  | true => rfl
  | false =>
    simp only [nhAdvance, Bool.false_eq_true, if_false]
    set st0 : Nh U E Q := { st with elevOld := st.elev } with hst0
    have hold : ∀ m, ((List.range m).foldl (fun st i => nhStage o false n i st) st0).elevOld
        = st.elev := by
      intro m
      induction m with
      | zero => rfl
      | succ m ih =>
        rw [List.range_succ, List.foldl_append]
        simp only [List.foldl_cons, List.foldl_nil]
        rw [← ih]
        simp only [nhStage, Bool.false_eq_true, if_false]
        split_ifs <;> rfl
    obtain ⟨m, rfl⟩ : ∃ m, n = m + 1 := ⟨n - 1, by omega⟩
    rw [List.range_succ, List.foldl_append]
    simp only [List.foldl_cons, List.foldl_nil]
    have := hold m
    set X := (List.range m).foldl (fun st i => nhStage o false (m + 1) i st) st0
    simp only [nhStage, Nat.add_sub_cancel, beq_self_eq_true, if_true, Bool.false_eq_true, if_false,
      this]

/-- C30 (partial): in every step the pressure solve follows each hydrostatic solve, acts on its
result, and the vertical velocity is updated exactly once, by the last of them. -/
theorem C30_pressure_partial (o : NhOps U E Q) (multi : Bool) (n : ℕ) (st : Nh U E Q) :
    (((nhAdvance o true multi n st).uv, (nhAdvance o true multi n st).nh)
      = o.poisson true (o.swe st.uv st.elev).1 (o.swe st.uv st.elev).2 st.nh) ∧
    ∃ X : ℕ → Nh U E Q, X 0 = { st with elevOld := st.elev } ∧ nhAdvance o false multi n st = X n ∧
      ∀ i < n, ((X (i + 1)).uv, (X (i + 1)).nh) =
        o.poisson (decide (i + 1 = n)) (o.sweStage i (X i).uv (X i).elev).1
          (o.sweStage i (X i).uv (X i).elev).2 (X i).nh := by
  refine ⟨rfl, fun m => (List.range m).foldl (fun st i => nhStage o multi n i st)
    { st with elevOld := st.elev }, rfl, rfl, fun i hi => ?_⟩
  have hl : (i == n - 1) = decide (i + 1 = n) := by
    rw [Bool.eq_iff_iff]; simp; omega
  simp only [List.range_succ, List.foldl_append, List.foldl_cons, List.foldl_nil, nhStage, hl]
  split_ifs <;> rfl

/-- C30 (partial), multi-stage free surface integrator: the elevation goes through the stages of
the free surface integrator, starting from the elevation at the start of the step. -/
theorem C30_stages_partial (o : NhOps U E Q) (n : ℕ) (st : Nh U E Q) :
    ∃ (e : ℕ → E) (u : ℕ → U), e 0 = st.elev ∧ (∀ i < n, e (i + 1) = o.fsStage i (u i) (e i)) ∧
      (nhAdvance o false true n st).elev = e n ∧
      (∀ i, n = i + 1 → (nhAdvance o false true n st).uv = u i) := by
  set st0 : Nh U E Q := { st with elevOld := st.elev } with hst0
  let X : ℕ → Nh U E Q := fun m => (List.range m).foldl (fun st i => nhStage o true n i st) st0
  have hX : ∀ m, X (m + 1) = nhStage o true n m (X m) := by
    intro m
    simp only [X, List.range_succ, List.foldl_append, List.foldl_cons, List.foldl_nil]
  have hstep : ∀ m, (X (m + 1)).elevOld = o.fsStage m (X (m + 1)).uv (X m).elevOld ∧
      (X (m + 1)).elev = (X (m + 1)).elevOld := by
    intro m; rw [hX]; exact ⟨rfl, rfl⟩
  have hfin : nhAdvance o false true n st = X n := rfl
  refine ⟨fun m => (X m).elevOld, fun m => (X (m + 1)).uv, rfl, fun i _ => (hstep i).1, ?_, ?_⟩
  · rw [hfin]
    cases n with
    | zero => rfl
    | succ n => exact (hstep n).2
  · rintro i rfl; rw [hfin]

end

example : (nhAdvance (U := ℕ) (E := ℕ) (Q := Unit)
    ⟨fun u e => (u + 1, e + 100), fun i u e => (u + i + 1, e + 100), fun _ u _ _ => (2 * u, ()),
     fun u e => e + u, fun _ u e => e + u⟩ false false 3 ⟨1, 5, (), 0⟩).elev
      = (nhAdvance (U := ℕ) (E := ℕ) (Q := Unit)
    ⟨fun u e => (u + 1, e + 100), fun i u e => (u + i + 1, e + 100), fun _ u _ _ => (2 * u, ()),
     fun u e => e + u, fun _ u e => e + u⟩ false false 3 ⟨1, 5, (), 0⟩).uv + 5 := by decide

/-! ### C63: combinations of components -/

/-- The step of the integrator that was built. -/
def stepOf (o : Ops S T M B) (k : Kind) (c : Cfg) (st : St S T M B) : St S T M B :=
  match k with
  | .coupled => (advance o c st).1
  | _ => { st with swe := o.swe st.swe st.bed }

/-- C63 (partial): if the integrator can be built and the step is supported, everything that is
switched on is advanced: shallow water (unless held), every tracer, sediment and the bed, and nothing else
changes.  Missing: with nothing but `tracer_only` switched on shallow water is advanced although it
should be held, see `C63_tracer_only_violation`. -/
theorem C63_all_components_partial (o : Ops S T M B) (c : Setup) (k : Kind)
    (hk : construct c = .ok k) (hc : c.toCfg.Supported) (hnd : c.tracers.Nodup)
    (hto : c.tracerOnly = true → c.tracers ≠ [] ∨ c.suspended = true ∨ c.exner = true)
    (st : St S T M B) :
    let st' := stepOf o k c.toCfg st
    st'.swe = (if c.tracerOnly then st.swe else o.swe st.swe st.bed) ∧
    (∀ s, st'.tr s = if s ∈ c.tracers then tracerSpec o c.toCfg s st'.swe st.bed (st.tr s)
      else st.tr s) ∧
    st'.sed = (if c.suspended then limitIf o c.limiter (o.sed st'.swe st.bed st'.model st.sed)
      else st.sed) ∧
    st'.bed = (if c.exner then o.exner st'.swe st'.model st'.sed st.bed else st.bed) := by
  intro st'
  have hplain : k ≠ .coupled → c.tracers = [] ∧ c.suspended = false ∧ c.exner = false := by
    intro hne
    simp only [construct] at hk
    by_cases h1 : c.nonhydro = true
    · simp only [h1, if_true] at hk
      split_ifs at hk with a1 a2 a3 a4 a5 a6
      refine ⟨?_, by simpa using a1, by simpa using a3⟩
      simpa using a2
    · simp only [h1] at hk
      simp only [Bool.false_eq_true, if_false] at hk
      split_ifs at hk with a1 a2 a3 a4
      · exact absurd (by simpa using hk.symm) hne
      · exact absurd (by simpa using hk.symm) hne
      · have a4' : c.suspended = false ∧ c.exner = false := by simpa using a4
        exact ⟨by simpa using a1, a4'⟩
  by_cases hkc : k = .coupled
  · obtain ⟨-, h2, h3, h4, -, h6, h7⟩ := C29_step o c.toCfg hc hnd st
    have e : st' = (advance o c.toCfg st).1 := by simp only [st', hkc, stepOf]
    rw [← e] at h2 h3 h4 h6 h7
    exact ⟨h2, fun s => by
      by_cases hs : s ∈ c.tracers
      · rw [if_pos hs]; exact h3 s hs
      · rw [if_neg hs]; exact h4 s hs, h6, h7⟩
  · obtain ⟨h1, h2, h3⟩ := hplain hkc
    have hto' : c.tracerOnly = false := by
      by_contra h
      have h : c.tracerOnly = true := by simpa using h
      rcases hto h with h | h | h
      · exact h h1
      · simp [h2] at h
      · simp [h3] at h
    have e : st' = { st with swe := o.swe st.swe st.bed } := by
      simp only [st']
      cases k
      · rfl
      · exact absurd rfl hkc
      · rfl
    rw [e]
    simp [hto', h1, h2, h3]

/-- With `tracer_only` and no tracer registered, shallow water is advanced. -/
theorem C63_tracer_only_violation (o : Ops S T M B) (st : St S T M B) (t f : String)
    (lim po : Bool) (p : ℕ) (uf : Bool) :
    ∃ k, construct ⟨⟨true, [], lim, p, po, false, false⟩, false, uf, t, f⟩ = .ok k ∧
      (stepOf o k ⟨true, [], lim, p, po, false, false⟩ st).swe = o.swe st.swe st.bed :=
  ⟨.sweOnly, rfl, rfl⟩

/-- Tracers cannot be combined with sediment or bed evolution. -/
theorem C63_tracer_sediment_rejected (c : Setup) (ht : c.tracers ≠ [])
    (hs : c.suspended = true ∨ c.exner = true) : ∃ e, construct c = .error e := by
  have : c.tracers.isEmpty = false := by simpa using ht
  rcases hs with hs | hs <;> simp only [construct, hs, this] <;> split_ifs <;>
    first | exact ⟨_, rfl⟩ | simp_all

/-- Non-hydrostatic pressure cannot be combined with any other component. -/
theorem C63_nonhydrostatic_alone (c : Setup) (hn : c.nonhydro = true) (k : Kind)
    (hk : construct c = .ok k) :
    c.tracers = [] ∧ c.suspended = false ∧ c.exner = false ∧ c.tracerOnly = false ∧
      c.updateFs = true := by
  simp only [construct, hn, if_true] at hk
  split_ifs at hk with a1 a2 a3 a4 a5
  exact ⟨by simpa using a2, by simpa using a1, by simpa using a3, by simpa using a4,
    by simpa using a5⟩

/-- Which pairs of steppers the non-hydrostatic integrator accepts: a multi-stage free surface
stepper must be the shallow water stepper, all others combine freely. -/
theorem C63_nonhydrostatic_steppers (c : Setup) (hn : c.nonhydro = true) (ht : c.tracers = [])
    (hs : c.suspended = false) (he : c.exner = false) (hto : c.tracerOnly = false)
    (hu : c.updateFs = true) :
    construct c = .ok .nonHydrostatic ↔
      (c.fsType ∈ ["SSPRK33", "DIRK22", "DIRK33", "SSPIMEX"] → c.sweType = c.fsType) := by
  have e : construct c = if hasStages c.fsType && c.fsType != "BackwardEuler" && c.sweType != c.fsType
      then .error .assertionError else .ok .nonHydrostatic := by
    simp [construct, hn, ht, hs, he, hto, hu]
  have h2 : (hasStages c.fsType && c.fsType != "BackwardEuler") = true ↔
      c.fsType ∈ ["SSPRK33", "DIRK22", "DIRK33", "SSPIMEX"] := by
    simp only [hasStages, Bool.and_eq_true, Bool.or_eq_true, beq_iff_eq, bne_iff_ne, ne_eq,
      List.mem_cons, List.not_mem_nil, or_false]
    constructor
    · rintro ⟨h, h'⟩; tauto
    · rintro (h | h | h | h) <;> rw [h] <;> simp
  rw [e, ← h2]
  by_cases h3 : (hasStages c.fsType && c.fsType != "BackwardEuler") = true
  · by_cases h4 : c.sweType = c.fsType <;> simp_all
  · simp only [Bool.not_eq_true] at h3
    simp [h3]

example : construct ⟨demoCfg, false, true, "CrankNicolson", "CrankNicolson"⟩ = .error .keyError := by
  decide
example : construct ⟨{ demoCfg with suspended := false, exner := false }, false, true,
    "CrankNicolson", "CrankNicolson"⟩ = .ok .coupled := by decide

end Verif.Coupled
