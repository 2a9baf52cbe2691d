import Verif.Bound2.Model
import Verif.Tracer2.Props4
import Verif.Limiter.Props

/-!
C125: explicit advection with the slope limiter creates no new extrema.
-/

namespace Verif.Bound2

open Verif.Dg

variable {m : Mesh 2}

/-! ### One facet, one boundary point -/

/-- Normal velocities out of the two sides that do not oppose each other. -/
def Aligned (vP vM : ℝ) : Prop := vP * vM ≤ 0

theorem upwind_cases (T : Tracer2.Term m) (un : ℝ) :
    (0 < un ∧ Tracer2.upwind T un = 1) ∨ (un < 0 ∧ Tracer2.upwind T un = 0) ∨ un = 0 := by
  rcases lt_trichotomy un 0 with h | h | h
  · right; left
    refine ⟨h, ?_⟩
    rw [Tracer2.upwind, sgn, if_neg (not_lt.2 h.le), if_pos h]; norm_num
  · exact Or.inr (Or.inr h)
  · left
    refine ⟨h, ?_⟩
    rw [Tracer2.upwind, sgn, if_pos h]; norm_num

theorem side_plus (T : Tracer2.Term m) (vP vM dP dM p w dt L : ℝ) (ha : Aligned vP vM) (hP : 0 ≤ dP) (hM : 0 ≤ dM)
    (hw : 0 ≤ w) (hdt : 0 ≤ dt) (hL : 0 ≤ L) (hlim : dt * (w * (max vP 0 + L)) ≤ p) :
    0 ≤ p * dP - dt * (w * (vP * (dM * Tracer2.upwind T ((vM - vP) / 2) + dP * (1 - Tracer2.upwind T ((vM - vP) / 2))))) +
      dt * (w * (L * (dM - dP))) := by
  have hdw : 0 ≤ dt * w := mul_nonneg hdt hw
  have h0 : 0 ≤ dt * w * L * dM := mul_nonneg (mul_nonneg hdw hL) hM
  have h1 : 0 ≤ (p - dt * (w * (max vP 0 + L))) * dP := mul_nonneg (by linarith) hP
  have h2 : 0 ≤ dt * w * (max vP 0) * dP := mul_nonneg (mul_nonneg hdw (le_max_right _ _)) hP
  have h3 : 0 ≤ dt * w * (max vP 0 - vP) * dP :=
    mul_nonneg (mul_nonneg hdw (by linarith [le_max_left vP 0])) hP
  unfold Aligned at ha
  rcases upwind_cases T ((vM - vP) / 2) with ⟨h, e⟩ | ⟨h, e⟩ | h
  · have hv : vP ≤ 0 := by
      by_contra hv
      nlinarith
    have h4 : 0 ≤ dt * w * -vP * dM := mul_nonneg (mul_nonneg hdw (by linarith)) hM
    rw [e]
    nlinarith
  · rw [e]
    nlinarith
  · have hv : vP = 0 := by
      have : vM = vP := by linarith
      rw [this] at ha
      nlinarith [mul_self_nonneg vP]
    rw [hv] at h1 h2 h3 ⊢
    nlinarith

theorem side_minus (T : Tracer2.Term m) (vP vM dP dM p w dt L : ℝ) (ha : Aligned vP vM) (hP : 0 ≤ dP) (hM : 0 ≤ dM)
    (hw : 0 ≤ w) (hdt : 0 ≤ dt) (hL : 0 ≤ L) (hlim : dt * (w * (max vM 0 + L)) ≤ p) :
    0 ≤ p * dM - dt * (w * (vM * (dM * Tracer2.upwind T ((vM - vP) / 2) + dP * (1 - Tracer2.upwind T ((vM - vP) / 2))))) +
      dt * (w * (L * (dP - dM))) := by
  have hdw : 0 ≤ dt * w := mul_nonneg hdt hw
  have h0 : 0 ≤ dt * w * L * dP := mul_nonneg (mul_nonneg hdw hL) hP
  have h1 : 0 ≤ (p - dt * (w * (max vM 0 + L))) * dM := mul_nonneg (by linarith) hM
  have h2 : 0 ≤ dt * w * (max vM 0) * dM := mul_nonneg (mul_nonneg hdw (le_max_right _ _)) hM
  have h3 : 0 ≤ dt * w * (max vM 0 - vM) * dM :=
    mul_nonneg (mul_nonneg hdw (by linarith [le_max_left vM 0])) hM
  unfold Aligned at ha
  rcases upwind_cases T ((vM - vP) / 2) with ⟨h, e⟩ | ⟨h, e⟩ | h
  · rw [e]
    nlinarith
  · have hv : vM ≤ 0 := by
      by_contra hv
      nlinarith
    have h4 : 0 ≤ dt * w * -vM * dP := mul_nonneg (mul_nonneg hdw (by linarith)) hP
    rw [e]
    nlinarith
  · have hv : vM = 0 := by
      have : vP = vM := by linarith
      rw [this] at ha
      nlinarith [mul_self_nonneg vM]
    rw [hv] at h1 h2 h3 ⊢
    nlinarith

/-- The tracer that passes a boundary point: the inside value, or the prescribed one if the water comes in. -/
noncomputable def passes (T : Tracer2.Term m) (u : Vc m) (f : Option (Tracer2.BFuncs m)) (c : Sc m) (b : m.B) : ℝ :=
  match f.bind Tracer2.BFuncs.value with
  | some v => (c (.bnd b)).v * Tracer2.upwind T (normalAt u b) + (v b).v * (1 - Tracer2.upwind T (normalAt u b))
  | none => (c (.bnd b)).v

theorem bndFlux_eq (T : Tracer2.Term m) (F : Tracer2.Flow m) (u : Vc m) (bc : ℕ → Option (Tracer2.BFuncs m)) (c : Sc m)
    (k : ℕ) (b : m.B) (hno : ∀ f, bc k = some f → Tracer2.NoVelocity f) :
    Tracer2.advBndFlux T F u bc c k b = passes T u (bc k) c b * normalAt u b := by
  have ha : ∀ x : ℝ, 1 / 2 * (x + x) = x := fun x => by ring
  have hn : m.nb b 0 * (u 0 (.bnd b)).v + m.nb b 1 * (u 1 (.bnd b)).v = normalAt u b := by
    simp only [normalAt, Fin.sum_univ_two]; ring
  have hn' : (u 0 (.bnd b)).v * m.nb b 0 + (u 1 (.bnd b)).v * m.nb b 1 = normalAt u b := by
    simp only [normalAt, Fin.sum_univ_two]
  unfold Tracer2.advBndFlux passes
  cases hb : bc k with
  | none => simp only [Option.bind_none, hn']
  | some f =>
    obtain ⟨h1, h2, h3⟩ := hno f hb
    simp only [Option.bind_some, Tracer2.bndFunctions, h1, h2, h3, ha, hn, hn']
    cases f.value with
    | none => simp only; ring
    | some v => simp only

theorem side_bnd (T : Tracer2.Term m) (u : Vc m) (f : Option (Tracer2.BFuncs m)) (c : Sc m) (b : m.B)
    (σ κ p w dt : ℝ) (hw : 0 ≤ w) (hdt : 0 ≤ dt) (hc : 0 ≤ σ * ((c (.bnd b)).v - κ))
    (hv : ∀ v, f.bind Tracer2.BFuncs.value = some v → 0 ≤ σ * ((v b).v - κ))
    (hlim : dt * (w * max (normalAt u b) 0) ≤ p) :
    0 ≤ p * (σ * ((c (.bnd b)).v - κ)) - dt * (w * (normalAt u b * (σ * (passes T u f c b - κ)))) := by
  have hdw : 0 ≤ dt * w := mul_nonneg hdt hw
  have h1 : 0 ≤ (p - dt * (w * max (normalAt u b) 0)) * (σ * ((c (.bnd b)).v - κ)) := mul_nonneg (by linarith) hc
  have h3 : 0 ≤ dt * w * (max (normalAt u b) 0 - normalAt u b) * (σ * ((c (.bnd b)).v - κ)) :=
    mul_nonneg (mul_nonneg hdw (by linarith [le_max_left (normalAt u b) 0])) hc
  have h2 : 0 ≤ dt * w * max (normalAt u b) 0 * (σ * ((c (.bnd b)).v - κ)) :=
    mul_nonneg (mul_nonneg hdw (le_max_right _ _)) hc
  unfold passes
  cases hf : f.bind Tracer2.BFuncs.value with
  | none => simp only; nlinarith
  | some v =>
    have hv' := hv v hf
    simp only
    rcases upwind_cases T (normalAt u b) with ⟨h, e⟩ | ⟨h, e⟩ | h
    · rw [e]; nlinarith
    · have h4 : 0 ≤ dt * w * -normalAt u b * (σ * ((v b).v - κ)) :=
        mul_nonneg (mul_nonneg hdw (by linarith)) hv'
      rw [e]; nlinarith
    · rw [h] at h1 h2 h3 ⊢; nlinarith

/-! ### Means of cells -/

/-- One on the cell `k`, zero elsewhere. -/
def on (S : Cells m) (k : S.K) (x : Pt m) : ℝ := if S.at x = k then 1 else 0

/-- The integral over the cell `k`. -/
noncomputable def cellInt (S : Cells m) (k : S.K) (f : Sc m) : ℝ := m.dx fun x => (f (.cell x)).v * on S k (.cell x)

/-- Weights of the points of cells, of the two sides of facets and of the boundary. -/
structure Weights (m : Mesh 2) where
  a : m.C → ℝ
  p : m.S → ℝ
  q : m.S → ℝ
  b : m.B → ℝ

/-- The integral of `f` over the cell `k` is the weighted sum of its values at points of the cell and its facets. -/
def Splits (S : Cells m) (k : S.K) (W : Weights m) (f : Sc m) : Prop :=
  cellInt S k f = (∑ x, W.a x * ((f (.cell x)).v * on S k (.cell x))) +
    (∑ s, (W.p s * ((f (.plus s)).v * on S k (.plus s)) + W.q s * ((f (.minus s)).v * on S k (.minus s)))) +
    ∑ b, W.b b * ((f (.bnd b)).v * on S k (.bnd b))

/-- Normal velocity out of the plus side. -/
def outP (u : Vc m) (s : m.S) : ℝ := ∑ i, (u i (.plus s)).v * m.np s i

/-- Normal velocity out of the minus side. -/
def outM (u : Vc m) (s : m.S) : ℝ := ∑ i, (u i (.minus s)).v * m.nm s i

/-- Half the Lax-Friedrichs velocity. -/
noncomputable def lfSpeed (T : Tracer2.Term m) (F : Tracer2.Flow m) (u : Vc m) (s : m.S) : ℝ :=
  if T.lf then |(outM u s - outP u s) / 2| / 2 * F.lfFactor else 0

/-- The limit of the time step for the cell `k`: what flows out of the cell through a point during the step is at most the
weight of the point. -/
structure Limit (S : Cells m) (k : S.K) (W : Weights m) (T : Tracer2.Term m) (F : Tracer2.Flow m) (u : Vc m) (dt : ℝ) :
    Prop where
  cell : ∀ x, S.ofC x = k → 0 ≤ W.a x + dt * (m.wC x * div u (.cell x))
  plus : ∀ s, S.ofP s = k → dt * (m.wS s * (max (outP u s) 0 + lfSpeed T F u s)) ≤ W.p s
  minus : ∀ s, S.ofM s = k → dt * (m.wS s * (max (outM u s) 0 + lfSpeed T F u s)) ≤ W.q s
  bnd : ∀ b, S.ofB b = k → dt * (m.wB b * max (normalAt u b) 0) ≤ W.b b

/-- All values that the step reads for the cell `k` are on the side `σ` of `κ`: at points of the cell, on both sides of its
facets, and those prescribed at its boundary. -/
structure Beyond (S : Cells m) (k : S.K) (bc : ℕ → Option (Tracer2.BFuncs m)) (c : Sc m) (σ κ : ℝ) : Prop where
  cell : ∀ x, S.ofC x = k → 0 ≤ σ * ((c (.cell x)).v - κ)
  facet : ∀ s, (S.ofP s = k ∨ S.ofM s = k) → 0 ≤ σ * ((c (.plus s)).v - κ) ∧ 0 ≤ σ * ((c (.minus s)).v - κ)
  bnd : ∀ b, S.ofB b = k → 0 ≤ σ * ((c (.bnd b)).v - κ)
  value : ∀ b f v, S.ofB b = k → bc (m.marker b) = some f → f.value = some v → 0 ≤ σ * ((v b).v - κ)

theorem unAv_eq (u : Vc m) (s : m.S) (hflat : m.Flat) : Tracer2.unAv u s = (outM u s - outP u s) / 2 := by
  simp only [Tracer2.unAv, outM, outP, avg, Fin.sum_univ_two, hflat s]; ring

theorem mean_beyond (S : Cells m) (k : S.K) (W : Weights m) (T : Tracer2.Term m) (F : Tracer2.Flow m)
    (bc : ℕ → Option (Tracer2.BFuncs m)) (u0 : Vc m) (dt σ κ : ℝ) (c test : Sc m)
    (hu : F.uv = some u0) (hdg : T.dg = true) (hflat : m.Flat) (hdt : 0 ≤ dt) (hlf : 0 ≤ F.lfFactor)
    (ht : ∀ x, (test x).v = on S k x) (htg : ∀ x i, (test x).g i = 0)
    (hno : ∀ j f, bc j = some f → Tracer2.NoVelocity f)
    (hdiv : DivExact m fun i => Tracer2.corrected F u0 i * test)
    (hal : ∀ s, Aligned (outP (Tracer2.corrected F u0) s) (outM (Tracer2.corrected F u0) s))
    (hc : Splits S k W c) (h1 : Splits S k W (cst m 1))
    (hlim : Limit S k W T F (Tracer2.corrected F u0) dt) (hb : Beyond S k bc c σ κ) :
    0 ≤ σ * (cellInt S k c + dt * Tracer2.advection T F bc c test - κ * cellInt S k (cst m 1)) := by
  set u := Tracer2.corrected F u0 with hu'
  have hadv : Tracer2.advection T F bc c test =
      (∑ x, m.wC x * (div u (.cell x) * on S k (.cell x) * (c (.cell x)).v)) -
      (∑ s, m.wS s * (((c (.minus s)).v * Tracer2.upwind T ((outM u s - outP u s) / 2) +
          (c (.plus s)).v * (1 - Tracer2.upwind T ((outM u s - outP u s) / 2))) *
        (outP u s * on S k (.plus s) + outM u s * on S k (.minus s)) +
        lfSpeed T F u s * ((on S k (.plus s) - on S k (.minus s)) * ((c (.plus s)).v - (c (.minus s)).v)))) -
      ∑ b, m.wB b * (passes T u (bc (m.marker b)) c b * normalAt u b * on S k (.bnd b)) := by
    rw [Tracer2.advection_eq T F bc u0 c test hu]
    simp only [hdg, if_true, ← hu']
    have e1 : (m.dx fun x => div (fun i => u i * test) (.cell x) * (c (.cell x)).v) =
        ∑ x, m.wC x * (div u (.cell x) * on S k (.cell x) * (c (.cell x)).v) := by
      unfold Mesh.dx
      refine Finset.sum_congr rfl fun x _ => ?_
      simp only [div, Fin.sum_univ_two, Pi.mul_apply, Jet.mul_g, ht, htg]
      ring
    have e2 : (m.dS (Tracer2.advFacet T u c test) +
        if T.lf = true then m.dS fun s => 1 / 2 * |Tracer2.unAv u s| * F.lfFactor * (jump test s * jump c s) else 0) =
        ∑ s, m.wS s * (((c (.minus s)).v * Tracer2.upwind T ((outM u s - outP u s) / 2) +
          (c (.plus s)).v * (1 - Tracer2.upwind T ((outM u s - outP u s) / 2))) *
        (outP u s * on S k (.plus s) + outM u s * on S k (.minus s)) +
        lfSpeed T F u s * ((on S k (.plus s) - on S k (.minus s)) * ((c (.plus s)).v - (c (.minus s)).v))) := by
      have e3 : (if T.lf = true then m.dS fun s => 1 / 2 * |Tracer2.unAv u s| * F.lfFactor * (jump test s * jump c s)
          else 0) = m.dS fun s => lfSpeed T F u s *
            ((on S k (.plus s) - on S k (.minus s)) * ((c (.plus s)).v - (c (.minus s)).v)) := by
        by_cases h : T.lf = true
        · rw [if_pos h]
          refine dS_congr fun s => ?_
          simp only [lfSpeed, h, if_true, jump, ht, unAv_eq u s hflat]; ring
        · rw [if_neg h, ← dS_zero (m := m)]
          refine dS_congr fun s => ?_
          simp [lfSpeed, h]
      rw [e3, ← dS_add]
      unfold Mesh.dS
      refine Finset.sum_congr rfl fun s _ => ?_
      simp only [Tracer2.advFacet, jumpV, unAv_eq u s hflat, outP, outM, Fin.sum_univ_two, Pi.mul_apply, Jet.mul_v, ht]
      ring
    have e4 : (∑ b, m.wB b * (Tracer2.advBndFlux T F u bc c (m.marker b) b * (test (.bnd b)).v)) =
        ∑ b, m.wB b * (passes T u (bc (m.marker b)) c b * normalAt u b * on S k (.bnd b)) := by
      refine Finset.sum_congr rfl fun b _ => ?_
      rw [bndFlux_eq T F u bc c _ b (hno _), ht]
    rw [e1, e2, e4]
  have hone : (∑ x, m.wC x * (div u (.cell x) * on S k (.cell x))) =
      (∑ s, m.wS s * (outP u s * on S k (.plus s) + outM u s * on S k (.minus s))) +
      ∑ b, m.wB b * (normalAt u b * on S k (.bnd b)) := by
    have h := hdiv
    unfold DivExact Mesh.dx Mesh.dS at h
    have e1 : (∑ x, m.wC x * div (fun i => u i * test) (.cell x)) =
        ∑ x, m.wC x * (div u (.cell x) * on S k (.cell x)) := by
      refine Finset.sum_congr rfl fun x _ => ?_
      simp only [div, Fin.sum_univ_two, Pi.mul_apply, Jet.mul_g, ht, htg]; ring
    have e2 : (∑ s, m.wS s * jumpV (fun i => u i * test) s) =
        ∑ s, m.wS s * (outP u s * on S k (.plus s) + outM u s * on S k (.minus s)) := by
      refine Finset.sum_congr rfl fun s _ => ?_
      simp only [jumpV, outP, outM, Fin.sum_univ_two, Pi.mul_apply, Jet.mul_v, ht]; ring
    have e3 : (∑ b, m.wB b * normalAt (fun i => u i * test) b) = ∑ b, m.wB b * (normalAt u b * on S k (.bnd b)) := by
      refine Finset.sum_congr rfl fun b _ => ?_
      simp only [normalAt, Fin.sum_univ_two, Pi.mul_apply, Jet.mul_v, ht]; ring
    rw [e1, e2, e3] at h
    exact h
  have key : σ * (cellInt S k c + dt * Tracer2.advection T F bc c test - κ * cellInt S k (cst m 1)) =
      (∑ x, (W.a x + dt * (m.wC x * div u (.cell x))) * (σ * ((c (.cell x)).v - κ)) * on S k (.cell x)) +
      (∑ s, ((W.p s * (σ * ((c (.plus s)).v - κ)) - dt * (m.wS s * (outP u s *
          (σ * ((c (.minus s)).v - κ) * Tracer2.upwind T ((outM u s - outP u s) / 2) +
            σ * ((c (.plus s)).v - κ) * (1 - Tracer2.upwind T ((outM u s - outP u s) / 2))))) +
          dt * (m.wS s * (lfSpeed T F u s * (σ * ((c (.minus s)).v - κ) - σ * ((c (.plus s)).v - κ))))) *
            on S k (.plus s) +
        (W.q s * (σ * ((c (.minus s)).v - κ)) - dt * (m.wS s * (outM u s *
          (σ * ((c (.minus s)).v - κ) * Tracer2.upwind T ((outM u s - outP u s) / 2) +
            σ * ((c (.plus s)).v - κ) * (1 - Tracer2.upwind T ((outM u s - outP u s) / 2))))) +
          dt * (m.wS s * (lfSpeed T F u s * (σ * ((c (.plus s)).v - κ) - σ * ((c (.minus s)).v - κ))))) *
            on S k (.minus s))) +
      ∑ b, (W.b b * (σ * ((c (.bnd b)).v - κ)) - dt * (m.wB b * (normalAt u b *
        (σ * (passes T u (bc (m.marker b)) c b - κ))))) * on S k (.bnd b) := by
    unfold Splits at hc h1
    rw [hc, h1, hadv]
    have eX : (∑ x, (W.a x + dt * (m.wC x * div u (.cell x))) * (σ * ((c (.cell x)).v - κ)) * on S k (.cell x)) =
        σ * (∑ x, W.a x * ((c (.cell x)).v * on S k (.cell x))) +
        σ * dt * (∑ x, m.wC x * (div u (.cell x) * on S k (.cell x) * (c (.cell x)).v)) -
        σ * κ * (∑ x, W.a x * ((cst m 1 (.cell x)).v * on S k (.cell x))) -
        σ * dt * κ * ∑ x, m.wC x * (div u (.cell x) * on S k (.cell x)) := by
      simp only [Finset.mul_sum, ← Finset.sum_sub_distrib, ← Finset.sum_add_distrib]
      refine Finset.sum_congr rfl fun x _ => ?_
      simp only [cst_apply, Jet.const_v]
      ring
    have eB : (∑ b, (W.b b * (σ * ((c (.bnd b)).v - κ)) - dt * (m.wB b * (normalAt u b *
        (σ * (passes T u (bc (m.marker b)) c b - κ))))) * on S k (.bnd b)) =
        σ * (∑ b, W.b b * ((c (.bnd b)).v * on S k (.bnd b))) -
        σ * dt * (∑ b, m.wB b * (passes T u (bc (m.marker b)) c b * normalAt u b * on S k (.bnd b))) -
        σ * κ * (∑ b, W.b b * ((cst m 1 (.bnd b)).v * on S k (.bnd b))) +
        σ * dt * κ * ∑ b, m.wB b * (normalAt u b * on S k (.bnd b)) := by
      simp only [Finset.mul_sum, ← Finset.sum_sub_distrib, ← Finset.sum_add_distrib]
      refine Finset.sum_congr rfl fun x _ => ?_
      simp only [cst_apply, Jet.const_v]
      ring
    have eS : (∑ s, ((W.p s * (σ * ((c (.plus s)).v - κ)) - dt * (m.wS s * (outP u s *
          (σ * ((c (.minus s)).v - κ) * Tracer2.upwind T ((outM u s - outP u s) / 2) +
            σ * ((c (.plus s)).v - κ) * (1 - Tracer2.upwind T ((outM u s - outP u s) / 2))))) +
          dt * (m.wS s * (lfSpeed T F u s * (σ * ((c (.minus s)).v - κ) - σ * ((c (.plus s)).v - κ))))) *
            on S k (.plus s) +
        (W.q s * (σ * ((c (.minus s)).v - κ)) - dt * (m.wS s * (outM u s *
          (σ * ((c (.minus s)).v - κ) * Tracer2.upwind T ((outM u s - outP u s) / 2) +
            σ * ((c (.plus s)).v - κ) * (1 - Tracer2.upwind T ((outM u s - outP u s) / 2))))) +
          dt * (m.wS s * (lfSpeed T F u s * (σ * ((c (.plus s)).v - κ) - σ * ((c (.minus s)).v - κ))))) *
            on S k (.minus s))) =
        σ * (∑ s, (W.p s * ((c (.plus s)).v * on S k (.plus s)) + W.q s * ((c (.minus s)).v * on S k (.minus s)))) -
        σ * dt * (∑ s, m.wS s * (((c (.minus s)).v * Tracer2.upwind T ((outM u s - outP u s) / 2) +
          (c (.plus s)).v * (1 - Tracer2.upwind T ((outM u s - outP u s) / 2))) *
        (outP u s * on S k (.plus s) + outM u s * on S k (.minus s)) +
        lfSpeed T F u s * ((on S k (.plus s) - on S k (.minus s)) * ((c (.plus s)).v - (c (.minus s)).v)))) -
        σ * κ * (∑ s, (W.p s * ((cst m 1 (.plus s)).v * on S k (.plus s)) +
          W.q s * ((cst m 1 (.minus s)).v * on S k (.minus s)))) +
        σ * dt * κ * ∑ s, m.wS s * (outP u s * on S k (.plus s) + outM u s * on S k (.minus s)) := by
      simp only [Finset.mul_sum, ← Finset.sum_sub_distrib, ← Finset.sum_add_distrib]
      refine Finset.sum_congr rfl fun x _ => ?_
      simp only [cst_apply, Jet.const_v]
      ring
    rw [eX, eB, eS, hone]
    ring
  rw [key]
  refine add_nonneg (add_nonneg (Finset.sum_nonneg fun x _ => ?_) (Finset.sum_nonneg fun s _ => ?_))
    (Finset.sum_nonneg fun b _ => ?_)
  · unfold on
    split
    · next h => exact mul_nonneg (mul_nonneg (hlim.cell x h) (hb.cell x h)) (by norm_num)
    · simp
  · have hL : 0 ≤ lfSpeed T F u s := by
      unfold lfSpeed
      split
      · positivity
      · exact le_rfl
    refine add_nonneg ?_ ?_
    · by_cases h : S.at (.plus s) = k
      · obtain ⟨hP, hM⟩ := hb.facet s (Or.inl h)
        simp only [on, h, if_true, mul_one]
        exact side_plus T _ _ _ _ _ _ _ _ (hal s) hP hM (m.wS_nonneg s) hdt hL (hlim.plus s h)
      · simp [on, h]
    · by_cases h : S.at (.minus s) = k
      · obtain ⟨hP, hM⟩ := hb.facet s (Or.inr h)
        simp only [on, h, if_true, mul_one]
        exact side_minus T _ _ _ _ _ _ _ _ (hal s) hP hM (m.wS_nonneg s) hdt hL (hlim.minus s h)
      · simp [on, h]
  · by_cases h : S.at (.bnd b) = k
    · simp only [on, h, if_true, mul_one]
      refine side_bnd T u _ c b σ κ _ _ dt (m.wB_nonneg b) hdt (hb.bnd b h) ?_ (hlim.bnd b h)
      intro v hv
      cases hf : bc (m.marker b) with
      | none => rw [hf] at hv; cases hv
      | some f => rw [hf] at hv; exact hb.value b f v h hf hv
    · simp [on, h]

/-! ### The tracer space -/

variable {ι V : Type} [Fintype ι]

/-- Linear basis functions: between zero and one, with sum one. -/
structure Space.Linear (S : Space m ι) : Prop where
  nonneg : ∀ x i, 0 ≤ (S.basis x i).v
  one : ∀ x, ∑ i, (S.basis x i).v = 1
  flat : ∀ x j, ∑ i, (S.basis x i).g j = 0

/-- The function that is one on the cell `k`. -/
def oneOn (S : Space m ι) (k : S.cells.K) : S.cells.K → ι → ℝ := fun k' _ => if k' = k then 1 else 0

theorem field_on (S : Space m ι) (hS : S.Linear) (k : S.cells.K) (x : Pt m) :
    (S.field (oneOn S k) x).v = on S.cells k x ∧ ∀ j, (S.field (oneOn S k) x).g j = 0 := by
  simp only [Space.field, oneOn, on, ← Finset.mul_sum, hS.one, hS.flat, mul_one, mul_zero, implies_true, and_self]

/-- The values of a function at the points of a cell are between bounds of its nodal values. -/
theorem field_between (S : Space m ι) (hS : S.Linear) (q : S.cells.K → ι → ℝ) (A B : ℝ) (x : Pt m)
    (h : ∀ i, A ≤ q (S.cells.at x) i ∧ q (S.cells.at x) i ≤ B) :
    A ≤ (S.field q x).v ∧ (S.field q x).v ≤ B := by
  constructor
  · calc A = ∑ i, A * (S.basis x i).v := by rw [← Finset.mul_sum, hS.one, mul_one]
      _ ≤ _ := Finset.sum_le_sum fun i _ => mul_le_mul_of_nonneg_right (h i).1 (hS.nonneg x i)
  · calc (S.field q x).v ≤ ∑ i, B * (S.basis x i).v :=
        Finset.sum_le_sum fun i _ => mul_le_mul_of_nonneg_right (h i).2 (hS.nonneg x i)
      _ = B := by rw [← Finset.mul_sum, hS.one, mul_one]

/-- What a step needs: discontinuous elements, no prescribed velocity at the boundary, water that passes each facet point in
one direction, a quadrature that integrates the divergence in each cell exactly, and a time step within the limit of
each cell for weights that give the integrals of the functions of the space. -/
structure Admissible (S : Space m ι) (T : Tracer2.Term m) (F : Tracer2.Flow m) (bc : ℕ → Option (Tracer2.BFuncs m))
    (u : Vc m) (W : Weights m) (dt : ℝ) : Prop where
  velocity : F.uv = some u
  dg : T.dg = true
  step : 0 ≤ dt
  lf : 0 ≤ F.lfFactor
  conditions : ∀ j f, bc j = some f → Tracer2.NoVelocity f
  exact_ : ∀ k, DivExact m fun i => Tracer2.corrected F u i * S.field (oneOn S k)
  aligned : ∀ s, Aligned (outP (Tracer2.corrected F u) s) (outM (Tracer2.corrected F u) s)
  splits : ∀ k q, Splits S.cells k W (S.field q)
  limit : ∀ k, Limit S.cells k W T F (Tracer2.corrected F u) dt

theorem splits_congr (S : Cells m) (k : S.K) (W : Weights m) (f g : Sc m) (h : ∀ x, (f x).v = (g x).v)
    (hf : Splits S k W f) : Splits S k W g := by
  unfold Splits cellInt at *
  simp only [h] at hf
  exact hf

/-- C125: after a step of forward Euler the mean of the tracer over a cell is between any bounds of the values of the tracer
before the step in the cell and across its facets, and of the values prescribed at its boundary. -/
theorem C125_mean (S : Space m ι) (hS : S.Linear) (T : Tracer2.Term m) (F : Tracer2.Flow m)
    (bc : ℕ → Option (Tracer2.BFuncs m)) (u : Vc m) (W : Weights m) (dt A B : ℝ) (q q' : S.cells.K → ι → ℝ)
    (k : S.cells.K) (hflat : m.Flat) (had : Admissible S T F bc u W dt) (hstep : Euler S T F bc dt q q')
    (hA : Beyond S.cells k bc (S.field q) 1 A) (hB : Beyond S.cells k bc (S.field q) (-1) B) :
    A * cellInt S.cells k (cst m 1) ≤ cellInt S.cells k (S.field q') ∧
      cellInt S.cells k (S.field q') ≤ B * cellInt S.cells k (cst m 1) := by
  have h1 : Splits S.cells k W (cst m 1) :=
    splits_congr S.cells k W (S.field fun _ _ => 1) _ (fun x => by simp [Space.field, hS.one]) (had.splits k _)
  have hs := hstep (oneOn S k)
  simp only [(field_on S hS k _).1] at hs
  have lo := mean_beyond S.cells k W T F bc u dt 1 A (S.field q) (S.field (oneOn S k)) had.velocity had.dg hflat had.step
    had.lf (fun x => (field_on S hS k x).1) (fun x => (field_on S hS k x).2) had.conditions (had.exact_ k) had.aligned
    (had.splits k q) h1 (had.limit k) hA
  have hi := mean_beyond S.cells k W T F bc u dt (-1) B (S.field q) (S.field (oneOn S k)) had.velocity had.dg hflat
    had.step had.lf (fun x => (field_on S hS k x).1) (fun x => (field_on S hS k x).2) had.conditions (had.exact_ k)
    had.aligned (had.splits k q) h1 (had.limit k) hB
  unfold cellInt at *
  constructor <;> linarith

/-! ### With the limiter -/

/-- The limiter works on the same cells: it knows all of them, their volume is positive, and it integrates the basis
functions exactly. -/
structure Fits (S : Space m ι) (L : Limiter.Mesh S.cells.K V ι) : Prop where
  all : ∀ k, k ∈ L.cells
  mass : ∀ k i, L.mass k i = m.dx fun x => (S.basis (.cell x) i).v * on S.cells k (.cell x)
  volume : ∀ k, 0 < cellInt S.cells k (cst m 1)

theorem mean_eq (S : Space m ι) (hS : S.Linear) (L : Limiter.Mesh S.cells.K V ι) (hL : Fits S L)
    (q : S.cells.K → ι → ℝ) (k : S.cells.K) :
    Limiter.cellMean L q k = cellInt S.cells k (S.field q) / cellInt S.cells k (cst m 1) := by
  have h1 : ∑ i, L.mass k i * q k i = cellInt S.cells k (S.field q) := by
    simp only [hL.mass, cellInt, Mesh.dx, Finset.sum_mul]
    rw [Finset.sum_comm]
    refine Finset.sum_congr rfl fun x _ => ?_
    simp only [Space.field, Finset.sum_mul, Finset.mul_sum]
    refine Finset.sum_congr rfl fun i _ => ?_
    unfold on
    split
    · next h => rw [h]; ring
    · simp
  have h2 : ∑ i, L.mass k i = cellInt S.cells k (cst m 1) := by
    simp only [hL.mass, cellInt, Mesh.dx]
    rw [Finset.sum_comm]
    refine Finset.sum_congr rfl fun x _ => ?_
    rw [← Finset.mul_sum, ← Finset.sum_mul, hS.one]
    simp
  rw [Limiter.cellMean, h1, h2]

/-- C125: the limiter turns means between bounds into nodal values between the same bounds, if the means over the boundary
facets, which it also takes as bounds, are between them. -/
theorem C125_limited (S : Space m ι) (hS : S.Linear) (L : Limiter.Mesh S.cells.K V ι) (hL : Fits S L) (order : List ι)
    (horder : ∀ i, i ∈ order) (q : S.cells.K → ι → ℝ) (A B : ℝ) (hA : -1e300 ≤ A) (hB : B ≤ 1e300)
    (hmean : ∀ k, A * cellInt S.cells k (cst m 1) ≤ cellInt S.cells k (S.field q) ∧
      cellInt S.cells k (S.field q) ≤ B * cellInt S.cells k (cst m 1))
    (hfac : ∀ f ∈ L.facets, A ≤ (f.2.map (q f.1)).sum / f.2.length ∧ (f.2.map (q f.1)).sum / f.2.length ≤ B)
    (k : S.cells.K) (i : ι) : A ≤ Limiter.apply true L L order q k i ∧ Limiter.apply true L L order q k i ≤ B := by
  have hx : ∀ x, Limiter.Enters L (Limiter.cellMean L q) q (L.vert k i) x → A ≤ x ∧ x ≤ B := by
    rintro x (⟨c, _, _, rfl⟩ | ⟨f, hf, _, rfl⟩)
    · rw [mean_eq S hS L hL, le_div_iff₀ (hL.volume c), div_le_iff₀ (hL.volume c)]
      exact hmean c
    · exact hfac f hf
  obtain ⟨lo, hi, hlo, hhi, h1, h2⟩ := Limiter.C49_bounds L L true (Or.inl rfl) order horder q k (hL.all k) i
    fun x h => ⟨hA.trans (hx x h).1, (hx x h).2.trans hB⟩
  exact ⟨(hx lo hlo).1.trans h1, h2.trans (hx hi hhi).2⟩

theorem beyond_of_nodes (S : Space m ι) (hS : S.Linear) (bc : ℕ → Option (Tracer2.BFuncs m)) (q : S.cells.K → ι → ℝ)
    (A B : ℝ) (hq : ∀ k i, A ≤ q k i ∧ q k i ≤ B)
    (hv : ∀ b f v, bc (m.marker b) = some f → f.value = some v → A ≤ (v b).v ∧ (v b).v ≤ B) (k : S.cells.K) :
    Beyond S.cells k bc (S.field q) 1 A ∧ Beyond S.cells k bc (S.field q) (-1) B := by
  have h := fun x => field_between S hS q A B x (hq _)
  refine ⟨⟨?_, ?_, ?_, ?_⟩, ⟨?_, ?_, ?_, ?_⟩⟩
  · intro x _; linarith [(h (.cell x)).1]
  · intro s _; constructor <;> linarith [(h (.plus s)).1, (h (.minus s)).1]
  · intro b _; linarith [(h (.bnd b)).1]
  · intro b f v _ hf hw; linarith [(hv b f v hf hw).1]
  · intro x _; linarith [(h (.cell x)).2]
  · intro s _; constructor <;> linarith [(h (.plus s)).2, (h (.minus s)).2]
  · intro b _; linarith [(h (.bnd b)).2]
  · intro b f v _ hf hw; linarith [(hv b f v hf hw).2]

/-- C125: one step with the limiter on a mesh without boundary facets keeps all bounds of the nodal values. -/
theorem C125_step (S : Space m ι) (hS : S.Linear) (T : Tracer2.Term m) (F : Tracer2.Flow m)
    (bc : ℕ → Option (Tracer2.BFuncs m)) (u : Vc m) (W : Weights m) (dt A B : ℝ) (q q' : S.cells.K → ι → ℝ)
    (L : Limiter.Mesh S.cells.K V ι) (hL : Fits S L) (order : List ι) (horder : ∀ i, i ∈ order) (hflat : m.Flat)
    (had : Admissible S T F bc u W dt) (hstep : Step S T F bc dt (limiterOn true 1) L order q q')
    (hA : -1e300 ≤ A) (hB : B ≤ 1e300) (hfac : L.facets = [])
    (hv : ∀ b f v, bc (m.marker b) = some f → f.value = some v → A ≤ (v b).v ∧ (v b).v ≤ B)
    (hq : ∀ k i, A ≤ q k i ∧ q k i ≤ B) : ∀ k i, A ≤ q' k i ∧ q' k i ≤ B := by
  obtain ⟨q1, he, rfl⟩ := hstep
  intro k i
  refine C125_limited S hS L hL order horder q1 A B hA hB ?_ (by simp [hfac]) k i
  intro k
  obtain ⟨h1, h2⟩ := beyond_of_nodes S hS bc q A B hq hv k
  exact C125_mean S hS T F bc u W dt A B q q1 k hflat had he h1 h2

/-- C125: so does a run of any number of steps, with flow and time step that change from step to step. -/
theorem C125_run (S : Space m ι) (hS : S.Linear) (T : Tracer2.Term m) (F : ℕ → Tracer2.Flow m)
    (bc : ℕ → ℕ → Option (Tracer2.BFuncs m)) (u : ℕ → Vc m) (W : Weights m) (dt : ℕ → ℝ) (A B : ℝ)
    (q : ℕ → S.cells.K → ι → ℝ) (L : Limiter.Mesh S.cells.K V ι) (hL : Fits S L) (order : List ι)
    (horder : ∀ i, i ∈ order) (hflat : m.Flat) (had : ∀ n, Admissible S T (F n) (bc n) (u n) W (dt n))
    (hstep : ∀ n, Step S T (F n) (bc n) (dt n) (limiterOn true 1) L order (q n) (q (n + 1)))
    (hA : -1e300 ≤ A) (hB : B ≤ 1e300) (hfac : L.facets = [])
    (hv : ∀ n b f v, bc n (m.marker b) = some f → f.value = some v → A ≤ (v b).v ∧ (v b).v ≤ B)
    (hq : ∀ k i, A ≤ q 0 k i ∧ q 0 k i ≤ B) (n : ℕ) : ∀ k i, A ≤ q n k i ∧ q n k i ≤ B := by
  induction n with
  | zero => exact hq
  | succ n ih =>
    exact C125_step S hS T (F n) (bc n) (u n) W (dt n) A B (q n) (q (n + 1)) L hL order horder hflat (had n) (hstep n)
      hA hB hfac (hv n) ih

/-- C125: with a boundary the bounds are kept if the new tracer, before the limiter, keeps them in the mean over each boundary
facet. -/
theorem C125_step_boundary (S : Space m ι) (hS : S.Linear) (T : Tracer2.Term m) (F : Tracer2.Flow m)
    (bc : ℕ → Option (Tracer2.BFuncs m)) (u : Vc m) (W : Weights m) (dt A B : ℝ) (q q1 : S.cells.K → ι → ℝ)
    (L : Limiter.Mesh S.cells.K V ι) (hL : Fits S L) (order : List ι) (horder : ∀ i, i ∈ order) (hflat : m.Flat)
    (had : Admissible S T F bc u W dt) (he : Euler S T F bc dt q q1) (hA : -1e300 ≤ A) (hB : B ≤ 1e300)
    (hfac : ∀ f ∈ L.facets, A ≤ (f.2.map (q1 f.1)).sum / f.2.length ∧ (f.2.map (q1 f.1)).sum / f.2.length ≤ B)
    (hv : ∀ b f v, bc (m.marker b) = some f → f.value = some v → A ≤ (v b).v ∧ (v b).v ≤ B)
    (hq : ∀ k i, A ≤ q k i ∧ q k i ≤ B) (k : S.cells.K) (i : ι) :
    A ≤ Limiter.apply true L L order q1 k i ∧ Limiter.apply true L L order q1 k i ≤ B := by
  refine C125_limited S hS L hL order horder q1 A B hA hB ?_ hfac k i
  intro k
  obtain ⟨h1, h2⟩ := beyond_of_nodes S hS bc q A B hq hv k
  exact C125_mean S hS T F bc u W dt A B q q1 k hflat had he h1 h2

/-- C125: the limiter is on exactly if the option is set and the degree of velocity and elevation is positive. -/
theorem C125_limiter_on (use : Bool) (p : ℕ) : limiterOn use p = true ↔ use = true ∧ 0 < p := by
  simp [limiterOn]

/-- C125 (violated): with `polynomial_degree` zero the option is ignored although tracers are linear in each cell. -/
theorem C125_degree_violated : limiterOn true 0 = false := rfl

end Verif.Bound2
