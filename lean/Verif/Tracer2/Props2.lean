import Verif.Tracer2.Props

/-!
C73: the advection term with the solution as test function: rate of change of half the integral of the square
of the tracer.
-/

namespace Verif.Tracer2

open Verif.Dg

variable {m : Mesh 2}

/-- The advecting velocity at a point: velocity times factor. -/
def vel (F : Flow m) (u : Vc m) (i : Fin 2) (x : Pt m) : ℝ := (F.factor x).v * (u i x).v

/-- Normal velocity out of the minus side of an interior facet. -/
def qS (F : Flow m) (u : Vc m) (s : m.S) : ℝ := ∑ i, vel F u i (.minus s) * m.nm s i

/-- Normal velocity out of the domain. -/
def qB (F : Flow m) (u : Vc m) (b : m.B) : ℝ := ∑ i, vel F u i (.bnd b) * m.nb b i

/-- What a boundary point adds to the rate: outflow takes away the square of the interior value; inflow with a
prescribed value `v` adds its square, less the square of the difference. -/
noncomputable def bndRate (f : Option (BFuncs m)) (q c : ℝ) (b : m.B) : ℝ :=
  match f.bind BFuncs.value with
  | none => -(q / 2 * c ^ 2)
  | some v => if 0 ≤ q then -(q / 2 * c ^ 2) else -q / 2 * ((v b).v ^ 2 - (c - (v b).v) ^ 2)

theorem upwind_mul (T : Term m) (q : ℝ) : upwind T q * q = (|q| + q) / 2 := by
  unfold upwind
  have := sgn_mul_self T.z q
  linear_combination this / 2

theorem unAv_eq (F : Flow m) (u : Vc m) (hflat : m.Flat) (s : m.S)
    (hcont : jumpV (corrected F u) s = 0) : unAv (corrected F u) s = qS F u s := by
  simp only [jumpV, Fin.sum_univ_two, corrected, Pi.mul_apply, Jet.mul_v, hflat s] at hcont
  simp only [unAv, avg, qS, vel, Fin.sum_univ_two, corrected, Pi.mul_apply, Jet.mul_v, hflat s]
  linear_combination -(1 / 2) * hcont

/-- C73: for a velocity whose normal component is continuous over the interior facets, the rate is a volume
term for the divergence, minus a nonnegative sum over the interior facets, plus the boundary terms. -/
theorem C73_identity (T : Term m) (F : Flow m) (bc : ℕ → Option (BFuncs m)) (u : Vc m) (c : Sc m)
    (hu : F.uv = some u) (hdg : T.dg = true) (hflat : m.Flat)
    (hcont : ∀ s, jumpV (fun i => F.factor * u i) s = 0)
    (hno : ∀ j f, bc j = some f → NoVelocity f)
    (hdiv : DivExact m fun i => F.factor * u i * c * c) :
    advection T F bc c c =
      (1 / 2) * (m.dx fun x => div (fun i => F.factor * u i) (.cell x) * (c (.cell x)).v ^ 2) -
      (m.dS fun s => (1 / 2) * |qS F u s| * (1 + if T.lf then F.lfFactor else 0) *
        ((c (.plus s)).v - (c (.minus s)).v) ^ 2) +
      ∑ b, m.wB b * bndRate (bc (m.marker b)) (qB F u b) (c (.bnd b)).v b := by
  rw [advection_eq T F bc u _ c hu]
  simp only [hdg, if_true]
  have hvol : (m.dx fun x => div (fun i => corrected F u i * c) (.cell x) * (c (.cell x)).v) =
      (1 / 2) * (m.dx fun x => div (fun i => F.factor * u i) (.cell x) * (c (.cell x)).v ^ 2) +
      (1 / 2) * m.dx fun x => div (fun i => F.factor * u i * c * c) (.cell x) := by
    rw [← dx_smul, ← dx_smul, ← dx_add]
    refine dx_congr fun x => ?_
    simp only [div, corrected, Fin.sum_univ_two, Pi.mul_apply, Jet.mul_g, Jet.mul_v]
    ring
  have hcont' : ∀ s, jumpV (corrected F u) s = 0 := hcont
  have hfac : m.dS (advFacet T (corrected F u) c c) + (if T.lf = true then m.dS fun s =>
        1 / 2 * |unAv (corrected F u) s| * F.lfFactor * (jump c s * jump c s) else 0) =
      (1 / 2) * (m.dS fun s => jumpV (fun i => F.factor * u i * c * c) s) +
      m.dS fun s => (1 / 2) * |qS F u s| * (1 + if T.lf then F.lfFactor else 0) *
        ((c (.plus s)).v - (c (.minus s)).v) ^ 2 := by
    have hone : ∀ s, advFacet T (corrected F u) c c s =
        (1 / 2) * jumpV (fun i => F.factor * u i * c * c) s +
        (1 / 2) * |qS F u s| * ((c (.plus s)).v - (c (.minus s)).v) ^ 2 := by
      intro s
      have hup := upwind_mul T (qS F u s)
      have hc := hcont' s
      unfold advFacet
      rw [unAv_eq F u hflat s (hcont' s)]
      simp only [jumpV, Fin.sum_univ_two, corrected, Pi.mul_apply, Jet.mul_v] at hc ⊢
      have hq : qS F u s = (F.factor (.minus s)).v * (u 0 (.minus s)).v * m.nm s 0 +
        (F.factor (.minus s)).v * (u 1 (.minus s)).v * m.nm s 1 := by
        simp only [qS, vel, Fin.sum_univ_two]
      have hp : (F.factor (.plus s)).v * (u 0 (.plus s)).v * m.np s 0 +
          (F.factor (.plus s)).v * (u 1 (.plus s)).v * m.np s 1 = -qS F u s := by
        rw [hq]; linear_combination hc
      generalize upwind T (qS F u s) = w at hup ⊢
      generalize (c (.plus s)).v = cp
      generalize (c (.minus s)).v = cm
      have h1 : (F.factor (.plus s)).v * (u 0 (.plus s)).v * cp * m.np s 0 +
          (F.factor (.plus s)).v * (u 1 (.plus s)).v * cp * m.np s 1 = -qS F u s * cp := by
        rw [← hp]; ring
      have h2 : (F.factor (.minus s)).v * (u 0 (.minus s)).v * cm * m.nm s 0 +
          (F.factor (.minus s)).v * (u 1 (.minus s)).v * cm * m.nm s 1 = qS F u s * cm := by
        rw [hq]; ring
      have h3 : (F.factor (.plus s)).v * (u 0 (.plus s)).v * cp * cp * m.np s 0 +
          (F.factor (.plus s)).v * (u 1 (.plus s)).v * cp * cp * m.np s 1 = -qS F u s * cp * cp := by
        rw [← hp]; ring
      have h4 : (F.factor (.minus s)).v * (u 0 (.minus s)).v * cm * cm * m.nm s 0 +
          (F.factor (.minus s)).v * (u 1 (.minus s)).v * cm * cm * m.nm s 1 = qS F u s * cm * cm := by
        rw [hq]; ring
      rw [h1, h2, h3, h4]
      linear_combination (cm - cp) ^ 2 * hup
    rw [dS_congr hone]
    by_cases hl : T.lf = true
    · simp only [hl, if_true]
      rw [← dS_add, ← dS_smul, ← dS_add]
      refine dS_congr fun s => ?_
      rw [unAv_eq F u hflat s (hcont' s)]
      unfold jump
      ring
    · simp only [hl, if_false, add_zero, Bool.false_eq_true]
      rw [← dS_smul, ← dS_add]
      exact dS_congr fun s => by ring
  rw [hvol, hfac, hdiv]
  have hb : (∑ b, m.wB b * (advBndFlux T F (corrected F u) bc c (m.marker b) b * (c (.bnd b)).v)) =
      (1 / 2) * (∑ b, m.wB b * normalAt (fun i => F.factor * u i * c * c) b) -
      ∑ b, m.wB b * bndRate (bc (m.marker b)) (qB F u b) (c (.bnd b)).v b := by
    rw [← dB_smul, ← Finset.sum_sub_distrib]
    refine Finset.sum_congr rfl fun b _ => ?_
    rw [← mul_sub]
    congr 1
    have hn : normalAt (fun i => F.factor * u i * c * c) b = qB F u b * (c (.bnd b)).v ^ 2 := by
      simp only [normalAt, qB, vel, Fin.sum_univ_two, Pi.mul_apply, Jet.mul_v]; ring
    rw [hn]
    unfold advBndFlux bndRate
    cases hbc : bc (m.marker b) with
    | none =>
      simp only [corrected, Pi.mul_apply, Jet.mul_v, qB, vel, Fin.sum_univ_two, Option.bind_none]
      ring
    | some f =>
      obtain ⟨h1, h2, h3⟩ := hno _ f hbc
      simp only [bnd_noVelocity T F.factor f (m.marker b) b _ _ _ h1 h2 h3, bnd_value, Option.bind_some]
      have hq : m.nb b 0 * (1 / 2 * ((corrected F u 0 (.bnd b)).v + (corrected F u 0 (.bnd b)).v)) +
          m.nb b 1 * (1 / 2 * ((corrected F u 1 (.bnd b)).v + (corrected F u 1 (.bnd b)).v)) = qB F u b := by
        simp only [corrected, Pi.mul_apply, Jet.mul_v, qB, vel, Fin.sum_univ_two]; ring
      have hq2 : 1 / 2 * ((corrected F u 0 (.bnd b)).v + (corrected F u 0 (.bnd b)).v) * m.nb b 0 +
          1 / 2 * ((corrected F u 1 (.bnd b)).v + (corrected F u 1 (.bnd b)).v) * m.nb b 1 = qB F u b := by
        simp only [corrected, Pi.mul_apply, Jet.mul_v, qB, vel, Fin.sum_univ_two]; ring
      rw [hq, hq2]
      have hup := upwind_mul T (qB F u b)
      cases hv : f.value with
      | none => simp only; ring
      | some v =>
        simp only
        split
        · next h0 =>
          rw [abs_of_nonneg h0] at hup
          linear_combination ((c (.bnd b)).v - (v b).v) * (c (.bnd b)).v * hup
        · next h0 =>
          rw [abs_of_neg (not_le.1 h0)] at hup
          linear_combination ((c (.bnd b)).v - (v b).v) * (c (.bnd b)).v * hup
  rw [hb]
  ring

/-- C73: without divergence, with a nonnegative Lax-Friedrichs factor and with values prescribed wherever water
comes in, the square of the tracer grows at most by what the inflow brings. -/
theorem C73_bound (T : Term m) (F : Flow m) (bc : ℕ → Option (BFuncs m)) (u : Vc m) (c : Sc m)
    (hu : F.uv = some u) (hdg : T.dg = true) (hflat : m.Flat)
    (hcont : ∀ s, jumpV (fun i => F.factor * u i) s = 0)
    (hfree : ∀ x, div (fun i => F.factor * u i) (.cell x) = 0)
    (hlf : 0 ≤ F.lfFactor)
    (hno : ∀ j f, bc j = some f → NoVelocity f)
    (value : m.B → ℝ)
    (hin : ∀ b, qB F u b < 0 → ∃ f v, bc (m.marker b) = some f ∧ f.value = some v ∧ (v b).v = value b)
    (hdiv : DivExact m fun i => F.factor * u i * c * c) :
    advection T F bc c c ≤ ∑ b, m.wB b * (if qB F u b < 0 then |qB F u b| / 2 * value b ^ 2 else 0) := by
  rw [C73_identity T F bc u c hu hdg hflat hcont hno hdiv]
  have h1 : (m.dx fun x => div (fun i => F.factor * u i) (.cell x) * (c (.cell x)).v ^ 2) = 0 := by
    rw [← dx_zero (m := m)]; exact dx_congr fun x => by rw [hfree x, zero_mul]
  have h2 : 0 ≤ m.dS fun s => (1 / 2) * |qS F u s| * (1 + if T.lf then F.lfFactor else 0) *
        ((c (.plus s)).v - (c (.minus s)).v) ^ 2 := by
    refine dS_nonneg fun s => ?_
    have : 0 ≤ (1 + if T.lf then F.lfFactor else 0) := by split <;> linarith
    positivity
  have h3 : (∑ b, m.wB b * bndRate (bc (m.marker b)) (qB F u b) (c (.bnd b)).v b) ≤
      ∑ b, m.wB b * (if qB F u b < 0 then |qB F u b| / 2 * value b ^ 2 else 0) := by
    refine Finset.sum_le_sum fun b _ => mul_le_mul_of_nonneg_left ?_ (m.wB_nonneg b)
    by_cases hq : qB F u b < 0
    · obtain ⟨f, v, hf, hv, he⟩ := hin b hq
      rw [if_pos hq, abs_of_neg hq]
      simp only [bndRate, hf, Option.bind_some, hv, if_neg (not_le.2 hq), he]
      nlinarith [sq_nonneg ((c (.bnd b)).v - value b)]
    · rw [if_neg hq]
      have hq' := not_lt.1 hq
      have : bndRate (bc (m.marker b)) (qB F u b) (c (.bnd b)).v b =
          -(qB F u b / 2 * (c (.bnd b)).v ^ 2) := by
        unfold bndRate
        split
        · rfl
        · rw [if_pos hq']
      rw [this]
      have : 0 ≤ qB F u b / 2 * (c (.bnd b)).v ^ 2 := by positivity
      linarith
  rw [h1]
  linarith

/-- C73: in a basin without inflow the square of the tracer does not grow. -/
theorem C73_decay (T : Term m) (F : Flow m) (bc : ℕ → Option (BFuncs m)) (u : Vc m) (c : Sc m)
    (hu : F.uv = some u) (hdg : T.dg = true) (hflat : m.Flat)
    (hcont : ∀ s, jumpV (fun i => F.factor * u i) s = 0)
    (hfree : ∀ x, div (fun i => F.factor * u i) (.cell x) = 0)
    (hlf : 0 ≤ F.lfFactor)
    (hno : ∀ j f, bc j = some f → NoVelocity f)
    (hin : ∀ b, 0 ≤ qB F u b)
    (hdiv : DivExact m fun i => F.factor * u i * c * c) :
    advection T F bc c c ≤ 0 := by
  have h := C73_bound T F bc u c hu hdg hflat hcont hfree hlf hno (fun _ => 0)
    (fun b hb => absurd hb (not_lt.2 (hin b))) hdiv
  refine le_trans h (le_of_eq ?_)
  refine Finset.sum_eq_zero fun b _ => ?_
  simp

/-- C73: a tracer that jumps over a facet with flow through it loses square, strictly. -/
theorem C73_strict (T : Term m) (F : Flow m) (bc : ℕ → Option (BFuncs m)) (u : Vc m) (c : Sc m)
    (hu : F.uv = some u) (hdg : T.dg = true) (hflat : m.Flat)
    (hcont : ∀ s, jumpV (fun i => F.factor * u i) s = 0)
    (hfree : ∀ x, div (fun i => F.factor * u i) (.cell x) = 0)
    (hlf : 0 ≤ F.lfFactor)
    (hno : ∀ j f, bc j = some f → NoVelocity f)
    (hin : ∀ b, qB F u b = 0)
    (hdiv : DivExact m fun i => F.factor * u i * c * c)
    (s : m.S) (hw : 0 < m.wS s) (hq : qS F u s ≠ 0) (hj : (c (.plus s)).v ≠ (c (.minus s)).v) :
    advection T F bc c c < 0 := by
  rw [C73_identity T F bc u c hu hdg hflat hcont hno hdiv]
  have h1 : (m.dx fun x => div (fun i => F.factor * u i) (.cell x) * (c (.cell x)).v ^ 2) = 0 := by
    rw [← dx_zero (m := m)]; exact dx_congr fun x => by rw [hfree x, zero_mul]
  have h3 : (∑ b, m.wB b * bndRate (bc (m.marker b)) (qB F u b) (c (.bnd b)).v b) = 0 := by
    refine Finset.sum_eq_zero fun b _ => ?_
    rw [hin b]
    unfold bndRate
    split <;> simp
  have hg : 0 < 1 + (if T.lf then F.lfFactor else 0) := by split <;> linarith
  have h2 : 0 < m.dS fun s => (1 / 2) * |qS F u s| * (1 + if T.lf then F.lfFactor else 0) *
        ((c (.plus s)).v - (c (.minus s)).v) ^ 2 := by
    unfold Mesh.dS
    refine Finset.sum_pos' (fun r _ => ?_) ⟨s, Finset.mem_univ s, ?_⟩
    · exact mul_nonneg (m.wS_nonneg r) (by positivity)
    · have : 0 < |qS F u s| := abs_pos.2 hq
      have : 0 < ((c (.plus s)).v - (c (.minus s)).v) ^ 2 := by
        have := sub_ne_zero.2 hj
        positivity
      positivity
  rw [h1, h3]
  linarith

/-! ### Examples -/

/-- Uniform flow to the right. -/
noncomputable def exStream : Flow square :=
  { exFlow with uv := some fun i => cst square (if i = 0 then 1 else 0) }

/-- The tracer `1 - x`. -/
noncomputable def exRamp : Sc square := squareField ⟨1, -1, 0, 0, 0, 0⟩ ⟨1, -1, 0, 0, 0, 0⟩

theorem exStream_div (c : Sc square) (p q : Quad) (hc : c = squareField p q) (hp : p.d = 0 ∧ p.e = 0 ∧ p.f = 0)
    (hq : q.d = 0 ∧ q.e = 0 ∧ q.f = 0) :
    DivExact square fun i => exStream.factor * cst square (if i = 0 then 1 else 0) * c * c := by
  have : (fun i : Fin 2 => exStream.factor * cst square (if i = 0 then 1 else 0) * c * c) = fun i =>
      squareField (if i = 0 then Quad.mulLin p p else ⟨0, 0, 0, 0, 0, 0⟩)
        (if i = 0 then Quad.mulLin q q else ⟨0, 0, 0, 0, 0, 0⟩) := by
    funext i
    change cst square 1 * _ * c * c = _
    rw [cst_one_mul]
    fin_cases i
    · simp only [Fin.zero_eta, if_true]
      rw [cst_one_mul, hc]
      exact squareField_mul _ _ _ _ hp hq hp hq
    · simp only [Fin.mk_one, one_ne_zero, if_false]
      rw [← squareField_cst]
      funext x
      apply Jet.ext
      · simp
      · funext j; simp
  rw [this]
  exact square_divExact _ _

theorem exStream_cont (s : square.S) :
    jumpV (fun i => exStream.factor * cst square (if i = 0 then 1 else 0)) s = 0 := by
  simp [jumpV, exStream, exFlow, square_flat s]

theorem exStream_qB (b : square.B) : qB exStream (fun i => cst square (if i = 0 then 1 else 0)) b = sqNx b := by
  simp [qB, vel, exStream, exFlow, square]

/-- The hypotheses of `C73_bound` hold for the stream, a discontinuous tracer and the value 2 at the left. -/
example : advection exTerm exStream (fun j => if j = 2 then some { value := some fun _ => Jet.const 2 } else none)
    exTest exTest ≤ 2 := by
  have h := C73_bound exTerm exStream
    (fun j => if j = 2 then some { value := some fun _ => Jet.const 2 } else none)
    (fun i => cst square (if i = 0 then 1 else 0)) exTest rfl rfl square_flat exStream_cont
    (fun x => by simp [div, exStream, exFlow]) (by simp [exStream, exFlow])
    (fun j f h => by
      by_cases hj : j = 2
      · rw [if_pos hj] at h; cases h; exact ⟨rfl, rfl, rfl⟩
      · rw [if_neg hj] at h; cases h)
    (fun _ => 2)
    (fun b hb => by
      rw [exStream_qB] at hb
      refine ⟨{ value := some fun _ => Jet.const 2 }, fun _ => Jet.const 2, ?_, rfl, rfl⟩
      have : square.marker b = 2 := by
        cases b <;> simp [sqNx] at hb <;> first | rfl | (exfalso; linarith)
      rw [this]; rfl)
    (exStream_div _ _ _ rfl ⟨rfl, rfl, rfl⟩ ⟨rfl, rfl, rfl⟩)
  refine le_trans h (le_of_eq ?_)
  have e := sum_sqB fun b => sqWB b * (if sqNx b < 0 then |sqNx b| / 2 * 2 ^ 2 else 0)
  simp only [exStream_qB]
  refine Eq.trans e ?_
  simp only [sqNx, sqWB]
  norm_num

/-- C73: inflow through a boundary without an entry makes the square of the tracer grow: the incoming water is
given the interior value. -/
theorem C73_open_inflow_violated :
    advection exTerm exStream (fun _ => none) exRamp exRamp = 1 / 2 := by
  rw [C73_identity exTerm exStream (fun _ => none) (fun i => cst square (if i = 0 then 1 else 0)) exRamp rfl rfl
    square_flat exStream_cont (fun j f h => by cases h)
    (exStream_div _ _ _ rfl ⟨rfl, rfl, rfl⟩ ⟨rfl, rfl, rfl⟩)]
  have h1 : (square.dx fun x => div (fun i => exStream.factor * cst square (if i = 0 then 1 else 0)) (.cell x) *
      (exRamp (.cell x)).v ^ 2) = 0 := by
    rw [← dx_zero (m := square)]
    exact dx_congr fun x => by simp [div, exStream, exFlow]
  have h2 : (square.dS fun s => (1 / 2) * |qS exStream (fun i => cst square (if i = 0 then 1 else 0)) s| *
      (1 + if exTerm.lf then exStream.lfFactor else 0) *
        ((exRamp (.plus s)).v - (exRamp (.minus s)).v) ^ 2) = 0 := by
    rw [← dS_zero (m := square)]
    refine dS_congr fun s => ?_
    have : (exRamp (.plus s)).v - (exRamp (.minus s)).v = 0 := by
      cases s <;> simp [exRamp, squareField]
    rw [this]; ring
  have e := sum_sqB fun b => sqWB b * bndRate (m := square) none (sqNx b) (exRamp (.bnd b)).v b
  simp only [exStream_qB]
  rw [h1, h2]
  rw [show (∑ b : square.B, square.wB b * bndRate (m := square) none (sqNx b) (exRamp (.bnd b)).v b) = 1 / 2 from ?_]
  · norm_num
  refine Eq.trans e ?_
  simp only [sqNx, sqWB, bndRate, Option.bind_none, exRamp, squareField, Quad.jet]
  norm_num

end Verif.Tracer2
