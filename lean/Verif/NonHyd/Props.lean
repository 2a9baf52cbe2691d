import Verif.NonHyd.Model
import Verif.Dg.Props
import Mathlib.Tactic.FieldSimp
import Mathlib.Tactic.Linarith
import Mathlib.Algebra.BigOperators.Ring.Finset
import Mathlib.Algebra.Order.BigOperators.Group.Finset

/-! C102: the pressure step of the non-hydrostatic 2D model. -/

namespace Verif.NonHyd

open Verif.Dg

variable {d : ℕ} {m : Mesh d} (F : Flow m)

theorem cell_eq (hr : F.rho0 ≠ 0) (ht : F.dt ≠ 0) (q test : Sc m) (x : Pt m) (hx : (F.h x).v ≠ 0) :
    cellForm F q test x = F.const * ((∑ i, (test x).g i * uStar F q x i)
      - 2 * (wStar F q x - F.wb x) / (F.h x).v * (test x).v) := by
  have e1 : ∑ i, F.gh x i / (F.h x).v * (q x).g i = (∑ i, (q x).g i * F.gh x i) / (F.h x).v := by
    rw [div_eq_mul_inv, Finset.sum_mul]
    exact Finset.sum_congr rfl fun i _ => by ring
  have e2 : ∑ i, (jdiv (q x * test x) (F.h x)).g i * F.gh x i =
      (test x).v / (F.h x).v * (∑ i, (q x).g i * F.gh x i) + (q x).v / (F.h x).v * (∑ i, (test x).g i * F.gh x i)
        - (q x).v * (test x).v / (F.h x).v ^ 2 * ∑ i, F.gh x i * (F.h x).g i := by
    rw [Finset.mul_sum, Finset.mul_sum, Finset.mul_sum, ← Finset.sum_add_distrib, ← Finset.sum_sub_distrib]
    refine Finset.sum_congr rfl fun i _ => ?_
    simp only [jdiv, Jet.mul_v, Jet.mul_g]
    field_simp
  have e3 : ∑ i, (test x).g i * uStar F q x i = (∑ i, (test x).g i * (F.uv i x).v)
      - 1 / 2 * F.dt / F.rho0 * ((∑ i, (q x).g i * (test x).g i)
        + (q x).v / (F.h x).v * ∑ i, (test x).g i * F.gh x i) := by
    rw [Finset.mul_sum, ← Finset.sum_add_distrib, Finset.mul_sum, ← Finset.sum_sub_distrib]
    refine Finset.sum_congr rfl fun i _ => ?_
    simp only [uStar]
    field_simp
  unfold cellForm
  rw [e1, e2, e3]
  unfold Flow.const wStar
  generalize (∑ i, (q x).g i * (test x).g i) = A
  generalize (∑ i, (q x).g i * F.gh x i) = B
  generalize (∑ i, (test x).g i * F.gh x i) = C
  generalize (∑ i, F.gh x i * (F.h x).g i) = D
  generalize (∑ i, (test x).g i * (F.uv i x).v) = E
  field_simp
  ring

/-- The form of the solver is the weak continuity of the corrected velocities. -/
theorem form_eq (hr : F.rho0 ≠ 0) (ht : F.dt ≠ 0) (hh : ∀ c, (F.h (.cell c)).v ≠ 0) (q test : Sc m) :
    form F q test = F.const * m.dx (fun c => (∑ i, (test (.cell c)).g i * uStar F q (.cell c) i)
      - 2 * (wStar F q (.cell c) - F.wb (.cell c)) / (F.h (.cell c)).v * (test (.cell c)).v)
      + ∑ b, m.wB b * bndForm F q test (m.marker b) b := by
  unfold form
  rw [bndLoop_eq, ← dx_smul]
  congr 1
  exact dx_congr fun c => cell_eq F hr ht q test _ (hh c)

/-- C102: the corrected velocities satisfy the depth integrated continuity equation `div u + 2 (w - w_b) / H = 0` in weak
form: for each test function of the pressure space whose gradient, and quotient by the depth, the velocity spaces can
represent. The bottom velocity `w_b` in it is that of the velocity before the correction; at open boundaries the
normal velocity enters without the pressure gradient. -/
theorem C102_continuity (hr : F.rho0 ≠ 0) (ht : F.dt ≠ 0) (hh : ∀ c, (F.depth.total (.cell c) (F.elev (.cell c))).v ≠ 0)
    (Q W : Set (Sc m)) (U : Set (Vc m)) (q w' : Sc m) (u' : Vc m) (hq : SolvesQ F Q q) (hu : SolvesU F U q u')
    (hw : SolvesW F W q w') (test : Sc m) (hm : test ∈ Q)
    (hU : ∃ t ∈ U, ∀ c i, (t i (.cell c)).v = (test (.cell c)).g i)
    (hW : ∃ t ∈ W, ∀ c, (t (.cell c)).v =
      (test (.cell c)).v / (F.depth.total (.cell c) (F.elev (.cell c))).v) :
    m.dx (fun c => ∑ i, (u' i (.cell c)).v * (test (.cell c)).g i) =
      m.dx (fun c => 2 * ((w' (.cell c)).v + ∑ i, (F.uv i (.cell c)).v * (F.depth.bathymetry (.cell c)).g i)
        / (F.depth.total (.cell c) (F.elev (.cell c))).v * (test (.cell c)).v)
      + ∑ b, m.wB b * if F.open_ (m.marker b) then (test (.bnd b)).v * ((∑ i, (F.uv i (.bnd b)).v * m.nb b i)
        - 1 / 2 * F.dt / F.rho0 * ((q (.bnd b)).v / (F.depth.total (.bnd b) (F.elev (.bnd b))).v
          * ∑ i, ((F.elev (.bnd b)).g i - (F.depth.bathymetry (.bnd b)).g i) * m.nb b i)) else 0 := by
  obtain ⟨tu, htu, eu⟩ := hU
  obtain ⟨tw, htw, ew⟩ := hW
  have h0 := hq.2 test hm
  rw [form_eq F hr ht hh] at h0
  have hu1 := hu.2 tu htu
  have hw1 := hw.2 tw htw
  have hc : F.const ≠ 0 := div_ne_zero (mul_ne_zero two_ne_zero hr) ht
  have l1 : m.dx (fun c => ∑ i, (u' i (.cell c)).v * (test (.cell c)).g i) =
      m.dx fun c => ∑ i, (test (.cell c)).g i * uStar F q (.cell c) i := by
    simp only [← eu]
    rw [hu1]
    exact dx_congr fun c => Finset.sum_congr rfl fun i _ => mul_comm _ _
  have l2 : m.dx (fun c => 2 * ((w' (.cell c)).v + ∑ i, (F.uv i (.cell c)).v * (F.depth.bathymetry (.cell c)).g i)
        / (F.depth.total (.cell c) (F.elev (.cell c))).v * (test (.cell c)).v) =
      m.dx fun c => 2 * (wStar F q (.cell c) - F.wb (.cell c)) / (F.h (.cell c)).v * (test (.cell c)).v := by
    have a1 : m.dx (fun c => 2 * ((w' (.cell c)).v + ∑ i, (F.uv i (.cell c)).v * (F.depth.bathymetry (.cell c)).g i)
        / (F.depth.total (.cell c) (F.elev (.cell c))).v * (test (.cell c)).v) =
        2 * m.dx (fun c => (w' (.cell c)).v * (tw (.cell c)).v)
          + m.dx fun c => -2 * F.wb (.cell c) / (F.h (.cell c)).v * (test (.cell c)).v := by
      rw [← dx_smul, ← dx_add]
      refine dx_congr fun c => ?_
      rw [ew c]
      unfold Flow.wb Flow.h
      ring
    rw [a1, hw1, ← dx_smul, ← dx_add]
    refine dx_congr fun c => ?_
    rw [ew c]
    unfold Flow.h
    ring
  have l3 : (∑ b, m.wB b * bndForm F q test (m.marker b) b) =
      -F.const * ∑ b, m.wB b * if F.open_ (m.marker b) then (test (.bnd b)).v * ((∑ i, (F.uv i (.bnd b)).v * m.nb b i)
        - 1 / 2 * F.dt / F.rho0 * ((q (.bnd b)).v / (F.depth.total (.bnd b) (F.elev (.bnd b))).v
          * ∑ i, ((F.elev (.bnd b)).g i - (F.depth.bathymetry (.bnd b)).g i) * m.nb b i)) else 0 := by
    rw [← dB_smul]
    refine dB_congr fun b => ?_
    unfold bndForm
    split
    · unfold Flow.const Flow.gh Flow.h
      generalize (∑ i, ((F.elev (.bnd b)).g i - (F.depth.bathymetry (.bnd b)).g i) * m.nb b i) = A
      generalize (∑ i, (F.uv i (.bnd b)).v * m.nb b i) = B
      generalize (F.depth.total (.bnd b) (F.elev (.bnd b))).v = H
      field_simp
      ring
    · simp
  rw [l3] at h0
  rw [l1, l2]
  have l4 : m.dx (fun c => (∑ i, (test (.cell c)).g i * uStar F q (.cell c) i)
      - 2 * (wStar F q (.cell c) - F.wb (.cell c)) / (F.h (.cell c)).v * (test (.cell c)).v) =
      m.dx (fun c => ∑ i, (test (.cell c)).g i * uStar F q (.cell c) i)
        - m.dx fun c => 2 * (wStar F q (.cell c) - F.wb (.cell c)) / (F.h (.cell c)).v * (test (.cell c)).v := by
    rw [sub_eq_add_neg, ← dx_neg, ← dx_add]
    exact dx_congr fun c => by ring
  rw [l4] at h0
  have h1 : F.const * (m.dx (fun c => ∑ i, (test (.cell c)).g i * uStar F q (.cell c) i)
        - m.dx (fun c => 2 * (wStar F q (.cell c) - F.wb (.cell c)) / (F.h (.cell c)).v * (test (.cell c)).v)
        - ∑ b, m.wB b * if F.open_ (m.marker b) then (test (.bnd b)).v * ((∑ i, (F.uv i (.bnd b)).v * m.nb b i)
        - 1 / 2 * F.dt / F.rho0 * ((q (.bnd b)).v / (F.depth.total (.bnd b) (F.elev (.bnd b))).v
          * ∑ i, ((F.elev (.bnd b)).g i - (F.depth.bathymetry (.bnd b)).g i) * m.nb b i)) else 0) = 0 := by linarith
  rcases mul_eq_zero.1 h1 with h | h
  · exact absurd h hc
  · linarith

/-- The water has uniform depth `H` over a flat bed. -/
structure Level (F : Flow m) (H : ℝ) : Prop where
  depth : ∀ x, (F.depth.total x (F.elev x)).v = H
  bed : ∀ x i, (F.depth.bathymetry x).g i = 0
  surface : ∀ x i, (F.elev x).g i = 0

/-- C102: in water of uniform depth with closed boundaries the corrected velocities satisfy continuity, `w_b` being zero. -/
theorem C102_level (hr : F.rho0 ≠ 0) (ht : F.dt ≠ 0) (H : ℝ) (hH : H ≠ 0) (hl : Level F H) (hc : ∀ k, F.open_ k = false)
    (Q W : Set (Sc m)) (U : Set (Vc m)) (q w' : Sc m) (u' : Vc m) (hq : SolvesQ F Q q) (hu : SolvesU F U q u')
    (hw : SolvesW F W q w') (test : Sc m) (hm : test ∈ Q)
    (hU : ∃ t ∈ U, ∀ c i, (t i (.cell c)).v = (test (.cell c)).g i)
    (hW : ∃ t ∈ W, ∀ c, (t (.cell c)).v = (test (.cell c)).v / H) :
    m.dx (fun c => ∑ i, (u' i (.cell c)).v * (test (.cell c)).g i) =
      2 / H * m.dx fun c => (w' (.cell c)).v * (test (.cell c)).v := by
  rw [C102_continuity F hr ht (fun c => by rw [hl.depth]; exact hH) Q W U q w' u' hq hu hw test hm hU
    (by simpa only [hl.depth] using hW), ← dx_smul, Finset.sum_eq_zero, add_zero]
  · refine dx_congr fun c => ?_
    rw [hl.depth]
    simp only [hl.bed, mul_zero, Finset.sum_const_zero]
    ring
  · intro b _
    simp [hc]

theorem form_level (H : ℝ) (hl : Level F H) (q test : Sc m) :
    form F q test = m.dx (fun c => -(∑ i, (q (.cell c)).g i * (test (.cell c)).g i)
        - 4 / H ^ 2 * (q (.cell c)).v * (test (.cell c)).v)
      + m.dx (fun c => F.const * ((∑ i, (test (.cell c)).g i * (F.uv i (.cell c)).v)
        - 2 * (F.w (.cell c)).v / H * (test (.cell c)).v))
      + ∑ b, m.wB b * if F.open_ (m.marker b)
        then -F.const * (∑ i, (F.uv i (.bnd b)).v * m.nb b i) * (test (.bnd b)).v else 0 := by
  have hg : ∀ x i, F.gh x i = 0 := fun x i => by unfold Flow.gh; rw [hl.bed, hl.surface, sub_zero]
  have hd : ∀ x, (F.h x).v = H := hl.depth
  have hb : ∀ x, F.wb x = 0 := fun x => by unfold Flow.wb; simp [hl.bed]
  unfold form
  rw [bndLoop_eq, ← dx_add]
  congr 1
  · refine dx_congr fun c => ?_
    unfold cellForm
    simp only [hg, hd, hb, zero_mul, mul_zero, zero_div, Finset.sum_const_zero]
    ring
  · refine dB_congr fun b => ?_
    unfold bndForm
    simp only [hg, zero_mul, Finset.sum_const_zero, mul_zero, zero_add]

/-- C102: in water of uniform depth the pressure is well defined. -/
theorem C102_unique (H : ℝ) (hH : H ≠ 0) (hl : Level F H) (Q : Set (Sc m)) (hs : ∀ a ∈ Q, ∀ b ∈ Q, a - b ∈ Q)
    (q q' : Sc m) (hq : SolvesQ F Q q) (hq' : SolvesQ F Q q') (c : m.C) (hc : 0 < m.wC c) :
    (q (.cell c)).v = (q' (.cell c)).v ∧ ∀ i, (q (.cell c)).g i = (q' (.cell c)).g i := by
  have h1 := hq.2 _ (hs q hq.1 q' hq'.1)
  have h2 := hq'.2 _ (hs q hq.1 q' hq'.1)
  rw [form_level F H hl] at h1 h2
  have h3 : m.dx (fun c => (∑ i, ((q (.cell c)).g i - (q' (.cell c)).g i) ^ 2)
      + 4 / H ^ 2 * ((q (.cell c)).v - (q' (.cell c)).v) ^ 2) = 0 := by
    have e : m.dx (fun c => (∑ i, ((q (.cell c)).g i - (q' (.cell c)).g i) ^ 2)
        + 4 / H ^ 2 * ((q (.cell c)).v - (q' (.cell c)).v) ^ 2) =
        m.dx (fun c => -(∑ i, (q' (.cell c)).g i * ((q - q') (.cell c)).g i)
          - 4 / H ^ 2 * (q' (.cell c)).v * ((q - q') (.cell c)).v)
        - m.dx (fun c => -(∑ i, (q (.cell c)).g i * ((q - q') (.cell c)).g i)
          - 4 / H ^ 2 * (q (.cell c)).v * ((q - q') (.cell c)).v) := by
      rw [sub_eq_add_neg (m.dx _), ← dx_neg, ← dx_add]
      refine dx_congr fun c => ?_
      have : ∑ i, ((q (.cell c)).g i - (q' (.cell c)).g i) ^ 2 =
          (∑ i, (q (.cell c)).g i * ((q - q') (.cell c)).g i) - ∑ i, (q' (.cell c)).g i * ((q - q') (.cell c)).g i := by
        rw [← Finset.sum_sub_distrib]
        refine Finset.sum_congr rfl fun i _ => ?_
        simp only [Pi.sub_apply, Jet.sub_g]
        ring
      rw [this]
      simp only [Pi.sub_apply, Jet.sub_v]
      ring
    rw [e]
    linarith
  have hn : ∀ c, 0 ≤ (∑ i, ((q (.cell c)).g i - (q' (.cell c)).g i) ^ 2)
      + 4 / H ^ 2 * ((q (.cell c)).v - (q' (.cell c)).v) ^ 2 := fun c => by
    have := Finset.sum_nonneg fun i (_ : i ∈ Finset.univ) => sq_nonneg ((q (.cell c)).g i - (q' (.cell c)).g i)
    positivity
  have h4 := (Finset.sum_eq_zero_iff_of_nonneg fun c _ => mul_nonneg (m.wC_nonneg c) (hn c)).1 h3 c (Finset.mem_univ _)
  have h5 := (mul_eq_zero.1 h4).resolve_left hc.ne'
  have h6 := Finset.sum_nonneg fun i (_ : i ∈ Finset.univ) => sq_nonneg ((q (.cell c)).g i - (q' (.cell c)).g i)
  have h7 : 0 ≤ 4 / H ^ 2 * ((q (.cell c)).v - (q' (.cell c)).v) ^ 2 := by positivity
  have h8 : 4 / H ^ 2 * ((q (.cell c)).v - (q' (.cell c)).v) ^ 2 = 0 := by linarith
  have h9 : ∑ i, ((q (.cell c)).g i - (q' (.cell c)).g i) ^ 2 = 0 := by linarith
  constructor
  · have : ((q (.cell c)).v - (q' (.cell c)).v) ^ 2 = 0 := (mul_eq_zero.1 h8).resolve_left (by positivity)
    linarith [pow_eq_zero_iff (two_ne_zero) |>.1 this]
  · intro i
    have := (Finset.sum_eq_zero_iff_of_nonneg fun i _ => sq_nonneg _).1 h9 i (Finset.mem_univ _)
    linarith [pow_eq_zero_iff (two_ne_zero) |>.1 this]

/-- C102: a flow that satisfies continuity is left alone: no pressure is a solution, and without pressure the velocities
are projected as they are. -/
theorem C102_idle (hr : F.rho0 ≠ 0) (ht : F.dt ≠ 0) (hh : ∀ c, (F.depth.total (.cell c) (F.elev (.cell c))).v ≠ 0)
    (Q : Set (Sc m)) (hz : cst m 0 ∈ Q)
    (hd : ∀ test ∈ Q, m.dx (fun c => ∑ i, (F.uv i (.cell c)).v * (test (.cell c)).g i) =
      m.dx (fun c => 2 * ((F.w (.cell c)).v + ∑ i, (F.uv i (.cell c)).v * (F.depth.bathymetry (.cell c)).g i)
        / (F.depth.total (.cell c) (F.elev (.cell c))).v * (test (.cell c)).v)
      + ∑ b, m.wB b * if F.open_ (m.marker b) then (∑ i, (F.uv i (.bnd b)).v * m.nb b i) * (test (.bnd b)).v else 0) :
    SolvesQ F Q (cst m 0) ∧ (∀ U, F.uv ∈ U → SolvesU F U (cst m 0) F.uv) ∧ ∀ W, F.w ∈ W → SolvesW F W (cst m 0) F.w := by
  have eu : ∀ x i, uStar F (cst m 0) x i = (F.uv i x).v := fun x i => by simp [uStar]
  have ew : ∀ x, wStar F (cst m 0) x = (F.w x).v := fun x => by simp [wStar]
  refine ⟨⟨hz, fun test hm => ?_⟩, fun U hU => ⟨hU, fun t _ => ?_⟩, fun W hW => ⟨hW, fun t _ => ?_⟩⟩
  · rw [form_eq F hr ht hh]
    simp only [eu, ew]
    have h := hd test hm
    have l3 : (∑ b, m.wB b * bndForm F (cst m 0) test (m.marker b) b) = -F.const * ∑ b, m.wB b *
        if F.open_ (m.marker b) then (∑ i, (F.uv i (.bnd b)).v * m.nb b i) * (test (.bnd b)).v else 0 := by
      rw [← dB_smul]
      refine dB_congr fun b => ?_
      unfold bndForm
      split
      · simp; ring
      · simp
    have l4 : m.dx (fun c => (∑ i, (test (.cell c)).g i * (F.uv i (.cell c)).v)
        - 2 * ((F.w (.cell c)).v - F.wb (.cell c)) / (F.h (.cell c)).v * (test (.cell c)).v) =
        m.dx (fun c => ∑ i, (F.uv i (.cell c)).v * (test (.cell c)).g i)
        - m.dx (fun c => 2 * ((F.w (.cell c)).v + ∑ i, (F.uv i (.cell c)).v * (F.depth.bathymetry (.cell c)).g i)
        / (F.depth.total (.cell c) (F.elev (.cell c))).v * (test (.cell c)).v) := by
      rw [sub_eq_add_neg (m.dx _), ← dx_neg, ← dx_add]
      refine dx_congr fun c => ?_
      unfold Flow.wb Flow.h
      rw [Finset.sum_congr rfl fun i _ => mul_comm ((test (.cell c)).g i) _]
      ring
    rw [l3, l4, h]
    ring
  · exact dx_congr fun c => Finset.sum_congr rfl fun i _ => by rw [eu]
  · exact dx_congr fun c => by rw [ew]

/-- A projection does not increase the sum of squares. -/
theorem proj_le (u : m.C → Fin d → ℝ) (u' : Vc m)
    (h : m.dx (fun c => ∑ i, (u' i (.cell c)).v * (u' i (.cell c)).v) = m.dx fun c => ∑ i, u c i * (u' i (.cell c)).v) :
    m.dx (fun c => ∑ i, (u' i (.cell c)).v ^ 2) ≤ m.dx fun c => ∑ i, u c i ^ 2 := by
  have h0 : 0 ≤ m.dx (fun c => ∑ i, (u c i - (u' i (.cell c)).v) ^ 2) :=
    dx_nonneg fun c => Finset.sum_nonneg fun i _ => sq_nonneg _
  have h1 : m.dx (fun c => ∑ i, (u c i - (u' i (.cell c)).v) ^ 2) = m.dx (fun c => ∑ i, u c i ^ 2)
      + (-2 * m.dx (fun c => ∑ i, u c i * (u' i (.cell c)).v) + m.dx fun c => ∑ i, (u' i (.cell c)).v ^ 2) := by
    rw [← dx_smul, ← dx_add, ← dx_add]
    refine dx_congr fun c => ?_
    rw [Finset.mul_sum, ← Finset.sum_add_distrib, ← Finset.sum_add_distrib]
    exact Finset.sum_congr rfl fun i _ => by ring
  have h2 : m.dx (fun c => ∑ i, (u' i (.cell c)).v ^ 2) = m.dx fun c => ∑ i, (u' i (.cell c)).v * (u' i (.cell c)).v :=
    dx_congr fun c => Finset.sum_congr rfl fun i _ => sq _
  linarith

/-- C102: in water of uniform depth with closed boundaries the pressure step takes kinetic energy out of the flow, at
least that of the correction. -/
theorem C102_energy (hr : F.rho0 ≠ 0) (ht : F.dt ≠ 0) (H : ℝ) (hH : H ≠ 0) (hl : Level F H) (hc : ∀ k, F.open_ k = false)
    (Q W : Set (Sc m)) (U : Set (Vc m)) (q w' : Sc m) (u' : Vc m) (hq : SolvesQ F Q q) (hu : SolvesU F U q u')
    (hw : SolvesW F W q w') :
    m.dx (fun c => ∑ i, (u' i (.cell c)).v ^ 2) + m.dx (fun c => (w' (.cell c)).v ^ 2)
      + (F.dt / (2 * F.rho0)) ^ 2 * m.dx (fun c => (∑ i, (q (.cell c)).g i ^ 2) + 4 / H ^ 2 * (q (.cell c)).v ^ 2) ≤
    m.dx (fun c => ∑ i, (F.uv i (.cell c)).v ^ 2) + m.dx fun c => (F.w (.cell c)).v ^ 2 := by
  have hd : ∀ x, (F.h x).v = H := hl.depth
  have hg : ∀ x i, F.gh x i = 0 := fun x i => by unfold Flow.gh; rw [hl.bed, hl.surface, sub_zero]
  have hb : ∀ x, F.wb x = 0 := fun x => by unfold Flow.wb; simp [hl.bed]
  have h0 := hq.2 q hq.1
  rw [form_eq F hr ht fun c => by rw [hd]; exact hH] at h0
  rw [Finset.sum_eq_zero (fun b _ => by unfold bndForm; simp [hc]), add_zero] at h0
  have hk : F.const ≠ 0 := div_ne_zero (mul_ne_zero two_ne_zero hr) ht
  have h1 := (mul_eq_zero.1 h0).resolve_left hk
  have p1 := proj_le (fun c i => uStar F q (.cell c) i) u' (hu.2 u' hu.1)
  have p2 : m.dx (fun c => (w' (.cell c)).v ^ 2) ≤ m.dx fun c => wStar F q (.cell c) ^ 2 := by
    have h0 : 0 ≤ m.dx (fun c => (wStar F q (.cell c) - (w' (.cell c)).v) ^ 2) := dx_nonneg fun c => sq_nonneg _
    have h1 : m.dx (fun c => (wStar F q (.cell c) - (w' (.cell c)).v) ^ 2) = m.dx (fun c => wStar F q (.cell c) ^ 2)
        + (-2 * m.dx (fun c => wStar F q (.cell c) * (w' (.cell c)).v)
          + m.dx fun c => (w' (.cell c)).v * (w' (.cell c)).v) := by
      rw [← dx_smul, ← dx_add, ← dx_add]
      exact dx_congr fun c => by ring
    have h2 : m.dx (fun c => (w' (.cell c)).v ^ 2) = m.dx fun c => (w' (.cell c)).v * (w' (.cell c)).v :=
      dx_congr fun c => sq _
    have h3 := hw.2 w' hw.1
    linarith
  have e : m.dx (fun c => ∑ i, (F.uv i (.cell c)).v ^ 2) + m.dx (fun c => (F.w (.cell c)).v ^ 2) =
      m.dx (fun c => ∑ i, uStar F q (.cell c) i ^ 2) + m.dx (fun c => wStar F q (.cell c) ^ 2)
      + (F.dt / (2 * F.rho0)) ^ 2 * m.dx (fun c => (∑ i, (q (.cell c)).g i ^ 2) + 4 / H ^ 2 * (q (.cell c)).v ^ 2)
      + F.dt / F.rho0 * m.dx (fun c => (∑ i, (q (.cell c)).g i * uStar F q (.cell c) i)
        - 2 * (wStar F q (.cell c) - F.wb (.cell c)) / (F.h (.cell c)).v * (q (.cell c)).v) := by
    rw [← dx_smul, ← dx_smul, ← dx_add, ← dx_add, ← dx_add, ← dx_add]
    refine dx_congr fun c => ?_
    have e1 : ∑ i, (F.uv i (.cell c)).v ^ 2 = (∑ i, uStar F q (.cell c) i ^ 2)
        + (F.dt / F.rho0 * ∑ i, (q (.cell c)).g i * uStar F q (.cell c) i)
        + (F.dt / (2 * F.rho0)) ^ 2 * ∑ i, (q (.cell c)).g i ^ 2 := by
      rw [Finset.mul_sum, Finset.mul_sum, ← Finset.sum_add_distrib, ← Finset.sum_add_distrib]
      refine Finset.sum_congr rfl fun i _ => ?_
      unfold uStar
      rw [hg]
      field_simp
      ring
    rw [e1, hb, hd]
    unfold wStar
    rw [hd]
    generalize (∑ i, uStar F q (.cell c) i ^ 2) = A
    generalize (∑ i, (q (.cell c)).g i * uStar F q (.cell c) i) = B
    generalize (∑ i, (q (.cell c)).g i ^ 2) = C
    field_simp
    ring
  rw [h1, mul_zero, add_zero] at e
  rw [e]
  linarith

/-! ### Examples and violations -/

/-- Water on the unit square in the linear model (`H` is the bathymetry `d`), with `rho0 = 1` and `dt = 2`. -/
noncomputable def pool (bath elev : Quad) (u v w : Quad) (open_ : ℕ → Bool) : Flow square where
  rho0 := 1
  dt := 2
  depth := ⟨squareField bath bath, false, false, cst square 0⟩
  elev := squareField elev elev
  uv := ![squareField u u, squareField v v]
  w := squareField w w
  open_ := open_

/-- Flow `(1, 0)` with vertical velocity `-2 x` over a bed at depth 1: the pressure `x` brings it to rest. -/
noncomputable def stop : Flow square :=
  pool ⟨1, 0, 0, 0, 0, 0⟩ ⟨0, 0, 0, 0, 0, 0⟩ ⟨1, 0, 0, 0, 0, 0⟩ ⟨0, 0, 0, 0, 0, 0⟩ ⟨0, -2, 0, 0, 0, 0⟩ fun _ => false

theorem square_at (p : Pt square) : ∃ x y, 0 ≤ x ∧ 0 ≤ y ∧ ∀ q, squareField q q p = q.jet x y := by
  cases p with
  | cell c => cases c <;> exact ⟨_, _, by norm_num, by norm_num, fun _ => rfl⟩
  | plus c => cases c <;> exact ⟨_, _, by norm_num, by norm_num, fun _ => rfl⟩
  | minus c => cases c <;> exact ⟨_, _, by norm_num, by norm_num, fun _ => rfl⟩
  | bnd c => cases c <;> exact ⟨_, _, by norm_num, by norm_num, fun _ => rfl⟩

/-- A pressure that cancels the velocities exactly is a solution in every space. -/
theorem solvesQ_of_zero (hr : F.rho0 ≠ 0) (ht : F.dt ≠ 0) (hh : ∀ c, (F.h (.cell c)).v ≠ 0) (q : Sc m)
    (hu : ∀ c i, uStar F q (.cell c) i = 0) (hw : ∀ c, wStar F q (.cell c) = F.wb (.cell c))
    (hb : ∀ test b, bndForm F q test (m.marker b) b = 0) (Q : Set (Sc m)) (hq : q ∈ Q) : SolvesQ F Q q := by
  refine ⟨hq, fun test _ => ?_⟩
  rw [form_eq F hr ht hh]
  simp [hu, hw, hb, dx_zero]

theorem stop_level : Level stop 1 where
  depth p := by
    obtain ⟨x, y, _, _, h⟩ := square_at p
    simp [stop, pool, Depth.total, h, Quad.jet]
  bed p i := by
    obtain ⟨x, y, _, _, h⟩ := square_at p
    fin_cases i <;> simp [stop, pool, h, Quad.jet]
  surface p i := by
    obtain ⟨x, y, _, _, h⟩ := square_at p
    fin_cases i <;> simp [stop, pool, h, Quad.jet]

theorem stop_uStar (p : Pt square) (i : Fin 2) : uStar stop (squareField ⟨0, 1, 0, 0, 0, 0⟩ ⟨0, 1, 0, 0, 0, 0⟩) p i = 0 := by
  obtain ⟨x, y, _, _, h⟩ := square_at p
  fin_cases i <;> simp [uStar, stop, pool, h, Quad.jet, Flow.gh]

theorem stop_wStar (p : Pt square) : wStar stop (squareField ⟨0, 1, 0, 0, 0, 0⟩ ⟨0, 1, 0, 0, 0, 0⟩) p = 0 := by
  obtain ⟨x, y, _, _, h⟩ := square_at p
  simp [wStar, stop, pool, h, Quad.jet, Flow.h, Depth.total]

theorem stop_solves : SolvesQ stop Set.univ (squareField ⟨0, 1, 0, 0, 0, 0⟩ ⟨0, 1, 0, 0, 0, 0⟩) := by
  refine solvesQ_of_zero stop one_ne_zero two_ne_zero (fun c => ?_) _ (fun c => stop_uStar _) (fun c => ?_) ?_ _ trivial
  · exact (stop_level.depth _).symm ▸ one_ne_zero
  · rw [stop_wStar, Flow.wb]
    simp [stop_level.bed]
  · intro test b
    simp [bndForm, stop, pool]

/-- The hypotheses of C102_level and C102_energy are met, and the energy does decrease. -/
example : ∃ q w' u', SolvesQ stop Set.univ q ∧ SolvesU stop Set.univ q u' ∧ SolvesW stop Set.univ q w' ∧
    square.dx (fun c => ∑ i, (u' i (.cell c)).v ^ 2) < square.dx fun c => ∑ i, (stop.uv i (.cell c)).v ^ 2 := by
  refine ⟨_, cst square 0, fun _ => cst square 0, stop_solves, ⟨trivial, fun t _ => ?_⟩, ⟨trivial, fun t _ => ?_⟩, ?_⟩
  · exact dx_congr fun c => by simp [stop_uStar]
  · exact dx_congr fun c => by simp [stop_wStar]
  · have e : ∀ c : square.C, ∑ i, (stop.uv i (.cell c)).v ^ 2 = 1 := fun c => by
      obtain ⟨x, y, _, _, h⟩ := square_at (.cell c)
      simp [stop, pool, h, Quad.jet]
    simp only [e]
    have l := sum_sqC fun _ => (1 / 6 : ℝ) * 1
    refine lt_of_lt_of_eq ?_ l.symm
    simp [dx_zero]
    norm_num

/-- Flow `(1, 0)` over a bed that falls with slope one. -/
noncomputable def slope : Flow square :=
  pool ⟨1, 1, 0, 0, 0, 0⟩ ⟨0, 1, 0, 0, 0, 0⟩ ⟨1, 0, 0, 0, 0, 0⟩ ⟨0, 0, 0, 0, 0, 0⟩ ⟨-3, 0, 0, 0, 0, 0⟩ fun _ => false

/-- C102 is violated over a sloping bed: the pressure `1 + x` solves the equation in every space, and the corrected
velocities do not satisfy continuity with the bottom velocity they have themselves. -/
theorem C102_slope_violated : ∃ (F : Flow square) (q w' test : Sc square) (u' : Vc square),
    0 < F.rho0 ∧ 0 < F.dt ∧ (∀ x, 0 < (F.depth.total x (F.elev x)).v) ∧ (∀ k, F.open_ k = false) ∧
    (∀ Q, q ∈ Q → SolvesQ F Q q) ∧ (∀ U, u' ∈ U → SolvesU F U q u') ∧ (∀ W, w' ∈ W → SolvesW F W q w') ∧
    square.dx (fun c => ∑ i, (u' i (.cell c)).v * (test (.cell c)).g i) ≠
      square.dx fun c => 2 * ((w' (.cell c)).v + ∑ i, (u' i (.cell c)).v * (F.depth.bathymetry (.cell c)).g i)
        / (F.depth.total (.cell c) (F.elev (.cell c))).v * (test (.cell c)).v := by
  have hd : ∀ x, 0 < (slope.depth.total x (slope.elev x)).v := fun p => by
    obtain ⟨x, y, hx, hy, h⟩ := square_at p
    have : 0 < 1 + x := by linarith
    simpa [slope, pool, Depth.total, h, Quad.jet] using this
  have hu : ∀ p i, uStar slope (squareField ⟨1, 1, 0, 0, 0, 0⟩ ⟨1, 1, 0, 0, 0, 0⟩) p i = 0 := fun p i => by
    obtain ⟨x, y, hx, hy, h⟩ := square_at p
    fin_cases i <;> simp [uStar, slope, pool, h, Quad.jet, Flow.gh]
  have hw : ∀ p, wStar slope (squareField ⟨1, 1, 0, 0, 0, 0⟩ ⟨1, 1, 0, 0, 0, 0⟩) p = -1 := fun p => by
    obtain ⟨x, y, hx, hy, h⟩ := square_at p
    have : 1 + x ≠ 0 := by linarith
    simp [wStar, slope, pool, h, Quad.jet, Flow.h, Depth.total, div_self this]
    norm_num
  have hb : ∀ p, slope.wb p = -1 := fun p => by
    obtain ⟨x, y, hx, hy, h⟩ := square_at p
    simp [Flow.wb, slope, pool, h, Quad.jet]
  refine ⟨slope, squareField ⟨1, 1, 0, 0, 0, 0⟩ ⟨1, 1, 0, 0, 0, 0⟩, cst square (-1),
    squareField ⟨1, 1, 0, 0, 0, 0⟩ ⟨1, 1, 0, 0, 0, 0⟩, fun _ => cst square 0, one_pos, two_pos, hd, fun _ => rfl,
    fun Q hQ => solvesQ_of_zero slope one_ne_zero two_ne_zero (fun c => (hd _).ne') _ (fun c => hu _)
      (fun c => by rw [hw, hb]) (fun test b => by simp [bndForm, slope, pool]) Q hQ,
    fun U hU => ⟨hU, fun t _ => dx_congr fun c => by simp [hu]⟩,
    fun W hW => ⟨hW, fun t _ => dx_congr fun c => by simp [hw]⟩, ?_⟩
  have e : ∀ c : square.C, 2 * (((cst square (-1)) (.cell c)).v
      + ∑ i : Fin 2, ((fun _ => cst square 0 : Vc square) i (.cell c)).v * (slope.depth.bathymetry (.cell c)).g i)
      / (slope.depth.total (.cell c) (slope.elev (.cell c))).v
      * (squareField ⟨1, 1, 0, 0, 0, 0⟩ ⟨1, 1, 0, 0, 0, 0⟩ (.cell c)).v = -2 := fun c => by
    obtain ⟨x, y, hx, hy, h⟩ := square_at (.cell c)
    have : 1 + x ≠ 0 := by linarith
    simp [slope, pool, h, Quad.jet, Depth.total]
    field_simp
  rw [dx_congr e]
  have l := sum_sqC fun _ => (1 / 6 : ℝ) * (-2)
  refine ne_of_gt (lt_of_eq_of_lt l ?_)
  simp [dx_zero]
  norm_num

/-- The space of linear functions on the square. -/
def linear : Set (Sc square) := {f | ∃ p : Quad, p.d = 0 ∧ p.e = 0 ∧ p.f = 0 ∧ f = squareField p p}

theorem linear_sub : ∀ a ∈ linear, ∀ b ∈ linear, a - b ∈ linear := by
  rintro _ ⟨p, hp1, hp2, hp3, rfl⟩ _ ⟨r, hr1, hr2, hr3, rfl⟩
  refine ⟨⟨p.a - r.a, p.b - r.b, p.c - r.c, 0, 0, 0⟩, rfl, rfl, rfl, funext fun z => ?_⟩
  obtain ⟨x, y, _, _, h⟩ := square_at z
  rw [Pi.sub_apply, h, h, h]
  apply Jet.ext
  · simp [Quad.jet, hp1, hp2, hp3, hr1, hr2, hr3]; ring
  · funext i
    fin_cases i <;> simp [Quad.jet, hp1, hp2, hp3, hr1, hr2, hr3]

/-- Water sinking everywhere, with an open boundary on the left. -/
noncomputable def sink : Flow square :=
  pool ⟨1, 0, 0, 0, 0, 0⟩ ⟨0, 0, 0, 0, 0, 0⟩ ⟨0, 0, 0, 0, 0, 0⟩ ⟨0, 0, 0, 0, 0, 0⟩ ⟨-2, 0, 0, 0, 0, 0⟩ fun k => k == 2

/-- C102 is violated at open boundaries: the pressure should be zero there (a Dirichlet condition is built for it), but
it is not: in this flow the only solution is 1 everywhere. -/
theorem C102_open_violated : ∃ F : Flow square, F.open_ 2 = true ∧ (∃ q, SolvesQ F linear q) ∧
    ∀ q, SolvesQ F linear q → ∀ b, (q (.bnd b)).v = 1 := by
  have hl : Level sink 1 := {
    depth := fun p => by
      obtain ⟨x, y, _, _, h⟩ := square_at p
      simp [sink, pool, Depth.total, h, Quad.jet]
    bed := fun p i => by
      obtain ⟨x, y, _, _, h⟩ := square_at p
      fin_cases i <;> simp [sink, pool, h, Quad.jet]
    surface := fun p i => by
      obtain ⟨x, y, _, _, h⟩ := square_at p
      fin_cases i <;> simp [sink, pool, h, Quad.jet] }
  have hs : SolvesQ sink linear (squareField ⟨1, 0, 0, 0, 0, 0⟩ ⟨1, 0, 0, 0, 0, 0⟩) := by
    refine solvesQ_of_zero sink one_ne_zero two_ne_zero (fun c => ?_) _ (fun c i => ?_) (fun c => ?_) ?_ _
      ⟨_, rfl, rfl, rfl, rfl⟩
    · exact (hl.depth _).symm ▸ one_ne_zero
    · obtain ⟨x, y, _, _, h⟩ := square_at (.cell c)
      fin_cases i <;> simp [uStar, sink, pool, h, Quad.jet, Flow.gh]
    · obtain ⟨x, y, _, _, h⟩ := square_at (.cell c)
      simp [wStar, Flow.wb, sink, pool, h, Quad.jet, Flow.h, Depth.total]
    · intro test b
      obtain ⟨x, y, _, _, h⟩ := square_at (.bnd b)
      simp [bndForm, sink, pool, h, Quad.jet, Flow.gh]
  refine ⟨sink, rfl, ⟨_, hs⟩, fun q hq b => ?_⟩
  have hu := fun c => (C102_unique sink 1 one_ne_zero hl linear linear_sub q _ hq hs c (by change (0 : ℝ) < 1 / 6; norm_num)).1
  obtain ⟨p, h1, h2, h3, rfl⟩ := hq.1
  have c0 := hu SqC.l0
  have c1 := hu SqC.l1
  have c2 := hu SqC.l2
  simp only [squareField, Quad.jet, h1, h2, h3] at c0 c1 c2
  obtain ⟨x, y, _, _, h⟩ := square_at (.bnd b)
  rw [h]
  have eb : p.b = 0 := by linarith
  have ec : p.c = 0 := by linarith
  have ea : p.a = 1 := by linarith
  simp [Quad.jet, h1, h2, h3, ea, eb, ec]

end Verif.NonHyd
