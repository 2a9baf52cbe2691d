import Verif.Diag.Model
import Verif.NonHyd.Props

/-! C103: recovery of vorticity, gradients and Hessians. -/

namespace Verif.Diag

open Verif.Dg

variable {m : Mesh 2}

/-- A scalar expression that has one value on both sides of each facet. -/
def Cont (f : Sc m) : Prop := ∀ s, (f (.plus s)).v = (f (.minus s)).v

theorem dx_sub (f h : m.C → ℝ) : m.dx (fun c => f c - h c) = m.dx f - m.dx h := by
  rw [sub_eq_add_neg, ← dx_neg, ← dx_add]
  exact dx_congr fun c => sub_eq_add_neg _ _

/-- Integration by parts of `F · grad test` for a test function continuous across facets. -/
theorem by_parts (F : Vc m) (test : Sc m) (ht : Cont test) (hd : DivExact m fun i => F i * test) :
    m.dx (fun c => ∑ i, (F i (.cell c)).v * (test (.cell c)).g i) =
      m.dS (fun s => jumpV F s * (test (.plus s)).v) + dsAll m (fun b => normalAt F b * (test (.bnd b)).v)
      - m.dx fun c => div F (.cell c) * (test (.cell c)).v := by
  unfold DivExact at hd
  have e1 : m.dx (fun c => div (fun i => F i * test) (.cell c)) =
      m.dx (fun c => div F (.cell c) * (test (.cell c)).v)
        + m.dx fun c => ∑ i, (F i (.cell c)).v * (test (.cell c)).g i := by
    rw [← dx_add]
    refine dx_congr fun c => ?_
    simp only [div, Fin.sum_univ_two, Pi.mul_apply, Jet.mul_g]
    ring
  have e2 : m.dS (fun s => jumpV (fun i => F i * test) s) = m.dS fun s => jumpV F s * (test (.plus s)).v :=
    dS_congr fun s => by
      simp only [jumpV, Fin.sum_univ_two, Pi.mul_apply, Jet.mul_v, ← ht s]
      ring
  have e3 : (∑ b, m.wB b * normalAt (fun i => F i * test) b) = dsAll m fun b => normalAt F b * (test (.bnd b)).v :=
    dB_congr fun b => by
      simp only [normalAt, Fin.sum_univ_two, Pi.mul_apply, Jet.mul_v]
      ring
  rw [e1, e2, e3] at hd
  linarith

/-! ### Vorticity -/

theorem vortRhs_eq (hf : m.Flat) (uv : Vc m) (test : Sc m) (ht : Cont test)
    (hd : DivExact m fun i => (![-uv 1, uv 0] : Vc m) i * test) :
    vortRhs uv test = m.dx (fun c => (-(uv 1 (.cell c)).g 0 + (uv 0 (.cell c)).g 1) * (test (.cell c)).v)
      - m.dS fun s => (-jump (uv 1) s * m.np s 0 + jump (uv 0) s * m.np s 1) * (test (.plus s)).v := by
  unfold vortRhs
  have h := by_parts (perp uv) test ht hd
  rw [h]
  have e1 : m.dS (fun s => ∑ i, avg (perp uv i) s * jumpN test s i) = 0 := by
    refine (dS_congr (h := fun _ => 0) fun s => Finset.sum_eq_zero fun i _ => ?_).trans dS_zero
    simp only [jumpN, hf s i, ← ht s]
    ring
  have e2 : dsAll m (fun b => ∑ i, (perp uv i (.bnd b)).v * ((test (.bnd b)).v * m.nb b i)) =
      dsAll m fun b => normalAt (perp uv) b * (test (.bnd b)).v := dB_congr fun b => by
    simp only [normalAt, Fin.sum_univ_two]
    ring
  have e3 : m.dS (fun s => jumpV (perp uv) s * (test (.plus s)).v) =
      m.dS fun s => (-jump (uv 1) s * m.np s 0 + jump (uv 0) s * m.np s 1) * (test (.plus s)).v := dS_congr fun s => by
    simp only [jumpV, jump, perp, Fin.sum_univ_two, hf s, Matrix.cons_val_zero, Matrix.cons_val_one, Pi.neg_apply, Jet.neg_v]
    ring
  have e4 : m.dx (fun c => div (perp uv) (.cell c) * (test (.cell c)).v) =
      m.dx fun c => (-(uv 1 (.cell c)).g 0 + (uv 0 (.cell c)).g 1) * (test (.cell c)).v := dx_congr fun c => by
    simp only [div, perp, Fin.sum_univ_two, Matrix.cons_val_zero, Matrix.cons_val_one, Pi.neg_apply, Jet.neg_g]
  rw [e1, e2, e3, e4]
  ring

/-- C103: the vorticity is the projection of `-v_x + u_y` in the cells and of the jumps of the tangential velocity at the
facets. -/
theorem C103_vorticity (hf : m.Flat) (V : Set (Sc m)) (uv : Vc m) (om : Sc m) (ho : IsVorticity V uv om) (test : Sc m)
    (hm : test ∈ V) (ht : Cont test) (hd : DivExact m fun i => (![-uv 1, uv 0] : Vc m) i * test) :
    m.dx (fun c => (om (.cell c)).v * (test (.cell c)).v) =
      m.dx (fun c => (-(uv 1 (.cell c)).g 0 + (uv 0 (.cell c)).g 1) * (test (.cell c)).v)
      - m.dS fun s => (-jump (uv 1) s * m.np s 0 + jump (uv 0) s * m.np s 1) * (test (.plus s)).v := by
  rw [ho.2 test hm, vortRhs_eq hf uv test ht hd]

/-- Two expressions of a space with the same projection agree. -/
theorem eq_of_proj (V : Set (Sc m)) (hs : ∀ a ∈ V, ∀ b ∈ V, a - b ∈ V) (a b : Sc m) (ha : a ∈ V) (hb : b ∈ V)
    (h : ∀ t ∈ V, m.dx (fun c => (a (.cell c)).v * (t (.cell c)).v) = m.dx fun c => (b (.cell c)).v * (t (.cell c)).v)
    (c : m.C) (hc : 0 < m.wC c) : (a (.cell c)).v = (b (.cell c)).v := by
  have h1 := h _ (hs a ha b hb)
  have h2 : m.dx (fun c => ((a (.cell c)).v - (b (.cell c)).v) ^ 2) = 0 := by
    rw [← sub_eq_zero, ← dx_sub] at h1
    rw [← h1]
    refine dx_congr fun c => ?_
    simp only [Pi.sub_apply, Jet.sub_v]
    ring
  have h3 := (Finset.sum_eq_zero_iff_of_nonneg fun c _ => mul_nonneg (m.wC_nonneg c) (sq_nonneg _)).1 h2 c
    (Finset.mem_univ _)
  have h4 := (mul_eq_zero.1 h3).resolve_left hc.ne'
  linarith [pow_eq_zero_iff two_ne_zero |>.1 h4]

/-- C103: the vorticity of a continuous velocity whose `-v_x + u_y` the space can represent is exactly that. -/
theorem C103_vorticity_exact (hf : m.Flat) (V : Set (Sc m)) (hs : ∀ a ∈ V, ∀ b ∈ V, a - b ∈ V) (uv : Vc m)
    (hu : ∀ i, Cont (uv i)) (om om' : Sc m) (ho : IsVorticity V uv om) (ho' : om' ∈ V)
    (hv : ∀ c, (om' (.cell c)).v = -(uv 1 (.cell c)).g 0 + (uv 0 (.cell c)).g 1) (ht : ∀ t ∈ V, Cont t)
    (hd : ∀ t ∈ V, DivExact m fun i => (![-uv 1, uv 0] : Vc m) i * t) (c : m.C) (hc : 0 < m.wC c) :
    (om (.cell c)).v = -(uv 1 (.cell c)).g 0 + (uv 0 (.cell c)).g 1 := by
  rw [← hv]
  refine eq_of_proj V hs om om' ho.1 ho' (fun t hm => ?_) c hc
  rw [C103_vorticity hf V uv om ho t hm (ht t hm) (hd t hm)]
  have : m.dS (fun s => (-jump (uv 1) s * m.np s 0 + jump (uv 0) s * m.np s 1) * (t (.plus s)).v) = 0 := by
    rw [← dS_zero (m := m)]
    exact dS_congr fun s => by simp [jump, hu _ s]
  rw [this, sub_zero]
  exact dx_congr fun c => by rw [hv]

/-- C103: whatever the velocity, the total vorticity is the circulation around the boundary (clockwise, as the sign of
`-v_x + u_y` has it). -/
theorem C103_circulation (hf : m.Flat) (V : Set (Sc m)) (uv : Vc m) (om : Sc m) (ho : IsVorticity V uv om)
    (h1 : cst m 1 ∈ V) :
    m.dx (fun c => (om (.cell c)).v) =
      ∑ b, m.wB b * ((uv 0 (.bnd b)).v * m.nb b 1 - (uv 1 (.bnd b)).v * m.nb b 0) := by
  have h := ho.2 _ h1
  simp only [cst_apply, Jet.const_v, mul_one] at h
  rw [h]
  unfold vortRhs
  have e1 : m.dS (fun s => ∑ i, avg (perp uv i) s * jumpN (cst m 1) s i) = 0 := by
    rw [← dS_zero (m := m)]
    refine dS_congr fun s => Finset.sum_eq_zero fun i _ => ?_
    simp [jumpN, hf s i]
  rw [e1]
  simp only [cst_apply, Jet.const_g, mul_zero, Finset.sum_const_zero, dx_zero, neg_zero, zero_add, add_zero, Jet.const_v,
    one_mul]
  refine dB_congr fun b => ?_
  simp only [Fin.sum_univ_two, perp, Matrix.cons_val_zero, Matrix.cons_val_one, Pi.neg_apply, Jet.neg_v]
  ring

/-! ### Gradient -/

/-- C103: a gradient that the space can represent is recovered exactly, in either way. -/
theorem C103_gradient_exact (V : Set (Vc m)) (hs : ∀ a ∈ V, ∀ b ∈ V, a - b ∈ V) (f : Sc m) (g G : Vc m)
    (hg : IsGradient V f g) (hG : G ∈ V) (hv : ∀ c i, (G i (.cell c)).v = (f (.cell c)).g i) (c : m.C)
    (hc : 0 < m.wC c) (i : Fin 2) : (g i (.cell c)).v = (f (.cell c)).g i := by
  have h1 := hg.2 _ (hs g hg.1 G hG)
  have h2 : m.dx (fun c => ∑ i, ((g i (.cell c)).v - (G i (.cell c)).v) ^ 2) = 0 := by
    rw [← sub_eq_zero, ← dx_sub] at h1
    rw [← h1]
    refine dx_congr fun c => ?_
    simp only [Fin.sum_univ_two, Pi.sub_apply, Jet.sub_v, ← hv]
    ring
  have h3 := (Finset.sum_eq_zero_iff_of_nonneg fun c _ => mul_nonneg (m.wC_nonneg c)
    (Finset.sum_nonneg fun i _ => sq_nonneg _)).1 h2 c (Finset.mem_univ _)
  have h4 := (mul_eq_zero.1 h3).resolve_left hc.ne'
  have h5 := (Finset.sum_eq_zero_iff_of_nonneg fun i _ => sq_nonneg _).1 h4 i (Finset.mem_univ _)
  rw [← hv]
  linarith [pow_eq_zero_iff two_ne_zero |>.1 h5]

theorem hessRhs_eq (hf : m.Flat) (f : Sc m) (phi : Vc m) (hp : ∀ i, Cont (phi i)) (hd : DivExact m fun i => phi i * f) :
    hessRhs f phi = m.dx (fun c => ∑ i, (phi i (.cell c)).v * (f (.cell c)).g i)
      - m.dS fun s => ∑ i, jump f s * m.np s i * (phi i (.plus s)).v := by
  unfold hessRhs
  unfold DivExact at hd
  have e1 : m.dx (fun c => div (fun i => phi i * f) (.cell c)) =
      m.dx (fun c => (f (.cell c)).v * div phi (.cell c))
        + m.dx fun c => ∑ i, (phi i (.cell c)).v * (f (.cell c)).g i := by
    rw [← dx_add]
    refine dx_congr fun c => ?_
    simp only [div, Fin.sum_univ_two, Pi.mul_apply, Jet.mul_g]
    ring
  have e2 : m.dS (fun s => jumpV (fun i => phi i * f) s) = m.dS fun s => ∑ i, jump f s * m.np s i * (phi i (.plus s)).v :=
    dS_congr fun s => by
      simp only [jumpV, jump, Fin.sum_univ_two, Pi.mul_apply, Jet.mul_v, ← hp _ s, hf s]
      ring
  have e3 : (∑ b, m.wB b * normalAt (fun i => phi i * f) b) = dsAll m fun b => (f (.bnd b)).v * normalAt phi b :=
    dB_congr fun b => by
      simp only [normalAt, Fin.sum_univ_two, Pi.mul_apply, Jet.mul_v]
      ring
  have e4 : m.dS (fun s => avg f s * jumpV phi s) = 0 := by
    refine (dS_congr (h := fun _ => 0) fun s => ?_).trans dS_zero
    simp only [jumpV, Fin.sum_univ_two, hf s, ← hp _ s]
    ring
  rw [e1, e2, e3] at hd
  rw [e4]
  linarith

/-- C103: for test functions that may jump, the right-hand side of the gradient is the gradient in the cells and the jumps
of `f` at the facets against the mean of the test function: the jumps of the test function itself cancel. -/
theorem C103_gradient_jumps (hf : m.Flat) (f : Sc m) (phi : Vc m) (hd : DivExact m fun i => phi i * f) :
    hessRhs f phi = m.dx (fun c => ∑ i, (phi i (.cell c)).v * (f (.cell c)).g i)
      - m.dS fun s => ∑ i, jump f s * m.np s i * avg (phi i) s := by
  unfold hessRhs
  unfold DivExact at hd
  have e1 : m.dx (fun c => div (fun i => phi i * f) (.cell c)) =
      m.dx (fun c => (f (.cell c)).v * div phi (.cell c))
        + m.dx fun c => ∑ i, (phi i (.cell c)).v * (f (.cell c)).g i := by
    rw [← dx_add]
    refine dx_congr fun c => ?_
    simp only [div, Fin.sum_univ_two, Pi.mul_apply, Jet.mul_g]
    ring
  have e2 : m.dS (fun s => jumpV (fun i => phi i * f) s) =
      m.dS (fun s => avg f s * jumpV phi s) + m.dS fun s => ∑ i, jump f s * m.np s i * avg (phi i) s := by
    rw [← dS_add]
    refine dS_congr fun s => ?_
    simp only [jumpV, jump, avg, Fin.sum_univ_two, Pi.mul_apply, Jet.mul_v, hf s]
    ring
  have e3 : (∑ b, m.wB b * normalAt (fun i => phi i * f) b) = dsAll m fun b => (f (.bnd b)).v * normalAt phi b :=
    dB_congr fun b => by
      simp only [normalAt, Fin.sum_univ_two, Pi.mul_apply, Jet.mul_v]
      ring
  rw [e1, e2, e3] at hd
  linarith

theorem hessLhs_eq (g : Vc m) (H : Tc m) (phi : Vc m) (tau : Tc m) (hgc : ∀ i, Cont (g i))
    (hd : ∀ i, DivExact m fun j => tau i j * g i) :
    hessLhs g H phi tau = m.dx (fun c => ∑ i, ∑ j, (tau i j (.cell c)).v * (H i j (.cell c)).v)
      - m.dx (fun c => ∑ i, ∑ j, (tau i j (.cell c)).v * (g i (.cell c)).g j)
      + m.dx fun c => ∑ i, (phi i (.cell c)).v * (g i (.cell c)).v := by
  unfold hessLhs
  have bp : ∀ i, m.dx (fun c => ∑ j, (tau i j (.cell c)).v * (g i (.cell c)).g j) =
      m.dS (fun s => avg (g i) s * jumpV (tau i) s) + (∑ b, m.wB b * ((g i (.bnd b)).v * normalAt (tau i) b))
      - m.dx fun c => div (tau i) (.cell c) * (g i (.cell c)).v := fun i => by
    rw [by_parts (tau i) (g i) (hgc i) (hd i)]
    have e1 : m.dS (fun s => jumpV (tau i) s * (g i (.plus s)).v) = m.dS fun s => avg (g i) s * jumpV (tau i) s :=
      dS_congr fun s => by simp only [avg, ← hgc i s]; ring
    have e2 : dsAll m (fun b => normalAt (tau i) b * (g i (.bnd b)).v) =
        ∑ b, m.wB b * ((g i (.bnd b)).v * normalAt (tau i) b) := dB_congr fun b => by ring
    rw [e1, e2]
  unfold dsAll
  rw [dx_congr fun c => Fin.sum_univ_two fun i => ∑ j, (tau i j (.cell c)).v * (g i (.cell c)).g j, dx_add, bp 0, bp 1,
    dx_congr fun c => Fin.sum_univ_two fun i => div (tau i) (.cell c) * (g i (.cell c)).v, dx_add,
    dS_congr fun s => Fin.sum_univ_two fun i => avg (g i) s * jumpV (tau i) s, dS_add,
    dB_congr fun b => Fin.sum_univ_two fun i => (g i (.bnd b)).v * normalAt (tau i) b, dB_add]
  ring

/-- C103: the gradient of the Hessian recovery is the projection of the gradient of `f` in the cells and of the jumps of
`f` at the facets. -/
theorem C103_gradient (hf : m.Flat) (V : Set (Vc m)) (S : Set (Tc m)) (f : Sc m) (g : Vc m) (H : Tc m)
    (hg : IsHessian V S f g H) (h0 : (fun _ _ => cst m 0) ∈ S) (phi : Vc m) (hm : phi ∈ V) (hp : ∀ i, Cont (phi i))
    (hd : DivExact m fun i => phi i * f) :
    m.dx (fun c => ∑ i, (phi i (.cell c)).v * (g i (.cell c)).v) =
      m.dx (fun c => ∑ i, (phi i (.cell c)).v * (f (.cell c)).g i)
      - m.dS fun s => ∑ i, jump f s * m.np s i * (phi i (.plus s)).v := by
  have h := hg.2.2 phi hm _ h0
  rw [hessRhs_eq hf f phi hp hd] at h
  unfold hessLhs at h
  simpa only [cst_apply, Jet.const_v, Jet.const_g, div, jumpV, normalAt, zero_mul, mul_zero, Finset.sum_const_zero, dx_zero,
    dS_zero, zero_add, add_zero, sub_zero, dsAll] using h

/-- C103: the recovered Hessian is the projection of the gradient of the recovered gradient. -/
theorem C103_hessian (V : Set (Vc m)) (S : Set (Tc m)) (f : Sc m) (g : Vc m) (H : Tc m)
    (hg : IsHessian V S f g H) (h0 : (fun _ => cst m 0) ∈ V) (hgc : ∀ i, Cont (g i)) (tau : Tc m) (hm : tau ∈ S)
    (hd : ∀ i, DivExact m fun j => tau i j * g i) :
    m.dx (fun c => ∑ i, ∑ j, (tau i j (.cell c)).v * (H i j (.cell c)).v) =
      m.dx fun c => ∑ i, ∑ j, (tau i j (.cell c)).v * (g i (.cell c)).g j := by
  have h := hg.2.2 _ h0 tau hm
  rw [hessLhs_eq g H _ tau hgc hd] at h
  have z : hessRhs f (fun _ => cst m 0) = 0 := by
    unfold hessRhs
    have z1 : m.dS (fun s => avg f s * jumpV (fun _ => cst m 0) s) = 0 := by
      refine (dS_congr (h := fun _ => 0) fun s => ?_).trans dS_zero
      simp [jumpV]
    rw [z1]
    simp [dsAll, normalAt, div, dx_zero]
  rw [z] at h
  simp only [cst_apply, Jet.const_v, zero_mul, Finset.sum_const_zero, dx_zero, add_zero] at h
  linarith

/-- C103: for a continuous `f` whose gradient and second derivatives the spaces can represent, in particular for
quadratic `f` and continuous linear elements, both are recovered exactly. -/
theorem C103_hessian_exact (hf : m.Flat) (V : Set (Vc m)) (S : Set (Tc m)) (hV : ∀ a ∈ V, ∀ b ∈ V, a - b ∈ V)
    (hS : ∀ a ∈ S, ∀ b ∈ S, a - b ∈ S) (hw : ∀ c, 0 < m.wC c)
    (hdet : ∀ a ∈ V, ∀ b ∈ V, (∀ c i, (a i (.cell c)).v = (b i (.cell c)).v) → a = b)
    (hVc : ∀ a ∈ V, ∀ i, Cont (a i)) (f : Sc m) (hfc : Cont f) (g G : Vc m) (H K : Tc m) (hg : IsHessian V S f g H)
    (hG : G ∈ V) (hGv : ∀ c i, (G i (.cell c)).v = (f (.cell c)).g i)
    (hK : K ∈ S) (hKv : ∀ c i j, (K i j (.cell c)).v = (G i (.cell c)).g j)
    (hd1 : ∀ phi ∈ V, DivExact m fun i => phi i * f) (hd2 : ∀ tau ∈ S, ∀ i, DivExact m fun j => tau i j * G i) :
    g = G ∧ ∀ c i j, (H i j (.cell c)).v = (G i (.cell c)).g j := by
  have z2 : (fun _ _ => cst m 0) ∈ S := by
    have := hS K hK K hK
    convert this using 1
    funext i j x
    apply Jet.ext
    · simp
    · funext k; simp
  have z1 : (fun _ => cst m 0) ∈ V := by
    have := hV G hG G hG
    convert this using 1
    funext i x
    apply Jet.ext
    · simp
    · funext k; simp
  have hgG : g = G := by
    refine hdet g hg.1 G hG fun c i => ?_
    rw [hGv]
    refine C103_gradient_exact V hV f g G ⟨hg.1, fun t ht => ?_⟩ hG hGv c (hw c) i
    have h := C103_gradient hf V S f g H hg z2 t ht (hVc t ht) (hd1 t ht)
    have : m.dS (fun s => ∑ i, jump f s * m.np s i * (t i (.plus s)).v) = 0 :=
      (dS_congr (h := fun _ => 0) fun s => by simp [jump, hfc s]).trans dS_zero
    rw [this, sub_zero] at h
    rw [dx_congr fun c => Finset.sum_congr rfl fun i _ => mul_comm ((g i (.cell c)).v) _, h]
    exact dx_congr fun c => Finset.sum_congr rfl fun i _ => mul_comm _ _
  subst hgG
  refine ⟨rfl, fun c i j => ?_⟩
  have h1 := C103_hessian V S f g H hg z1 (hVc g hg.1) _ (hS H hg.2.1 K hK) (hd2 _ (hS H hg.2.1 K hK))
  have h2 : m.dx (fun c => ∑ i, ∑ j, ((H i j (.cell c)).v - (K i j (.cell c)).v) ^ 2) = 0 := by
    rw [← sub_eq_zero, ← dx_sub] at h1
    rw [← h1]
    refine dx_congr fun c => ?_
    simp only [Fin.sum_univ_two, Pi.sub_apply, Jet.sub_v, ← hKv]
    ring
  have h3 := (Finset.sum_eq_zero_iff_of_nonneg fun c _ => mul_nonneg (m.wC_nonneg c)
    (Finset.sum_nonneg fun i _ => Finset.sum_nonneg fun j _ => sq_nonneg _)).1 h2 c (Finset.mem_univ _)
  have h4 := (mul_eq_zero.1 h3).resolve_left (hw c).ne'
  have h5 := (Finset.sum_eq_zero_iff_of_nonneg fun i _ => Finset.sum_nonneg fun j _ => sq_nonneg _).1 h4 i
    (Finset.mem_univ _)
  have h6 := (Finset.sum_eq_zero_iff_of_nonneg fun j _ => sq_nonneg _).1 h5 j (Finset.mem_univ _)
  rw [← hKv]
  linarith [pow_eq_zero_iff two_ne_zero |>.1 h6]

/-! ### Examples on the square -/

/-- The quadrature of `square` is exact for quadratic times linear functions. -/
theorem square_divExact_mul (p r : Fin 2 → Quad) (hr : ∀ i, (r i).d = 0 ∧ (r i).e = 0 ∧ (r i).f = 0) :
    DivExact square fun i => squareField (p i) (p i) * squareField (r i) (r i) := by
  have h : Real.sqrt 2 ≠ 0 := by positivity
  have e1 := sum_sqC fun c => (1 / 6 : ℝ) * div (fun i => squareField (p i) (p i) * squareField (r i) (r i)) (.cell c)
  have e2 := sum_sqS fun s => sqWS s * jumpV (fun i => squareField (p i) (p i) * squareField (r i) (r i)) s
  have e3 := sum_sqB fun b => sqWB b * normalAt (fun i => squareField (p i) (p i) * squareField (r i) (r i)) b
  change (∑ c : SqC, (1 / 6 : ℝ) * div (fun i => squareField (p i) (p i) * squareField (r i) (r i)) (.cell c)) =
    (∑ s : SqS, sqWS s * jumpV (fun i => squareField (p i) (p i) * squareField (r i) (r i)) s) +
      ∑ b : SqB, sqWB b * normalAt (fun i => squareField (p i) (p i) * squareField (r i) (r i)) b
  rw [e1, e2, e3]
  simp only [div, jumpV, normalAt, Fin.sum_univ_two, Pi.mul_apply, Jet.mul_v, Jet.mul_g]
  simp only [squareField, Quad.jet, sqWS, sqWB, square, sqNx, sqNy, Matrix.cons_val_zero, Matrix.cons_val_one, hr]
  field_simp
  ring

theorem square_cont (q : Quad) : Cont (squareField q q) := fun s => by cases s <;> rfl

/-- The rotation `(-y, x)`. -/
noncomputable def spin : Vc square :=
  ![squareField ⟨0, 0, -1, 0, 0, 0⟩ ⟨0, 0, -1, 0, 0, 0⟩, squareField ⟨0, 1, 0, 0, 0, 0⟩ ⟨0, 1, 0, 0, 0, 0⟩]

theorem spin_divExact : ∀ t ∈ NonHyd.linear, DivExact square fun i => (![-spin 1, spin 0] : Vc square) i * t := by
  rintro _ ⟨p, h1, h2, h3, rfl⟩
  convert square_divExact_mul ![⟨0, -1, 0, 0, 0, 0⟩, ⟨0, 0, -1, 0, 0, 0⟩] (fun _ => p) (fun _ => ⟨h1, h2, h3⟩) using 2
  next i =>
  congr 1
  fin_cases i
  · funext z
    obtain ⟨x, y, _, _, e⟩ := NonHyd.square_at z
    apply Jet.ext
    · simp [e, Quad.jet, spin]
    · funext k
      fin_cases k <;> simp [e, Quad.jet, spin]
  · rfl

theorem spin_curl (c : square.C) : -(spin 1 (.cell c)).g 0 + (spin 0 (.cell c)).g 1 = -2 := by
  obtain ⟨x, y, _, _, e⟩ := NonHyd.square_at (.cell c)
  simp [e, Quad.jet, spin]
  norm_num

theorem spin_cont (i : Fin 2) : Cont (spin i) := by
  fin_cases i <;> exact square_cont _

/-- The rotation has a vorticity in the space of linear functions, and it is `-2`. -/
example : (∃ om, IsVorticity NonHyd.linear spin om) ∧
    ∀ om, IsVorticity NonHyd.linear spin om → ∀ c : square.C, (om (.cell c)).v = -2 := by
  have hv : ∀ c : square.C, (squareField ⟨-2, 0, 0, 0, 0, 0⟩ ⟨-2, 0, 0, 0, 0, 0⟩ (.cell c)).v = -2 := fun c => by
    obtain ⟨x, y, _, _, e⟩ := NonHyd.square_at (.cell c)
    simp [e, Quad.jet]
  have hc : ∀ t ∈ NonHyd.linear, Cont t := by
    rintro _ ⟨p, _, _, _, rfl⟩
    exact square_cont p
  refine ⟨⟨squareField ⟨-2, 0, 0, 0, 0, 0⟩ ⟨-2, 0, 0, 0, 0, 0⟩, ⟨_, rfl, rfl, rfl, rfl⟩, fun t ht => ?_⟩, fun om ho c => ?_⟩
  · rw [vortRhs_eq square_flat spin t (hc t ht) (spin_divExact t ht),
      (dS_congr (h := fun _ => 0) fun s => by simp [jump, spin_cont _ s]).trans dS_zero, sub_zero]
    exact dx_congr fun c => by rw [hv, spin_curl]
  · rw [← spin_curl c]
    exact C103_vorticity_exact square_flat NonHyd.linear NonHyd.linear_sub spin spin_cont om _ ho ⟨_, rfl, rfl, rfl, rfl⟩
      (fun c => by rw [hv, spin_curl]) hc spin_divExact c (by change (0 : ℝ) < 1 / 6; norm_num)

/-- The function `x²` has a recovered gradient and Hessian in the spaces of linear functions, and these are `(2 x, 0)` and
`[[2, 0], [0, 0]]`. -/
example : ∃ g H, IsHessian (m := square) {a | ∀ i, a i ∈ NonHyd.linear} {t | ∀ i j, t i j ∈ NonHyd.linear}
    (squareField ⟨0, 0, 0, 1, 0, 0⟩ ⟨0, 0, 0, 1, 0, 0⟩) g H ∧ ∀ c : square.C, (H 0 0 (.cell c)).v = 2 := by
  have k : ∀ {i : Fin 2} {q : Fin 2 → Quad}, ∀ (p : Fin 2 → Fin 2 → Quad),
      (∀ i j, (p i j).d = 0 ∧ (p i j).e = 0 ∧ (p i j).f = 0) →
      DivExact square fun j => squareField (p i j) (p i j) * squareField (q i) (q i) := fun {i q} p hp => by
    have h := square_divExact_mul (fun _ => q i) (p i) (hp i)
    convert h using 2
    funext z
    apply Jet.ext
    · simp [mul_comm]
    · funext k; simp [mul_comm, add_comm]
  have hc : ∀ t ∈ NonHyd.linear, Cont t := by
    rintro _ ⟨p, _, _, _, rfl⟩
    exact square_cont p
  let G : Fin 2 → Quad := ![⟨0, 2, 0, 0, 0, 0⟩, ⟨0, 0, 0, 0, 0, 0⟩]
  let K : Fin 2 → Fin 2 → Quad := ![![⟨2, 0, 0, 0, 0, 0⟩, ⟨0, 0, 0, 0, 0, 0⟩], ![⟨0, 0, 0, 0, 0, 0⟩, ⟨0, 0, 0, 0, 0, 0⟩]]
  refine ⟨fun i => squareField (G i) (G i), fun i j => squareField (K i j) (K i j), ⟨fun i => ?_, fun i j => ?_, ?_⟩, ?_⟩
  · exact ⟨_, by fin_cases i <;> rfl, by fin_cases i <;> rfl, by fin_cases i <;> rfl, rfl⟩
  · exact ⟨_, by fin_cases i <;> fin_cases j <;> rfl, by fin_cases i <;> fin_cases j <;> rfl,
      by fin_cases i <;> fin_cases j <;> rfl, rfl⟩
  · intro phi hphi tau htau
    choose p hp1 hp2 hp3 hp using hphi
    choose r hr1 hr2 hr3 hr using htau
    obtain rfl : phi = fun i => squareField (p i) (p i) := funext hp
    obtain rfl : tau = fun i j => squareField (r i j) (r i j) := funext fun i => funext fun j => hr i j
    rw [hessLhs_eq _ _ _ _ (fun i => square_cont _) fun i => k r fun i j => ⟨hr1 i j, hr2 i j, hr3 i j⟩,
      hessRhs_eq square_flat _ _ (fun i => square_cont _)
        (k (i := 0) (q := fun _ => ⟨0, 0, 0, 1, 0, 0⟩) (fun _ => p) fun _ j => ⟨hp1 j, hp2 j, hp3 j⟩),
      (dS_congr (h := fun _ => 0) fun s => by
        simp [jump, square_cont ⟨0, 0, 0, 1, 0, 0⟩ s]).trans dS_zero, sub_zero, ← dx_sub, ← dx_add]
    refine dx_congr fun c => ?_
    obtain ⟨x, y, _, _, e⟩ := NonHyd.square_at (.cell c)
    simp [e, Quad.jet, G, K]
  · intro c
    obtain ⟨x, y, _, _, e⟩ := NonHyd.square_at (.cell c)
    simp [e, Quad.jet, K]

theorem linear_det : ∀ a ∈ NonHyd.linear, ∀ b ∈ NonHyd.linear, (∀ c : square.C, (a (.cell c)).v = (b (.cell c)).v) → a = b := by
  rintro _ ⟨p, p1, p2, p3, rfl⟩ _ ⟨r, r1, r2, r3, rfl⟩ h
  have c0 := h SqC.l0
  have c1 := h SqC.l1
  have c2 := h SqC.l2
  simp only [squareField, Quad.jet, p1, p2, p3, r1, r2, r3] at c0 c1 c2
  have : p = r := by
    cases p; cases r
    simp only [Quad.mk.injEq] at *
    refine ⟨?_, ?_, ?_, ?_, ?_, ?_⟩ <;> linarith
  rw [this]

/-- Whatever is recovered for `x²` has second derivative 2: the hypotheses of C103_hessian_exact are met. -/
example (g : Vc square) (H : Tc square) (hg : IsHessian {a | ∀ i, a i ∈ NonHyd.linear} {t | ∀ i j, t i j ∈ NonHyd.linear}
    (squareField ⟨0, 0, 0, 1, 0, 0⟩ ⟨0, 0, 0, 1, 0, 0⟩) g H) (c : square.C) : (H 0 0 (.cell c)).v = 2 := by
  have k : ∀ (q : Quad) (p : Fin 2 → Quad), (∀ j, (p j).d = 0 ∧ (p j).e = 0 ∧ (p j).f = 0) →
      DivExact square fun j => squareField (p j) (p j) * squareField q q := fun q p hp => by
    have h := square_divExact_mul (fun _ => q) p hp
    convert h using 2
    funext z
    apply Jet.ext
    · simp [mul_comm]
    · funext k; simp [mul_comm, add_comm]
  have hl : ∀ a b c : ℝ, squareField ⟨a, b, c, 0, 0, 0⟩ ⟨a, b, c, 0, 0, 0⟩ ∈ NonHyd.linear := fun a b c =>
    ⟨_, rfl, rfl, rfl, rfl⟩
  have h := (C103_hessian_exact square_flat {a | ∀ i, a i ∈ NonHyd.linear} {t | ∀ i j, t i j ∈ NonHyd.linear}
    (fun a ha b hb i => NonHyd.linear_sub _ (ha i) _ (hb i))
    (fun a ha b hb i j => NonHyd.linear_sub _ (ha i j) _ (hb i j)) (fun c => by change (0 : ℝ) < 1 / 6; norm_num)
    (fun a ha b hb h => funext fun i => linear_det _ (ha i) _ (hb i) fun c => h c i)
    (fun a ha i => by obtain ⟨p, _, _, _, e⟩ := ha i; rw [e]; exact square_cont p) _ (square_cont _) g
    ![squareField ⟨0, 2, 0, 0, 0, 0⟩ ⟨0, 2, 0, 0, 0, 0⟩, squareField ⟨0, 0, 0, 0, 0, 0⟩ ⟨0, 0, 0, 0, 0, 0⟩] H
    ![![squareField ⟨2, 0, 0, 0, 0, 0⟩ ⟨2, 0, 0, 0, 0, 0⟩, squareField ⟨0, 0, 0, 0, 0, 0⟩ ⟨0, 0, 0, 0, 0, 0⟩],
      ![squareField ⟨0, 0, 0, 0, 0, 0⟩ ⟨0, 0, 0, 0, 0, 0⟩, squareField ⟨0, 0, 0, 0, 0, 0⟩ ⟨0, 0, 0, 0, 0, 0⟩]] hg
    ?_ ?_ ?_ ?_ ?_ ?_).2 c 0 0
  · obtain ⟨x, y, _, _, e⟩ := NonHyd.square_at (.cell c)
    rw [h]
    simp [e, Quad.jet]
  · intro i
    fin_cases i <;> exact hl _ _ _
  · intro c i
    obtain ⟨x, y, _, _, e⟩ := NonHyd.square_at (.cell c)
    fin_cases i <;> simp [e, Quad.jet]
  · intro i j
    fin_cases i <;> fin_cases j <;> exact hl _ _ _
  · intro c i j
    obtain ⟨x, y, _, _, e⟩ := NonHyd.square_at (.cell c)
    fin_cases i <;> fin_cases j <;> simp [e, Quad.jet]
  · intro phi hphi
    choose p hp1 hp2 hp3 hp using hphi
    obtain rfl : phi = fun i => squareField (p i) (p i) := funext hp
    exact k _ p fun j => ⟨hp1 j, hp2 j, hp3 j⟩
  · intro tau htau i
    choose r hr1 hr2 hr3 hr using htau
    obtain rfl : tau = fun i j => squareField (r i j) (r i j) := funext fun i => funext fun j => hr i j
    fin_cases i <;> exact k _ (r _) fun j => ⟨hr1 _ j, hr2 _ j, hr3 _ j⟩

end Verif.Diag
