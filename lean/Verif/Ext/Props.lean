import Verif.Ext.Tank

/-!
C85: the vertical velocity makes the 3D flow conserve volume.
-/

namespace Verif.Ext

open Verif.Dg

variable {e : Mesh3}

/-- `w` satisfies the equation of `VerticalVelocitySolver` for the test function `test`. -/
def Solves (bfs : ℕ → Bool) (uv : Vc e.m) (w test : Sc e.m) : Prop := wLeft w test = wRight bfs uv test

/-- The test function is constant in each cell, like the indicator of a cell. -/
def CellConst (test : Sc e.m) : Prop := ∀ x i, (test (.cell x)).g i = 0

/-- Flow through an interior facet from the plus to the minus side: mean horizontal velocity and, between the
layers, mean vertical velocity. -/
noncomputable def through (uv : Vc e.m) (w : Sc e.m) (s : e.m.S) : ℝ :=
  (∑ i, ((uv i (.plus s)).v + (uv i (.minus s)).v) / 2 * e.m.np s i) +
    if e.hor s then ((w (.plus s)).v + (w (.minus s)).v) / 2 * e.m.np s 2 else 0

/-- Flow out of the domain at a boundary point. -/
def out (uv : Vc e.m) (w : Sc e.m) (b : e.m.B) : ℝ :=
  (∑ i, (uv i (.bnd b)).v * e.m.nb b i) + (w (.bnd b)).v * e.m.nb b 2

/-- The equation with all terms on one side, for flat facets. -/
theorem solves_iff (bfs : ℕ → Bool) (uv : Vc e.m) (w test : Sc e.m) (hflat : e.m.Flat) :
    Solves bfs uv w test ↔
      e.m.dS (fun s => through uv w s * jump test s) + e.dsurf (fun b => out uv w b * (test (.bnd b)).v) +
        e.sideLoop (fun k b => if bfs k then normalH uv b * (test (.bnd b)).v else 0) =
      e.m.dx fun x => (∑ i, (uv i (.cell x)).v * (test (.cell x)).g i) +
        (w (.cell x)).v * (test (.cell x)).g 2 := by
  have h1 : e.m.dS (fun s => through uv w s * jump test s) =
      e.dSh (fun s => avg w s * jumpN test s 2) + (e.dSv (fun s => facetDiv uv test s) +
        e.dSh fun s => facetDiv uv test s) := by
    rw [add_comm (e.dSv _), dSh_add_dSv]
    unfold Mesh3.dSh
    rw [← dS_add]
    refine dS_congr fun s => ?_
    unfold through facetDiv jumpN jump avg
    simp only [Fin.sum_univ_three, hflat s 0, hflat s 1, hflat s 2]
    cases e.hor s <;> simp <;> ring
  have h2 : e.dsurf (fun b => out uv w b * (test (.bnd b)).v) =
      e.dsurf (fun b => (w (.bnd b)).v * (test (.bnd b)).v * e.m.nb b 2) +
      e.dsurf fun b => ((uv 0 (.bnd b)).v * e.m.nb b 0 + (uv 1 (.bnd b)).v * e.m.nb b 1 +
        (uv 2 (.bnd b)).v * e.m.nb b 2) * (test (.bnd b)).v := by
    rw [← dsurf_add]
    refine dsurf_congr fun b _ => ?_
    unfold out
    rw [Fin.sum_univ_three]; ring
  have h3 : e.sideLoop (fun k b => if bfs k then -(normalH uv b * (test (.bnd b)).v) else 0) =
      -e.sideLoop fun k b => if bfs k then normalH uv b * (test (.bnd b)).v else 0 := by
    rw [sideLoop_eq, sideLoop_eq, ← Finset.sum_neg_distrib]
    refine Finset.sum_congr rfl fun b _ => ?_
    split
    · split <;> ring
    · ring
  have h4 : (e.m.dx fun x => (∑ i, (uv i (.cell x)).v * (test (.cell x)).g i) +
        (w (.cell x)).v * (test (.cell x)).g 2) =
      (e.m.dx fun x => ∑ i, (uv i (.cell x)).v * (test (.cell x)).g i) +
        e.m.dx fun x => (test (.cell x)).g 2 * (w (.cell x)).v := by
    rw [← dx_add]
    exact dx_congr fun x => by ring
  unfold Solves wLeft wRight
  simp only
  rw [h1, h2, h3, h4]
  constructor <;> intro h <;> linarith

/-- C85: cell by cell, what flows in flows out.  For the indicator of a cell (or of any set of cells) the sum of
the flows through its facets is zero; the flow through a facet is the same seen from both sides and nothing
passes the bottom or a side without boundary condition. -/
theorem C85_cells (bfs : ℕ → Bool) (uv : Vc e.m) (w test : Sc e.m) (hflat : e.m.Flat)
    (h : Solves bfs uv w test) (hc : CellConst test) :
    e.m.dS (fun s => through uv w s * ((test (.plus s)).v - (test (.minus s)).v)) +
      e.dsurf (fun b => out uv w b * (test (.bnd b)).v) +
      e.sideLoop (fun k b => if bfs k then normalH uv b * (test (.bnd b)).v else 0) = 0 := by
  have := (solves_iff bfs uv w test hflat).1 h
  unfold jump at this
  rw [this]
  refine (dx_congr fun x => ?_).trans dx_zero
  simp [hc x]

/-- C85: the flow through the surface of a water column is the flow into it through its sides.  The test function
is the indicator of a column: it does not jump between layers. -/
theorem C85_columns (bfs : ℕ → Bool) (uv : Vc e.m) (w test : Sc e.m) (hflat : e.m.Flat)
    (h : Solves bfs uv w test) (hc : CellConst test)
    (hcol : ∀ s, e.hor s = true → (test (.plus s)).v = (test (.minus s)).v) :
    e.dsurf (fun b => out uv w b * (test (.bnd b)).v) =
      -(e.dSv (fun s => (∑ i, ((uv i (.plus s)).v + (uv i (.minus s)).v) / 2 * e.m.np s i) *
          ((test (.plus s)).v - (test (.minus s)).v)) +
        e.sideLoop (fun k b => if bfs k then normalH uv b * (test (.bnd b)).v else 0)) := by
  have h1 := C85_cells bfs uv w test hflat h hc
  have h2 : e.m.dS (fun s => through uv w s * ((test (.plus s)).v - (test (.minus s)).v)) =
      e.dSv (fun s => (∑ i, ((uv i (.plus s)).v + (uv i (.minus s)).v) / 2 * e.m.np s i) *
          ((test (.plus s)).v - (test (.minus s)).v)) := by
    unfold Mesh3.dSv
    refine dS_congr fun s => ?_
    unfold through
    cases hs : e.hor s
    · simp
    · simp [hcol s hs]
  linarith

/-- C85: with closed sides no water crosses the surface in total. -/
theorem C85_closed (uv : Vc e.m) (w : Sc e.m) (hflat : e.m.Flat) (h : Solves (fun _ => false) uv w (cst e.m 1)) :
    e.dsurf (fun b => out uv w b) = 0 := by
  have h1 := C85_cells (fun _ => false) uv w (cst e.m 1) hflat h (fun _ _ => rfl)
  have h2 : e.m.dS (fun s => through uv w s * ((cst e.m 1 (.plus s)).v - (cst e.m 1 (.minus s)).v)) = 0 :=
    (dS_congr fun s => by simp).trans dS_zero
  have h3 : e.sideLoop (fun _ b => if (false : Bool) then normalH uv b * (cst e.m 1 (.bnd b)).v else 0) = 0 := by
    rw [sideLoop_eq]; simp
  rw [h2, h3] at h1
  have h4 : e.dsurf (fun b => out uv w b * (cst e.m 1 (.bnd b)).v) = e.dsurf fun b => out uv w b :=
    dsurf_congr fun b _ => by simp
  rw [h4] at h1
  linarith

/-- C85: the equation is consistent.  A flow without divergence, continuous across facets in normal direction and
tangential to the bottom and to the sides without boundary condition, satisfies it for every test function for
which the divergence theorem holds. -/
theorem C85_consistent (bfs : ℕ → Bool) (uv : Vc e.m) (w test : Sc e.m) (hflat : e.m.Flat)
    (hvert : ∀ s, e.hor s = false → e.m.np s 2 = 0) (hside : ∀ b, e.face b = .side → e.m.nb b 2 = 0)
    (hdiv : ∀ x, (uv 0 (.cell x)).g 0 + (uv 1 (.cell x)).g 1 + ((uv 2 (.cell x)).g 2 + (w (.cell x)).g 2) = 0)
    (hcont : ∀ s, (∑ i, (uv i (.plus s)).v * e.m.np s i) + (w (.plus s)).v * e.m.np s 2 =
      (∑ i, (uv i (.minus s)).v * e.m.np s i) + (w (.minus s)).v * e.m.np s 2)
    (hbed : ∀ b, e.face b = .bottom → out uv w b = 0)
    (hclosed : ∀ b, e.face b = .side → bfs (e.m.marker b) = false → normalH uv b = 0)
    (hex : DivExact e.m fun i => test * (uv i + if i = 2 then w else 0)) :
    Solves bfs uv w test := by
  rw [solves_iff _ _ _ _ hflat]
  unfold DivExact at hex
  have e1 : (e.m.dx fun c => div (fun i => test * (uv i + if i = 2 then w else 0)) (.cell c)) =
      e.m.dx fun x => (∑ i, (uv i (.cell x)).v * (test (.cell x)).g i) +
        (w (.cell x)).v * (test (.cell x)).g 2 := by
    refine dx_congr fun x => ?_
    unfold div
    rw [Fin.sum_univ_three, Fin.sum_univ_three]
    simp only [Pi.mul_apply, Pi.add_apply, Jet.mul_g, Jet.add_v, Jet.add_g]
    have := hdiv x
    simp only [show ((0 : Fin 3) = 2) = False from by decide, show ((1 : Fin 3) = 2) = False from by decide,
      if_true, if_false]
    have z1 : ((0 : Sc e.m) (.cell x)).v = 0 := rfl
    have z2 : ∀ i, ((0 : Sc e.m) (.cell x)).g i = 0 := fun _ => rfl
    rw [z1, z2, z2]
    linear_combination (test (.cell x)).v * this
  have e2 : (e.m.dS fun s => jumpV (fun i => test * (uv i + if i = 2 then w else 0)) s) =
      e.m.dS fun s => through uv w s * jump test s := by
    refine dS_congr fun s => ?_
    have hc := hcont s
    unfold jumpV through jump
    simp only [Fin.sum_univ_three] at hc ⊢
    simp only [Pi.mul_apply, Pi.add_apply, Jet.mul_v, Jet.add_v,
      show ((0 : Fin 3) = 2) = False from by decide, show ((1 : Fin 3) = 2) = False from by decide,
      if_true, if_false]
    have z1 : ((0 : Sc e.m) (.plus s)).v = 0 := rfl
    have z2 : ((0 : Sc e.m) (.minus s)).v = 0 := rfl
    rw [z1, z2, hflat s 0, hflat s 1, hflat s 2]
    cases hs : e.hor s
    · have hz := hvert s hs
      simp only [hz, mul_zero, add_zero, Bool.false_eq_true, if_false] at hc ⊢
      linear_combination ((test (.plus s)).v + (test (.minus s)).v) / 2 * hc
    · simp only [if_true]
      linear_combination ((test (.plus s)).v + (test (.minus s)).v) / 2 * hc
  have e3 : (∑ b, e.m.wB b * normalAt (fun i => test * (uv i + if i = 2 then w else 0)) b) =
      ∑ b, e.m.wB b * (out uv w b * (test (.bnd b)).v) := by
    refine dB_congr fun b => ?_
    unfold normalAt out
    rw [Fin.sum_univ_three, Fin.sum_univ_three]
    simp only [Pi.mul_apply, Pi.add_apply, Jet.mul_v, Jet.add_v,
      show ((0 : Fin 3) = 2) = False from by decide, show ((1 : Fin 3) = 2) = False from by decide,
      if_true, if_false]
    have z1 : ((0 : Sc e.m) (.bnd b)).v = 0 := rfl
    rw [z1]; ring
  rw [e1, e2, e3, boundary_split] at hex
  have e4 : e.dbottom (fun b => out uv w b * (test (.bnd b)).v) = 0 := by
    unfold Mesh3.dbottom
    refine Finset.sum_eq_zero fun b _ => ?_
    by_cases hb : e.face b = .bottom
    · simp [hb, hbed b hb]
    · simp [hb]
  have e5 : (e.sideLoop fun _ b => out uv w b * (test (.bnd b)).v) =
      e.sideLoop fun k b => if bfs k then normalH uv b * (test (.bnd b)).v else 0 := by
    rw [sideLoop_eq, sideLoop_eq]
    refine dB_congr fun b => ?_
    by_cases hb : e.face b = .side
    · have hn : out uv w b = normalH uv b := by
        unfold out normalH
        rw [Fin.sum_univ_three, hside b hb]; ring
      simp only [hb, if_true, hn]
      cases hk : bfs (e.m.marker b)
      · simp [hclosed b hb hk]
      · simp
    · simp [hb]
  rw [e4, e5] at hex
  linarith

/-- C85: water at rest has no vertical velocity. -/
theorem C85_rest (bfs : ℕ → Bool) (test : Sc e.m) : Solves bfs (fun _ => cst e.m 0) (cst e.m 0) test := by
  unfold Solves wLeft wRight Mesh3.dsurf Mesh3.dSh Mesh3.dSv Mesh.dS Mesh.dx
  simp [facetDiv, avg, normalH, sideLoop_eq]

/-- C85: the vertical velocity of a sum of flows is the sum of the vertical velocities. -/
theorem C85_linear (bfs : ℕ → Bool) (a : ℝ) (uv uv' : Vc e.m) (w w' test : Sc e.m) (hflat : e.m.Flat)
    (h : Solves bfs uv w test) (h' : Solves bfs uv' w' test) :
    Solves bfs (fun i => uv i + cst e.m a * uv' i) (w + cst e.m a * w') test := by
  rw [solves_iff _ _ _ _ hflat] at h h' ⊢
  have e1 : e.m.dS (fun s => through (fun i => uv i + cst e.m a * uv' i) (w + cst e.m a * w') s * jump test s) =
      e.m.dS (fun s => through uv w s * jump test s) + a * e.m.dS (fun s => through uv' w' s * jump test s) := by
    rw [← dS_smul, ← dS_add]
    refine dS_congr fun s => ?_
    unfold through
    simp only [Fin.sum_univ_three, Pi.add_apply, Pi.mul_apply, Jet.add_v, Jet.mul_v, cst_apply, Jet.const_v]
    cases e.hor s <;> simp <;> ring_nf
  have e2 : e.dsurf (fun b => out (fun i => uv i + cst e.m a * uv' i) (w + cst e.m a * w') b * (test (.bnd b)).v) =
      e.dsurf (fun b => out uv w b * (test (.bnd b)).v) + a * e.dsurf fun b => out uv' w' b * (test (.bnd b)).v := by
    rw [← dsurf_smul, ← dsurf_add]
    refine dsurf_congr fun b _ => ?_
    unfold out
    simp only [Fin.sum_univ_three, Pi.add_apply, Pi.mul_apply, Jet.add_v, Jet.mul_v, cst_apply, Jet.const_v]
    ring
  have e3 : e.sideLoop (fun k b => if bfs k then normalH (fun i => uv i + cst e.m a * uv' i) b * (test (.bnd b)).v
      else 0) = e.sideLoop (fun k b => if bfs k then normalH uv b * (test (.bnd b)).v else 0) +
      a * e.sideLoop fun k b => if bfs k then normalH uv' b * (test (.bnd b)).v else 0 := by
    rw [sideLoop_eq, sideLoop_eq, sideLoop_eq, ← dB_smul, ← dB_add]
    refine dB_congr fun b => ?_
    unfold normalH
    simp only [Pi.add_apply, Pi.mul_apply, Jet.add_v, Jet.mul_v, cst_apply, Jet.const_v]
    split
    · split <;> ring
    · ring
  have e4 : (e.m.dx fun x => (∑ i, ((fun i => uv i + cst e.m a * uv' i) i (.cell x)).v * (test (.cell x)).g i) +
        ((w + cst e.m a * w') (.cell x)).v * (test (.cell x)).g 2) =
      (e.m.dx fun x => (∑ i, (uv i (.cell x)).v * (test (.cell x)).g i) + (w (.cell x)).v * (test (.cell x)).g 2) +
      a * e.m.dx fun x => (∑ i, (uv' i (.cell x)).v * (test (.cell x)).g i) +
        (w' (.cell x)).v * (test (.cell x)).g 2 := by
    rw [← dx_smul, ← dx_add]
    refine dx_congr fun x => ?_
    simp only [Fin.sum_univ_three, Pi.add_apply, Pi.mul_apply, Jet.add_v, Jet.mul_v, cst_apply, Jet.const_v]
    ring
  rw [e1, e2, e3, e4, ← h, ← h']
  ring

/-- C85: the matrix of the equation does not change when the layers of the mesh are stretched vertically, so it may be
kept while the mesh moves (`constant_jacobian=True`, utility3d.py:118-122).  `k` is the stretching of a
cell: its volume is multiplied and vertical derivatives are divided by `k`, areas times the vertical component
of the normal do not change.  `w'`, `test'` are the same functions on the stretched mesh, given by their
values at the same points. -/
theorem C85_stretch (m m' : Mesh 3) (hor : m.S → Bool) (face : m.B → Face)
    (hC : m'.C = m.C) (hS : m'.S = m.S) (hB : m'.B = m.B) :
    ∀ (k : m.C → ℝ), (∀ x, k x ≠ 0) →
      (∀ x, m'.wC (cast hC.symm x) = k x * m.wC x) →
      (∀ s, m'.wS (cast hS.symm s) * m'.np (cast hS.symm s) 2 = m.wS s * m.np s 2) →
      (∀ s, m'.wS (cast hS.symm s) * m'.nm (cast hS.symm s) 2 = m.wS s * m.nm s 2) →
      (∀ b, m'.wB (cast hB.symm b) * m'.nb (cast hB.symm b) 2 = m.wB b * m.nb b 2) →
      ∀ (w test : Sc m) (w' test' : Sc m'),
        (∀ x, (w' (.cell (cast hC.symm x))).v = (w (.cell x)).v) →
        (∀ x, (test' (.cell (cast hC.symm x))).g 2 = (test (.cell x)).g 2 / k x) →
        (∀ s, (w' (.plus (cast hS.symm s))).v = (w (.plus s)).v ∧
          (w' (.minus (cast hS.symm s))).v = (w (.minus s)).v ∧
          (test' (.plus (cast hS.symm s))).v = (test (.plus s)).v ∧
          (test' (.minus (cast hS.symm s))).v = (test (.minus s)).v) →
        (∀ b, (w' (.bnd (cast hB.symm b))).v = (w (.bnd b)).v ∧
          (test' (.bnd (cast hB.symm b))).v = (test (.bnd b)).v) →
        wLeft (e := ⟨m', fun s => hor (cast hS s), fun b => face (cast hB b)⟩) w' test' =
          wLeft (e := ⟨m, hor, face⟩) w test := by
  obtain ⟨C', S', B', wC', wS', wB', np', nm', nb', mk', mks', a1, a2, a3, a4, a5, p1, p2, p3, p4, p5⟩ := m'
  obtain ⟨C, S, B, wC, wS, wB, np, nm, nb, mk, mks, b1, b2, b3, b4, b5, q1, q2, q3, q4, q5⟩ := m
  rename_i iC' iS' iB' iC iS iB
  dsimp only at hC hS hB
  subst hC hS hB
  intro k hk h1 h2 h3 h4 w test w' test' h5 h6 h7 h8
  obtain rfl : iC = iC' := Subsingleton.elim _ _
  obtain rfl : iS = iS' := Subsingleton.elim _ _
  obtain rfl : iB = iB' := Subsingleton.elim _ _
  simp only [cast_eq] at h1 h2 h3 h4 h5 h6 h7 h8 ⊢
  unfold wLeft Mesh3.dsurf Mesh3.dSh Mesh.dS Mesh.dx
  dsimp only
  refine congrArg₂ (· - ·) (congrArg₂ (· + ·) ?_ ?_) ?_
  · refine Finset.sum_congr rfl fun b _ => ?_
    rw [(h8 b).1, (h8 b).2]
    split
    · linear_combination (w (.bnd b)).v * (test (.bnd b)).v * h4 b
    · simp
  · refine Finset.sum_congr rfl fun s _ => ?_
    obtain ⟨i1, i2, i3, i4⟩ := h7 s
    unfold avg jumpN
    rw [i1, i2, i3, i4]
    dsimp only
    split
    · linear_combination ((1 / 2) * ((w (.plus s)).v + (w (.minus s)).v) * (test (.plus s)).v) * h2 s +
        ((1 / 2) * ((w (.plus s)).v + (w (.minus s)).v) * (test (.minus s)).v) * h3 s
    · simp
  · refine Finset.sum_congr rfl fun x _ => ?_
    have := hk x
    rw [h1, h5, h6]
    field_simp

/-! ### The equation determines the vertical velocity -/

/-- The bilinear form `wLeft` in one water column with linear elements, layers `0` (bottom) to `n`: `b`, `t` are the
values of `w` at the bottom and top of each layer, `β`, `τ` those of the test function.  Area times the
vertical component of the normal is the same for all facets of a column and `dx` times the vertical
derivative is the increment over the layer, so that the form is this sum times the area. -/
noncomputable def column (n : ℕ) (b t β τ : ℕ → ℝ) : ℝ :=
  t n * τ n + (∑ k ∈ Finset.range n, (t k + b (k + 1)) / 2 * (τ k - β (k + 1))) -
    ∑ k ∈ Finset.range (n + 1), (b k + t k) / 2 * (τ k - β k)

/-- C85: only `w = 0` satisfies the equation with zero right-hand side. -/
theorem C85_unique (n : ℕ) (b t : ℕ → ℝ) (h : ∀ β τ, column n b t β τ = 0) :
    ∀ k ≤ n, b k = 0 ∧ t k = 0 := by
  have hτ : ∀ k < n, b (k + 1) = b k := by
    intro k hk
    have := h (fun _ => 0) (fun j => if j = k then 1 else 0)
    unfold column at this
    simp only [sub_zero, mul_ite, mul_one, mul_zero, Finset.sum_ite_eq', Finset.mem_range] at this
    rw [if_neg (by omega), if_pos hk, if_pos (by omega)] at this
    linarith
  have hτn : t n = b n := by
    have := h (fun _ => 0) (fun j => if j = n then 1 else 0)
    unfold column at this
    simp only [sub_zero, mul_ite, mul_one, mul_zero, Finset.sum_ite_eq', Finset.mem_range] at this
    rw [if_pos trivial, if_neg (by omega), if_pos (by omega)] at this
    linarith
  have hβ : ∀ k < n, t (k + 1) = t k := by
    intro k hk
    have := h (fun j => if j = k + 1 then 1 else 0) (fun _ => 0)
    unfold column at this
    simp only [zero_sub, mul_neg, mul_ite, mul_one, mul_zero, Finset.sum_neg_distrib, Finset.sum_ite_eq',
      Finset.mem_range, add_left_inj] at this
    rw [if_pos hk, if_pos (by omega)] at this
    linarith
  have hβ0 : b 0 + t 0 = 0 := by
    have := h (fun j => if j = 0 then 1 else 0) (fun _ => 0)
    unfold column at this
    simp only [zero_sub, mul_neg, mul_ite, mul_one, mul_zero, Finset.sum_neg_distrib, Finset.sum_ite_eq',
      Finset.mem_range, Nat.add_eq_zero_iff, one_ne_zero, and_false, if_false, Finset.sum_const_zero] at this
    rw [if_pos (by omega)] at this
    linarith
  have hb : ∀ k ≤ n, b k = b 0 := by
    intro k
    induction k with
    | zero => intro _; rfl
    | succ k ih => intro hk; rw [hτ k (by omega), ih (by omega)]
  have ht : ∀ k ≤ n, t k = t 0 := by
    intro k
    induction k with
    | zero => intro _; rfl
    | succ k ih => intro hk; rw [hβ k (by omega), ih (by omega)]
  have h1 := hb n le_rfl
  have h2 := ht n le_rfl
  intro k hk
  rw [hb k hk, ht k hk]
  constructor <;> linarith

/-! ### Example: uniform flow along the sloping bottom of the tank -/

/-- Velocity `(1, 0)` and vertical velocity 1 in the tank; the sides 1 and 2 are open. -/
noncomputable def tankUv : Vc tank.m := fun i => cst tank.m (if i = 0 then 1 else 0)

theorem tankField_cst (x : ℝ) : cst tank.m x = tankField ⟨x, 0, 0, 0⟩ ⟨x, 0, 0, 0⟩ := by
  have key : ∀ y z u, (Jet.const x : Jet 3) = (⟨x, 0, 0, 0⟩ : Lin).jet y z u := by
    intro y z u
    apply Jet.ext
    · simp [Lin.jet]
    · funext i; fin_cases i <;> simp [Lin.jet]
  funext p
  cases p with
  | cell c => cases c <;> exact key _ _ _
  | plus c => cases c; exact key _ _ _
  | minus c => cases c; exact key _ _ _
  | bnd c => cases c <;> exact key _ _ _

theorem tankField_smul (x : ℝ) (lo up : Lin) : tankField lo up * cst tank.m x =
    tankField ⟨x * lo.a, x * lo.b, x * lo.c, x * lo.d⟩ ⟨x * up.a, x * up.b, x * up.c, x * up.d⟩ := by
  have key : ∀ (p : Lin) y z u, p.jet y z u * (Jet.const x : Jet 3) =
      (⟨x * p.a, x * p.b, x * p.c, x * p.d⟩ : Lin).jet y z u := by
    intro p y z u
    apply Jet.ext
    · simp [Lin.jet]; ring
    · funext i; fin_cases i <;> simp [Lin.jet] <;> ring
  funext p
  cases p with
  | cell c => cases c <;> simp only [Pi.mul_apply, tankField, cst_apply] <;> exact key _ _ _ _
  | plus c => cases c; simp only [Pi.mul_apply, tankField, cst_apply]; exact key _ _ _ _
  | minus c => cases c; simp only [Pi.mul_apply, tankField, cst_apply]; exact key _ _ _ _
  | bnd c => cases c <;> simp only [Pi.mul_apply, tankField, cst_apply] <;> exact key _ _ _ _

/-- All hypotheses of `C85_consistent` hold for it, with any test function that is linear in each layer. -/
theorem tank_solves (lo up : Lin) :
    Solves (fun k => k == 1 || k == 2) tankUv (cst tank.m 1) (tankField lo up) := by
  refine C85_consistent _ _ _ _ tank_flat (fun s hs => by simp [tank] at hs) (fun b => ?_) (fun x => ?_)
    (fun s => rfl) (fun b => ?_) (fun b => ?_) ?_
  · change tkFace b = .side → tkN b 2 = 0
    cases b <;> simp [tkFace, tkN]
  · simp [tankUv]
  · change tkFace b = .bottom → _
    have : out tankUv (cst tank.m 1) b = tkN b 0 + tkN b 2 := by
      unfold out
      rw [Fin.sum_univ_three]
      change (if (0 : Fin 3) = 0 then (1 : ℝ) else 0) * tkN b 0 + (if (1 : Fin 3) = 0 then (1 : ℝ) else 0) * tkN b 1 +
        (if (2 : Fin 3) = 0 then (1 : ℝ) else 0) * tkN b 2 + 1 * tkN b 2 = _
      simp
    rw [this]
    cases b <;> simp [tkFace, tkN]
  · change tkFace b = .side → ((tkMarker b == 1 || tkMarker b == 2) = false) → _
    have : normalH tankUv b = tkN b 0 := by
      change (if (0 : Fin 3) = 0 then (1 : ℝ) else 0) * tkN b 0 + (if (1 : Fin 3) = 0 then (1 : ℝ) else 0) * tkN b 1 = _
      simp
    rw [this]
    cases b <;> simp [tkFace, tkMarker, tkN]
  · have hz : (0 : Sc tank.m) = cst tank.m 0 := rfl
    have ha : ∀ a b : ℝ, cst tank.m a + cst tank.m b = cst tank.m (a + b) := by
      intro a b
      funext p
      apply Jet.ext
      · rfl
      · funext i; simp
    have : (fun i : Fin 3 => tankField lo up * (tankUv i + if i = 2 then cst tank.m 1 else 0)) =
        fun i => tankField
          ⟨(if i = 1 then 0 else 1) * lo.a, (if i = 1 then 0 else 1) * lo.b, (if i = 1 then 0 else 1) * lo.c,
            (if i = 1 then 0 else 1) * lo.d⟩
          ⟨(if i = 1 then 0 else 1) * up.a, (if i = 1 then 0 else 1) * up.b, (if i = 1 then 0 else 1) * up.c,
            (if i = 1 then 0 else 1) * up.d⟩ := by
      funext i
      rw [← tankField_smul]
      congr 1
      unfold tankUv
      fin_cases i
      · simp [hz, ha]
      · simp [hz, ha]
      · simp [ha]
    rw [this]
    exact tank_divExact _ _

/-- One unit leaves through the surface: three enter on the left, two leave on the right. -/
example : tank.dsurf (fun b => out tankUv (cst tank.m 1) b) = 1 := by
  refine (tank_dsurf _).trans ?_
  unfold out
  rw [Fin.sum_univ_three]
  change (if (0 : Fin 3) = 0 then (1 : ℝ) else 0) * tkN .surf 0 + (if (1 : Fin 3) = 0 then (1 : ℝ) else 0) * tkN .surf 1 +
    (if (2 : Fin 3) = 0 then (1 : ℝ) else 0) * tkN .surf 2 + 1 * tkN .surf 2 = 1
  simp [tkN]

end Verif.Ext
