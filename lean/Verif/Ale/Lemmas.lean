import Verif.Ale.Model
import Verif.Tracer3.Props3
import Mathlib.Tactic.Linarith
import Mathlib.Tactic.FieldSimp
import Mathlib.Tactic.Ring
import Mathlib.Tactic.Positivity

/-!
The hypotheses on meshes and solvers, and the geometric conservation law of both coupled integrators.
-/

set_option linter.unusedSectionVars false

namespace Verif.Ale

open Verif.Dg Verif.Ext Verif.Tracer3

variable {H Q ι U W E2 U2 T : Type} [Fintype H] [Fintype Q] [Fintype ι] [DecidableEq ι]

/-- The mesh at rest has cells of positive size: positive depth and weights, nonnegative horizontal basis functions
that do not all vanish, edges of positive length. -/
structure Ref.Good (R : Ref H Q) : Prop where
  bath : ∀ h, 0 < R.bath h
  wq : ∀ x, 0 < R.wq x
  phi : ∀ x h, 0 ≤ R.phi x h
  some : ∀ x, ∃ h, 0 < R.phi x h
  edge : ∀ x h, R.lo x h < R.hi x h

/-- There is water at every node. -/
def Wet (R : Ref H Q) (eta : H → ℝ) : Prop := ∀ h, 0 < eta h + R.bath h

/-- Meshes and functions fit together.  `base i` are the values of the basis functions at the quadrature points, the same
for each mesh; `one` are the coefficients of the function 1. -/
structure Fits (G : Geo H Q ι U W) (base : ι → Q → ℝ) (one : ι → ℝ) : Prop where
  ref : G.ref.Good
  weight : ∀ eta x, (G.mesh eta).m.wC x = G.ref.wq (G.pt eta x) * |G.ref.jac eta (G.pt eta x)|
  value : ∀ eta u x, (G.tr eta u (.cell x)).v = ∑ i, u i * base i (G.pt eta x)
  one : ∀ eta k, G.tr eta (k • one) = cst _ k
  lin : ∀ eta a b c, G.tr eta (a + b • c) = G.tr eta a + cst _ b * G.tr eta c
  independent : ∀ u : ι → ℝ, (∀ x, ∑ i, u i * base i x = 0) → u = 0
  slope : ∀ eta ws x, Wet G.ref eta →
    (G.wm eta ws (.cell x)).g 2 * G.ref.jac eta (G.pt eta x) = G.ref.rate ws (G.pt eta x)
  cont : ∀ eta ws s, (G.mesh eta).hor s = true → (G.wm eta ws (.plus s)).v = (G.wm eta ws (.minus s)).v
  bed : ∀ eta ws b, (G.mesh eta).face b = .bottom → (G.wm eta ws (.bnd b)).v = 0
  flat : ∀ eta, (G.mesh eta).m.Flat
  vert : ∀ eta s, (G.mesh eta).hor s = false → (G.mesh eta).m.np s 2 = 0
  side : ∀ eta b, (G.mesh eta).face b = .side → (G.mesh eta).m.nb b 2 = 0
  exact : ∀ eta ws i, Wet G.ref eta →
    DivExact (G.mesh eta).m fun j => G.test eta i * if j = 2 then G.wm eta ws else cst _ 0
  hor : ∀ eta u b, (G.mesh eta).face b = .surf → (G.vel eta u 2 (.bnd b)).v = 0

/-- The solvers for the vertical velocity and for the mass matrix solve their equations; the tracer equation uses
discontinuous elements with the flux through the surface, and its boundaries are those of the momentum equation with
the value `k`, if any; there is no source and the limiter keeps constants. -/
structure Works [AddCommGroup U] {G : Geo H Q ι U W} (P : Env H U W E2 U2 T ι Q G) (one : ι → ℝ) (k : ℝ) : Prop where
  dt : 0 < P.dt
  vertical : ∀ eta u d j, Wet G.ref eta → ∃ bfs : ℕ → Bool,
    Solves bfs (fun i => G.vel eta u i + G.vel eta d i) (G.wf eta (P.wSolve eta (u + d))) (G.test eta j) ∧
    ∀ n i b, (G.mesh eta).face b = .side →
      (P.bc n i eta ((G.mesh eta).m.marker b)).isSome = bfs ((G.mesh eta).m.marker b)
  value : ∀ n i eta j f, P.bc n i eta j = some f → ValueIs f k
  hdg : ∀ eta, (P.term eta).hdg = true
  vdg : ∀ eta, (P.term eta).vdg = true
  symm : ∀ eta, (P.term eta).symm = true
  mass : ∀ eta r, Wet G.ref eta → G.mass eta (P.massSolve eta r) = r
  source : ∀ n i s, (P.rest n i s).source = none
  lim : ∀ eta, P.lim eta (k • one) = k • one

/-- Backward Euler for the vertical diffusion with the fields `F`: the tendency solves its equation on the current mesh. -/
def Backward {G : Geo H Q ι U W} (P : Env H U W E2 U2 T ι Q G) (n : ℕ) (s : St H U W E2 U2 T) (u : ι → ℝ)
    (F : Fields (G.mesh s.geo)) (r : ι → ℝ) : Prop :=
  P.diffuse n s u = u + P.dt • r ∧
    ∀ j, G.mass s.geo r j = vDiffusion (P.term s.geo) F (G.tr s.geo (u + P.dt • r)) (G.test s.geo j)

/-- Vertical diffusion with some diffusivity, and a penalty factor that is large enough for the form not to let the
variance grow (`C88_dissipation`). -/
def Diffuses {G : Geo H Q ι U W} (P : Env H U W E2 U2 T ι Q G) : Prop :=
  ∀ n s u, Wet G.ref s.geo → ∃ (F : Fields (G.mesh s.geo)) (r : ι → ℝ), Backward P n s u F r ∧
    ∀ c : ι → ℝ, ∑ j, c j * vDiffusion (P.term s.geo) F (G.tr s.geo c) (G.test s.geo j) ≤ 0

variable {G : Geo H Q ι U W} {base : ι → Q → ℝ} {one : ι → ℝ}

/-- The vertical edges of a cell stretch with the depth. -/
theorem edge_eq {bath eta hi lo : ℝ} (hb : bath ≠ 0) :
    newZ bath eta hi - newZ bath eta lo = (hi - lo) * ((eta + bath) / bath) := by
  unfold newZ; field_simp; ring

theorem edge_rate {bath ws hi lo : ℝ} (hb : bath ≠ 0) :
    newW bath ws hi - newW bath ws lo = (hi - lo) * (ws / bath) := by
  unfold newW; field_simp; ring

theorem jac_pos (hR : G.ref.Good) {eta : H → ℝ} (he : Wet G.ref eta) (x : Q) : 0 < G.ref.jac eta x := by
  have hpos : ∀ h, 0 < newZ (G.ref.bath h) (eta h) (G.ref.hi x h) - newZ (G.ref.bath h) (eta h) (G.ref.lo x h) := by
    intro h
    rw [edge_eq (hR.bath h).ne']
    exact mul_pos (sub_pos.2 (hR.edge x h)) (div_pos (he h) (hR.bath h))
  obtain ⟨h, hh⟩ := hR.some x
  exact Finset.sum_pos' (fun h _ => mul_nonneg (hR.phi x h) (hpos h).le)
    ⟨h, Finset.mem_univ h, mul_pos hh (hpos h)⟩

/-- The size of cells changes by the mesh velocity: first stage. -/
theorem gcl_one (hR : G.ref.Good) (dt : ℝ) (hdt : dt ≠ 0) (e0 e1 : H → ℝ) (x : Q) :
    dt * G.ref.rate (fun h => (e1 h - e0 h) / dt) x = G.ref.jac e1 x - G.ref.jac e0 x := by
  unfold Ref.rate Ref.jac
  rw [Finset.mul_sum, ← Finset.sum_sub_distrib]
  refine Finset.sum_congr rfl fun h _ => ?_
  have hb := (hR.bath h).ne'
  rw [edge_eq hb, edge_eq hb, edge_rate hb]
  field_simp
  ring

/-- Second stage. -/
theorem gcl_two (hR : G.ref.Good) (dt : ℝ) (hdt : dt ≠ 0) (e0 e1 e2 : H → ℝ) (x : Q) :
    dt * G.ref.rate (fun h => (2 * e2 h - e1 h - e0 h) / dt) x =
      2 * G.ref.jac e2 x - G.ref.jac e1 x - G.ref.jac e0 x := by
  unfold Ref.rate Ref.jac
  rw [Finset.mul_sum, Finset.mul_sum, ← Finset.sum_sub_distrib, ← Finset.sum_sub_distrib]
  refine Finset.sum_congr rfl fun h _ => ?_
  have hb := (hR.bath h).ne'
  rw [edge_eq hb, edge_eq hb, edge_eq hb, edge_rate hb]
  field_simp
  ring

/-- A mesh at rest. -/
theorem rate_zero (x : Q) : G.ref.rate (fun _ => 0) x = 0 := by
  unfold Ref.rate newW
  simp

/-- An integral over the cells, on the reference points. -/
theorem dx_eq (hG : Fits G base one) {eta : H → ℝ} (he : Wet G.ref eta) (f : Q → ℝ) :
    ((G.mesh eta).m.dx fun x => f (G.pt eta x)) = ∑ x, G.ref.wq x * G.ref.jac eta x * f x := by
  unfold Mesh.dx
  rw [← Equiv.sum_comp (G.pt eta)]
  refine Finset.sum_congr rfl fun x _ => ?_
  rw [hG.weight, abs_of_pos (jac_pos hG.ref he _)]

theorem test_value (hG : Fits G base one) (eta : H → ℝ) (i : ι) (x : (G.mesh eta).m.C) :
    (G.test eta i (.cell x)).v = base i (G.pt eta x) := by
  unfold Geo.test
  rw [hG.value, Finset.sum_eq_single i]
  · simp
  · intro j _ hj; simp [hj]
  · intro h; exact absurd (Finset.mem_univ i) h

/-- The mass form on the reference points. -/
theorem mass_eq (hG : Fits G base one) {eta : H → ℝ} (he : Wet G.ref eta) (u : ι → ℝ) (i : ι) :
    G.mass eta u i = ∑ x, G.ref.wq x * G.ref.jac eta x * ((∑ j, u j * base j x) * base i x) := by
  unfold Geo.mass
  rw [← dx_eq hG he fun x => (∑ j, u j * base j x) * base i x]
  congr 1
  funext x
  rw [hG.value, test_value hG]

/-- The constant has its value at every point. -/
theorem one_value (hG : Fits G base one) (k : ℝ) (eta : H → ℝ) (x : Q) : ∑ j, (k • one) j * base j x = k := by
  have h := hG.value eta (k • one) ((G.pt eta).symm x)
  rw [hG.one, Equiv.apply_symm_apply] at h
  exact h.symm

/-- The mass of the constant. -/
theorem mass_one (hG : Fits G base one) {eta : H → ℝ} (he : Wet G.ref eta) (k : ℝ) (i : ι) :
    G.mass eta (k • one) i = k * ∑ x, G.ref.wq x * G.ref.jac eta x * base i x := by
  rw [mass_eq hG he, Finset.mul_sum]
  refine Finset.sum_congr rfl fun x _ => ?_
  rw [one_value hG k eta x]; ring

/-- The mass form is definite. -/
theorem mass_definite (hG : Fits G base one) {eta : H → ℝ} (he : Wet G.ref eta) (u : ι → ℝ)
    (h : ∑ i, u i * G.mass eta u i ≤ 0) : u = 0 := by
  refine hG.independent u fun x => ?_
  have e1 : ∑ i, u i * G.mass eta u i = ∑ x, G.ref.wq x * G.ref.jac eta x * (∑ j, u j * base j x) ^ 2 := by
    simp only [mass_eq hG he, Finset.mul_sum]
    rw [Finset.sum_comm]
    refine Finset.sum_congr rfl fun x _ => ?_
    rw [pow_two, Finset.mul_sum, Finset.mul_sum]
    refine Finset.sum_congr rfl fun i _ => ?_
    ring
  have hnn : ∀ x, 0 ≤ G.ref.wq x * G.ref.jac eta x * (∑ j, u j * base j x) ^ 2 := fun x =>
    mul_nonneg (mul_pos (hG.ref.wq x) (jac_pos hG.ref he x)).le (sq_nonneg _)
  have h0 : ∑ x, G.ref.wq x * G.ref.jac eta x * (∑ j, u j * base j x) ^ 2 = 0 :=
    le_antisymm (e1 ▸ h) (Finset.sum_nonneg fun x _ => hnn x)
  have hx := (Finset.sum_eq_zero_iff_of_nonneg fun x _ => hnn x).1 h0 x (Finset.mem_univ x)
  rcases mul_eq_zero.1 hx with h1 | h1
  · exact absurd h1 (mul_pos (hG.ref.wq x) (jac_pos hG.ref he x)).ne'
  · exact pow_eq_zero_iff (two_ne_zero) |>.1 h1

theorem mass_sub (hG : Fits G base one) {eta : H → ℝ} (he : Wet G.ref eta) (u v : ι → ℝ) (i : ι) :
    G.mass eta (u - v) i = G.mass eta u i - G.mass eta v i := by
  rw [mass_eq hG he, mass_eq hG he, mass_eq hG he, ← Finset.sum_sub_distrib]
  refine Finset.sum_congr rfl fun x _ => ?_
  simp only [Pi.sub_apply, sub_mul, Finset.sum_sub_distrib]
  ring

/-- The mass matrix determines the solution. -/
theorem mass_inj (hG : Fits G base one) {eta : H → ℝ} (he : Wet G.ref eta) {u v : ι → ℝ}
    (h : G.mass eta u = G.mass eta v) : u = v := by
  refine sub_eq_zero.1 (mass_definite hG he _ (le_of_eq ?_))
  refine Finset.sum_eq_zero fun i _ => ?_
  rw [mass_sub hG he, h, sub_self, mul_zero]

variable [AddCommGroup U] {P : Env H U W E2 U2 T ι Q G} {k : ℝ}

/-- The solver recovers the constant. -/
theorem solve_one (hG : Fits G base one) (hP : Works P one k) {eta : H → ℝ} (he : Wet G.ref eta) :
    P.massSolve eta (G.mass eta (k • one)) = k • one :=
  mass_inj hG he (hP.mass eta _ he)

theorem limited_one (hP : Works P one k) (eta : H → ℝ) : P.limited eta (k • one) = k • one := by
  unfold Env.limited
  split
  · exact hP.lim eta
  · rfl

/-- The mesh velocity in use. -/
noncomputable def meshRate (P : Env H U W E2 U2 T ι Q G) (s : St H U W E2 U2 T) (x : Q) : ℝ :=
  if P.ale then G.ref.rate s.ws x else 0

/-- The residual of the constant is the rate of change of the size of the cells, when the vertical velocity belongs to
the velocity in use and to the current mesh. -/
theorem rhs_one (hG : Fits G base one) (hP : Works P one k) (n i : ℕ) (s : St H U W E2 U2 T) (he : Wet G.ref s.geo)
    (hw : s.w = P.wSolve s.geo (s.uv + s.dav)) (j : ι) :
    P.rhs n i s (k • one) j = k * ∑ x, G.ref.wq x * meshRate P s x * base j x := by
  unfold Env.rhs
  rw [hG.one]
  obtain ⟨bfs, hs, hopen⟩ := hP.vertical s.geo s.uv s.dav j he
  have ht : totalUv (P.fields n i s) (G.vel s.geo s.uv) = fun i => G.vel s.geo s.uv i + G.vel s.geo s.dav i := rfl
  have hm : meshW (P.fields n i s) = if P.ale then G.wm s.geo s.ws else cst _ 0 := by
    unfold meshW Env.fields
    cases P.ale <;> rfl
  have h2 : ∀ b, (G.mesh s.geo).face b = .surf →
      (totalUv (P.fields n i s) (G.vel s.geo s.uv) 2 (.bnd b)).v = 0 := by
    intro b hb
    rw [ht]
    change (G.vel s.geo s.uv 2 (.bnd b)).v + (G.vel s.geo s.dav 2 (.bnd b)).v = 0
    rw [hG.hor _ _ b hb, hG.hor _ _ b hb, add_zero]
  by_cases ha : P.ale = true
  · simp only [ha, if_true] at hm
    rw [C86_uniform (P.term s.geo) (P.fields n i s) (P.bc n i s.geo) bfs (G.vel s.geo s.uv) (G.wf s.geo s.w)
      (G.test s.geo j) k rfl rfl (hP.source n i s) (hP.hdg _) (hP.vdg _) (hP.symm _) (hG.flat _) (by rw [ht, hw]; exact hs) h2
      (fun b hb => hopen n i b hb) (fun j f hf => hP.value n i _ j f hf) (hG.vert _) (hG.side _)
      (fun s' hs' => by rw [hm]; exact hG.cont _ _ s' hs') (fun b hb => by rw [hm]; exact hG.bed _ _ b hb)
      (by rw [hm]; exact hG.exact _ _ j he), hm]
    congr 1
    unfold Mesh.dx
    rw [← Equiv.sum_comp (G.pt s.geo)]
    refine Finset.sum_congr rfl fun x _ => ?_
    rw [hG.weight, abs_of_pos (jac_pos hG.ref he _)]
    beta_reduce
    rw [test_value hG]
    have := hG.slope s.geo s.ws x he
    unfold meshRate
    rw [if_pos ha, ← this]; ring
  · have ha' : P.ale = false := by simpa using ha
    have hf : (P.fields n i s).wMesh = none := by simp [Env.fields, ha']
    rw [C86_fixed (P.term s.geo) (P.fields n i s) (P.bc n i s.geo) bfs (G.vel s.geo s.uv) (G.wf s.geo s.w)
      (G.test s.geo j) k rfl rfl (hP.source n i s) hf (hP.hdg _) (hP.vdg _) (hP.symm _) (hG.flat _) (by rw [ht, hw]; exact hs) h2
      (fun b hb => hopen n i b hb) (fun j f hf => hP.value n i _ j f hf)]
    simp [meshRate, ha']

/-- Vertical diffusion is linear and does not see constants. -/
theorem vDiffusion_one {e : Mesh3} (T : Term e) (F : Fields e) (c test : Sc e.m) (k b : ℝ) (hf : e.m.Flat) :
    vDiffusion T F (cst e.m k + cst e.m b * c) test = b * vDiffusion T F c test := by
  have hv : ∀ p, ((cst e.m k + cst e.m b * c) p).v = k + b * (c p).v := fun _ => rfl
  have hg : ∀ p i, ((cst e.m k + cst e.m b * c) p).g i = b * (c p).g i := by
    intro p i
    change 0 + (0 * (c p).v + b * (c p).g i) = _
    ring
  have hj : ∀ s, jumpN (cst e.m k + cst e.m b * c) s 2 = b * jumpN c s 2 := by
    intro s
    unfold jumpN
    rw [hv, hv, hf]; ring
  unfold vDiffusion
  cases F.diffV with
  | none => simp
  | some mu =>
    simp only [hg, hj]
    unfold Mesh3.dSh Mesh.dx Mesh.dS
    rw [← neg_mul_eq_mul_neg, mul_add, Finset.mul_sum]
    congr 2
    · exact Finset.sum_congr rfl fun x _ => by ring
    · split
      · rw [Finset.mul_sum]
        refine Finset.sum_congr rfl fun x _ => ?_
        beta_reduce
        split <;> ring
      · simp

/-- Implicit diffusion keeps the constant. -/
theorem diffuse_one (hG : Fits G base one) (hP : Works P one k) (hD : Diffuses P) (n : ℕ) (s : St H U W E2 U2 T)
    (he : Wet G.ref s.geo) : P.diffuse n s (k • one) = k • one := by
  obtain ⟨F, r, ⟨h1, h2⟩, h4⟩ := hD n s (k • one) he
  have hr : r = 0 := by
    refine mass_definite hG he r ?_
    have e : ∀ j, G.mass s.geo r j = P.dt * vDiffusion (P.term s.geo) F (G.tr s.geo r) (G.test s.geo j) := by
      intro j
      rw [h2, hG.lin, hG.one, vDiffusion_one _ _ _ _ _ _ (hG.flat _)]
    have := h4 r
    calc ∑ j, r j * G.mass s.geo r j
        = P.dt * ∑ j, r j * vDiffusion (P.term s.geo) F (G.tr s.geo r) (G.test s.geo j) := by
          rw [Finset.mul_sum]
          exact Finset.sum_congr rfl fun j _ => by rw [e]; ring
      _ ≤ 0 := mul_nonpos_of_nonneg_of_nonpos hP.dt.le this
  rw [h1, hr, smul_zero, add_zero]

end Verif.Ale
