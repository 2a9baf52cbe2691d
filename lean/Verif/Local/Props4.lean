import Verif.Local.Props3
import Verif.Linear.Props4

/-!
C144: the equations of the 2D model with discontinuous elements.
-/

namespace Verif.Local

open Finset Verif.Dg Verif.Contract Verif.Explicit

variable {m : Mesh 2} {κ : Type*} {own : Pt m → κ}

theorem near_self (k : κ) : k ∈ near own k := .inl rfl

/-! ### Scalar functions -/

/-- The scalar functions that vanish in the cell `k`. -/
def zeroIn (own : Pt m → κ) (k : κ) : Submodule ℝ (Sc m) where
  carrier := {f | ∀ x, own x = k → f x = 0}
  zero_mem' := fun _ _ => rfl
  add_mem' := fun {f g} hf hg x hx => by
    change f x + g x = 0
    rw [hf x hx, hg x hx, add_zero]
  smul_mem' := fun a f hf x hx => by
    change a • f x = 0
    rw [hf x hx, smul_zero]

/-- A space of discontinuous functions on the mesh: the part of a function in one cell is a function of the space, and a
function of the space that is zero at the quadrature points of a cell is zero in the cell.  The weights of the quadrature are positive. -/
structure Broken (own : Pt m → κ) (H : Submodule ℝ (Sc m)) : Prop where
  cut : ∀ f ∈ H, ∀ k, ∃ g ∈ H, (∀ x, own x = k → g x = f x) ∧ Only own k g
  unisolvent : ∀ f ∈ H, ∀ k, (∀ x, own (.cell x) = k → (f (.cell x)).v = 0) → ∀ x, own x = k → f x = 0
  weights : ∀ x, 0 < m.wC x

theorem only_of {k : κ} {w : Sc m} (h : ∀ j, j ≠ k → w ∈ zeroIn own j) : Only own k w := fun x hx => h _ hx x rfl

theorem same_of {k : κ} {u v : Sc m} (h : ∀ j ∈ near own k, u - v ∈ zeroIn own j) : Same own (near own k) u v := fun x hx => by
  have h0 : u x - v x = 0 := h _ hx x rfl
  exact sub_eq_zero.1 h0

theorem ip_sub {d : ℕ} {m : Mesh d} (u v w : Sc m) : ip (u - v) w = ip u w - ip v w := by
  unfold ip Mesh.dx
  rw [← sum_sub_distrib]
  refine sum_congr rfl fun x _ => ?_
  change m.wC x * (((u (.cell x)).v - (v (.cell x)).v) * (w (.cell x)).v) = _
  ring

theorem ip_cell {k : κ} {u w : Sc m} (hw : Only own k w) (hu : ∀ x, own x = k → u x = 0) : ip u w = 0 := by
  refine sum_eq_zero fun x _ => ?_
  dsimp only
  by_cases hx : own (.cell x) = k
  · rw [hu _ hx, zv, zero_mul, mul_zero]
  · rw [hw _ hx, zv, mul_zero, mul_zero]

/-- The square of a function over the points of one cell. -/
theorem ip_self {k : κ} {u g : Sc m} (hg : ∀ x, own x = k → g x = u x) (ho : Only own k g) (hW : ∀ x, 0 < m.wC x) :
    0 ≤ ip u g ∧ (ip u g = 0 → ∀ x, own (.cell x) = k → (u (.cell x)).v = 0) := by
  have h0 : ∀ x ∈ univ, 0 ≤ m.wC x * ((u (.cell x)).v * (g (.cell x)).v) := fun x _ => by
    refine mul_nonneg (hW x).le ?_
    by_cases hx : own (.cell x) = k
    · rw [hg _ hx]
      exact mul_self_nonneg _
    · rw [ho _ hx, zv, mul_zero]
  refine ⟨sum_nonneg h0, fun h x hx => ?_⟩
  have h1 := (sum_eq_zero_iff_of_nonneg h0).1 h x (mem_univ x)
  rw [hg _ hx] at h1
  exact mul_self_eq_zero.1 ((mul_eq_zero.1 h1).resolve_left (hW x).ne')

/-- C144: the tracer equation of the 2D model with discontinuous elements, in both forms. -/
theorem C144_tracer2 (T : Tracer2.Term m) (F : Tracer2.Flow m) (hF : F.uvP1 = none ∧ F.uvMag = none) (mu src : Option (Sc m))
    (bc : ℕ → Option (Tracer2.BFuncs m)) {H : Submodule ℝ (Sc m)} (B : Broken own H) :
    LocalEqn (Linear.tracerEqn T F mu src id bc) H (zeroIn own) (near own) ∧
    LocalEqn (Linear.consTracerEqn T F mu src id bc) H (zeroIn own) (near own) := by
  have hdef : ∀ k u, u ∈ H → (∀ w ∈ H, (∀ j, j ≠ k → w ∈ zeroIn own j) → ip u w = 0) → u ∈ zeroIn own k := fun k u hu h => by
    obtain ⟨g, hg, he, ho⟩ := B.cut u hu k
    have h0 := h g hg fun j hj x hx => ho x fun e => hj (hx.symm.trans e)
    exact B.unisolvent u hu k ((ip_self he ho B.weights).2 h0)
  have hflow : ∀ k, SameFlow own (near own k) F F := fun k => by
    refine ⟨?_, fun _ _ => rfl, rfl, rfl, ⟨hF.1, hF.1⟩, ⟨hF.2, hF.2⟩⟩
    cases F.uv with
    | none => trivial
    | some u => exact fun _ _ _ => rfl
  refine ⟨⟨near_self, fun k u v w _ hk h => ?_, ip_sub, fun k u w hk hu => ip_cell (only_of hk) hu, hdef⟩,
    ⟨near_self, fun k u v w _ hk h => ?_, ip_sub, fun k u w hk hu => ip_cell (only_of hk) hu, hdef⟩⟩
  · simp only [Linear.tracerEqn, id_eq]
    rw [C144_advection T (hflow k) (same_of h) (only_of hk) bc, C144_diffusion T (hflow k) (same_of h) (only_of hk) mu bc]
  · simp only [Linear.consTracerEqn, id_eq]
    rw [C144_conservative T (hflow k) (same_of h) (only_of hk) _, C144_diffusion T (hflow k) (same_of h) (only_of hk) mu bc]

/-! ### Velocity and elevation -/

/-- The states that vanish in the cell `k`. -/
def zeroIn2 (own : Pt m → κ) (k : κ) : Submodule ℝ (State m) where
  carrier := {u | (∀ i, u.1 i ∈ zeroIn own k) ∧ u.2 ∈ zeroIn own k}
  zero_mem' := ⟨fun _ => (zeroIn own k).zero_mem, (zeroIn own k).zero_mem⟩
  add_mem' := fun hf hg => ⟨fun i => (zeroIn own k).add_mem (hf.1 i) (hg.1 i), (zeroIn own k).add_mem hf.2 hg.2⟩
  smul_mem' := fun a _ hf => ⟨fun i => (zeroIn own k).smul_mem a (hf.1 i), (zeroIn own k).smul_mem a hf.2⟩

/-- A space of discontinuous velocities and elevations, as for `dg-dg`. -/
structure Broken2 (own : Pt m → κ) (H : Submodule ℝ (State m)) : Prop where
  cut : ∀ u ∈ H, ∀ k, ∃ g ∈ H, ((∀ i x, own x = k → g.1 i x = u.1 i x) ∧ ∀ i, Only own k (g.1 i)) ∧
    (∀ x, own x = k → g.2 x = u.2 x) ∧ Only own k g.2
  unisolvent : ∀ u ∈ H, ∀ k, (∀ x, own (.cell x) = k → (∀ i, (u.1 i (.cell x)).v = 0) ∧ (u.2 (.cell x)).v = 0) → u ∈ zeroIn2 own k
  weights : ∀ x, 0 < m.wC x

/-- C144: the shallow water equations with discontinuous elements, linear or not, without wetting and drying. -/
theorem C144_swe (T : Swe.Term m) (hwd : T.depth.wetdry = false) (K : Swe.Coeffs m) (bc : ℕ → Option (Swe.Funcs m))
    {H : Submodule ℝ (State m)} (B : Broken2 own H) : LocalEqn (swe T K bc) H (zeroIn2 own) (near own) := by
  have hm : ∀ e q : Sc m, Swe.massEta T e q = ip e q := fun e q => by
    have h0 : ∀ x y, T.depth.displacement x y = 0 := fun x y => by simp [Depth.displacement, hwd]
    simp only [Swe.massEta, h0, zv, zero_mul]
    simp [Mesh.dx, ip]
  have hmass : ∀ u w : State m, (swe T K bc).mass u w = ipState u w := fun u w => by
    simp only [swe, ipState, hm]
  refine ⟨near_self, fun k u v w _ hk h => ?_, fun u v w => ?_, fun k u w hk hu => ?_, fun k u hu h => ?_⟩
  · have hw : ∀ i, Only own k (w.1 i) := fun i => only_of fun j hj => (hk j hj).1 i
    have hw2 : Only own k w.2 := only_of fun j hj => (hk j hj).2
    have h1 : SameV own (near own k) u.1 v.1 := fun i => same_of fun j hj => (h j hj).1 i
    have h2 : Same own (near own k) u.2 v.2 := same_of fun j hj => (h j hj).2
    simp only [swe, Swe.continuity]
    rw [C144_momentum T bc h1 h2 h1 h2 hw K, C144_divergence T bc h1 h2 h1 h2 hw2]
  · rw [hmass, hmass, hmass]
    change (∑ i, ip (u.1 i - v.1 i) (w.1 i)) + ip (u.2 - v.2) w.2 = (∑ i, ip (u.1 i) (w.1 i)) + ip u.2 w.2 -
      ((∑ i, ip (v.1 i) (w.1 i)) + ip v.2 w.2)
    simp only [ip_sub, sum_sub_distrib]
    ring
  · rw [hmass]
    change (∑ i, ip (u.1 i) (w.1 i)) + ip u.2 w.2 = 0
    rw [ip_cell (only_of fun j hj => (hk j hj).2) hu.2, add_zero]
    exact sum_eq_zero fun i _ => ip_cell (only_of fun j hj => (hk j hj).1 i) (hu.1 i)
  · obtain ⟨g, hg, ⟨he, ho⟩, he2, ho2⟩ := B.cut u hu k
    have h0 := h g hg fun j hj => ⟨fun i x hx => ho i x fun e => hj (hx.symm.trans e), fun x hx => ho2 x fun e => hj (hx.symm.trans e)⟩
    rw [hmass] at h0
    change (∑ i, ip (u.1 i) (g.1 i)) + ip u.2 g.2 = 0 at h0
    have p1 : ∀ i ∈ univ, 0 ≤ ip (u.1 i) (g.1 i) := fun i _ => (ip_self (he i) (ho i) B.weights).1
    have p2 := (ip_self he2 ho2 B.weights).1
    have q1 : ∑ i, ip (u.1 i) (g.1 i) = 0 := le_antisymm (by linarith) (sum_nonneg p1)
    have q2 : ip u.2 g.2 = 0 := by linarith
    refine B.unisolvent u hu k fun x hx => ⟨fun i => ?_, (ip_self he2 ho2 B.weights).2 q2 x hx⟩
    exact (ip_self (he i) (ho i) B.weights).2 ((sum_eq_zero_iff_of_nonneg p1).1 q1 i (mem_univ i)) x hx

end Verif.Local
