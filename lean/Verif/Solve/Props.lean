import Verif.Solve.Lemmas
import Verif.Explicit.Model
import Verif.Contract.Props
import Verif.RK.Props
import Mathlib.Topology.MetricSpace.Pseudo.Defs

/-!
C145: every time step has exactly one result.
-/

namespace Verif.Solve

open Finset Verif.Contract Verif.Explicit

variable {V : Type*} [AddCommGroup V] [Module ℝ V]

/-- The forms of an equation are linear in the test function, and those of the time derivative also in the function. -/
structure Weak (E : Eqn V) : Prop where
  mass : Bilin E.mass
  inner : Bilin E.inner
  test : ∀ u v, IsLin (E.res u v)

/-- With coefficients from `v` the residual is a linear form plus a part that does not depend on the unknown. -/
def Affine (E : Eqn V) (v : V) : Prop := ∀ w, IsLin fun x => E.res x v w - E.res 0 v w

/-- The matrix of an implicit step: a form of the time derivative minus `t` times the residual without its constant part. -/
def matrix (b : V → V → ℝ) (E : Eqn V) (v : V) (t : ℝ) : V → V → ℝ := fun x w => b x w - t * (E.res x v w - E.res 0 v w)

theorem bilin_lin {E : Eqn V} (W : Weak E) {v : V} (A : Affine E v) : Bilin fun x w => E.res x v w - E.res 0 v w :=
  ⟨A, fun x => (W.test x v).sub (W.test 0 v)⟩

theorem bilin_matrix {E : Eqn V} (W : Weak E) {v : V} (A : Affine E v) {b : V → V → ℝ} (hb : Bilin b) (t : ℝ) :
    Bilin (matrix b E v t) :=
  ⟨fun w => (hb.1 w).sub ((A w).left t), fun x => (hb.2 x).sub (((W.test x v).sub (W.test 0 v)).left t)⟩

section Explicit

variable {E : Eqn V} {H : Submodule ℝ V} [FiniteDimensional ℝ H]

/-- C145: the tendency of an explicit stage, for equations that may be nonlinear in every way. -/
theorem C145_tendency (W : Weak E) (hd : Regular H E.mass) (dt : ℝ) (u : V) : ∃! k, Tendency E dt H u k :=
  solve W.mass hd ((W.test u u).left dt)

/-- C145: a step of any explicit Runge-Kutta method. -/
theorem C145_erk (W : Weak E) (hd : Regular H E.mass) (T : RK.Tableau) (dt : ℝ) (old : V) : ∃! new, ButcherStep E T dt H old new := by
  obtain ⟨k, hk, hu⟩ := chain_unique T.n (fun i k x => Tendency E dt H (stage T old k i) x)
    (fun i _ k => C145_tendency W hd dt _) fun i _ k k' h x hx => by
      have : stage T old k' i = stage T old k i := by
        unfold stage
        rw [sum_congr rfl fun j hj => by rw [← h j (mem_range.1 hj)]]
      simp only [this]
      exact hx
  refine ⟨_, ⟨k, hk, rfl⟩, ?_⟩
  rintro new ⟨k', hk', rfl⟩
  rw [sum_congr rfl fun j hj => by rw [hu k' hk' j (mem_range.1 hj)]]

/-- C145: a step in Shu-Osher form. -/
theorem C145_shuosher (W : Weak E) (hd : Regular H E.mass) (C : RK.ShuOsher) (n : ℕ) (dt : ℝ) (old : V) :
    ∃! new, ShuOsherStep E C n dt H old new := by
  classical
  choose K hK hKu using C145_tendency W hd dt
  let P : ℕ → (ℕ → V) → V → Prop := fun i s x => match i with
    | 0 => x = old
    | i + 1 => x = C.β (i + 1) i • K (s i) + ∑ j ∈ range (i + 1), C.α (i + 1) j • s j
  obtain ⟨s, hs, hu⟩ := chain_unique (n + 1) P
    (fun i _ s => by cases i <;> exact ⟨_, rfl, fun y hy => hy⟩) fun i _ s s' h x hx => by
      cases i with
      | zero => exact hx
      | succ i =>
        simp only [P] at hx ⊢
        rw [hx, h i (by omega), sum_congr rfl fun j hj => by rw [h j (mem_range.1 hj)]]
  refine ⟨s n, ⟨s, fun i => K (s i), hs 0 (by omega), fun i hi => ⟨hK _, hs (i + 1) (by omega)⟩, rfl⟩, ?_⟩
  rintro new ⟨s', k', h0, h', rfl⟩
  refine hu s' (fun i hi => ?_) n (by omega)
  cases i with
  | zero => exact h0
  | succ i =>
    have := h' i (by omega)
    simp only [P]
    rw [this.2, hKu _ _ this.1]

/-- C145: a step of `SSPRK33`. -/
theorem C145_ssprk33 (W : Weak E) (hd : Regular H E.mass) (dt : ℝ) (old : V) :
    ∃! new, Ssprk33Step E dt H old new := by
  obtain ⟨C, hC⟩ : ∃ C, RK.toShuOsher RK.ssprk33 = some C := ⟨_, RK.ssprk33_conv⟩
  obtain ⟨x, hx, hu⟩ := C145_shuosher W hd C RK.ssprk33.n dt old
  refine ⟨x, ⟨C, hC, hx⟩, ?_⟩
  rintro y ⟨C', hC', hy⟩
  obtain rfl : C = C' := Option.some.inj (hC.symm.trans hC')
  exact hu y hy

/-- C145: a step of `ForwardEuler`. -/
theorem C145_euler (W : Weak E) (hd : Regular H E.mass) (dt : ℝ) (old : V) : ∃! new, EulerStep E dt H old new :=
  solve W.mass hd ((W.mass.2 old).add ((W.test old old).left dt))

/-- C145: a step of `SSPRK22ALE` on a mesh that does not move. -/
theorem C145_ssprk22 (W : Weak E) (hd : Regular H E.mass) (dt : ℝ) (old : V) : ∃! new, TwoStageStep E dt H old new := by
  obtain ⟨mid, hm, hmu⟩ := solve W.mass hd ((W.inner.2 old).add ((W.test old old).left dt))
  obtain ⟨new, hn, hnu⟩ := solve W.mass hd (((((W.inner.2 old).add ((W.test old old).left dt)).left (1 / 2)).add
    ((W.inner.2 old).left (1 / 2))).add (((W.test mid mid).left dt).left (1 / 2)))
  refine ⟨new, ⟨hn.1, mid, hm.1, hm.2, hn.2⟩, ?_⟩
  rintro y ⟨hy, mid', hm', h1, h2⟩
  obtain rfl := hmu mid' ⟨hm', h1⟩
  exact hnu y ⟨hy, h2⟩

end Explicit

section Implicit

variable {H : Submodule ℝ V} [FiniteDimensional ℝ H]

omit [AddCommGroup V] [Module ℝ V] in
/-- The coefficients of an implicit step do not depend on its unknown. -/
theorem Fixed.eq' {E : Eqn V} {semi : Bool} (hf : Fixed E semi) (u old w : V) :
    E.res u (if semi then old else u) w = E.res u old w := hf.eq u u old w

/-- C145: a step of `CrankNicolson` whose matrix is regular. -/
theorem C145_theta {E Eold : Eqn V} (W : Weak E) (Wo : Weak Eold) (dt theta : ℝ) (semi : Bool) (old : V) (A : Affine E old) (hf : Fixed E semi)
    (hr : Regular H (matrix E.mass E old (dt * theta))) : ∃! new, ThetaStep E Eold dt theta semi H old new := by
  obtain ⟨x, hx, hu⟩ := solve (bilin_matrix W A W.mass _) hr
    (((W.mass.2 old).add ((W.test 0 old).left (dt * theta))).add ((Wo.test old old).left (dt * (1 - theta))))
  refine ⟨x, ⟨hx.1, fun w hw => ?_⟩, fun y hy => hu y ⟨hy.1, fun w hw => ?_⟩⟩
  · have := hx.2 w hw
    rw [hf.eq]
    simp only [matrix] at this
    linear_combination this
  · have := hy.2 w hw
    rw [hf.eq] at this
    simp only [matrix]
    linear_combination this

theorem stage_split {E : Eqn V} {v : V} (A : Affine E v) (b x w : V) (c : ℝ) :
    E.res (b + c • x) v w = E.res b v w + c * (E.res x v w - E.res 0 v w) := by
  have h1 := (A w).1 b (c • x)
  have h2 := (A w).2 c x
  simp only at h1 h2
  linarith

theorem stageValue_split (T : RK.Tableau) (dt : ℝ) (old : V) (k : ℕ → V) (i : ℕ) :
    stageValue T dt old k i = (old + ∑ j ∈ range i, (T.a i j * dt) • k j) + (T.a i i * dt) • k i := by
  unfold stageValue
  rw [sum_range_succ, add_assoc]

/-- C145: a step of `DIRKGeneric` whose matrices are regular; without `semi_implicit` the coefficients of a stage are those of the
stage before. -/
theorem C145_dirk {E : ℕ → Eqn V} {T : RK.Tableau} (W : ∀ i < T.n, Weak (E i)) (A : ∀ i < T.n, ∀ v, Affine (E i) v) (dt : ℝ) (semi : Bool)
    (old : V) (hr : ∀ i < T.n, ∀ v, (semi = true → v = old) → Regular H (matrix (E i).inner (E i) v (T.a i i * dt))) :
    ∃! new, TendencyStep E T dt semi H old new := by
  let P : ℕ → (ℕ → V) → V → Prop := fun i k x => x ∈ H ∧ ∀ w ∈ H,
    matrix (E i).inner (E i) (stageLin T dt semi old k i) (T.a i i * dt) x w =
      (E i).res (old + ∑ j ∈ range i, (T.a i j * dt) • k j) (stageLin T dt semi old k i) w
  have hP : ∀ i < T.n, ∀ k : ℕ → V, P i k (k i) ↔ k i ∈ H ∧ ∀ w ∈ H,
      -(E i).inner (k i) w + (E i).res (stageValue T dt old k i) (stageLin T dt semi old k i) w = 0 := fun i hi k => by
    refine and_congr_right fun _ => forall₂_congr fun w _ => ?_
    rw [stageValue_split, stage_split (A i hi _)]
    simp only [matrix]
    constructor <;> intro h <;> linarith
  obtain ⟨k, hk, hu⟩ := chain_unique T.n P
    (fun i hi k => solve (bilin_matrix (W i hi) (A i hi _) (W i hi).inner _)
      (hr i hi _ fun h => by unfold stageLin; rw [if_pos h]) ((W i hi).test _ _)) fun i _ k k' h x hx => by
      have e1 : ∑ j ∈ range i, (T.a i j * dt) • k' j = ∑ j ∈ range i, (T.a i j * dt) • k j :=
        sum_congr rfl fun j hj => by rw [h j (mem_range.1 hj)]
      have e2 : stageLin T dt semi old k' i = stageLin T dt semi old k i := by
        unfold stageLin stageValue
        split
        · rfl
        · split
          · rfl
          · rw [sum_congr rfl fun j hj => by rw [← h j (by have := mem_range.1 hj; omega)]]
      simp only [P, e1, e2]
      exact hx
  refine ⟨_, ⟨k, fun i hi => (hP i hi k).1 (hk i hi), rfl⟩, ?_⟩
  rintro new ⟨k', hk', rfl⟩
  rw [sum_congr rfl fun j hj => by rw [hu k' (fun i hi => (hP i hi k').2 (hk' i hi)) j (mem_range.1 hj)]]

/-- C145: a step of `DIRKGenericUForm` whose matrices are regular. -/
theorem C145_dirk_u {E : ℕ → Eqn V} {T : RK.Tableau} (W : ∀ i < T.n, Weak (E i)) (hn : 0 < T.n) (dt : ℝ) (semi : Bool) (old : V)
    (A : ∀ i < T.n, Affine (E i) old) (hf : ∀ i < T.n, Fixed (E i) semi) (hd : ∀ i < T.n, Regular H (E i).inner)
    (hdiag : ∀ i < T.n - 1, dt * T.a i i ≠ 0)
    (hr : ∀ i < T.n, Regular H (matrix (E i).mass (E i) old (dt * T.a i i))) :
    ∃! new, UStep E T dt semi H old new := by
  let P : ℕ → (ℕ → V × V) → V × V → Prop := fun i p x =>
    (x.1 ∈ H ∧ ∀ w ∈ H, matrix (E i).mass (E i) old (dt * T.a i i) x.1 w =
      (E i).mass old w + dt * T.a i i * (E i).res 0 old w + ∑ j ∈ range i, dt * T.a i j * (E i).inner (p j).2 w) ∧
    if i < T.n - 1 then x.2 ∈ H ∧ ∀ w ∈ H, dt * T.a i i * (E i).inner x.2 w =
      (E i).mass x.1 w - (E i).mass old w - ∑ j ∈ range i, dt * T.a i j * (E i).inner (p j).2 w else x.2 = 0
  obtain ⟨p, hp, hu⟩ := chain_unique T.n P (fun i hi p => by
      have hs : IsLin fun w => ∑ j ∈ range i, dt * T.a i j * (E i).inner (p j).2 w :=
        IsLin.sum fun j => ((W i hi).inner.2 _).left _
      obtain ⟨u, h1, hu1⟩ := solve (bilin_matrix (W i hi) (A i hi) (W i hi).mass _) (hr i hi)
        ((((W i hi).mass.2 old).add (((W i hi).test 0 old).left (dt * T.a i i))).add hs)
      by_cases h : i < T.n - 1
      · have hne := hdiag i h
        obtain ⟨k, h2, hu2⟩ := solve (b := fun x w => dt * T.a i i * (E i).inner x w)
          ⟨fun w => ((W i hi).inner.1 w).left _, fun x => ((W i hi).inner.2 x).left _⟩
          (fun x hx h0 => hd i hi x hx fun w hw => (mul_eq_zero.1 (h0 w hw)).resolve_left hne)
          ((((W i hi).mass.2 u).sub ((W i hi).mass.2 old)).sub hs)
        refine ⟨(u, k), ⟨h1, by rw [if_pos h]; exact h2⟩, ?_⟩
        rintro ⟨u', k'⟩ ⟨h3, h4⟩
        rw [if_pos h] at h4
        obtain rfl : u' = u := hu1 u' h3
        rw [hu2 k' h4]
      · refine ⟨(u, 0), ⟨h1, by rw [if_neg h]⟩, ?_⟩
        rintro ⟨u', k'⟩ ⟨h3, h4⟩
        rw [if_neg h] at h4
        obtain rfl : u' = u := hu1 u' h3
        exact Prod.ext rfl h4)
    fun i _ p p' h x hx => by
      have e : ∀ w, ∑ j ∈ range i, dt * T.a i j * (E i).inner (p' j).2 w = ∑ j ∈ range i, dt * T.a i j * (E i).inner (p j).2 w :=
        fun w => sum_congr rfl fun j hj => by rw [h j (mem_range.1 hj)]
      simp only [P, e]
      exact hx
  refine ⟨(p (T.n - 1)).1, ⟨fun i => (p i).1, fun i => (p i).2, fun i hi => ⟨(hp i hi).1.1, fun w hw => ?_⟩, fun i hi => ?_, rfl⟩, ?_⟩
  · have := (hp i hi).1.2 w hw
    rw [Fixed.eq' (hf i hi)]
    simp only [matrix] at this
    linear_combination this
  · have h2 := (hp i (by omega)).2
    rw [if_pos hi] at h2
    exact ⟨h2.1, fun w hw => by linear_combination h2.2 w hw⟩
  · rintro new ⟨u, k, h1, h2, rfl⟩
    have := hu (fun i => (u i, if i < T.n - 1 then k i else 0)) (fun i hi => ?_) (T.n - 1) (by omega)
    · exact congrArg Prod.fst this
    · have e : ∀ w, ∑ j ∈ range i, dt * T.a i j * (E i).inner (if j < T.n - 1 then k j else 0) w =
          ∑ j ∈ range i, dt * T.a i j * (E i).inner (k j) w :=
        fun w => sum_congr rfl fun j hj => by rw [if_pos (by have := mem_range.1 hj; omega)]
      refine ⟨⟨(h1 i hi).1, fun w hw => ?_⟩, ?_⟩
      · have := (h1 i hi).2 w hw
        rw [Fixed.eq' (hf i hi)] at this
        simp only [matrix, e]
        linear_combination this
      · split
        · rename_i h
          refine ⟨by simpa only [h] using (h2 i h).1, fun w hw => ?_⟩
          have := (h2 i h).2 w hw
          simp only [e]
          linear_combination this
        · rename_i h
          rfl

end Implicit

/-! ### Regular matrices -/

section Regular

variable {H : Submodule ℝ V} {E : Eqn V}

/-- A form that is zero for no function but zero. -/
theorem regular_of_definite {b : V → V → ℝ} (h : ∀ x ∈ H, b x x = 0 → x = 0) : Regular H b := fun x hx h0 => h x hx (h0 x hx)

/-- C145: the matrix of an implicit step is regular for time steps of any length if the equation, apart from its sources, adds no energy;
`U` weighs the components of a function. -/
theorem C145_passive {b : V → V → ℝ} (U : V → V) (v : V) {t : ℝ} (ht : 0 ≤ t) (hU : ∀ x ∈ H, U x ∈ H) (h0 : ∀ x ∈ H, 0 ≤ b x (U x))
    (hdef : ∀ x ∈ H, b x (U x) = 0 → x = 0) (hp : ∀ x ∈ H, E.res x v (U x) - E.res 0 v (U x) ≤ 0) : Regular H (matrix b E v t) := by
  intro x hx h
  have h1 := h _ (hU x hx)
  simp only [matrix] at h1
  exact hdef x hx (by nlinarith [h0 x hx, mul_nonneg ht (neg_nonneg.2 (hp x hx))])

theorem matrix_zero {b : V → V → ℝ} {v : V} (hd : Regular H b) : Regular H (matrix b E v 0) := by
  intro x hx h
  refine hd x hx fun w hw => ?_
  simpa [matrix] using h w hw

variable [FiniteDimensional ℝ H]

/-- C145: for all but finitely many time steps a step of `CrankNicolson` has exactly one result, whatever the equation adds. -/
theorem C145_theta_finite {Eold : Eqn V} (W : Weak E) (Wo : Weak Eold) (theta : ℝ) (semi : Bool) (old : V) (A : Affine E old)
    (hf : Fixed E semi) (hd : Regular H E.mass) : {dt : ℝ | ¬ ∃! new, ThetaStep E Eold dt theta semi H old new}.Finite := by
  refine (finite_scale (regular_finite W.mass (bilin_lin W A) hd) (fun h => h (matrix_zero (E := E) (v := old) hd)) theta).subset fun dt h => ?_
  intro hr
  exact h (C145_theta W Wo dt theta semi old A hf (by rw [mul_comm dt]; exact hr))

/-- C145: the same for `DIRKGeneric`. -/
theorem C145_dirk_finite {E : ℕ → Eqn V} {T : RK.Tableau} (W : ∀ i < T.n, Weak (E i)) (A : ∀ i < T.n, ∀ v, Affine (E i) v) (semi : Bool)
    (old : V) (hf : ∀ i < T.n, Fixed (E i) semi) (hd : ∀ i < T.n, Regular H (E i).inner) :
    {dt : ℝ | ¬ ∃! new, TendencyStep E T dt semi H old new}.Finite := by
  have hfin : (⋃ i ∈ Finset.range T.n, {dt : ℝ | ¬ Regular H (matrix (E i).inner (E i) old (T.a i i * dt))}).Finite := by
    refine Set.Finite.biUnion (Finset.range T.n).finite_toSet fun i hi => ?_
    have hi' : i < T.n := Finset.mem_range.1 hi
    exact finite_scale (regular_finite (W i hi').inner (bilin_lin (W i hi') (A i hi' old)) (hd i hi'))
      (fun h => h (matrix_zero (E := E i) (v := old) (hd i hi'))) (T.a i i)
  refine hfin.subset fun dt h => ?_
  by_contra hc
  simp only [Set.mem_iUnion, Finset.mem_range, not_exists] at hc
  refine h (C145_dirk W A dt semi old fun i hi v hv => ?_)
  have hreg : Regular H (matrix (E i).inner (E i) old (T.a i i * dt)) := by
    by_contra hn
    exact hc i hi hn
  rcases hf i hi with hs | hs
  · rw [hv hs]
    exact hreg
  · have : matrix (E i).inner (E i) v (T.a i i * dt) = matrix (E i).inner (E i) old (T.a i i * dt) := by
      funext x w
      simp only [matrix, hs x v old w, hs 0 v old w]
    rw [this]
    exact hreg

/-- C145: the same for `DIRKGenericUForm`. -/
theorem C145_dirk_u_finite {E : ℕ → Eqn V} {T : RK.Tableau} (W : ∀ i < T.n, Weak (E i)) (hn : 0 < T.n) (semi : Bool) (old : V)
    (A : ∀ i < T.n, Affine (E i) old) (hf : ∀ i < T.n, Fixed (E i) semi) (hm : ∀ i < T.n, Regular H (E i).mass)
    (hd : ∀ i < T.n, Regular H (E i).inner) (hdiag : ∀ i < T.n - 1, T.a i i ≠ 0) :
    {dt : ℝ | ¬ ∃! new, UStep E T dt semi H old new}.Finite := by
  have hfin : ({0} ∪ ⋃ i ∈ Finset.range T.n, {dt : ℝ | ¬ Regular H (matrix (E i).mass (E i) old (T.a i i * dt))}).Finite := by
    refine (Set.finite_singleton _).union (Set.Finite.biUnion (Finset.range T.n).finite_toSet fun i hi => ?_)
    have hi' : i < T.n := Finset.mem_range.1 hi
    exact finite_scale (regular_finite (W i hi').mass (bilin_lin (W i hi') (A i hi')) (hm i hi'))
      (fun h => h (matrix_zero (E := E i) (v := old) (hm i hi'))) (T.a i i)
  refine hfin.subset fun dt h => ?_
  by_contra hc
  simp only [Set.mem_union, Set.mem_singleton_iff, Set.mem_iUnion, Finset.mem_range, not_or, not_exists] at hc
  refine h (C145_dirk_u W hn dt semi old A hf hd (fun i hi => mul_ne_zero hc.1 (hdiag i hi)) fun i hi => ?_)
  by_contra hne
  rw [mul_comm dt] at hne
  exact hc.2 i hi hne

/-- C145: in particular there is a bound below which every time step works. -/
theorem C145_small {P : ℝ → Prop} (h : {dt : ℝ | ¬ P dt}.Finite) : ∃ bound > 0, ∀ dt, 0 < dt → dt < bound → P dt := by
  have ho : IsOpen ({dt : ℝ | ¬ P dt} \ {0})ᶜ := (h.subset Set.sdiff_subset).isClosed.isOpen_compl
  obtain ⟨e, he, hb⟩ := Metric.isOpen_iff.1 ho 0 (by simp)
  refine ⟨e, he, fun dt h0 h1 => ?_⟩
  have hm : dt ∈ ({dt : ℝ | ¬ P dt} \ {0})ᶜ := hb (by rw [Metric.mem_ball, Real.dist_eq, sub_zero, abs_of_pos h0]; exact h1)
  by_contra hn
  exact hm ⟨hn, h0.ne'⟩

end Regular

end Verif.Solve
