import Verif.Converge.Model
import Verif.Converge.Props
import Verif.Explicit.Props2
import Mathlib.Analysis.InnerProductSpace.Dual
import Mathlib.Analysis.InnerProductSpace.Calculus
import Mathlib.Analysis.InnerProductSpace.PiL2

/-!
C129: methods with stages converge with the order of their table, for equations in weak form.
-/

namespace Verif.Converge

open Finset Verif.Contract Verif.Explicit RK

universe u

variable {V : Type u} [AddCommGroup V] [Module ℝ V]

/-! ### Statements -/

/-- The size of a function: the root of `mass(x, W x)`. -/
noncomputable def size (e : V → V → ℝ) (x : V) : ℝ := Real.sqrt (e x x)

/-- Equations with the mass form `e(x, y) = mass(x, W y)`, an inner product on a function space of finite dimension. -/
structure System (E : ℝ → ℝ → Eqn V) (H : Submodule ℝ V) (W : V → V) (e : V → V → ℝ) : Prop where
  maps : ∀ x ∈ H, W x ∈ H
  energy : IsEnergy e
  mass : ∀ t r x y, (E t r).mass x (W y) = e x y
  inner : ∀ t r x y, (E t r).inner x (W y) = e x y
  definite : ∀ x ∈ H, e x x = 0 → x = 0
  finite : FiniteDimensional ℝ H
  test : ∀ t r x v, IsLin fun y => (E t r).res x v (W y)

/-- `U` is a solution of the equations, discrete in space only, up to `tEnd`; it is `p` times continuously differentiable, and
lies in a set where the equation is Lipschitz continuous. -/
structure Solution (E : ℝ → ℝ → Eqn V) (H : Submodule ℝ V) (W : V → V) (e : V → V → ℝ) (S : Set V) (p : ℕ) (L tEnd : ℝ)
    (U : ℝ → V) : Prop where
  mem : ∀ t, U t ∈ H
  within : ∀ t, 0 ≤ t → t ≤ tEnd → U t ∈ S
  smooth : ∀ y ∈ H, ContDiff ℝ p fun t => e (U t) y
  eqn : ∀ t, 0 ≤ t → t ≤ tEnd → ∀ y ∈ H, deriv (fun s => e (U s) y) t = (E t t).res (U t) (U t) (W y)
  nonneg : 0 ≤ L
  lip : ∀ t, 0 ≤ t → t ≤ tEnd → ∀ x ∈ H, x ∈ S → ∀ x' ∈ H, x' ∈ S → ∀ y ∈ H,
    |(E t t).res x x (W y) - (E t t).res x' x' (W y)| ≤ L * size e (x - x') * size e y

/-- The residual has the derivative `D` at the solution, and its change is bounded. -/
structure Derivative (E : ℝ → ℝ → Eqn V) (H : Submodule ℝ V) (W : V → V) (e : V → V → ℝ) (S : Set V) (L M tEnd : ℝ)
    (U : ℝ → V) (D : ℝ → V → V → ℝ) : Prop where
  lin : ∀ t, Bilin (D t)
  nonneg : 0 ≤ M
  bound : ∀ t, 0 ≤ t → t ≤ tEnd → ∀ x ∈ H, ∀ y ∈ H, |D t x y| ≤ L * size e x * size e y
  taylor : ∀ t s, 0 ≤ t → t ≤ s → s ≤ tEnd → ∀ x ∈ H, x ∈ S → ∀ y ∈ H,
    |(E s s).res x x (W y) - (E s s).res (U s) (U s) (W y) - D t (x - U s) y| ≤
      M * (s - t + size e (x - U s)) * size e (x - U s) * size e y

/-- Steps of length `dt` up to `tEnd`; `Step t dt old new` is a step from `t` to `t + dt`. -/
def Steps (Step : ℝ → ℝ → V → V → Prop) (tEnd dt : ℝ) (u : ℕ → V) : Prop :=
  ∀ m : ℕ, (m + 1) * dt ≤ tEnd → Step (m * dt) dt (u m) (u (m + 1))

/-- For short time steps the error at any time is at most a number times `rate dt`. -/
def Converges (e : V → V → ℝ) (Step : ℝ → ℝ → V → V → Prop) (tEnd : ℝ) (U : ℝ → V) (rate : ℝ → ℝ) : Prop :=
  ∃ C, 0 ≤ C ∧ ∃ top, 0 < top ∧ ∀ dt, 0 < dt → dt ≤ top → ∀ u : ℕ → V, u 0 = U 0 → Steps Step tEnd dt u →
    ∀ N : ℕ, N * dt ≤ tEnd → size e (u N - U (N * dt)) ≤ C * rate dt

/-- A step with the stages `s` of a table, tested with functions of `H`. -/
def WeakStages (E : ℝ → ℝ → Eqn V) (T : Tableau) (H : Submodule ℝ V) (W : V → V) (e : V → V → ℝ) (S : Set V)
    (t dt : ℝ) (old new : V) : Prop :=
  ∃ s : ℕ → V, (∀ i < T.n, s i ∈ H ∧ s i ∈ S ∧ ∀ y ∈ H,
      e (s i) y = e old y + dt * ∑ j ∈ range T.n, T.a i j * (stageEqn E T t dt j).res (s j) (s j) (W y)) ∧
    new ∈ H ∧ ∀ y ∈ H,
      e new y = e old y + dt * ∑ j ∈ range T.n, T.b j * (stageEqn E T t dt j).res (s j) (s j) (W y)

/-! ### From weak forms to a normed space -/

theorem exists_inner {H : Submodule ℝ V} {e : V → V → ℝ} (he : IsEnergy e) (hd : ∀ x ∈ H, e x x = 0 → x = 0)
    (hf : FiniteDimensional ℝ H) :
    ∃ (F : Type u) (_ : NormedAddCommGroup F) (_ : InnerProductSpace ℝ F) (_ : FiniteDimensional ℝ F) (g : F →ₗ[ℝ] V),
      (∀ x, g x ∈ H) ∧ (∀ v ∈ H, ∃ x, g x = v) ∧ (∀ x y, Inner.inner ℝ x y = e (g x) (g y)) := by
  let core : InnerProductSpace.Core ℝ H :=
    { inner := fun x y => e x y
      conj_inner_symm := fun x y => he.symm _ _
      re_inner_nonneg := fun x => he.nonneg _
      add_left := fun x y z => he.lin.add_left _ _ _
      smul_left := fun x y t => he.lin.smul_left _ _ _
      definite := fun x h => Subtype.ext (hd x x.2 h) }
  let i1 : NormedAddCommGroup H := core.toNormedAddCommGroup
  let i2 : InnerProductSpace ℝ H := InnerProductSpace.ofCore core.toCore
  exact ⟨H, i1, i2, hf, H.subtype, fun x => x.2, fun v hv => ⟨⟨v, hv⟩, rfl⟩, fun x y => rfl⟩

section Inner

variable {F : Type*} [NormedAddCommGroup F] [InnerProductSpace ℝ F] [FiniteDimensional ℝ F]

local notation "⟪" x ", " y "⟫" => @Inner.inner ℝ _ _ x y

theorem riesz (l : F →ₗ[ℝ] ℝ) : ∃ z, ∀ y, ⟪z, y⟫ = l y :=
  ⟨(InnerProductSpace.toDual ℝ F).symm (LinearMap.toContinuousLinearMap l), fun y => by simp⟩

theorem expand (U : ℝ → F) : U = fun t => ∑ i, ⟪U t, stdOrthonormalBasis ℝ F i⟫ • stdOrthonormalBasis ℝ F i := by
  funext t
  conv_lhs => rw [← (stdOrthonormalBasis ℝ F).sum_repr' (U t)]
  simp only [real_inner_comm]

theorem contDiff_of_weak {U : ℝ → F} {p : ℕ} (h : ∀ y, ContDiff ℝ p fun t => ⟪U t, y⟫) : ContDiff ℝ p U := by
  rw [expand U]
  exact ContDiff.sum fun i _ => (h _).smul contDiff_const

omit [FiniteDimensional ℝ F] in
theorem deriv_of_weak {U : ℝ → F} {t : ℝ} {z : F} (hU : DifferentiableAt ℝ U t)
    (h : ∀ y, deriv (fun s => ⟪U s, y⟫) t = ⟪z, y⟫) : deriv U t = z := by
  refine ext_inner_right ℝ fun y => ?_
  rw [← h y]
  have := (hU.hasDerivAt.inner ℝ (hasDerivAt_const t y)).deriv
  simpa using this.symm

omit [FiniteDimensional ℝ F] in
theorem norm_le_of_weak {z : F} {c : ℝ} (hc : 0 ≤ c) (h : ∀ y, |⟪z, y⟫| ≤ c * ‖y‖) : ‖z‖ ≤ c := by
  have := (le_abs_self _).trans (h z)
  rw [real_inner_self_eq_norm_sq] at this
  rcases eq_or_lt_of_le (norm_nonneg z) with h0 | h0
  · rw [← h0]; exact hc
  · nlinarith

end Inner

section Transfer

variable {E : ℝ → ℝ → Eqn V} {H : Submodule ℝ V} {W : V → V} {e : V → V → ℝ} {S : Set V} {p : ℕ} {L tEnd : ℝ} {U : ℝ → V}
  {T : Tableau} {Step : ℝ → ℝ → V → V → Prop}

/-- The problem and its steps in a normed space. -/
theorem transfer (hE : System E H W e) (hU : Solution E H W e S p L tEnd U) (hp : 1 ≤ p)
    (hs : ∀ t dt old new, 0 ≤ t → t + dt ≤ tEnd → 0 < dt → old ∈ H → Step t dt old new → WeakStages E T H W e S t dt old new) :
    ∃ (F : Type u) (_ : NormedAddCommGroup F) (_ : InnerProductSpace ℝ F) (_ : FiniteDimensional ℝ F) (g : F →ₗ[ℝ] V)
      (f : ℝ → F → F) (X : ℝ → F),
      (∀ x, g x ∈ H) ∧ (∀ v ∈ H, ∃ x, g x = v) ∧ (∀ x, ‖x‖ = size e (g x)) ∧ (∀ x y, Inner.inner ℝ x y = e (g x) (g y)) ∧
      (∀ t x y, Inner.inner ℝ (f t x) y = (E t t).res (g x) (g x) (W (g y))) ∧ (∀ t, g (X t) = U t) ∧
      Problem f X (g ⁻¹' S) L tEnd ∧ ContDiff ℝ p X ∧
      ∀ dt, 0 < dt → ∀ u : ℕ → V, u 0 = U 0 → Steps Step tEnd dt u → ∃ x : ℕ → F, x 0 = X 0 ∧
        Run T f (g ⁻¹' S) tEnd dt x ∧ ∀ N : ℕ, N * dt ≤ tEnd → size e (u N - U (N * dt)) = ‖x N - X (N * dt)‖ := by
  obtain ⟨F, i1, i2, i3, g, hg, hsur, hin⟩ := exists_inner hE.energy hE.definite hE.finite
  have hnorm : ∀ x, ‖x‖ = size e (g x) := fun x => by
    rw [size, ← hin, real_inner_self_eq_norm_sq, Real.sqrt_sq (norm_nonneg _)]
  have hinj : ∀ x y, g x = g y → x = y := fun x y h => by
    rw [← sub_eq_zero, ← norm_eq_zero, hnorm, map_sub, h, sub_self, size, (hE.energy.lin.1 _).map_zero, Real.sqrt_zero]
  choose f hf using fun (t : ℝ) (x : F) => riesz (F := F)
    { toFun := fun y => (E t t).res (g x) (g x) (W (g y))
      map_add' := fun y z => by rw [map_add]; exact (hE.test t t (g x) (g x)).1 _ _
      map_smul' := fun a y => by rw [map_smul]; exact (hE.test t t (g x) (g x)).2 _ _ }
  have hf' : ∀ t x y, Inner.inner ℝ (f t x) y = (E t t).res (g x) (g x) (W (g y)) := hf
  choose X hX using fun t => hsur (U t) (hU.mem t)
  have hsm : ContDiff ℝ p X := contDiff_of_weak fun y => by
    simp only [hin, hX]
    exact hU.smooth _ (hg y)
  refine ⟨F, i1, i2, i3, g, f, X, hg, hsur, hnorm, hin, hf', hX, ⟨fun t h0 h1 => ?_, fun t h0 h1 => ?_, hU.nonneg,
    fun t h0 h1 x hx y hy => ?_⟩, hsm, fun dt hdt u hu0 hu => ?_⟩
  · refine deriv_of_weak ((hsm.differentiable (by exact_mod_cast (by omega : p ≠ 0))) t) fun y => ?_
    simp only [hin, hX]
    rw [hU.eqn t h0 h1 _ (hg y), ← hin, hf', hX]
  · change g (X t) ∈ S
    rw [hX]
    exact hU.within t h0 h1
  · refine norm_le_of_weak (mul_nonneg hU.nonneg (norm_nonneg _)) fun z => ?_
    rw [inner_sub_left, hf', hf', hnorm, hnorm, map_sub]
    exact hU.lip t h0 h1 _ (hg x) hx _ (hg y) hy _ (hg z)
  · have hmem : ∀ m : ℕ, m * dt ≤ tEnd → u m ∈ H := by
      intro m
      induction m with
      | zero => intro _; rw [hu0]; exact hU.mem 0
      | succ m ih =>
        intro hm
        have hm' : ((m : ℝ) + 1) * dt ≤ tEnd := by push_cast at hm; exact hm
        obtain ⟨s, -, h, -⟩ := hs _ _ _ _ (by positivity) (by linarith) hdt (ih (by nlinarith)) (hu m hm')
        exact h
    have : ∀ m : ℕ, ∃ x : F, m * dt ≤ tEnd → g x = u m := fun m => by
      by_cases h : m * dt ≤ tEnd
      · obtain ⟨x, hx⟩ := hsur _ (hmem m h)
        exact ⟨x, fun _ => hx⟩
      · exact ⟨X 0, fun h' => absurd h' h⟩
    choose x hx using this
    by_cases ht : 0 ≤ tEnd
    · have hx0 : x 0 = X 0 := hinj _ _ (by rw [hx 0 (by simpa using ht), hu0, hX])
      refine ⟨x, hx0, fun m hm => ?_, fun N hN => ?_⟩
      · have hm0 : (m : ℝ) * dt ≤ tEnd := by nlinarith
        have hm1 : ((m + 1 : ℕ) : ℝ) * dt ≤ tEnd := by push_cast; exact hm
        obtain ⟨s, h1, h2, h3⟩ := hs _ _ _ _ (by positivity) (by linarith) hdt (hmem m hm0) (hu m hm)
        have : ∀ i, ∃ z : F, i < T.n → g z = s i := fun i => by
          by_cases h : i < T.n
          · obtain ⟨z, hz⟩ := hsur _ (h1 i h).1
            exact ⟨z, fun _ => hz⟩
          · exact ⟨X 0, fun h' => absurd h' h⟩
        choose z hz using this
        have hsum : ∀ (a : ℕ → ℝ) (y : F), Inner.inner ℝ (x m + dt • ∑ j ∈ range T.n, a j • f (m * dt + T.c j * dt) (z j)) y =
            e (u m) (g y) + dt * ∑ j ∈ range T.n, a j * (stageEqn E T (m * dt) dt j).res (s j) (s j) (W (g y)) := by
          intro a y
          rw [inner_add_left, hin, hx m hm0, real_inner_smul_left, sum_inner]
          congr 2
          refine sum_congr rfl fun j hj => ?_
          rw [real_inner_smul_left, hf', hz j (mem_range.1 hj)]
          rfl
        refine ⟨z, ⟨fun i hi => ext_inner_right ℝ fun y => ?_, ext_inner_right ℝ fun y => ?_⟩, fun i hi => ?_⟩
        · rw [hsum, hin, hz i hi]
          exact (h1 i hi).2.2 _ (hg y)
        · rw [hsum, hin, hx _ hm1]
          exact h3 _ (hg y)
        · change g (z i) ∈ S
          rw [hz i hi]
          exact (h1 i hi).2.1
      · rw [hnorm, map_sub, hx N hN, hX]
    · refine ⟨fun _ => X 0, rfl, fun m hm => absurd hm (by nlinarith [mul_nonneg (by positivity : (0 : ℝ) ≤ m + 1) hdt.le]),
        fun N hN => absurd hN (by nlinarith [mul_nonneg (Nat.cast_nonneg N : (0 : ℝ) ≤ N) hdt.le])⟩

/-- C129: order one. -/
theorem C129_weak_first (hE : System E H W e) (hU : Solution E H W e S 2 L tEnd U) (hT : T.Accepted) (hc : Nodes T)
    (h1 : order1 T = 0)
    (hs : ∀ t dt old new, 0 ≤ t → t + dt ≤ tEnd → 0 < dt → old ∈ H → Step t dt old new → WeakStages E T H W e S t dt old new) :
    Converges e Step tEnd U fun dt => dt := by
  obtain ⟨F, i1, i2, i3, g, f, X, hg, -, hnorm, hin, hf, hX, P, hsm, hr⟩ := transfer hE hU (by norm_num) hs
  obtain ⟨C, hC, top, htop, h⟩ := C129_first P hsm T hT hc h1
  refine ⟨C, hC, top, htop, fun dt hdt hle u h0 hu N hN => ?_⟩
  obtain ⟨x, hx0, hx, hN'⟩ := hr dt hdt u h0 hu
  rw [hN' N hN]
  simpa [hx0] using h dt hdt hle x hx N hN

/-- C129: order two. -/
theorem C129_weak_second (hE : System E H W e) (hU : Solution E H W e S 3 L tEnd U) (hT : T.Accepted) (hc : Nodes T)
    (h1 : order1 T = 0)
    (hs : ∀ t dt old new, 0 ≤ t → t + dt ≤ tEnd → 0 < dt → old ∈ H → Step t dt old new → WeakStages E T H W e S t dt old new) :
    Converges e Step tEnd U fun dt => dt ^ 2 + |order2 T| * dt := by
  obtain ⟨F, i1, i2, i3, g, f, X, hg, -, hnorm, hin, hf, hX, P, hsm, hr⟩ := transfer hE hU (by norm_num) hs
  obtain ⟨C, hC, top, htop, h⟩ := C129_second P hsm T hT hc h1
  refine ⟨C, hC, top, htop, fun dt hdt hle u h0 hu N hN => ?_⟩
  obtain ⟨x, hx0, hx, hN'⟩ := hr dt hdt u h0 hu
  rw [hN' N hN]
  simpa [hx0] using h dt hdt hle x hx N hN

/-- C129: order three. -/
theorem C129_weak_third (hE : System E H W e) (hU : Solution E H W e S 4 L tEnd U) {M : ℝ} {D : ℝ → V → V → ℝ}
    (hD : Derivative E H W e S L M tEnd U D) (hT : T.Accepted) (hc : Nodes T) (h1 : order1 T = 0)
    (hs : ∀ t dt old new, 0 ≤ t → t + dt ≤ tEnd → 0 < dt → old ∈ H → Step t dt old new → WeakStages E T H W e S t dt old new) :
    Converges e Step tEnd U fun dt => dt ^ 3 + (|order2 T| + |order3a T| + |order3b T|) * dt := by
  obtain ⟨F, i1, i2, i3, g, f, X, hg, -, hnorm, hin, hf, hX, P, hsm, hr⟩ := transfer hE hU (by norm_num) hs
  choose d hd using fun (t : ℝ) (x : F) => riesz (F := F)
    { toFun := fun y => D t (g x) (g y)
      map_add' := fun y z => by rw [map_add]; exact ((hD.lin t).2 _).1 _ _
      map_smul' := fun a y => by rw [map_smul]; exact ((hD.lin t).2 _).2 _ _ }
  have hd' : ∀ t x y, Inner.inner ℝ (d t x) y = D t (g x) (g y) := hd
  let D' : ℝ → F →ₗ[ℝ] F := fun t =>
    { toFun := d t
      map_add' := fun x y => ext_inner_right ℝ fun z => by
        rw [inner_add_left, hd', hd', hd', map_add]
        exact ((hD.lin t).1 _).1 _ _
      map_smul' := fun a x => ext_inner_right ℝ fun z => by
        rw [RingHom.id_apply, real_inner_smul_left, hd', hd', map_smul]
        exact ((hD.lin t).1 _).2 _ _ }
  have hD' : ∀ t x y, Inner.inner ℝ (D' t x) y = D t (g x) (g y) := hd
  obtain ⟨C, hC, top, htop, h⟩ := C129_third P hsm T hT hc h1 M hD.nonneg D'
    (fun t h0 h1 x => norm_le_of_weak (mul_nonneg hU.nonneg (norm_nonneg _)) fun y => by
      rw [hD', hnorm, hnorm]
      exact hD.bound t h0 h1 _ (hg x) _ (hg y))
    (fun t s h0 h1 h2 x hx => by
      refine norm_le_of_weak (mul_nonneg (mul_nonneg hD.nonneg (add_nonneg (sub_nonneg.2 h1) (norm_nonneg _))) (norm_nonneg _))
        fun y => ?_
      rw [inner_sub_left, inner_sub_left, hD', hf, hf, hnorm, hnorm, map_sub, hX]
      exact hD.taylor t s h0 h1 h2 _ (hg x) hx _ (hg y))
  refine ⟨C, hC, top, htop, fun dt hdt hle u h0 hu N hN => ?_⟩
  obtain ⟨x, hx0, hx, hN'⟩ := hr dt hdt u h0 hu
  rw [hN' N hN]
  exact h dt hdt hle x hx0 hx N hN

end Transfer

end Verif.Converge
