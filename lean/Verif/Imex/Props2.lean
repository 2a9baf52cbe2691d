import Verif.Imex.Model
import Verif.Imex.Props
import Verif.Converge.Props3

/-!
C130: implicit-explicit methods converge with the order of their pair of tables, for equations in weak form.
-/

namespace Verif.Imex

open Finset Verif.Contract Verif.Explicit Verif.Converge RK

universe u

variable {V : Type u} [AddCommGroup V] [Module ℝ V]

/-! ### Statements -/

/-- `U` is a solution of the equations with both implicit and explicit terms, discrete in space only, up to `tEnd`.  Its tendencies are `p`
times continuously differentiable.  Within `S` the residuals are Lipschitz continuous at the solution; `v` is the function at which the
coefficients of implicit terms are evaluated. -/
structure SplitSolution (EI EE : ℝ → ℝ → Eqn V) (H : Submodule ℝ V) (W : V → V) (e : V → V → ℝ) (S : Set V) (p : ℕ) (L tEnd : ℝ)
    (U : ℝ → V) : Prop where
  mem : ∀ t, U t ∈ H
  smooth : ∀ y ∈ H, ContDiff ℝ 1 fun t => e (U t) y
  smoothI : ∀ y ∈ H, ContDiff ℝ p fun t => (EI t t).res (U t) (U t) (W y)
  smoothE : ∀ y ∈ H, ContDiff ℝ p fun t => (EE t t).res (U t) (U t) (W y)
  eqn : ∀ t, 0 ≤ t → t ≤ tEnd → ∀ y ∈ H,
    deriv (fun s => e (U s) y) t = (EI t t).res (U t) (U t) (W y) + (EE t t).res (U t) (U t) (W y)
  nonneg : 0 ≤ L
  lipI : ∀ t, 0 ≤ t → t ≤ tEnd → ∀ x ∈ H, x ∈ S → ∀ v ∈ H, v ∈ S → ∀ y ∈ H,
    |(EI t t).res x v (W y) - (EI t t).res (U t) (U t) (W y)| ≤ L * (size e (x - U t) + size e (v - U t)) * size e y
  lipE : ∀ t, 0 ≤ t → t ≤ tEnd → ∀ x ∈ H, x ∈ S → ∀ y ∈ H,
    |(EE t t).res x x (W y) - (EE t t).res (U t) (U t) (W y)| ≤ L * size e (x - U t) * size e y

/-! ### From weak forms to a normed space -/

/-- A step with the stages `s`, and `v` with the explicit tendencies only. -/
structure WeakStages (EI EE : ℝ → ℝ → Eqn V) (TE TI : Tableau) (H : Submodule ℝ V) (W : V → V) (e : V → V → ℝ) (S : Set V)
    (t dt : ℝ) (old new : V) (s v : ℕ → V) : Prop where
  mem : ∀ i < TI.n, s i ∈ H ∧ s i ∈ S ∧ v i ∈ H ∧ v i ∈ S
  lin : ∀ i < TI.n, ∀ y ∈ H,
    e (v i) y = e old y + dt * ∑ j ∈ range TI.n, TE.a i j * (stageEqn EE TE t dt j).res (s j) (s j) (W y)
  stage : ∀ i < TI.n, ∀ y ∈ H, e (s i) y = e old y + dt *
    (∑ j ∈ range TI.n, TI.a i j * (stageEqn EI TI t dt j).res (s j) (v j) (W y) +
      ∑ j ∈ range TI.n, TE.a i j * (stageEqn EE TE t dt j).res (s j) (s j) (W y))
  new_mem : new ∈ H
  new_eq : ∀ y ∈ H, e new y = e old y + dt *
    (∑ j ∈ range TI.n, TI.b j * (stageEqn EI TI t dt j).res (s j) (v j) (W y) +
      ∑ j ∈ range TI.n, TE.b j * (stageEqn EE TE t dt j).res (s j) (s j) (W y))

section Transfer

variable {EI EE : ℝ → ℝ → Eqn V} {H : Submodule ℝ V} {W : V → V} {e : V → V → ℝ} {S : Set V} {p : ℕ} {L tEnd : ℝ} {U : ℝ → V}
  {TE TI : Tableau} {t dt : ℝ} {old new : V}

theorem weak_of_imex (hI : System EI H W e) (hE : System EE H W e) (hn : TE.n = TI.n) (hTI : TI.Accepted)
    (hTE : ∀ i < TE.n, ∀ j < TE.n, i ≤ j → TE.a i j = 0) (ho : old ∈ H) (h : ImexAt EI EE TE TI H S t dt old new) :
    ∃ s v, WeakStages EI EE TE TI H W e S t dt old new s v := by
  obtain ⟨ke, kd, hk, rfl⟩ := h
  rw [hn] at hk hTE ⊢
  obtain ⟨v, hv⟩ : ∃ v, v = fun i => stage TE old ke i := ⟨_, rfl⟩
  obtain ⟨s, hs⟩ : ∃ s, s = fun i => stageValue TI dt (v i) kd i := ⟨_, rfl⟩
  have kI : ∀ j < TI.n, ∀ y ∈ H, e (kd j) y = (stageEqn EI TI t dt j).res (s j) (v j) (W y) := fun j hj y hy => by
    have := (hk j hj).2.2.2.1 (W y) (hI.maps y hy)
    rw [stageEqn, hI.inner] at this
    rw [hs, hv]
    change e (kd j) y = (EI _ _).res (stageValue TI dt (stage TE old ke j) kd j) (stage TE old ke j) (W y)
    linarith
  have kE : ∀ j < TI.n, ∀ y ∈ H, e (ke j) y = dt * (stageEqn EE TE t dt j).res (s j) (s j) (W y) := fun j hj y hy => by
    have := (hk j hj).2.2.2.2.2 (W y) (hE.maps y hy)
    rw [stageEqn, hE.mass] at this
    rw [hs, hv]
    exact this
  have hlin : ∀ (a : ℕ → ℝ) (r : Finset ℕ) (x : V) (k : ℕ → V) y, e (x + ∑ j ∈ r, a j • k j) y = e x y + ∑ j ∈ r, a j * e (k j) y := by
    intro a r x k y
    have h := hI.energy.lin.1 y
    exact (h.1 _ _).trans (congrArg _ ((h.map_sum r fun j => a j • k j).trans (sum_congr rfl fun j _ => h.2 _ _)))
  have memV : ∀ i < TI.n, v i ∈ H := fun i hi => by
    rw [hv]
    exact H.add_mem ho (H.sum_mem fun j hj => H.smul_mem _ (hk j (by rw [mem_range] at hj; omega)).2.2.2.2.1)
  have sumE : ∀ i < TI.n, ∀ y ∈ H,
      e (v i) y = e old y + dt * ∑ j ∈ range TI.n, TE.a i j * (stageEqn EE TE t dt j).res (s j) (s j) (W y) := fun i hi y hy => by
    conv_lhs => rw [hv]
    change e (old + ∑ j ∈ range i, TE.a i j • ke j) y = _
    rw [hlin, mul_sum]
    congr 1
    rw [← sum_subset (range_subset_range.2 hi.le) (fun j hj hj' => by
      rw [mem_range] at hj hj'
      rw [hTE i hi j hj (by omega)]; ring)]
    refine sum_congr rfl fun j hj => ?_
    rw [kE j (by rw [mem_range] at hj; omega) y hy]
    ring
  refine ⟨s, v, fun i hi => ⟨?_, ?_, memV i hi, ?_⟩, sumE, fun i hi y hy => ?_, ?_, fun y hy => ?_⟩
  · rw [hs]
    exact H.add_mem (memV i hi) (H.sum_mem fun j hj => H.smul_mem _ (hk j (by rw [mem_range] at hj; omega)).2.2.1)
  · rw [hs, hv]; exact (hk i hi).2.1
  · rw [hv]; exact (hk i hi).1
  · conv_lhs => rw [hs]
    change e (v i + ∑ j ∈ range (i + 1), (TI.a i j * dt) • kd j) y = _
    have h1 : ∑ j ∈ range (i + 1), TI.a i j * dt * e (kd j) y =
        dt * ∑ j ∈ range TI.n, TI.a i j * (stageEqn EI TI t dt j).res (s j) (v j) (W y) := by
      rw [mul_sum, ← sum_subset (range_subset_range.2 (by omega : i + 1 ≤ TI.n)) (fun j hj hj' => by
        rw [mem_range] at hj hj'
        rw [hTI.1 i hi j hj (by omega)]; ring)]
      refine sum_congr rfl fun j hj => ?_
      rw [kI j (by rw [mem_range] at hj; omega) y hy]
      ring
    rw [hlin, sumE i hi y hy, h1]
    ring
  · exact H.add_mem (H.add_mem ho (H.sum_mem fun j hj => H.smul_mem _ (hk j (mem_range.1 hj)).2.2.2.2.1))
      (H.sum_mem fun j hj => H.smul_mem _ (hk j (mem_range.1 hj)).2.2.1)
  · rw [hlin, hlin, mul_add, mul_sum, mul_sum, add_assoc, add_comm (∑ j ∈ range TI.n, _)]
    congr 2
    · refine sum_congr rfl fun j hj => ?_
      rw [kI j (mem_range.1 hj) y hy]
      ring
    · refine sum_congr rfl fun j hj => ?_
      rw [kE j (mem_range.1 hj) y hy]
      ring

/-- The problem and its steps in a normed space. -/
theorem transfer (hI : System EI H W e) (hE : System EE H W e) (hU : SplitSolution EI EE H W e S p L tEnd U)
    (hn : TE.n = TI.n) (hTI : TI.Accepted) (hTE : ∀ i < TE.n, ∀ j < TE.n, i ≤ j → TE.a i j = 0) :
    ∃ (F : Type u) (_ : NormedAddCommGroup F) (_ : InnerProductSpace ℝ F) (_ : FiniteDimensional ℝ F) (γ : F →ₗ[ℝ] V)
      (f : ℝ → F → F → F) (g : ℝ → F → F) (X : ℝ → F),
      (∀ x, γ x ∈ H) ∧ (∀ x, ‖x‖ = size e (γ x)) ∧
      (∀ t x v y, Inner.inner ℝ (f t x v) y = (EI t t).res (γ x) (γ v) (W (γ y))) ∧
      (∀ t x y, Inner.inner ℝ (g t x) y = (EE t t).res (γ x) (γ x) (W (γ y))) ∧ (∀ t, γ (X t) = U t) ∧
      Split f g X (γ ⁻¹' S) L tEnd ∧ ContDiff ℝ p (fun t => f t (X t) (X t)) ∧ ContDiff ℝ p (fun t => g t (X t)) ∧
      ∀ dt, 0 < dt → ∀ u : ℕ → V, u 0 = U 0 → Steps (ImexAt EI EE TE TI H S) tEnd dt u → ∀ N : ℕ, N * dt ≤ tEnd → ∃ x : ℕ → F, x 0 = X 0 ∧
        Run TE TI f g (γ ⁻¹' S) tEnd dt x ∧ size e (u N - U (N * dt)) = ‖x N - X (N * dt)‖ := by
  obtain ⟨F, i1, i2, i3, γ, hg, hsur, hin⟩ := exists_inner hI.energy hI.definite hI.finite
  have hnorm : ∀ x, ‖x‖ = size e (γ x) := fun x => by
    rw [size, ← hin, real_inner_self_eq_norm_sq, Real.sqrt_sq (norm_nonneg _)]
  have hinj : ∀ x y, γ x = γ y → x = y := fun x y h => by
    rw [← sub_eq_zero, ← norm_eq_zero, hnorm, map_sub, h, sub_self, size, (hI.energy.lin.1 _).map_zero, Real.sqrt_zero]
  choose f hf using fun (t : ℝ) (x v : F) => riesz (F := F)
    { toFun := fun y => (EI t t).res (γ x) (γ v) (W (γ y))
      map_add' := fun y z => by rw [map_add]; exact (hI.test t t (γ x) (γ v)).1 _ _
      map_smul' := fun a y => by rw [map_smul]; exact (hI.test t t (γ x) (γ v)).2 _ _ }
  have hf' : ∀ t x v y, Inner.inner ℝ (f t x v) y = (EI t t).res (γ x) (γ v) (W (γ y)) := hf
  choose g hgE using fun (t : ℝ) (x : F) => riesz (F := F)
    { toFun := fun y => (EE t t).res (γ x) (γ x) (W (γ y))
      map_add' := fun y z => by rw [map_add]; exact (hE.test t t (γ x) (γ x)).1 _ _
      map_smul' := fun a y => by rw [map_smul]; exact (hE.test t t (γ x) (γ x)).2 _ _ }
  have hg' : ∀ t x y, Inner.inner ℝ (g t x) y = (EE t t).res (γ x) (γ x) (W (γ y)) := hgE
  choose X hX using fun t => hsur (U t) (hU.mem t)
  have hsm : ContDiff ℝ 1 X := contDiff_of_weak (p := 1) fun y => by
    simp only [hin, hX]
    exact_mod_cast hU.smooth _ (hg y)
  refine ⟨F, i1, i2, i3, γ, f, g, X, hg, hnorm, hf', hg', hX, ⟨fun t h0 h1 => ?_, hU.nonneg,
    fun t h0 h1 x hx v hv => ?_, fun t h0 h1 x hx => ?_⟩, contDiff_of_weak fun y => ?_, contDiff_of_weak fun y => ?_, fun dt hdt u hu0 hu N hN => ?_⟩
  · have hd := hsm.differentiable one_ne_zero t
    rw [← deriv_of_weak hd (z := f t (X t) (X t) + g t (X t)) fun y => ?_]
    · exact hd.hasDerivAt
    · simp only [hin, hX]
      rw [hU.eqn t h0 h1 _ (hg y), ← hin, inner_add_left, hf', hg', hX]
  · refine norm_le_of_weak (mul_nonneg hU.nonneg (by positivity)) fun z => ?_
    rw [inner_sub_left, hf', hf', hnorm, hnorm, hnorm, map_sub, map_sub, hX]
    exact hU.lipI t h0 h1 _ (hg x) hx _ (hg v) hv _ (hg z)
  · refine norm_le_of_weak (mul_nonneg hU.nonneg (norm_nonneg _)) fun z => ?_
    rw [inner_sub_left, hg', hg', hnorm, hnorm, map_sub, hX]
    exact hU.lipE t h0 h1 _ (hg x) hx _ (hg z)
  · simp only [hf', hX]
    exact hU.smoothI _ (hg y)
  · simp only [hg', hX]
    exact hU.smoothE _ (hg y)
  · have hmem : ∀ m : ℕ, m * dt ≤ tEnd → u m ∈ H := by
      intro m
      induction m with
      | zero => intro _; rw [hu0]; exact hU.mem 0
      | succ m ih =>
        intro hm
        have hm' : ((m : ℝ) + 1) * dt ≤ tEnd := by push_cast at hm; exact hm
        obtain ⟨s, v, h⟩ := weak_of_imex hI hE hn hTI hTE (ih (by nlinarith)) (hu m hm')
        exact h.new_mem
    have : ∀ m : ℕ, ∃ x : F, m * dt ≤ tEnd → γ x = u m := fun m => by
      by_cases h : m * dt ≤ tEnd
      · obtain ⟨x, hx⟩ := hsur _ (hmem m h)
        exact ⟨x, fun _ => hx⟩
      · exact ⟨X 0, fun h' => absurd h' h⟩
    choose x hx using this
    have ht : 0 ≤ tEnd := le_trans (by positivity) hN
    have hx0 : x 0 = X 0 := hinj _ _ (by rw [hx 0 (by simpa using ht), hu0, hX])
    refine ⟨x, hx0, fun m hm => ?_, ?_⟩
    · have hm0 : (m : ℝ) * dt ≤ tEnd := by nlinarith
      have hm1 : ((m + 1 : ℕ) : ℝ) * dt ≤ tEnd := by push_cast; exact hm
      obtain ⟨s, v, h⟩ := weak_of_imex hI hE hn hTI hTE (hmem m hm0) (hu m hm)
      have lift : ∀ r : ℕ → V, (∀ i < TI.n, r i ∈ H) → ∃ z : ℕ → F, ∀ i < TI.n, γ (z i) = r i := fun r hr => by
        have : ∀ i, ∃ z : F, i < TI.n → γ z = r i := fun i => by
          by_cases h : i < TI.n
          · obtain ⟨z, hz⟩ := hsur _ (hr i h)
            exact ⟨z, fun _ => hz⟩
          · exact ⟨X 0, fun h' => absurd h' h⟩
        choose z hz using this
        exact ⟨z, hz⟩
      obtain ⟨z, hz⟩ := lift s fun i hi => (h.mem i hi).1
      obtain ⟨w, hw⟩ := lift v fun i hi => (h.mem i hi).2.2.1
      have sumI : ∀ (a : ℕ → ℝ) (y : F), Inner.inner ℝ (∑ j ∈ range TI.n, a j • f (m * dt + TI.c j * dt) (z j) (w j)) y =
          ∑ j ∈ range TI.n, a j * (stageEqn EI TI (m * dt) dt j).res (s j) (v j) (W (γ y)) := fun a y => by
        rw [sum_inner]
        refine sum_congr rfl fun j hj => ?_
        rw [real_inner_smul_left, hf', hz j (mem_range.1 hj), hw j (mem_range.1 hj)]
        rfl
      have sumE : ∀ (a : ℕ → ℝ) (y : F), Inner.inner ℝ (∑ j ∈ range TI.n, a j • g (m * dt + TE.c j * dt) (z j)) y =
          ∑ j ∈ range TI.n, a j * (stageEqn EE TE (m * dt) dt j).res (s j) (s j) (W (γ y)) := fun a y => by
        rw [sum_inner]
        refine sum_congr rfl fun j hj => ?_
        rw [real_inner_smul_left, hg', hz j (mem_range.1 hj)]
        rfl
      refine ⟨z, w, fun i hi => ?_, fun i hi => ?_, fun i hi => ext_inner_right ℝ fun y => ?_,
        fun i hi => ext_inner_right ℝ fun y => ?_, ext_inner_right ℝ fun y => ?_⟩
      · change γ (z i) ∈ S
        rw [hz i hi]
        exact (h.mem i hi).2.1
      · change γ (w i) ∈ S
        rw [hw i hi]
        exact (h.mem i hi).2.2.2
      · rw [inner_add_left, real_inner_smul_left, sumE, hin, hin, hw i hi, hx m hm0]
        exact h.lin i hi _ (hg y)
      · rw [inner_add_left, real_inner_smul_left, inner_add_left, sumE, sumI, hin, hin, hz i hi, hx m hm0]
        exact h.stage i hi _ (hg y)
      · rw [inner_add_left, real_inner_smul_left, inner_add_left, sumE, sumI, hin, hin, hx _ hm1, hx m hm0]
        exact h.new_eq _ (hg y)
    · rw [hnorm, map_sub, hx N hN, hX]

/-! ### Convergence -/

/-- C130: pairs of consistent tables converge with order one.  The coefficients of implicit terms may depend on the solution. -/
theorem C130_weak_first (hI : System EI H W e) (hE : System EE H W e) (hU : SplitSolution EI EE H W e S 1 L tEnd U)
    (hn : TE.n = TI.n) (hTI : TI.Accepted) (hTE : ∀ i < TE.n, ∀ j < TE.n, i ≤ j → TE.a i j = 0) (hcE : Nodes TE) (hcI : Nodes TI)
    (h1 : order1 TI = 0) (h1' : order1 TE = 0) : Converges e (ImexAt EI EE TE TI H S) tEnd U fun dt => dt := by
  obtain ⟨F, i1, i2, i3, γ, f, g, X, -, -, -, -, -, P, hF, hG, hr⟩ := transfer hI hE hU hn hTI hTE
  obtain ⟨C, hC, top, htop, h⟩ := C130_first P (by exact_mod_cast hF) (by exact_mod_cast hG) hn hcE hcI h1 h1'
  refine ⟨C, hC, top, htop, fun dt hdt hle u h0 hu N hN => ?_⟩
  obtain ⟨x, hx0, hx, hN'⟩ := hr dt hdt u h0 hu N hN
  rw [hN']
  simpa [hx0] using h dt hdt hle x hx N hN

/-- C130: pairs of tables of order two converge with order two, if the coefficients of implicit terms do not depend on the solution
and both parts are differentiable along the solution. -/
theorem C130_weak_second (hI : System EI H W e) (hE : System EE H W e) (hU : SplitSolution EI EE H W e S 2 L tEnd U) (hF : Free EI)
    {M : ℝ} {D D' : ℝ → V → V → ℝ} (hD : Derivative EI H W e S L M tEnd U D) (hD' : Derivative EE H W e S L M tEnd U D')
    (hT : Paired TE TI) (hTI : TI.Accepted) (hTE : ∀ i < TE.n, ∀ j < TE.n, i ≤ j → TE.a i j = 0) :
    Converges e (ImexAt EI EE TE TI H S) tEnd U fun dt => dt ^ 2 := by
  obtain ⟨F, i1, i2, i3, γ, f, g, X, hg, hnorm, hf, hgE, hX, P, hsF, hsG, hr⟩ := transfer hI hE hU hT.stages hTI hTE
  have rep : ∀ D : ℝ → V → V → ℝ, (∀ t, Bilin (D t)) →
      ∃ D' : ℝ → F →ₗ[ℝ] F, ∀ t x y, Inner.inner ℝ (D' t x) y = D t (γ x) (γ y) := fun D hD => by
    choose d hd using fun (t : ℝ) (x : F) => riesz (F := F)
      { toFun := fun y => D t (γ x) (γ y)
        map_add' := fun y z => by rw [map_add]; exact ((hD t).2 _).1 _ _
        map_smul' := fun a y => by rw [map_smul]; exact ((hD t).2 _).2 _ _ }
    have hd' : ∀ t x y, Inner.inner ℝ (d t x) y = D t (γ x) (γ y) := hd
    exact ⟨fun t =>
      { toFun := d t
        map_add' := fun x y => ext_inner_right ℝ fun z => by
          rw [inner_add_left, hd', hd', hd', map_add]
          exact ((hD t).1 _).1 _ _
        map_smul' := fun a x => ext_inner_right ℝ fun z => by
          rw [RingHom.id_apply, real_inner_smul_left, hd', hd', map_smul]
          exact ((hD t).1 _).2 _ _ }, hd⟩
  obtain ⟨δ, hδ⟩ := rep D hD.lin
  obtain ⟨δ', hδ'⟩ := rep D' hD'.lin
  obtain ⟨C, hC, top, htop, h⟩ := C130_second P (by exact_mod_cast hsF) (by exact_mod_cast hsG) hT M hD.nonneg δ δ'
    (fun t h0 h1 x => norm_le_of_weak (mul_nonneg hU.nonneg (norm_nonneg _)) fun y => by
      rw [hδ, hnorm, hnorm]
      exact hD.bound t h0 h1 _ (hg x) _ (hg y))
    (fun t h0 h1 x => norm_le_of_weak (mul_nonneg hU.nonneg (norm_nonneg _)) fun y => by
      rw [hδ', hnorm, hnorm]
      exact hD'.bound t h0 h1 _ (hg x) _ (hg y))
    (fun t s h0 h1 h2 x hx v hv => by
      refine norm_le_of_weak (mul_nonneg (mul_nonneg hD.nonneg (add_nonneg (sub_nonneg.2 h1) (norm_nonneg _))) (norm_nonneg _))
        fun y => ?_
      rw [inner_sub_left, inner_sub_left, hδ, hf, hf, hnorm, hnorm, map_sub, hX, hF _ _ _ _ (γ x)]
      exact hD.taylor t s h0 h1 h2 _ (hg x) hx _ (hg y))
    (fun t s h0 h1 h2 x hx => by
      refine norm_le_of_weak (mul_nonneg (mul_nonneg hD.nonneg (add_nonneg (sub_nonneg.2 h1) (norm_nonneg _))) (norm_nonneg _))
        fun y => ?_
      rw [inner_sub_left, inner_sub_left, hδ', hgE, hgE, hnorm, hnorm, map_sub, hX]
      exact hD'.taylor t s h0 h1 h2 _ (hg x) hx _ (hg y))
  refine ⟨C, hC, top, htop, fun dt hdt hle u h0 hu N hN => ?_⟩
  obtain ⟨x, hx0, hx, hN'⟩ := hr dt hdt u h0 hu N hN
  rw [hN']
  exact h dt hdt hle x hx0 hx N hN

end Transfer

/-! ### The pairs of tables -/

theorem paired_LPUM2 : Paired erkLPUM2 dirkLPUM2 := by
  obtain ⟨-, -, -, -, -, -, -, -, -, nI, -, -, nE, -⟩ := C129_nodes
  refine ⟨rfl, C21_dirkLPUM2.1.2, C21_erkLPUM2.1.2, nI, nE, ?_, ?_, ?_, ?_, ?_, ?_⟩ <;>
    norm_num [sum_range_succ, erkLPUM2, dirkLPUM2, RK.mk, vec]

theorem paired_LSPUM2 : Paired erkLSPUM2 dirkLSPUM2 := by
  obtain ⟨-, -, -, -, -, -, -, -, nI, -, -, nE, -⟩ := C129_nodes
  refine ⟨rfl, C21_dirkLSPUM2.1.2, C21_erkLSPUM2.1.2, nI, nE, ?_, ?_, ?_, ?_, ?_, ?_⟩ <;>
    norm_num [sum_range_succ, erkLSPUM2, dirkLSPUM2, RK.mk, vec]

theorem paired_midpoint : Paired erkMidpoint esdirkMidpoint := by
  obtain ⟨-, -, -, -, -, -, -, -, -, -, -, -, -, nE, nI, -⟩ := C129_nodes
  refine ⟨rfl, C21_esdirkMidpoint.1.2, C21_erkMidpoint.1.2, nI, nE, ?_, ?_, ?_, ?_, ?_, ?_⟩ <;>
    norm_num [sum_range_succ, erkMidpoint, esdirkMidpoint, RK.mk, vec]

end Verif.Imex
