import Verif.Converge.Props2

/-!
C129: the time integrators converge with the order they are documented with.
-/

namespace Verif.Converge

open Finset Verif.Contract Verif.Explicit RK

universe u

variable {V : Type u} [AddCommGroup V] [Module ℝ V]

/-- No term reads the function around which coefficients are evaluated: the equation is linear, or has its coefficients from the
fields. -/
def Free (E : ℝ → ℝ → Eqn V) : Prop := ∀ t r u v v' w, (E t r).res u v w = (E t r).res u v' w

/-- Coefficients are not taken from the old solution, `use_semi_implicit_linearization`, or are not taken from a solution at all. -/
def Plain (E : ℝ → ℝ → Eqn V) (semi : Bool) : Prop := semi = false ∨ Free E

omit [AddCommGroup V] [Module ℝ V] in
theorem Plain.eq {E : ℝ → ℝ → Eqn V} {semi : Bool} (h : Plain E semi) (t r : ℝ) (u old w : V) :
    (E t r).res u (if semi then old else u) w = (E t r).res u u w := by
  rcases h with h | h
  · rw [h]; simp
  · exact h _ _ _ _ _ _

/-- The boundary conditions do not change with time; fields may. -/
def SteadyBnd (E : ℝ → ℝ → Eqn V) : Prop := ∀ t r r', E t r = E t r'

/-! ### The steps have the stages of their tables -/

section Weak

variable {E : ℝ → ℝ → Eqn V} {H : Submodule ℝ V} {W : V → V} {e : V → V → ℝ} {S : Set V} {T : Tableau} {t dt : ℝ} {old new : V}

theorem weak_of_tendency {semi : Bool} (hE : System E H W e) (hF : Free E) (hT : T.Accepted) (ho : old ∈ H)
    (h : TendencyAt E T semi H S t dt old new) : WeakStages E T H W e S t dt old new := by
  obtain ⟨k, hk, rfl⟩ := h
  have key : ∀ j < T.n, ∀ y ∈ H, e (k j) y =
      (stageEqn E T t dt j).res (stageValue T dt old k j) (stageValue T dt old k j) (W y) := by
    intro j hj y hy
    have := (hk j hj).2.2 (W y) (hE.maps y hy)
    rw [stageEqn, hE.inner, hF _ _ _ _ (stageValue T dt old k j)] at this
    rw [stageEqn]
    linarith
  have hlin : ∀ (a : ℕ → ℝ) (s : Finset ℕ) y, e (old + ∑ j ∈ s, a j • k j) y = e old y + ∑ j ∈ s, a j * e (k j) y := by
    intro a s y
    have h := hE.energy.lin.1 y
    exact (h.1 _ _).trans (congrArg _ ((h.map_sum s fun j => a j • k j).trans (sum_congr rfl fun j _ => h.2 _ _)))
  refine ⟨stageValue T dt old k, fun i hi => ⟨?_, (hk i hi).2.1, fun y hy => ?_⟩, ?_, fun y hy => ?_⟩
  · exact H.add_mem ho (H.sum_mem fun j hj => H.smul_mem _ (hk j (by rw [mem_range] at hj; omega)).1)
  · conv_lhs => rw [stageValue]
    rw [hlin, mul_sum]
    congr 1
    have h1 : range (i + 1) ⊆ range T.n := range_subset_range.2 (by omega)
    rw [← sum_subset h1 (fun j hj hj' => by
      rw [mem_range] at hj hj'
      rw [hT.1 i hi j hj (by omega)]; ring)]
    refine sum_congr rfl fun j hj => ?_
    rw [key j (by rw [mem_range] at hj; omega) y hy]
    ring
  · exact H.add_mem ho (H.sum_mem fun j hj => H.smul_mem _ (hk j (mem_range.1 hj)).1)
  · rw [hlin, mul_sum]
    congr 1
    refine sum_congr rfl fun j hj => ?_
    rw [key j (mem_range.1 hj) y hy]
    ring

theorem weak_of_uform {semi : Bool} (hP : Plain E semi) (hE : System E H W e) (hT : T.Accepted) (hn : 0 < T.n) (hb : ∀ j < T.n, T.a (T.n - 1) j = T.b j)
    (hd : ∀ i < T.n - 1, T.a i i ≠ 0) (hdt : 0 < dt) (h : UAt E T semi H S t dt old new) : WeakStages E T H W e S t dt old new := by
  obtain ⟨s, k, hs, hk, rfl⟩ := h
  have key : ∀ j < T.n - 1, ∀ y ∈ H, e (k j) y = (stageEqn E T t dt j).res (s j) (s j) (W y) := by
    intro j hj y hy
    have h1 := (hs j (by omega)).2.2 (W y) (hE.maps y hy)
    have h2 := (hk j hj).2 (W y) (hE.maps y hy)
    simp only [stageEqn, hE.inner, hE.mass, hP.eq] at h1 h2 ⊢
    have h3 : dt * T.a j j * (e (k j) y - (E (t + T.c j * dt) (t + T.c j * dt)).res (s j) (s j) (W y)) = 0 := by linarith
    have := (mul_eq_zero.1 h3).resolve_left (mul_ne_zero hdt.ne' (hd j hj))
    linarith
  have main : ∀ i < T.n, ∀ y ∈ H,
      e (s i) y = e old y + dt * ∑ j ∈ range T.n, T.a i j * (stageEqn E T t dt j).res (s j) (s j) (W y) := by
    intro i hi y hy
    have h1 := (hs i hi).2.2 (W y) (hE.maps y hy)
    simp only [stageEqn, hE.inner, hE.mass, hP.eq] at h1 ⊢
    have h2 : range (i + 1) ⊆ range T.n := range_subset_range.2 (by omega)
    rw [← sum_subset h2 (fun j hj hj' => by
      rw [mem_range] at hj hj'
      rw [hT.1 i hi j hj (by omega)]; ring), sum_range_succ, mul_add, mul_sum]
    have h3 : ∑ j ∈ range i, dt * T.a i j * e (k j) y = ∑ j ∈ range i, dt * (T.a i j *
        (E (t + T.c j * dt) (t + T.c j * dt)).res (s j) (s j) (W y)) := by
      refine sum_congr rfl fun j hj => ?_
      rw [key j (by rw [mem_range] at hj; omega) y hy, stageEqn]
      ring
    rw [h3] at h1
    linarith
  refine ⟨s, fun i hi => ⟨(hs i hi).1, (hs i hi).2.1, main i hi⟩, (hs _ (by omega)).1, fun y hy => ?_⟩
  rw [main _ (by omega) y hy]
  congr 2
  exact sum_congr rfl fun j hj => by rw [hb j (mem_range.1 hj)]

theorem weak_of_butcher (hE : System E H W e) (hT : ∀ i < T.n, ∀ j < T.n, i ≤ j → T.a i j = 0) (ho : old ∈ H)
    (h : ButcherAt E T H S t dt old new) : WeakStages E T H W e S t dt old new := by
  obtain ⟨k, hk, rfl⟩ := h
  have key : ∀ j < T.n, ∀ y ∈ H, e (k j) y = dt * (stageEqn E T t dt j).res (stage T old k j) (stage T old k j) (W y) := by
    intro j hj y hy
    have := (hk j hj).2.2 (W y) (hE.maps y hy)
    rw [stageEqn, hE.mass] at this
    exact this
  have hlin : ∀ (a : ℕ → ℝ) (s : Finset ℕ) y, e (old + ∑ j ∈ s, a j • k j) y = e old y + ∑ j ∈ s, a j * e (k j) y := by
    intro a s y
    have h := hE.energy.lin.1 y
    exact (h.1 _ _).trans (congrArg _ ((h.map_sum s fun j => a j • k j).trans (sum_congr rfl fun j _ => h.2 _ _)))
  refine ⟨stage T old k, fun i hi => ⟨?_, (hk i hi).1, fun y hy => ?_⟩, ?_, fun y hy => ?_⟩
  · exact H.add_mem ho (H.sum_mem fun j hj => H.smul_mem _ (hk j (by rw [mem_range] at hj; omega)).2.1)
  · conv_lhs => rw [stage]
    rw [hlin, mul_sum]
    congr 1
    have h1 : range i ⊆ range T.n := range_subset_range.2 (by omega)
    rw [← sum_subset h1 (fun j hj hj' => by
      rw [mem_range] at hj hj'
      rw [hT i hi j hj (by omega)]; ring)]
    refine sum_congr rfl fun j hj => ?_
    rw [key j (by rw [mem_range] at hj; omega) y hy]
    ring
  · exact H.add_mem ho (H.sum_mem fun j hj => H.smul_mem _ (hk j (mem_range.1 hj)).2.1)
  · rw [hlin, mul_sum]
    congr 1
    refine sum_congr rfl fun j hj => ?_
    rw [key j (mem_range.1 hj) y hy]
    ring

theorem butcher_of_shuosher (h : ShuOsherAt E ssprk33 H S t dt old new) : ButcherAt E ssprk33 H S t dt old new := by
  obtain ⟨C, hC, s, k, hs, hk, rfl⟩ := h
  rw [ssprk33_conv, Option.some.injEq] at hC
  subst hC
  have hn : ssprk33.n = 3 := rfl
  obtain ⟨b0, a0, e1⟩ := hk 0 (by decide)
  obtain ⟨b1, a1, e2⟩ := hk 1 (by decide)
  obtain ⟨b2, a2, e3⟩ := hk 2 (by decide)
  simp only [sum_range_succ, sum_range_zero, Tableau.alpha, Tableau.beta, ssprk33_at0_al, ssprk33_at0_be] at e1 e2 e3
  norm_num [hn] at e1 e2 e3
  rw [hs] at e1 e2 e3
  have s0 : s 0 = stage ssprk33 old k 0 := by simp [stage, hs]
  have s1 : s 1 = stage ssprk33 old k 1 := by
    rw [e1]
    norm_num [stage, sum_range_succ, ssprk33, RK.mk]
    exact add_comm _ _
  have s2 : s 2 = stage ssprk33 old k 2 := by
    rw [e2, e1]
    norm_num [stage, sum_range_succ, ssprk33, RK.mk]
    module
  refine ⟨k, fun i hi => ?_, ?_⟩
  · rw [hn] at hi
    obtain rfl | rfl | rfl : i = 0 ∨ i = 1 ∨ i = 2 := by omega
    · rw [← s0]; exact ⟨b0, a0⟩
    · rw [← s1]; exact ⟨b1, a1⟩
    · rw [← s2]; exact ⟨b2, a2⟩
  · rw [hn, e3, e2, e1]
    norm_num [sum_range_succ, ssprk33, RK.mk, vec]
    module

/-- The theta method as a table. -/
noncomputable def thetaTable (theta : ℝ) : Tableau := RK.mk [[0, 0], [1 - theta, theta]] [1 - theta, theta] [0, 1]

theorem weak_of_crank {theta : ℝ} {semi : Bool} (hP : Plain E semi) (hE : System E H W e) (hB : SteadyBnd E) (ho : old ∈ H)
    (h : CrankAt E theta semi H S t dt old new) : WeakStages E (thetaTable theta) H W e S t dt old new := by
  obtain ⟨h1, h2, h3, h4⟩ := h
  have hn : (thetaTable theta).n = 2 := rfl
  have key : ∀ y ∈ H, e new y = e old y + dt * ((1 - theta) * (E t t).res old old (W y) +
      theta * (E (t + dt) (t + dt)).res new new (W y)) := by
    intro y hy
    have := h4 (W y) (hE.maps y hy)
    rw [hE.mass, hE.mass, hB t (t + dt) t, hP.eq] at this
    linarith
  refine ⟨fun i => if i = 0 then old else new, fun i hi => ?_, h3, fun y hy => ?_⟩
  · rw [hn] at hi
    obtain rfl | rfl : i = 0 ∨ i = 1 := by omega
    · refine ⟨ho, h1, fun y hy => ?_⟩
      rw [hn]
      simp [sum_range_succ, thetaTable, RK.mk]
    · refine ⟨h3, h2, fun y hy => ?_⟩
      rw [hn]
      simp only [one_ne_zero, if_false]
      rw [key y hy]
      simp [sum_range_succ, thetaTable, RK.mk, vec, stageEqn]
  · rw [hn, key y hy]
    simp [sum_range_succ, thetaTable, RK.mk, vec, stageEqn]

theorem weak_of_euler (hE : System E H W e) (hB : SteadyBnd E) (ho : old ∈ H) (h : EulerAt E H S t dt old new) :
    WeakStages E forwardEuler H W e S t dt old new := by
  obtain ⟨h1, h3, h4⟩ := h
  have hn : forwardEuler.n = 1 := rfl
  have key : ∀ y ∈ H, e new y = e old y + dt * (E t t).res old old (W y) := by
    intro y hy
    have := h4 (W y) (hE.maps y hy)
    rwa [hE.mass, hE.mass, hB t (t + dt) t] at this
  refine ⟨fun _ => old, fun i hi => ⟨ho, h1, fun y hy => ?_⟩, h3, fun y hy => ?_⟩
  · rw [hn] at hi ⊢
    obtain rfl : i = 0 := by omega
    simp [forwardEuler, RK.mk]
  · rw [hn, key y hy]
    simp [forwardEuler, RK.mk, vec, stageEqn]

end Weak

/-! ### The stages lie within the step -/

theorem C129_nodes : Nodes forwardEuler ∧ Nodes backwardEuler ∧ Nodes implicitMidpoint ∧ Nodes crankNicolson ∧ Nodes dirk22 ∧
    Nodes dirk23 ∧ Nodes dirk33 ∧ Nodes dirk43 ∧ Nodes dirkLSPUM2 ∧ Nodes dirkLPUM2 ∧ Nodes ssprk33 ∧ Nodes erkLSPUM2 ∧
    Nodes erkLPUM2 ∧ Nodes erkMidpoint ∧ Nodes esdirkMidpoint ∧ Nodes esdirkTrapezoid := by
  have h2 : Real.sqrt 2 ≤ 2 := Real.sqrt_le_iff.2 (by norm_num)
  have h3 : Real.sqrt 3 ≤ 3 := Real.sqrt_le_iff.2 (by norm_num)
  have h2' := Real.sqrt_nonneg 2
  have h3' := Real.sqrt_nonneg 3
  refine ⟨?_, ?_, ?_, ?_, ?_, ?_, ?_, ?_, ?_, ?_, ?_, ?_, ?_, ?_, ?_, ?_⟩ <;> intro j hj
  · obtain rfl : j = 0 := by change j < 1 at hj; omega
    norm_num [forwardEuler, RK.mk, vec]
  · obtain rfl : j = 0 := by change j < 1 at hj; omega
    norm_num [backwardEuler, RK.mk, vec]
  · obtain rfl : j = 0 := by change j < 1 at hj; omega
    norm_num [implicitMidpoint, RK.mk, vec]
  · obtain rfl | rfl : j = 0 ∨ j = 1 := by change j < 2 at hj; omega
    all_goals norm_num [crankNicolson, RK.mk, vec]
  · obtain rfl | rfl : j = 0 ∨ j = 1 := by change j < 2 at hj; omega
    all_goals norm_num [dirk22, RK.mk, vec, γ22]
    constructor <;> linarith
  · obtain rfl | rfl : j = 0 ∨ j = 1 := by change j < 2 at hj; omega
    all_goals simp only [dirk23, RK.mk, vec, γ23, List.getD_cons_zero, List.getD_cons_succ]
    all_goals constructor <;> linarith
  · obtain rfl | rfl | rfl : j = 0 ∨ j = 1 ∨ j = 2 := by change j < 3 at hj; omega
    all_goals norm_num [dirk33, RK.mk, vec, γ33]
  · obtain rfl | rfl | rfl | rfl : j = 0 ∨ j = 1 ∨ j = 2 ∨ j = 3 := by change j < 4 at hj; omega
    all_goals norm_num [dirk43, RK.mk, vec]
  · obtain rfl | rfl | rfl : j = 0 ∨ j = 1 ∨ j = 2 := by change j < 3 at hj; omega
    all_goals norm_num [dirkLSPUM2, RK.mk, vec]
  · obtain rfl | rfl | rfl : j = 0 ∨ j = 1 ∨ j = 2 := by change j < 3 at hj; omega
    all_goals norm_num [dirkLPUM2, RK.mk, vec]
  · obtain rfl | rfl | rfl : j = 0 ∨ j = 1 ∨ j = 2 := by change j < 3 at hj; omega
    all_goals norm_num [ssprk33, RK.mk, vec]
  · obtain rfl | rfl | rfl : j = 0 ∨ j = 1 ∨ j = 2 := by change j < 3 at hj; omega
    all_goals norm_num [erkLSPUM2, RK.mk, vec]
  · obtain rfl | rfl | rfl : j = 0 ∨ j = 1 ∨ j = 2 := by change j < 3 at hj; omega
    all_goals norm_num [erkLPUM2, RK.mk, vec]
  · obtain rfl | rfl : j = 0 ∨ j = 1 := by change j < 2 at hj; omega
    all_goals norm_num [erkMidpoint, RK.mk, vec]
  · obtain rfl | rfl : j = 0 ∨ j = 1 := by change j < 2 at hj; omega
    all_goals norm_num [esdirkMidpoint, RK.mk, vec]
  · obtain rfl | rfl : j = 0 ∨ j = 1 := by change j < 2 at hj; omega
    all_goals norm_num [esdirkTrapezoid, RK.mk, vec]

/-! ### Convergence -/

section Order

variable {E : ℝ → ℝ → Eqn V} {H : Submodule ℝ V} {W : V → V} {e : V → V → ℝ} {S : Set V} {T : Tableau} {L M tEnd : ℝ}
  {U : ℝ → V} {D : ℝ → V → V → ℝ}

theorem rate_two (hT : HasOrder T 2) : (fun dt : ℝ => dt ^ 2 + |order2 T| * dt) = fun dt => dt ^ 2 := by
  funext dt
  rw [hT.2.2.1 le_rfl]
  simp

theorem rate_three (hT : HasOrder T 3) :
    (fun dt : ℝ => dt ^ 3 + (|order2 T| + |order3a T| + |order3b T|) * dt) = fun dt => dt ^ 3 := by
  funext dt
  rw [hT.2.2.1 (by norm_num), (hT.2.2.2 le_rfl).1, (hT.2.2.2 le_rfl).2]
  simp

/-- C129: a scheme of `DIRKGeneric` converges with the order of its table, up to three. -/
theorem C129_tendency (hE : System E H W e) (hF : Free E) (hc : Nodes T) (semi : Bool) :
    (HasOrder T 1 → Solution E H W e S 2 L tEnd U → Converges e (TendencyAt E T semi H S) tEnd U fun dt => dt) ∧
    (HasOrder T 2 → Solution E H W e S 3 L tEnd U → Converges e (TendencyAt E T semi H S) tEnd U fun dt => dt ^ 2) ∧
    (HasOrder T 3 → Solution E H W e S 4 L tEnd U → Derivative E H W e S L M tEnd U D →
      Converges e (TendencyAt E T semi H S) tEnd U fun dt => dt ^ 3) :=
  ⟨fun hT hU => C129_weak_first hE hU hT.1 hc hT.2.1 fun _ _ _ _ _ _ _ ho h => weak_of_tendency hE hF hT.1 ho h,
    fun hT hU => rate_two hT ▸ C129_weak_second hE hU hT.1 hc hT.2.1 fun _ _ _ _ _ _ _ ho h =>
      weak_of_tendency hE hF hT.1 ho h,
    fun hT hU hD => rate_three hT ▸ C129_weak_third hE hU hD hT.1 hc hT.2.1 fun _ _ _ _ _ _ _ ho h =>
      weak_of_tendency hE hF hT.1 ho h⟩

/-- C129: the schemes behind the 2D mode and the vertical solves of the three-dimensional model. -/
theorem C129_dirk (hE : System E H W e) (hF : Free E) (semi : Bool) :
    (Solution E H W e S 3 L tEnd U → Converges e (TendencyAt E dirk22 semi H S) tEnd U fun dt => dt ^ 2) ∧
    (Solution E H W e S 3 L tEnd U → Converges e (TendencyAt E dirkLSPUM2 semi H S) tEnd U fun dt => dt ^ 2) ∧
    (Solution E H W e S 3 L tEnd U → Converges e (TendencyAt E dirkLPUM2 semi H S) tEnd U fun dt => dt ^ 2) ∧
    (Solution E H W e S 4 L tEnd U → Derivative E H W e S L M tEnd U D →
      Converges e (TendencyAt E dirk23 semi H S) tEnd U fun dt => dt ^ 3) ∧
    (Solution E H W e S 4 L tEnd U → Derivative E H W e S L M tEnd U D →
      Converges e (TendencyAt E dirk43 semi H S) tEnd U fun dt => dt ^ 3) := by
  obtain ⟨-, -, -, -, n22, n23, -, n43, n5, n6, -⟩ := C129_nodes
  exact ⟨(C129_tendency (M := M) (D := D) hE hF n22 semi).2.1 C21_dirk22,
    (C129_tendency (M := M) (D := D) hE hF n5 semi).2.1 C21_dirkLSPUM2,
    (C129_tendency (M := M) (D := D) hE hF n6 semi).2.1 C21_dirkLPUM2, (C129_tendency hE hF n23 semi).2.2 C21_dirk23,
    (C129_tendency hE hF n43 semi).2.2 C21_dirk43⟩

/-- C129: `BackwardEuler` converges with order one. -/
theorem C129_backwardEuler (hE : System E H W e) (semi : Bool) (hP : Plain E semi) (hU : Solution E H W e S 2 L tEnd U) :
    Converges e (UAt E backwardEuler semi H S) tEnd U fun dt => dt := by
  refine C129_weak_first hE hU C21_backwardEuler.1 C129_nodes.2.1 C21_backwardEuler.2.1 fun t dt old new _ _ hdt ho h =>
    weak_of_uform hP hE C21_backwardEuler.1 (by decide) (fun j hj => ?_) (fun i hi => ?_) hdt h
  · obtain rfl : j = 0 := by change j < 1 at hj; omega
    norm_num [backwardEuler, RK.mk, vec]
  · change i < 0 at hi
    omega

/-- C129: `DIRK22` converges with order two. -/
theorem C129_dirk22 (hE : System E H W e) (semi : Bool) (hP : Plain E semi) (hU : Solution E H W e S 3 L tEnd U) :
    Converges e (UAt E dirk22 semi H S) tEnd U fun dt => dt ^ 2 := by
  rw [← rate_two C21_dirk22]
  refine C129_weak_second hE hU C21_dirk22.1 C129_nodes.2.2.2.2.1 C21_dirk22.2.1 fun t dt old new _ _ hdt ho h =>
    weak_of_uform hP hE C21_dirk22.1 (by decide) (fun j hj => ?_) (fun i hi => ?_) hdt h
  · obtain rfl | rfl : j = 0 ∨ j = 1 := by change j < 2 at hj; omega
    all_goals norm_num [dirk22, RK.mk, vec]
  · obtain rfl : i = 0 := by change i < 1 at hi; omega
    have : Real.sqrt 2 < 2 := by rw [Real.sqrt_lt' (by norm_num)]; norm_num
    have : γ22 ≠ 0 := by rw [γ22]; intro h; linarith
    simpa [dirk22, RK.mk] using this

/-- C129: `DIRK33` converges with order three, up to an error of `3e-11 dt` from the ten digits of its coefficient. -/
theorem C129_dirk33 (hE : System E H W e) (semi : Bool) (hP : Plain E semi) (hU : Solution E H W e S 4 L tEnd U) (hD : Derivative E H W e S L M tEnd U D) :
    Converges e (UAt E dirk33 semi H S) tEnd U fun dt => dt ^ 3 + 3 / 10 ^ 11 * dt := by
  obtain ⟨hT, o2, o3, o4⟩ := C21_dirk33_partial
  obtain ⟨C, hC, top, htop, h⟩ := C129_weak_third (Step := UAt E dirk33 semi H S) hE hU hD hT.1 C129_nodes.2.2.2.2.2.2.1 hT.2.1
    fun t dt old new _ _ hdt ho h => by
      refine weak_of_uform hP hE hT.1 (by decide) (fun j hj => ?_) (fun i hi => ?_) hdt h
      · obtain rfl | rfl | rfl : j = 0 ∨ j = 1 ∨ j = 2 := by change j < 3 at hj; omega
        all_goals norm_num [dirk33, RK.mk, vec]
      · obtain rfl | rfl : i = 0 ∨ i = 1 := by change i < 2 at hi; omega
        all_goals norm_num [dirk33, RK.mk, γ33]
  refine ⟨C, hC, top, htop, fun dt hdt hle u h0 hu N hN => (h dt hdt hle u h0 hu N hN).trans ?_⟩
  refine mul_le_mul_of_nonneg_left (add_le_add le_rfl (mul_le_mul_of_nonneg_right ?_ hdt.le)) hC
  linarith

/-- C129: a scheme of `ERKGeneric` converges with the order of its table, up to three. -/
theorem C129_explicit (hE : System E H W e) (hc : Nodes T) (hl : ∀ i < T.n, ∀ j < T.n, i ≤ j → T.a i j = 0) :
    (HasOrder T 1 → Solution E H W e S 2 L tEnd U → Converges e (ButcherAt E T H S) tEnd U fun dt => dt) ∧
    (HasOrder T 2 → Solution E H W e S 3 L tEnd U → Converges e (ButcherAt E T H S) tEnd U fun dt => dt ^ 2) ∧
    (HasOrder T 3 → Solution E H W e S 4 L tEnd U → Derivative E H W e S L M tEnd U D →
      Converges e (ButcherAt E T H S) tEnd U fun dt => dt ^ 3) :=
  ⟨fun hT hU => C129_weak_first hE hU hT.1 hc hT.2.1 fun _ _ _ _ _ _ _ ho h => weak_of_butcher hE hl ho h,
    fun hT hU => rate_two hT ▸ C129_weak_second hE hU hT.1 hc hT.2.1 fun _ _ _ _ _ _ _ ho h => weak_of_butcher hE hl ho h,
    fun hT hU hD => rate_three hT ▸ C129_weak_third hE hU hD hT.1 hc hT.2.1 fun _ _ _ _ _ _ _ ho h =>
      weak_of_butcher hE hl ho h⟩

/-- C129: `SSPRK33` converges with order three. -/
theorem C129_ssprk33 (hE : System E H W e) (hU : Solution E H W e S 4 L tEnd U) (hD : Derivative E H W e S L M tEnd U D) :
    Converges e (ShuOsherAt E ssprk33 H S) tEnd U fun dt => dt ^ 3 := by
  rw [← rate_three C21_ssprk33]
  obtain ⟨-, -, -, -, -, -, -, -, -, -, hc, -⟩ := C129_nodes
  exact C129_weak_third hE hU hD C21_ssprk33.1 hc C21_ssprk33.2.1 fun _ _ _ _ _ _ _ ho h =>
    weak_of_butcher hE ssprk33_lower ho (butcher_of_shuosher h)

theorem theta_order (theta : ℝ) : HasOrder (thetaTable theta) 1 ∧ order2 (thetaTable theta) = theta - 1 / 2 ∧
    Nodes (thetaTable theta) := by
  have hn : (thetaTable theta).n = 2 := rfl
  refine ⟨⟨⟨fun i hi j hj hij => ?_, fun i hi => ?_⟩, ?_, by norm_num, by norm_num⟩, ?_, fun j hj => ?_⟩
  · rw [hn] at hi hj
    obtain ⟨rfl, rfl⟩ : i = 0 ∧ j = 1 := by omega
    simp [thetaTable, RK.mk]
  · rw [hn] at hi
    obtain rfl | rfl : i = 0 ∨ i = 1 := by omega
    all_goals simp [thetaTable, RK.mk, vec, sum_range_succ]
  · simp [order1, thetaTable, RK.mk, vec, sum_range_succ]
  · simp [order2, thetaTable, RK.mk, vec, sum_range_succ]
  · rw [hn] at hj
    obtain rfl | rfl : j = 0 ∨ j = 1 := by omega
    all_goals simp [thetaTable, RK.mk, vec]

/-- C129: `CrankNicolson` converges with order two, if its parameter is one half and boundary conditions do not change with
time; fields may. -/
theorem C129_crank (hE : System E H W e) (semi : Bool) (hP : Plain E semi) (hB : SteadyBnd E) (theta : ℝ) (hU : Solution E H W e S 3 L tEnd U) :
    Converges e (CrankAt E theta semi H S) tEnd U (fun dt => dt ^ 2 + |theta - 1 / 2| * dt) := by
  obtain ⟨hT, h2, hc⟩ := theta_order theta
  rw [← h2]
  exact C129_weak_second hE hU hT.1 hc hT.2.1 fun _ _ _ _ _ _ _ ho h => weak_of_crank hP hE hB ho h

/-- C129: `ForwardEuler` converges with order one, if boundary conditions do not change with time. -/
theorem C129_euler (hE : System E H W e) (hB : SteadyBnd E) (hU : Solution E H W e S 2 L tEnd U) :
    Converges e (EulerAt E H S) tEnd U fun dt => dt :=
  C129_weak_first hE hU C21_forwardEuler.1 C129_nodes.1 C21_forwardEuler.2.1 fun _ _ _ _ _ _ _ ho h =>
    weak_of_euler hE hB ho h

end Order

end Verif.Converge
