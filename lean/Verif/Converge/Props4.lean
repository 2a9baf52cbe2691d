import Verif.Converge.Props3

/-!
C129: order one remains when boundary conditions or coefficients are taken from another time of the step.
-/

namespace Verif.Converge

open Finset Verif.Contract Verif.Explicit RK

universe u

/-! ### In a normed space -/

section Normed

variable {F : Type*} [NormedAddCommGroup F] [NormedSpace ℝ F]

/-- The tendencies of the stages have errors of the size of the time step. -/
def LagStages (T : Tableau) (f : ℝ → F → F) (K t dt : ℝ) (old new : F) (s : ℕ → F) : Prop :=
  ∃ k : ℕ → F, (∀ j < T.n, ‖k j - f (t + T.c j * dt) (s j)‖ ≤ K * dt) ∧
    (∀ i < T.n, s i = old + dt • ∑ j ∈ range T.n, T.a i j • k j) ∧ new = old + dt • ∑ j ∈ range T.n, T.b j • k j

/-- Steps with such errors. -/
def LagRun (T : Tableau) (f : ℝ → F → F) (S : Set F) (K tEnd dt : ℝ) (u : ℕ → F) : Prop :=
  ∀ m : ℕ, (m + 1) * dt ≤ tEnd → ∃ s, LagStages T f K (m * dt) dt (u m) (u (m + 1)) s ∧ ∀ i < T.n, s i ∈ S

variable {f : ℝ → F → F} {U : ℝ → F} {S : Set F} {L tEnd : ℝ}

theorem lag_step {T : Tableau} {K t dt d d' : ℝ} {old new u0 u1 : F} {s X : ℕ → F} (hs : LagStages T f K t dt old new s)
    (hdt : 0 ≤ dt) (hL : 0 ≤ L) (hK : 0 ≤ K)
    (hf : ∀ j < T.n, ‖f (t + T.c j * dt) (s j) - f (t + T.c j * dt) (X j)‖ ≤ L * ‖s j - X j‖)
    (hd : ∀ i < T.n, ‖defect T f t dt u0 X i‖ ≤ d) (hd' : ‖defectEnd T f t dt u0 u1 X‖ ≤ d')
    (hsmall : dt * (sizeA T * L) ≤ 1 / 2) :
    ‖new - u1‖ ≤ (1 + dt * (2 * T.n * (sizeB T * L))) * ‖old - u0‖ +
      (dt * (2 * T.n * (sizeB T * L)) * (d + dt * (sizeA T * (T.n * (K * dt)))) + (d' + dt * (sizeB T * (T.n * (K * dt))))) := by
  obtain ⟨k, hk, h1, h2⟩ := hs
  have hw : ∀ (a : ℕ → ℝ), ‖∑ j ∈ range T.n, a j • (k j - f (t + T.c j * dt) (s j))‖ ≤
      (∑ j ∈ range T.n, |a j|) * (T.n * (K * dt)) := fun a => by
    have := norm_weighted T.n a _ _ hk
    simpa using this
  refine error_of_error hdt hL hf
    (fun i => defect T f t dt u0 X i - dt • ∑ j ∈ range T.n, T.a i j • (k j - f (t + T.c j * dt) (s j)))
    (defectEnd T f t dt u0 u1 X - dt • ∑ j ∈ range T.n, T.b j • (k j - f (t + T.c j * dt) (s j)))
    (fun i hi => ?_) ?_ (fun i hi => ?_) ?_ hsmall
  · rw [h1 i hi, defect]
    simp only [smul_sub, sum_sub_distrib]
    abel
  · rw [h2, defectEnd]
    simp only [smul_sub, sum_sub_distrib]
    abel
  · refine (_root_.norm_sub_le _ _).trans (add_le_add (hd i hi) ?_)
    rw [norm_smul, Real.norm_of_nonneg hdt]
    refine mul_le_mul_of_nonneg_left ((hw _).trans (mul_le_mul_of_nonneg_right ?_ (by positivity))) hdt
    exact single_le_sum (f := fun i => ∑ j ∈ range T.n, |T.a i j|) (fun _ _ => sum_nonneg fun _ _ => abs_nonneg _)
      (mem_range.2 hi)
  · refine (_root_.norm_sub_le _ _).trans (add_le_add hd' ?_)
    rw [norm_smul, Real.norm_of_nonneg hdt]
    exact mul_le_mul_of_nonneg_left (hw _) hdt

/-- C129: methods whose tendencies have errors of the size of the time step converge with order one. -/
theorem C129_lagged (P : Problem f U S L tEnd) (hU : ContDiff ℝ 2 U) (T : Tableau) (hT : T.Accepted) (hc : Nodes T)
    (h1 : order1 T = 0) (K : ℝ) (hK : 0 ≤ K) :
    ∃ C, 0 ≤ C ∧ ∃ dt₀, 0 < dt₀ ∧ ∀ dt, 0 < dt → dt ≤ dt₀ → ∀ u, LagRun T f S K tEnd dt u → ∀ N : ℕ, N * dt ≤ tEnd →
      ‖u N - U (N * dt)‖ ≤ C * (‖u 0 - U 0‖ + dt) := by
  obtain ⟨M, hM, h⟩ := defect_stages P hT hc hU
  obtain ⟨M', hM', h'⟩ := defect_one P hc hU h1
  obtain ⟨G, hG⟩ : ∃ G, G = 2 * T.n * (sizeB T * L) := ⟨_, rfl⟩
  have hA := sizeA_nonneg T
  have hB := sizeB_nonneg T
  have hL := P.nonneg
  have hG0 : 0 ≤ G := by rw [hG]; positivity
  obtain ⟨Q, hQ⟩ : ∃ Q, Q = G * (M + sizeA T * (T.n * K)) + (M' + sizeB T * (T.n * K)) := ⟨_, rfl⟩
  have hQ0 : 0 ≤ Q := by rw [hQ]; positivity
  refine ⟨Real.exp (G * |tEnd|) * (1 + |tEnd| * Q), by positivity, 1 / (2 * (sizeA T * L) + 1), by positivity,
    fun dt hdt hdt₀ u hr N hN => ?_⟩
  obtain ⟨hsmall, hdt1⟩ := small_step (A := sizeA T * L) (by positivity) hdt hdt₀
  have key := accumulate (e := fun m : ℕ => ‖u m - U (m * dt)‖) (K := G) (d := Q * dt) hG0 (by positivity) hdt.le
    (norm_nonneg _) (fun m hm => by
      obtain ⟨s, hs, hS⟩ := hr m hm
      have h0 : (0 : ℝ) ≤ m * dt := by positivity
      have hte : m * dt + dt ≤ tEnd := by linarith
      have := lag_step (X := fun j => U (m * dt + T.c j * dt)) (u0 := U (m * dt)) (u1 := U (m * dt + dt)) hs hdt.le hL hK
        (fun j hj => by
          have := hc j hj
          exact P.lip _ (by nlinarith) (by nlinarith) _ (hS j hj) _ (P.mem _ (by nlinarith) (by nlinarith)))
        (h _ dt h0 hdt.le hte) (h' _ dt h0 hdt.le hte) hsmall
      have e : ((m + 1 : ℕ) : ℝ) * dt = m * dt + dt := by push_cast; ring
      rw [← hG] at this
      rw [e]
      refine this.trans ?_
      have a1 : G * (M + sizeA T * (T.n * K)) * dt ^ 3 ≤ G * (M + sizeA T * (T.n * K)) * dt ^ 2 := by
        refine mul_le_mul_of_nonneg_left ?_ (by positivity)
        nlinarith [pow_nonneg hdt.le 2]
      rw [hQ]
      nlinarith) N hN
  simp only [Nat.cast_zero, zero_mul] at key
  refine key.trans ?_
  rw [mul_assoc (Real.exp _)]
  refine mul_le_mul_of_nonneg_left ?_ (Real.exp_pos _).le
  have hn := norm_nonneg (u 0 - U 0)
  have ht := abs_nonneg tEnd
  have : 0 ≤ |tEnd| * Q * ‖u 0 - U 0‖ := by positivity
  nlinarith

end Normed

/-! ### For equations in weak form -/

variable {V : Type u} [AddCommGroup V] [Module ℝ V]

/-- The residual changes no faster than boundary conditions and coefficients do, and is bounded. -/
structure Lag (E : ℝ → ℝ → Eqn V) (H : Submodule ℝ V) (W : V → V) (e : V → V → ℝ) (S : Set V) (K B tEnd : ℝ) : Prop where
  nonneg : 0 ≤ K
  nonneg' : 0 ≤ B
  change : ∀ t r, 0 ≤ t → t ≤ tEnd → 0 ≤ r → r ≤ tEnd → ∀ x ∈ H, x ∈ S → ∀ v ∈ H, v ∈ S → ∀ y ∈ H,
    |(E t r).res x v (W y) - (E t t).res x x (W y)| ≤ K * (|r - t| + size e (x - v)) * size e y
  bound : ∀ t r, 0 ≤ t → t ≤ tEnd → 0 ≤ r → r ≤ tEnd → ∀ x ∈ H, x ∈ S → ∀ v ∈ H, v ∈ S → ∀ y ∈ H,
    |(E t r).res x v (W y)| ≤ B * size e y

/-- A step with stages `s`, coefficients from `v` and boundary conditions of the times `r`. -/
def WeakLag (E : ℝ → ℝ → Eqn V) (T : Tableau) (H : Submodule ℝ V) (W : V → V) (e : V → V → ℝ) (S : Set V) (tEnd : ℝ)
    (t dt : ℝ) (old new : V) : Prop :=
  ∃ (s v : ℕ → V) (r : ℕ → ℝ), old ∈ S ∧
    (∀ i < T.n, s i ∈ H ∧ s i ∈ S ∧ (v i = old ∨ ∃ j < T.n, v i = s j) ∧ 0 ≤ r i ∧ r i ≤ tEnd ∧
      |r i - (t + T.c i * dt)| ≤ dt ∧ ∀ y ∈ H,
        e (s i) y = e old y + dt * ∑ j ∈ range T.n, T.a i j * (E (t + T.c j * dt) (r j)).res (s j) (v j) (W y)) ∧
    new ∈ H ∧ ∀ y ∈ H,
      e new y = e old y + dt * ∑ j ∈ range T.n, T.b j * (E (t + T.c j * dt) (r j)).res (s j) (v j) (W y)

variable {E : ℝ → ℝ → Eqn V} {H : Submodule ℝ V} {W : V → V} {e : V → V → ℝ} {S : Set V} {L K B tEnd : ℝ} {U : ℝ → V}
  {T : Tableau} {Step : ℝ → ℝ → V → V → Prop}

/-- C129: order one, with boundary conditions and coefficients from other times of the step. -/
theorem C129_weak_lagged (hE : System E H W e) (hU : Solution E H W e S 2 L tEnd U) (hG : Lag E H W e S K B tEnd)
    (hT : T.Accepted) (hc : Nodes T) (h1 : order1 T = 0)
    (hs : ∀ t dt old new, 0 ≤ t → t + dt ≤ tEnd → 0 < dt → old ∈ H → Step t dt old new →
      WeakLag E T H W e S tEnd t dt old new) :
    Converges e Step tEnd U fun dt => dt := by
  obtain ⟨F, i1, i2, i3, g, f, X, hg, hsur, hnorm, hin, hf, hX, P, hsm, -⟩ :=
    transfer (T := T) (Step := fun _ _ _ _ => False) hE hU (by norm_num) (fun _ _ _ _ _ _ _ _ h => h.elim)
  have hA := sizeA_nonneg T
  obtain ⟨K', hK'⟩ : ∃ K', K' = K * (1 + 2 * (sizeA T * (T.n * B))) := ⟨_, rfl⟩
  have hK0 : 0 ≤ K' := by rw [hK']; have := hG.nonneg; have := hG.nonneg'; positivity
  obtain ⟨C, hC, top, htop, h⟩ := C129_lagged P hsm T hT hc h1 K' hK0
  have hinj : ∀ x y, g x = g y → x = y := fun x y h => by
    rw [← sub_eq_zero, ← norm_eq_zero, hnorm, map_sub, h, sub_self, size, (hE.energy.lin.1 _).map_zero, Real.sqrt_zero]
  refine ⟨C, hC, top, htop, fun dt hdt hle u hu0 hu N hN => ?_⟩
  have hmem : ∀ m : ℕ, m * dt ≤ tEnd → u m ∈ H := by
    intro m
    induction m with
    | zero => intro _; rw [hu0]; exact hU.mem 0
    | succ m ih =>
      intro hm
      have hm' : ((m : ℝ) + 1) * dt ≤ tEnd := by push_cast at hm; exact hm
      obtain ⟨s, v, r, -, -, h, -⟩ := hs _ _ _ _ (by positivity) (by linarith) hdt (ih (by nlinarith)) (hu m hm')
      exact h
  have : ∀ m : ℕ, ∃ x : F, m * dt ≤ tEnd → g x = u m := fun m => by
    by_cases h : m * dt ≤ tEnd
    · obtain ⟨x, hx⟩ := hsur _ (hmem m h)
      exact ⟨x, fun _ => hx⟩
    · exact ⟨X 0, fun h' => absurd h' h⟩
  choose x hx using this
  have ht : 0 ≤ tEnd := le_trans (by positivity) hN
  have hx0 : x 0 = X 0 := hinj _ _ (by rw [hx 0 (by simpa using ht), hu0, hX])
  have hrun : LagRun T f (g ⁻¹' S) K' tEnd dt x := by
    intro m hm
    have hm0 : (m : ℝ) * dt ≤ tEnd := by nlinarith
    have hm1 : ((m + 1 : ℕ) : ℝ) * dt ≤ tEnd := by push_cast; exact hm
    obtain ⟨s, v, r, ho, h1, h2, h3⟩ := hs _ _ _ _ (by positivity) (by linarith) hdt (hmem m hm0) (hu m hm)
    have : ∀ i, ∃ z : F, i < T.n → g z = s i := fun i => by
      by_cases h : i < T.n
      · obtain ⟨z, hz⟩ := hsur _ (h1 i h).1
        exact ⟨z, fun _ => hz⟩
      · exact ⟨X 0, fun h' => absurd h' h⟩
    choose z hz using this
    choose k hk using fun j : ℕ => riesz (F := F)
      { toFun := fun y => (E (m * dt + T.c j * dt) (r j)).res (s j) (v j) (W (g y))
        map_add' := fun y z => by rw [map_add]; exact (hE.test _ _ _ _).1 _ _
        map_smul' := fun a y => by rw [map_smul]; exact (hE.test _ _ _ _).2 _ _ }
    have hk' : ∀ j y, Inner.inner ℝ (k j) y = (E (m * dt + T.c j * dt) (r j)).res (s j) (v j) (W (g y)) := hk
    have hsum : ∀ (a : ℕ → ℝ) (y : F), Inner.inner ℝ (x m + dt • ∑ j ∈ range T.n, a j • k j) y =
        e (u m) (g y) + dt * ∑ j ∈ range T.n, a j * (E (m * dt + T.c j * dt) (r j)).res (s j) (v j) (W (g y)) := by
      intro a y
      rw [inner_add_left, hin, hx m hm0, real_inner_smul_left, sum_inner]
      congr 2
      exact sum_congr rfl fun j hj => by rw [real_inner_smul_left, hk']
    have hst : ∀ i < T.n, z i = x m + dt • ∑ j ∈ range T.n, T.a i j • k j := fun i hi => ext_inner_right ℝ fun y => by
      rw [hsum, hin, hz i hi]
      exact (h1 i hi).2.2.2.2.2.2 _ (hg y)
    have htime : ∀ j < T.n, 0 ≤ m * dt + T.c j * dt ∧ m * dt + T.c j * dt ≤ tEnd := fun j hj => by
      have := hc j hj
      have h0 : (0 : ℝ) ≤ m * dt := by positivity
      exact ⟨by nlinarith, by nlinarith⟩
    have hv : ∀ i < T.n, v i ∈ H ∧ v i ∈ S := fun i hi => by
      rcases (h1 i hi).2.2.1 with h | ⟨j, hj, h⟩
      · rw [h]; exact ⟨hmem m hm0, ho⟩
      · rw [h]; exact ⟨(h1 j hj).1, (h1 j hj).2.1⟩
    have hkB : ∀ j < T.n, ‖k j‖ ≤ B := fun j hj => norm_le_of_weak hG.nonneg' fun y => by
      rw [hk', hnorm]
      exact hG.bound _ _ (htime j hj).1 (htime j hj).2 (h1 j hj).2.2.2.1 (h1 j hj).2.2.2.2.1 _ (h1 j hj).1 (h1 j hj).2.1 _
        (hv j hj).1 (hv j hj).2 _ (hg y)
    have hmove : ∀ i < T.n, ‖z i - x m‖ ≤ dt * (sizeA T * (T.n * B)) := fun i hi => by
      rw [hst i hi, add_sub_cancel_left, norm_smul, Real.norm_of_nonneg hdt.le]
      refine mul_le_mul_of_nonneg_left ?_ hdt.le
      have := norm_weighted T.n (T.a i) _ _ hkB
      rw [sum_const, card_range, nsmul_eq_mul] at this
      refine this.trans (mul_le_mul_of_nonneg_right ?_ (mul_nonneg (by positivity) hG.nonneg'))
      exact single_le_sum (f := fun i => ∑ j ∈ range T.n, |T.a i j|) (fun _ _ => sum_nonneg fun _ _ => abs_nonneg _)
        (mem_range.2 hi)
    have hsv : ∀ i < T.n, size e (s i - v i) ≤ 2 * (sizeA T * (T.n * B)) * dt := fun i hi => by
      have h0 : 0 ≤ dt * (sizeA T * (T.n * B)) := (norm_nonneg _).trans (hmove i hi)
      rcases (h1 i hi).2.2.1 with h | ⟨j, hj, h⟩
      · rw [h, ← hz i hi, ← hx m hm0, ← map_sub, ← hnorm]
        linarith [hmove i hi]
      · rw [h, ← hz i hi, ← hz j hj, ← map_sub, ← hnorm, ← sub_sub_sub_cancel_right _ _ (x m)]
        exact (_root_.norm_sub_le _ _).trans (by linarith [hmove i hi, hmove j hj])
    refine ⟨z, ⟨k, fun j hj => ?_, hst, ext_inner_right ℝ fun y => ?_⟩, fun i hi => ?_⟩
    · refine norm_le_of_weak (mul_nonneg hK0 hdt.le) fun y => ?_
      rw [inner_sub_left, hk', hf, hz j hj, hnorm]
      refine (hG.change _ _ (htime j hj).1 (htime j hj).2 (h1 j hj).2.2.2.1 (h1 j hj).2.2.2.2.1 _ (h1 j hj).1 (h1 j hj).2.1 _
        (hv j hj).1 (hv j hj).2 _ (hg y)).trans (mul_le_mul_of_nonneg_right ?_ (Real.sqrt_nonneg _))
      rw [hK', mul_assoc]
      refine mul_le_mul_of_nonneg_left ?_ hG.nonneg
      rw [add_mul, one_mul]
      exact add_le_add (h1 j hj).2.2.2.2.2.1 (hsv j hj)
    · rw [hsum, hin, hx _ hm1]
      exact h3 _ (hg y)
    · change g (z i) ∈ S
      rw [hz i hi]
      exact (h1 i hi).2.1
  have := h dt hdt hle x hrun N hN
  rw [hnorm, map_sub, hx N hN, hX] at this
  simpa [hx0] using this

/-! ### The time integrators -/

section Weak

variable {t dt theta : ℝ} {old new : V} {semi : Bool}

theorem lag_of_crank (hE : System E H W e) (ht : 0 ≤ t) (hdt : 0 < dt) (hte : t + dt ≤ tEnd) (ho : old ∈ H)
    (h : CrankAt E theta semi H S t dt old new) : WeakLag E (thetaTable theta) H W e S tEnd t dt old new := by
  obtain ⟨h1, h2, h3, h4⟩ := h
  have hn : (thetaTable theta).n = 2 := rfl
  have key : ∀ y ∈ H, e new y = e old y + dt * ((1 - theta) * (E t (t + dt)).res old old (W y) +
      theta * (E (t + dt) (t + dt)).res new (if semi then old else new) (W y)) := by
    intro y hy
    have := h4 (W y) (hE.maps y hy)
    rw [hE.mass, hE.mass] at this
    linarith
  refine ⟨fun i => if i = 0 then old else new, fun i => if i = 0 then old else if semi then old else new, fun _ => t + dt, h1,
    fun i hi => ?_, h3, fun y hy => ?_⟩
  · rw [hn] at hi
    obtain rfl | rfl : i = 0 ∨ i = 1 := by omega
    · refine ⟨ho, h1, Or.inl rfl, by linarith, hte, ?_, fun y hy => ?_⟩
      · simp [thetaTable, RK.mk, vec, abs_of_pos hdt]
      · rw [hn]
        simp [sum_range_succ, thetaTable, RK.mk]
    · refine ⟨h3, h2, ?_, by linarith, hte, ?_, fun y hy => ?_⟩
      · cases semi
        · exact Or.inr ⟨1, by rw [hn]; norm_num, rfl⟩
        · exact Or.inl rfl
      · simp [thetaTable, RK.mk, vec, hdt.le]
      · rw [hn]
        simp only [one_ne_zero, if_false]
        rw [key y hy]
        simp [sum_range_succ, thetaTable, RK.mk, vec]
  · rw [hn, key y hy]
    simp [sum_range_succ, thetaTable, RK.mk, vec]

theorem lag_of_euler (hE : System E H W e) (ht : 0 ≤ t) (hdt : 0 < dt) (hte : t + dt ≤ tEnd) (ho : old ∈ H)
    (h : EulerAt E H S t dt old new) : WeakLag E forwardEuler H W e S tEnd t dt old new := by
  obtain ⟨h1, h3, h4⟩ := h
  have hn : forwardEuler.n = 1 := rfl
  refine ⟨fun _ => old, fun _ => old, fun _ => t + dt, h1, fun i hi => ⟨ho, h1, Or.inl rfl, by linarith, hte, ?_, fun y hy => ?_⟩,
    h3, fun y hy => ?_⟩
  · rw [hn] at hi
    obtain rfl : i = 0 := by omega
    simp [forwardEuler, RK.mk, vec, abs_of_pos hdt]
  · rw [hn] at hi ⊢
    obtain rfl : i = 0 := by omega
    simp [forwardEuler, RK.mk]
  · have := h4 (W y) (hE.maps y hy)
    rw [hE.mass, hE.mass] at this
    rw [hn, this]
    simp [forwardEuler, RK.mk, vec]

theorem lag_of_uform (hE : System E H W e) (hT : T.Accepted) (hc : Nodes T) (hn : 0 < T.n)
    (hb : ∀ j < T.n, T.a (T.n - 1) j = T.b j) (hd : ∀ i < T.n - 1, T.a i i ≠ 0) (ht : 0 ≤ t) (hdt : 0 < dt) (hte : t + dt ≤ tEnd)
    (ho : old ∈ S) (h : UAt E T semi H S t dt old new) : WeakLag E T H W e S tEnd t dt old new := by
  obtain ⟨s, k, hs, hk, rfl⟩ := h
  have key : ∀ j < T.n - 1, ∀ y ∈ H, e (k j) y = (stageEqn E T t dt j).res (s j) (if semi then old else s j) (W y) := by
    intro j hj y hy
    have h1 := (hs j (by omega)).2.2 (W y) (hE.maps y hy)
    have h2 := (hk j hj).2 (W y) (hE.maps y hy)
    simp only [stageEqn, hE.inner, hE.mass] at h1 h2 ⊢
    have h3 : dt * T.a j j * (e (k j) y -
        (E (t + T.c j * dt) (t + T.c j * dt)).res (s j) (if semi then old else s j) (W y)) = 0 := by linarith
    have := (mul_eq_zero.1 h3).resolve_left (mul_ne_zero hdt.ne' (hd j hj))
    linarith
  have main : ∀ i < T.n, ∀ y ∈ H, e (s i) y = e old y + dt * ∑ j ∈ range T.n, T.a i j *
      (E (t + T.c j * dt) (t + T.c j * dt)).res (s j) (if semi then old else s j) (W y) := by
    intro i hi y hy
    have h1 := (hs i hi).2.2 (W y) (hE.maps y hy)
    simp only [stageEqn, hE.inner, hE.mass] at h1 ⊢
    have h2 : range (i + 1) ⊆ range T.n := range_subset_range.2 (by omega)
    rw [← sum_subset h2 (fun j hj hj' => by
      rw [mem_range] at hj hj'
      rw [hT.1 i hi j hj (by omega)]; ring), sum_range_succ, mul_add, mul_sum]
    have h3 : ∑ j ∈ range i, dt * T.a i j * e (k j) y = ∑ j ∈ range i, dt * (T.a i j *
        (E (t + T.c j * dt) (t + T.c j * dt)).res (s j) (if semi then old else s j) (W y)) := by
      refine sum_congr rfl fun j hj => ?_
      rw [key j (by rw [mem_range] at hj; omega) y hy, stageEqn]
      ring
    rw [h3] at h1
    linarith
  refine ⟨s, fun j => if semi then old else s j, fun j => t + T.c j * dt, ho, fun i hi => ?_, (hs _ (by omega)).1,
    fun y hy => ?_⟩
  · have := hc i hi
    refine ⟨(hs i hi).1, (hs i hi).2.1, ?_, by nlinarith, by nlinarith, by simp [hdt.le], main i hi⟩
    cases semi
    · exact Or.inr ⟨i, hi, rfl⟩
    · exact Or.inl rfl
  · rw [main _ (by omega) y hy]
    congr 2
    exact sum_congr rfl fun j hj => by rw [hb j (mem_range.1 hj)]

theorem lag_of_tendency (hE : System E H W e) (hT : T.Accepted) (hc : Nodes T) (ht : 0 ≤ t) (hdt : 0 < dt)
    (hte : t + dt ≤ tEnd) (ho : old ∈ H) (hS : old ∈ S) (h : TendencyAt E T semi H S t dt old new) :
    WeakLag E T H W e S tEnd t dt old new := by
  obtain ⟨k, hk, rfl⟩ := h
  have key : ∀ j < T.n, ∀ y ∈ H, e (k j) y =
      (E (t + T.c j * dt) (t + T.c j * dt)).res (stageValue T dt old k j) (stageLin T dt semi old k j) (W y) := by
    intro j hj y hy
    have := (hk j hj).2.2 (W y) (hE.maps y hy)
    rw [stageEqn, hE.inner] at this
    linarith
  have hlin : ∀ (a : ℕ → ℝ) (s : Finset ℕ) y, e (old + ∑ j ∈ s, a j • k j) y = e old y + ∑ j ∈ s, a j * e (k j) y := by
    intro a s y
    have h := hE.energy.lin.1 y
    exact (h.1 _ _).trans (congrArg _ ((h.map_sum s fun j => a j • k j).trans (sum_congr rfl fun j _ => h.2 _ _)))
  refine ⟨stageValue T dt old k, stageLin T dt semi old k, fun j => t + T.c j * dt, hS, fun i hi => ?_, ?_, fun y hy => ?_⟩
  · have := hc i hi
    refine ⟨?_, (hk i hi).2.1, ?_, by nlinarith, by nlinarith, by simp [hdt.le], fun y hy => ?_⟩
    · exact H.add_mem ho (H.sum_mem fun j hj => H.smul_mem _ (hk j (by rw [mem_range] at hj; omega)).1)
    · rw [stageLin]
      split
      · exact Or.inl rfl
      · split
        · exact Or.inl rfl
        · exact Or.inr ⟨i - 1, by omega, rfl⟩
    · conv_lhs => rw [stageValue]
      rw [hlin, mul_sum]
      congr 1
      have h1 : range (i + 1) ⊆ range T.n := range_subset_range.2 (by omega)
      rw [← sum_subset h1 (fun j hj hj' => by
        rw [mem_range] at hj hj'
        rw [hT.1 i hi j hj (by omega)]; ring)]
      refine sum_congr rfl fun j hj => ?_
      rw [key j (by rw [mem_range] at hj; omega) y hy]
      ring
  · exact H.add_mem ho (H.sum_mem fun j hj => H.smul_mem _ (hk j (mem_range.1 hj)).1)
  · rw [hlin, mul_sum]
    congr 1
    refine sum_congr rfl fun j hj => ?_
    rw [key j (mem_range.1 hj) y hy]
    ring

end Weak

/-- C129: `CrankNicolson` converges with order one for any boundary conditions, with any parameter, and with coefficients
from the old solution too. -/
theorem C129_crank_first (hE : System E H W e) (semi : Bool) (theta : ℝ) (hU : Solution E H W e S 2 L tEnd U)
    (hG : Lag E H W e S K B tEnd) : Converges e (CrankAt E theta semi H S) tEnd U fun dt => dt := by
  obtain ⟨hT, -, hc⟩ := theta_order theta
  exact C129_weak_lagged hE hU hG hT.1 hc hT.2.1 fun t dt old new h0 h1 h2 ho h => lag_of_crank hE h0 h2 h1 ho h

/-- C129: `ForwardEuler` converges with order one for any boundary conditions. -/
theorem C129_euler_first (hE : System E H W e) (hU : Solution E H W e S 2 L tEnd U)
    (hG : Lag E H W e S K B tEnd) : Converges e (EulerAt E H S) tEnd U fun dt => dt :=
  C129_weak_lagged hE hU hG C21_forwardEuler.1 C129_nodes.1 C21_forwardEuler.2.1 fun _ _ _ _ h0 h1 h2 ho h =>
    lag_of_euler hE h0 h2 h1 ho h

/-- C129: the schemes of `DIRKGenericUForm` converge with order one with coefficients from the old solution. -/
theorem C129_uform_first (hE : System E H W e) (semi : Bool) (hU : Solution E H W e S 2 L tEnd U)
    (hG : Lag E H W e S K B tEnd) :
    ∀ T ∈ [backwardEuler, dirk22, dirk33],
      Converges e (fun t dt old new => old ∈ S ∧ UAt E T semi H S t dt old new) tEnd U fun dt => dt := by
  intro T hT
  simp only [List.mem_cons, List.not_mem_nil, or_false] at hT
  obtain ⟨-, n1, -, -, n2, -, n3, -⟩ := C129_nodes
  have h33 := C21_dirk33_partial.1
  rcases hT with rfl | rfl | rfl
  · refine C129_weak_lagged hE hU hG C21_backwardEuler.1 n1 C21_backwardEuler.2.1 fun t dt old new h0 h1 h2 ho h =>
      lag_of_uform hE C21_backwardEuler.1 n1 (by decide) (fun j hj => ?_) (fun i hi => ?_) h0 h2 h1 h.1 h.2
    · obtain rfl : j = 0 := by change j < 1 at hj; omega
      norm_num [backwardEuler, RK.mk, vec]
    · change i < 0 at hi
      omega
  · refine C129_weak_lagged hE hU hG C21_dirk22.1 n2 C21_dirk22.2.1 fun t dt old new h0 h1 h2 ho h =>
      lag_of_uform hE C21_dirk22.1 n2 (by decide) (fun j hj => ?_) (fun i hi => ?_) h0 h2 h1 h.1 h.2
    · obtain rfl | rfl : j = 0 ∨ j = 1 := by change j < 2 at hj; omega
      all_goals norm_num [dirk22, RK.mk, vec]
    · obtain rfl : i = 0 := by change i < 1 at hi; omega
      have : Real.sqrt 2 < 2 := by rw [Real.sqrt_lt' (by norm_num)]; norm_num
      have : γ22 ≠ 0 := by rw [γ22]; intro h; linarith
      simpa [dirk22, RK.mk] using this
  · refine C129_weak_lagged hE hU hG h33.1 n3 h33.2.1 fun t dt old new h0 h1 h2 ho h =>
      lag_of_uform hE h33.1 n3 (by decide) (fun j hj => ?_) (fun i hi => ?_) h0 h2 h1 h.1 h.2
    · obtain rfl | rfl | rfl : j = 0 ∨ j = 1 ∨ j = 2 := by change j < 3 at hj; omega
      all_goals norm_num [dirk33, RK.mk, vec]
    · obtain rfl | rfl : i = 0 ∨ i = 1 := by change i < 2 at hi; omega
      all_goals norm_num [dirk33, RK.mk, γ33]

/-- C129: the schemes of `DIRKGeneric` converge with order one when coefficients are taken from the solution. -/
theorem C129_tendency_first (hE : System E H W e) (semi : Bool) (hU : Solution E H W e S 2 L tEnd U)
    (hG : Lag E H W e S K B tEnd) (hT : HasOrder T 1) (hc : Nodes T) :
    Converges e (fun t dt old new => old ∈ S ∧ TendencyAt E T semi H S t dt old new) tEnd U fun dt => dt :=
  C129_weak_lagged hE hU hG hT.1 hc hT.2.1 fun _ _ _ _ h0 h1 h2 ho h => lag_of_tendency hE hT.1 hc h0 h2 h1 ho h.1 h.2

end Verif.Converge
