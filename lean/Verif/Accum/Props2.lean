import Verif.Accum.Props
import Verif.Explicit.Props2

/-!
C148: waves and tracers.
-/

namespace Verif.Accum

open Finset Verif.Dg Verif.Contract Verif.Explicit Verif.Linear

variable {m : Mesh 2}

/-! ### Waves -/

section Waves

variable {T : Swe.Term m} {Hu : Submodule ℝ (Vc m)} {He : Submodule ℝ (Sc m)} {H : ℝ}

/-- The coefficients without wind, atmospheric pressure and sources. -/
def unforced (K : Swe.Coeffs m) : Swe.Coeffs m := { K with wind := none, pressure := none, source := none, volume := none }

/-- The distance of two states: the square root of `H ∫ |u - u'|² + g ∫ (eta - eta')²`. -/
noncomputable def dist (g H : ℝ) (x y : State m) : ℝ := Real.sqrt (waveEnergy g H (x - y))

theorem one_sc (f : Sc m) : sc 1 (-1) f f = 0 := by
  funext x
  apply Jet.ext
  · simp [sc]
  · funext i; simp [sc]

theorem one_vc (f : Vc m) : vc 1 (-1) f f = 0 := by
  funext i
  exact one_sc (f i)

/-- A closed basin with any wind, pressure and sources, and linear friction. -/
structure Driven (T : Swe.Term m) (K : Swe.Coeffs m) (Hu : Submodule ℝ (Vc m)) (He : Submodule ℝ (Sc m)) (H : ℝ) : Prop where
  basin : Basin T (unforced K) (fun _ => none) Hu He H
  cd : K.cd = none
  farms : K.farms = []

theorem Driven.noDrag {K : Swe.Coeffs m} (D : Driven T K Hu He H) : NoDrag (unforced K) fun _ => none :=
  ⟨D.cd, D.farms, fun _ => rfl⟩

theorem Driven.super {K : Swe.Coeffs m} (D : Driven T K Hu He H) :
    Super 1 (-1) (swe T K fun _ => none) (swe T K fun _ => none) (swe T (unforced K) fun _ => none) := by
  obtain ⟨l1, l2, l3⟩ := D.basin.linear
  have hc : Coeffs3 1 (-1) K K (unforced K) :=
    { wind := (one_vc _).symm
      pressure := (one_sc _).symm
      source := (one_vc _).symm
      volume := (one_sc _).symm
      nu₁ := rfl
      nu₂ := rfl
      coriolis₁ := rfl
      coriolis₂ := rfl
      linear₁ := rfl
      linear₂ := rfl
      cd := ⟨D.cd, D.cd, D.cd⟩
      bottomDrag := ⟨D.basin.free.2.2.2.2, D.basin.free.2.2.2.2, D.basin.free.2.2.2.2⟩
      farms := ⟨D.farms, D.farms, D.farms⟩ }
  have hd : Dicts3 (m := m) 1 (-1) (fun _ => none) (fun _ => none) fun _ => none := fun _ => trivial
  exact C143_swe ⟨l1, l2, l3⟩ hc hd

theorem Driven.free {K Ko : Swe.Coeffs m} (D : Driven T K Hu He H) (Do : Driven T Ko Hu He H) (h : unforced Ko = unforced K) :
    Free (swe T K fun _ => none) (swe T Ko fun _ => none) (swe T (unforced K) fun _ => none) (Hu.prod He) (weight T.g H) where
  super := D.super
  superOld := h ▸ Do.super
  energy := D.basin.hasEnergy
  linear := D.basin.linear'
  passive := D.basin.passive
  fixed := by
    rcases D.basin.fixed false (Or.inr D.noDrag) with h | h
    · cases h
    · exact h

theorem Driven.dist {K : Swe.Coeffs m} (D : Driven T K Hu He H) (x y : State m) :
    size (swe T (unforced K) fun _ => none) (weight T.g H) (x - y) = dist T.g H x y := by
  unfold size Accum.dist
  rw [D.basin.energy]

/-- C148: waves in a closed basin, driven by any wind, pressure and sources that change in time.  Two runs that differ in
the initial state, and where the solver of the second one leaves the residuals `tol`, are never farther apart than at the
start plus the sum of the residuals: for any time steps and any number of steps. -/
theorem C148_waves (K : ℕ → Swe.Coeffs m) (D : ∀ n, Driven T (K n) Hu He H) (hK : ∀ n, unforced (K n) = unforced (K 0))
    (dt theta tol : ℕ → ℝ) (semi : Bool) (hdt : ∀ n, 0 ≤ dt n) (ht : ∀ n, 1 / 2 ≤ theta n) (ht1 : ∀ n, theta n ≤ 1)
    (htol : ∀ n, 0 ≤ tol n) (u v : ℕ → State m) (hu0 : u 0 ∈ Hu.prod He) (hv0 : v 0 ∈ Hu.prod He)
    (hu : ∀ n, ThetaStep (swe T (K (n + 1)) fun _ => none) (swe T (K n) fun _ => none) (dt n) (theta n) semi (Hu.prod He) (u n)
      (u (n + 1)))
    (hv : ∀ n, InexactTheta (swe T (K (n + 1)) fun _ => none) (swe T (K n) fun _ => none) (swe T (unforced (K 0)) fun _ => none)
      (weight T.g H) (dt n) (theta n) semi (Hu.prod He) (tol n) (v n) (v (n + 1))) (n : ℕ) :
    dist T.g H (v n) (u n) ≤ dist T.g H (v 0) (u 0) + ∑ i ∈ range n, tol i := by
  rw [← (D 0).dist, ← (D 0).dist]
  refine C148_theta_run (fun n => swe T (K n) fun _ => none) (fun n => ?_) dt theta tol hdt ht ht1 htol u v hu0 hv0 hu hv n
  rw [← hK (n + 1)]
  exact (D (n + 1)).free (D n) ((hK n).trans (hK (n + 1)).symm)

/-- C148: so they never move apart if both are solved exactly. -/
theorem C148_waves_apart (K : ℕ → Swe.Coeffs m) (D : ∀ n, Driven T (K n) Hu He H) (hK : ∀ n, unforced (K n) = unforced (K 0))
    (dt theta : ℕ → ℝ) (semi : Bool) (hdt : ∀ n, 0 ≤ dt n) (ht : ∀ n, 1 / 2 ≤ theta n) (ht1 : ∀ n, theta n ≤ 1)
    (u v : ℕ → State m) (hu0 : u 0 ∈ Hu.prod He) (hv0 : v 0 ∈ Hu.prod He)
    (hu : ∀ n, ThetaStep (swe T (K (n + 1)) fun _ => none) (swe T (K n) fun _ => none) (dt n) (theta n) semi (Hu.prod He) (u n)
      (u (n + 1)))
    (hv : ∀ n, ThetaStep (swe T (K (n + 1)) fun _ => none) (swe T (K n) fun _ => none) (dt n) (theta n) semi (Hu.prod He) (v n)
      (v (n + 1))) (n : ℕ) : dist T.g H (v n) (u n) ≤ dist T.g H (v 0) (u 0) := by
  have := C148_waves K D hK dt theta (fun _ => 0) semi hdt ht ht1 (fun _ => le_rfl) u v hu0 hv0 hu
    (fun n => ThetaStep.inexact (D 0).basin.hasEnergy.maps (hv n)) n
  simpa using this

/-- Coefficients with an additional source of momentum and volume. -/
def disturbed (K : Swe.Coeffs m) (s : Vc m) (q : Sc m) : Swe.Coeffs m :=
  { K with source := some (vcOr K.source + s), volume := some (scOr K.volume + q) }

/-- The effect of sources on the equations. -/
theorem source_diff {K : Swe.Coeffs m} (D : Driven T K Hu He H) (s : Vc m) (q : Sc m) (x v y : State m) :
    (swe T (disturbed K s q) fun _ => none).res x v
      (weight T.g H y) - (swe T K fun _ => none).res x v (weight T.g H y) =
        (swe T (unforced K) fun _ => none).mass (s, q) (weight T.g H y) := by
  have h1 : Swe.momentumSource (some (vcOr K.source + s)) (weight T.g H y).1 - Swe.momentumSource K.source (weight T.g H y).1 =
      ∑ i, ip (s i) ((weight T.g H y).1 i) := by
    rw [momentumSource_or, momentumSource_or]
    simp only [ip, Mesh.dx, ← sum_sub_distrib, ← mul_sub]
    rw [sum_comm]
    refine sum_congr rfl fun c _ => ?_
    rw [← mul_sum]
    congr 1
    refine sum_congr rfl fun i _ => ?_
    simp only [vcOr, Pi.add_apply, Jet.add_v]
    ring
  have h2 : Swe.volumeSource (some (scOr K.volume + q)) (weight T.g H y).2 - Swe.volumeSource K.volume (weight T.g H y).2 =
      ip q (weight T.g H y).2 := by
    rw [volumeSource_or, volumeSource_or]
    simp only [ip, Mesh.dx, ← sum_sub_distrib, ← mul_sub]
    refine sum_congr rfl fun c _ => ?_
    congr 1
    simp only [scOr, Pi.add_apply, Jet.add_v]
    ring
  rw [swe_mass T _ _ D.basin.linear.2.2]
  unfold ipState
  rw [← h1, ← h2]
  simp only [swe, Swe.momentum, Swe.continuity, disturbed]
  ring

/-- C148: if the sources of momentum and volume of the second run are off by `s` and `q`, the runs move apart no faster
than at the rate given by the size of `s` and `q`. -/
theorem C148_sources (K : ℕ → Swe.Coeffs m) (D : ∀ n, Driven T (K n) Hu He H) (hK : ∀ n, unforced (K n) = unforced (K 0))
    (s : ℕ → Vc m) (q : ℕ → Sc m) (d : ℝ) (hd : ∀ n, waveEnergy T.g H (s n, q n) ≤ d ^ 2) (hd0 : 0 ≤ d)
    (dt theta : ℕ → ℝ) (semi : Bool) (hdt : ∀ n, 0 ≤ dt n) (ht : ∀ n, 1 / 2 ≤ theta n) (ht1 : ∀ n, theta n ≤ 1)
    (u v : ℕ → State m) (hu0 : u 0 ∈ Hu.prod He) (hv0 : v 0 ∈ Hu.prod He)
    (hu : ∀ n, ThetaStep (swe T (K (n + 1)) fun _ => none) (swe T (K n) fun _ => none) (dt n) (theta n) semi (Hu.prod He) (u n)
      (u (n + 1)))
    (hv : ∀ n, ThetaStep
      (swe T (disturbed (K (n + 1)) (s (n + 1)) (q (n + 1))) fun _ => none)
      (swe T (disturbed (K n) (s n) (q n)) fun _ => none)
      (dt n) (theta n) semi (Hu.prod He) (v n) (v (n + 1))) (n : ℕ) :
    dist T.g H (v n) (u n) ≤ dist T.g H (v 0) (u 0) + (∑ i ∈ range n, dt i) * d := by
  have he := (D 0).basin.hasEnergy
  have hb : ∀ k, ∀ x v : State m, ∀ y ∈ Hu.prod He,
      |(swe T (disturbed (K k) (s k) (q k)) fun _ => none).res x v
        (weight T.g H y) - (swe T (K k) fun _ => none).res x v (weight T.g H y)| ≤
          d * size (swe T (unforced (K 0)) fun _ => none) (weight T.g H) y := fun k x v y _ => by
    rw [source_diff (D k), hK k]
    refine (cauchy he.energy _ _).trans (mul_le_mul_of_nonneg_right ?_ (size_nonneg _))
    unfold size
    rw [(D 0).basin.energy]
    exact Real.sqrt_le_iff.2 ⟨hd0, hd k⟩
  have hm : ∀ k (x w : State m), (swe T (disturbed (K k) (s k) (q k)) fun _ => none).mass x w = (swe T (K k) fun _ => none).mass x w :=
    fun _ _ _ => rfl
  rw [sum_mul]
  exact C148_waves K D hK dt theta (fun n => dt n * d) semi hdt ht ht1 (fun n => mul_nonneg (hdt n) hd0) u v hu0 hv0 hu
    (fun n => C148_forcing (hdt n) (by linarith [ht n]) (ht1 n) he.maps (hm (n + 1)) (hb (n + 1)) (hb n) (hv n)) n

/-- C148: with `SSPRK33` and a CFL number of at most one, where the mass matrix is not inverted exactly. -/
theorem C148_waves_ssprk33 [FiniteDimensional ℝ (Hu.prod He)] (K : ℕ → Swe.Coeffs m) (D : ∀ n, Driven T (K n) Hu He H)
    (hK : ∀ n, unforced (K n) = unforced (K 0))
    (hdef : ∀ x ∈ Hu.prod He, (∀ c, (∀ i, (x.1 i (.cell c)).v = 0) ∧ (x.2 (.cell c)).v = 0) → x = 0) (hw : ∀ c, 0 < m.wC c)
    (dt tol : ℕ → ℝ) (hdt : ∀ n, 0 ≤ dt n) (htol : ∀ n, 0 ≤ tol n)
    (hc : ∀ n, Limit (swe T (unforced (K 0)) fun _ => none) (dt n) (Hu.prod He) (weight T.g H) 1) (u v : ℕ → State m)
    (hu0 : ∀ n, u n ∈ Hu.prod He) (hv0 : ∀ n, v n ∈ Hu.prod He)
    (hu : ∀ n, Ssprk33Step (swe T (K n) fun _ => none) (dt n) (Hu.prod He) (u n) (u (n + 1)))
    (hv : ∀ n, InexactSsprk33 (swe T (K n) fun _ => none) (swe T (unforced (K 0)) fun _ => none) (weight T.g H) (dt n) (Hu.prod He)
      (tol n) (v n) (v (n + 1))) (n : ℕ) :
    dist T.g H (v n) (u n) ≤ dist T.g H (v 0) (u 0) + 5 / 3 * ∑ i ∈ range n, tol i := by
  rw [← (D 0).dist, ← (D 0).dist]
  induction n with
  | zero => simp
  | succ n ih =>
    have B := (D 0).basin
    have h := C148_ssprk33 (hK n ▸ (D n).super) B.hasEnergy (Explicit.Basin.linearEqn B (D 0).noDrag) (fun x hx => B.passive x x hx)
      (fun x hx h0 => hdef x hx (Explicit.Basin.definite B hw x h0)) B.onto (hdt n) (hc n) (htol n) (hu0 n) (hv0 n) (hu n) (hv n)
    rw [sum_range_succ]
    linarith

end Waves

/-! ### Tracers -/

section Tracers

variable {T : Tracer2.Term m} {F : Tracer2.Flow m} {mu : Option (Sc m)} {bc0 bc : ℕ → Option (Tracer2.BFuncs m)} {H : Submodule ℝ (Sc m)}

/-- The distance of two tracers in the mean square. -/
noncomputable def rms (c c' : Sc m) : ℝ := Real.sqrt (m.dx fun x => ((c (.cell x)).v - (c' (.cell x)).v) ^ 2)

theorem rms_eq (c c' : Sc m) : size (tracer2 T F mu bc0) id (c - c') = rms c c' := by
  unfold size rms
  congr 1
  exact dx_congr fun x => by simp only [Pi.sub_apply, id, Jet.sub_v]; ring

/-- With sources, and fluxes through the boundary. -/
theorem tracer_super (hb : Bnds2 1 (-1) bc bc bc0) (s : Option (Sc m)) :
    Super 1 (-1) (tracerEqn T F mu s id bc) (tracerEqn T F mu s id bc) (tracer2 T F mu bc0) := by
  have := (C143_tracer2 T F mu s s none id (one_sc _).symm hb).1
  refine ⟨this.mass, this.inner, fun u u' v v' w => ?_⟩
  rw [← this.res u u' v v' w]
  simp [tracerEqn, tracer2, Tracer2.source]

theorem tracer_free (C : Carried T F mu bc0 H) (hb : Bnds2 1 (-1) bc bc bc0) {bco : ℕ → Option (Tracer2.BFuncs m)}
    (hbo : Bnds2 1 (-1) bco bco bc0) (s so : Option (Sc m)) :
    Free (tracerEqn T F mu s id bc) (tracerEqn T F mu so id bco) (tracer2 T F mu bc0) H id :=
  ⟨tracer_super hb s, tracer_super hbo so, C.hasEnergy, C.linear, C.passive, fun _ _ _ _ => rfl⟩

/-- C148: tracers in a steady flow, with sources and boundary values that change in time: the mean square of the
difference of two runs is never larger than at the start plus the sum of the residuals. -/
theorem C148_tracer (C : Carried T F mu bc0 H) (bc : ℕ → ℕ → Option (Tracer2.BFuncs m)) (hb : ∀ n, Bnds2 1 (-1) (bc n) (bc n) bc0)
    (s : ℕ → Option (Sc m)) (dt theta tol : ℕ → ℝ) (semi : Bool) (hdt : ∀ n, 0 ≤ dt n) (ht : ∀ n, 1 / 2 ≤ theta n)
    (ht1 : ∀ n, theta n ≤ 1) (htol : ∀ n, 0 ≤ tol n) (u v : ℕ → Sc m) (hu0 : u 0 ∈ H) (hv0 : v 0 ∈ H)
    (hu : ∀ n, ThetaStep (tracerEqn T F mu (s (n + 1)) id (bc (n + 1))) (tracerEqn T F mu (s n) id (bc n)) (dt n) (theta n) semi H
      (u n) (u (n + 1)))
    (hv : ∀ n, InexactTheta (tracerEqn T F mu (s (n + 1)) id (bc (n + 1))) (tracerEqn T F mu (s n) id (bc n)) (tracer2 T F mu bc0) id
      (dt n) (theta n) semi H (tol n) (v n) (v (n + 1))) (n : ℕ) :
    rms (v n) (u n) ≤ rms (v 0) (u 0) + ∑ i ∈ range n, tol i := by
  rw [← rms_eq (T := T) (F := F) (mu := mu) (bc0 := bc0), ← rms_eq (T := T) (F := F) (mu := mu) (bc0 := bc0)]
  exact C148_theta_run (fun n => tracerEqn T F mu (s n) id (bc n)) (fun n => tracer_free C (hb (n + 1)) (hb n) _ _) dt theta tol hdt
    ht ht1 htol u v hu0 hv0 hu hv n

/-- C148: an error `e` of the source moves the tracer no faster than at the rate of its mean square. -/
theorem C148_tracer_source (C : Carried T F mu bc0 H) (bc : ℕ → ℕ → Option (Tracer2.BFuncs m))
    (hb : ∀ n, Bnds2 1 (-1) (bc n) (bc n) bc0) (s s' : ℕ → Sc m) (d : ℝ) (hd : ∀ n, rms (s' n) (s n) ≤ d)
    (dt theta : ℕ → ℝ) (semi : Bool) (hdt : ∀ n, 0 ≤ dt n) (ht : ∀ n, 1 / 2 ≤ theta n)
    (ht1 : ∀ n, theta n ≤ 1) (u v : ℕ → Sc m) (hu0 : u 0 ∈ H) (hv0 : v 0 ∈ H)
    (hu : ∀ n, ThetaStep (tracerEqn T F mu (some (s (n + 1))) id (bc (n + 1))) (tracerEqn T F mu (some (s n)) id (bc n)) (dt n)
      (theta n) semi H (u n) (u (n + 1)))
    (hv : ∀ n, ThetaStep (tracerEqn T F mu (some (s' (n + 1))) id (bc (n + 1))) (tracerEqn T F mu (some (s' n)) id (bc n)) (dt n)
      (theta n) semi H (v n) (v (n + 1))) (n : ℕ) :
    rms (v n) (u n) ≤ rms (v 0) (u 0) + (∑ i ∈ range n, dt i) * d := by
  have hd0 : 0 ≤ d := (Real.sqrt_nonneg _).trans (hd 0)
  have hs : ∀ k, ∀ x v : Sc m, ∀ y ∈ H, |(tracerEqn T F mu (some (s' k)) id (bc k)).res x v (id y) -
      (tracerEqn T F mu (some (s k)) id (bc k)).res x v (id y)| ≤ d * size (tracer2 T F mu bc0) id y := fun k x v y _ => by
    have : (tracerEqn T F mu (some (s' k)) id (bc k)).res x v (id y) - (tracerEqn T F mu (some (s k)) id (bc k)).res x v (id y) =
        (tracer2 T F mu bc0).mass (s' k - s k) (id y) := by
      simp only [tracerEqn, tracer2, source_or, scOr, id, ip]
      have h : ∀ a b c e : ℝ, a + b + c - (a + b + e) = c - e := fun _ _ _ _ => by ring
      rw [h]
      simp only [Mesh.dx, ← sum_sub_distrib, Pi.sub_apply, Jet.sub_v]
      exact sum_congr rfl fun _ _ => by ring
    rw [this]
    refine (cauchy C.hasEnergy.energy _ _).trans (mul_le_mul_of_nonneg_right ?_ (size_nonneg _))
    rw [rms_eq]
    exact hd k
  have hm : ∀ k (x w : Sc m), (tracerEqn T F mu (some (s' k)) id (bc k)).mass x w = (tracerEqn T F mu (some (s k)) id (bc k)).mass x w :=
    fun _ _ _ => rfl
  rw [sum_mul]
  exact C148_tracer C bc hb (fun n => some (s n)) dt theta (fun n => dt n * d) semi hdt ht ht1 (fun n => mul_nonneg (hdt n) hd0) u v
    hu0 hv0 hu (fun n => C148_forcing (hdt n) (by linarith [ht n]) (ht1 n) C.hasEnergy.maps (hm (n + 1)) (hs (n + 1)) (hs n)
      (hv n)) n

end Tracers

/-! ### Examples -/

/-- Wind over the square, with rotation and linear friction. -/
noncomputable def breeze (t : Vc square) : Swe.Coeffs square := { calm with wind := some t }

theorem breeze_driven (t : Vc square) : Driven Swe.exTerm (breeze t) (Submodule.pi Set.univ fun _ => linears) linears 10 :=
  ⟨calm_basin, rfl, rfl⟩

/-- The hypotheses hold for waves under any wind. -/
example (t : ℕ → Vc square) (dt : ℝ) (hdt : 0 ≤ dt) (u v : ℕ → State square)
    (hu0 : u 0 ∈ (Submodule.pi Set.univ fun _ => linears).prod linears)
    (hv0 : v 0 ∈ (Submodule.pi Set.univ fun _ => linears).prod linears)
    (hu : ∀ n, ThetaStep (swe Swe.exTerm (breeze (t (n + 1))) fun _ => none) (swe Swe.exTerm (breeze (t n)) fun _ => none) dt (1 / 2)
      true ((Submodule.pi Set.univ fun _ => linears).prod linears) (u n) (u (n + 1)))
    (hv : ∀ n, ThetaStep (swe Swe.exTerm (breeze (t (n + 1))) fun _ => none) (swe Swe.exTerm (breeze (t n)) fun _ => none) dt (1 / 2)
      true ((Submodule.pi Set.univ fun _ => linears).prod linears) (v n) (v (n + 1))) (n : ℕ) :
    dist 10 10 (v n) (u n) ≤ dist 10 10 (v 0) (u 0) :=
  C148_waves_apart (fun n => breeze (t n)) (fun n => breeze_driven (t n)) (fun _ => rfl) (fun _ => dt) (fun _ => 1 / 2) true
    (fun _ => hdt) (fun _ => le_rfl) (fun _ => by norm_num) u v hu0 hv0 hu hv n

/-- The hypotheses hold for diffusion of linear functions between triangles of different diffusivity. -/
example (s s' : ℕ → Sc square) (hd : ∀ n, rms (s' n) (s n) ≤ 1) (dt : ℝ) (hdt : 0 ≤ dt) (u v : ℕ → Sc square) (hu0 : u 0 ∈ linears)
    (hv0 : v 0 ∈ linears)
    (hu : ∀ n, ThetaStep (tracerEqn Tracer2.exTerm { Tracer2.exFlow with uv := some fun _ => cst square 0 }
      (some (squareField ⟨1, 0, 0, 0, 0, 0⟩ ⟨5, 0, 0, 0, 0, 0⟩)) (some (s (n + 1))) id fun _ => none)
      (tracerEqn Tracer2.exTerm { Tracer2.exFlow with uv := some fun _ => cst square 0 }
      (some (squareField ⟨1, 0, 0, 0, 0, 0⟩ ⟨5, 0, 0, 0, 0, 0⟩)) (some (s n)) id fun _ => none) dt 1 true linears (u n) (u (n + 1)))
    (hv : ∀ n, ThetaStep (tracerEqn Tracer2.exTerm { Tracer2.exFlow with uv := some fun _ => cst square 0 }
      (some (squareField ⟨1, 0, 0, 0, 0, 0⟩ ⟨5, 0, 0, 0, 0, 0⟩)) (some (s' (n + 1))) id fun _ => none)
      (tracerEqn Tracer2.exTerm { Tracer2.exFlow with uv := some fun _ => cst square 0 }
      (some (squareField ⟨1, 0, 0, 0, 0, 0⟩ ⟨5, 0, 0, 0, 0, 0⟩)) (some (s' n)) id fun _ => none) dt 1 true linears (v n) (v (n + 1)))
    (n : ℕ) : rms (v n) (u n) ≤ rms (v 0) (u 0) + (∑ _i ∈ range n, dt) * 1 :=
  C148_tracer_source exCarried (fun _ _ => none) (fun _ _ => trivial) s s' 1 hd (fun _ => dt) (fun _ => 1) true (fun _ => hdt)
    (fun _ => by norm_num) (fun _ => le_rfl) u v hu0 hv0 hu hv n

end Verif.Accum
