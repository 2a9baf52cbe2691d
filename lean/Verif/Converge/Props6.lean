import Verif.Converge.Props5

/-!
C129: `CrankNicolson` with boundary values that change with time, and with the semi-implicit linearization.
-/

namespace Verif.Converge

open Finset Verif.Contract Verif.Explicit Verif.Dg RK

/-! ### Boundary values that change with time -/

section Boundary

variable {m : Mesh 2}

/-- All boundaries have the diffusive flux `q`. -/
def drip (q : m.B → ℝ) : ℕ → Option (Tracer2.BFuncs m) := fun _ => some { diffFlux := some q }

/-- The flux through all boundaries. -/
def inflow (m : Mesh 2) (q : m.B → ℝ) : ℝ := ∑ b, m.wB b * q b

theorem res_constant (T : Tracer2.Term m) (F : Tracer2.Flow m) (mu : Sc m) (hF : F.uv = none) (hm : m.Flat) (q : m.B → ℝ) (c v : Sc m) :
    (tracer2 T F (some mu) (drip q)).res c v (cst m 1) = inflow m q := by
  have hj : ∀ s i, jumpN (cst m 1) s i = 0 := fun s i => by simp [jumpN, cst, Jet.const, hm s i]
  have hg : ∀ s i, Tracer2.avgFlux mu (cst m 1) s i = 0 := fun s i => by simp [Tracer2.avgFlux, cst, Jet.const]
  simp only [tracer2, Tracer2.advection, hF, Tracer2.diffusion, hj, hg, bndLoop_eq, Tracer2.diffBndFlux, drip, inflow, cst, Jet.const]
  simp [Mesh.dx, Mesh.dS]

/-- C129: with `CrankNicolson` the total of a tracer grows by the flux through the boundary at the end of each step, for any
weight `theta`. -/
theorem C129_boundary_total (T : Tracer2.Term m) (F : Tracer2.Flow m) (mu : Sc m) (hF : F.uv = none) (hm : m.Flat) (q : ℝ → m.B → ℝ)
    (H : Submodule ℝ (Sc m)) (h1 : cst m 1 ∈ H) (theta : ℝ) (semi : Bool) (S : Set (Sc m)) (tEnd dt : ℝ) (u : ℕ → Sc m)
    (h : Steps (CrankAt (fun _ r => tracer2 T F (some mu) (drip (q r))) theta semi H S) tEnd dt u) (n : ℕ) (hn : n * dt ≤ tEnd)
    (hdt : 0 ≤ dt) :
    m.dx (fun x => (u n (.cell x)).v) = m.dx (fun x => (u 0 (.cell x)).v) + dt * ∑ k ∈ range n, inflow m (q ((k + 1) * dt)) := by
  have hi : ∀ c : Sc m, ip c (cst m 1) = m.dx fun x => (c (.cell x)).v := fun c => by simp [ip, cst, Jet.const]
  induction n with
  | zero => simp
  | succ n ih =>
    push_cast at hn
    have hs := (h n hn).2.2.2 _ h1
    rw [res_constant T F mu hF hm, res_constant T F mu hF hm] at hs
    change ip _ _ - ip _ _ - _ = 0 at hs
    rw [hi, hi, ih (by nlinarith)] at hs
    rw [sum_range_succ, show ((n : ℝ) + 1) * dt = n * dt + dt by ring]
    linarith

end Boundary

theorem jet_add (a b x y : ℝ) : (⟨a + b, 0, 0, 0, 0, 0⟩ : Quad).jet x y =
    (⟨a, 0, 0, 0, 0, 0⟩ : Quad).jet x y + (⟨b, 0, 0, 0, 0, 0⟩ : Quad).jet x y := by
  apply Jet.ext
  · simp [Quad.jet]
  · funext i; fin_cases i <;> simp [Quad.jet]

theorem jet_smul (a b x y : ℝ) : (⟨a * b, 0, 0, 0, 0, 0⟩ : Quad).jet x y = a • (⟨b, 0, 0, 0, 0, 0⟩ : Quad).jet x y := by
  apply Jet.ext
  · change _ = a * _
    simp [Quad.jet]
  · funext i
    change _ = a * _
    fin_cases i <;> simp [Quad.jet]

/-- Functions that are constant on each triangle. -/
noncomputable def block : ℝ × ℝ →ₗ[ℝ] Sc square where
  toFun p := squareField ⟨p.1, 0, 0, 0, 0, 0⟩ ⟨p.2, 0, 0, 0, 0, 0⟩
  map_add' p q := by
    funext x
    rcases x with x | x | x | x <;> cases x <;> exact jet_add _ _ _ _
  map_smul' a p := by
    funext x
    rcases x with x | x | x | x <;> cases x <;> exact jet_smul _ _ _ _

/-- Their space. -/
noncomputable def blocks : Submodule ℝ (Sc square) := LinearMap.range block

theorem block_cst (a : ℝ) : block (a, a) = cst square a := (squareField_cst a).symm

theorem ip_block (p q : ℝ × ℝ) : ip (block p) (block q) = (p.1 * q.1 + p.2 * q.2) / 2 := by
  have := sum_sqC fun c => (1 / 6 : ℝ) * ((block p (.cell c)).v * (block q (.cell c)).v)
  change (∑ c : SqC, (1 / 6 : ℝ) * ((block p (.cell c)).v * (block q (.cell c)).v)) = _
  rw [this]
  simp [block, squareField, Quad.jet]
  ring

/-- Diffusion in the square with a flux through the boundary that grows with time. -/
noncomputable def dripping : ℝ → ℝ → Eqn (Sc square) := fun _ r =>
  tracer2 Tracer2.exTerm { Tracer2.exFlow with uv := none } (some (cst square 1)) (drip fun _ => r / 2)

theorem jumpN_block (p : ℝ × ℝ) (s : SqS) (i : Fin 2) : jumpN (m := square) (block p) s i = (p.1 - p.2) / Real.sqrt 2 := by
  change (block p (.plus s)).v * (1 / Real.sqrt 2) + (block p (.minus s)).v * -(1 / Real.sqrt 2) = _
  cases s <;> simp [block, squareField, Quad.jet] <;> ring

theorem grad_block (p : ℝ × ℝ) (x : Pt square) (i : Fin 2) : (block p x).g i = 0 := by
  rcases x with x | x | x | x <;> cases x <;> fin_cases i <;> simp [block, squareField, Quad.jet]

theorem res_block (s r : ℝ) (p q : ℝ × ℝ) (v : Sc square) : (dripping s r).res (block p) v (block q) =
    r * (q.1 + q.2) - square.dS (Tracer2.sigmaMax Tracer2.exTerm) * (p.1 - p.2) * (q.1 - q.2) := by
  have hb := sum_sqB fun b => sqWB b * (-(r / 2 * (block q (.bnd b)).v))
  have hb' : (∑ b : square.B, square.wB b * (-(r / 2 * (block q (.bnd b)).v))) = -(r * (q.1 + q.2)) := by
    refine hb.trans ?_
    simp [block, squareField, Quad.jet, sqWB]
    ring
  have hs : ∀ p s i, jumpN (m := square) (block p) s i = (p.1 - p.2) / Real.sqrt 2 := jumpN_block
  have h2 : Real.sqrt 2 * Real.sqrt 2 = 2 := Real.mul_self_sqrt (by norm_num)
  have h2' : Real.sqrt 2 ≠ 0 := by positivity
  have hS : square.dS (fun s => Tracer2.sigmaMax Tracer2.exTerm s * ∑ i, jumpN (block q) s i * (avg (cst square 1) s * jumpN (block p) s i)) =
      square.dS (Tracer2.sigmaMax Tracer2.exTerm) * (p.1 - p.2) * (q.1 - q.2) := by
    unfold Mesh.dS
    rw [sum_mul, sum_mul]
    refine sum_congr rfl fun s _ => ?_
    have : avg (cst square 1) s = 1 := by norm_num [avg, cst, Jet.const]
    simp only [this, hs, Fin.sum_univ_two]
    field_simp
    linear_combination (-square.wS s * Tracer2.sigmaMax Tracer2.exTerm s * (q.1 - q.2) * (p.1 - p.2)) * h2
  have ha : ∀ p s i, Tracer2.avgFlux (cst square 1) (block p) s i = 0 := fun p s i => by
    simp [Tracer2.avgFlux, grad_block]
  have hdg : Tracer2.exTerm.dg = true := rfl
  simp only [dripping, tracer2, Tracer2.advection, Tracer2.diffusion, hdg, if_true, hS, ha, bndLoop_eq, Tracer2.diffBndFlux, drip, hb',
    grad_block]
  simp [Mesh.dx, Mesh.dS, sub_eq_add_neg]

theorem dripping_lin (t r : ℝ) (x v : Sc square) : IsLin fun y => (dripping t r).res x v y := by
  simp only [dripping, tracer2]
  refine IsLin.add IsLin.zero ?_
  unfold Tracer2.diffusion
  simp only [bndLoop_eq, jumpN, Tracer2.avgFlux, Tracer2.diffBndFlux, drip, show Tracer2.exTerm.dg = true from rfl, if_true]
  lin

theorem dripping_system : System dripping blocks id ip where
  maps _ h := h
  energy := isEnergy_ip
  mass _ _ _ _ := rfl
  inner _ _ _ _ := rfl
  definite := by
    rintro _ ⟨p, rfl⟩ h
    rw [ip_block] at h
    have h1 : p.1 = 0 := by nlinarith [sq_nonneg p.1, sq_nonneg p.2]
    have h2 : p.2 = 0 := by nlinarith [sq_nonneg p.1, sq_nonneg p.2]
    rw [show p = 0 from Prod.ext h1 h2, map_zero]
  finite := by unfold blocks; infer_instance
  test _ _ _ _ := dripping_lin _ _ _ _

theorem size_block (p : ℝ × ℝ) : size ip (block p) = Real.sqrt ((p.1 ^ 2 + p.2 ^ 2) / 2) := by
  rw [size, ip_block]
  ring_nf

theorem diff_block (p : ℝ × ℝ) : |p.1 - p.2| ≤ 2 * size ip (block p) := by
  rw [size_block, ← Real.sqrt_sq_eq_abs]
  have : 2 * Real.sqrt ((p.1 ^ 2 + p.2 ^ 2) / 2) = Real.sqrt (4 * ((p.1 ^ 2 + p.2 ^ 2) / 2)) := by
    rw [Real.sqrt_mul (by norm_num), show (4 : ℝ) = 2 ^ 2 by norm_num, Real.sqrt_sq (by norm_num)]
  rw [this]
  exact Real.sqrt_le_sqrt (by nlinarith [sq_nonneg (p.1 + p.2)])

theorem dripping_solution (k : ℕ) (tEnd : ℝ) : ∃ L, Solution dripping blocks id ip Set.univ k L tEnd fun t => cst square (t ^ 2) := by
  refine ⟨4 * |square.dS (Tracer2.sigmaMax Tracer2.exTerm)|, fun t => ⟨(t ^ 2, t ^ 2), block_cst _⟩, fun _ _ _ => trivial, ?_, ?_,
    by positivity, ?_⟩
  · rintro _ ⟨q, rfl⟩
    simp only [← block_cst, ip_block]
    fun_prop
  · rintro t - - _ ⟨q, rfl⟩
    simp only [← block_cst, ip_block, id, res_block]
    have h : HasDerivAt (fun s : ℝ => (s ^ 2 * q.1 + s ^ 2 * q.2) / 2) (((2 : ℕ) * t ^ 1 * q.1 + (2 : ℕ) * t ^ 1 * q.2) / 2) t :=
      (((hasDerivAt_pow 2 t).mul_const q.1).add ((hasDerivAt_pow 2 t).mul_const q.2)).div_const 2
    rw [h.deriv]
    push_cast
    ring
  · rintro t - - _ ⟨p, rfl⟩ - _ ⟨p', rfl⟩ - _ ⟨q, rfl⟩
    rw [id, res_block, res_block, ← map_sub]
    have e1 := diff_block (p - p')
    have e2 := diff_block q
    have : t * (q.1 + q.2) - square.dS (Tracer2.sigmaMax Tracer2.exTerm) * (p.1 - p.2) * (q.1 - q.2) -
        (t * (q.1 + q.2) - square.dS (Tracer2.sigmaMax Tracer2.exTerm) * (p'.1 - p'.2) * (q.1 - q.2)) =
        -(square.dS (Tracer2.sigmaMax Tracer2.exTerm) * (((p - p').1 - (p - p').2) * (q.1 - q.2))) := by
      simp only [Prod.fst_sub, Prod.snd_sub]; ring
    rw [this, abs_neg, abs_mul, abs_mul]
    have : |(p - p').1 - (p - p').2| * |q.1 - q.2| ≤ 2 * size ip (block (p - p')) * (2 * size ip (block q)) :=
      mul_le_mul e1 e2 (abs_nonneg _) ((abs_nonneg _).trans e1)
    nlinarith [abs_nonneg (square.dS (Tracer2.sigmaMax Tracer2.exTerm))]

/-- C129, violated: `CrankNicolson` with `theta = 1/2` is not of second order if a boundary value changes with time.  The problem
has a smooth solution, and steps of any length exist. -/
theorem C129_boundary_violated (semi : Bool) : System dripping blocks id ip ∧
    (∀ k, ∃ L, Solution dripping blocks id ip Set.univ k L 1 fun t => cst square (t ^ 2)) ∧
    ¬ Converges ip (CrankAt dripping (1 / 2) semi blocks Set.univ) 1 (fun t => cst square (t ^ 2)) (fun dt => dt ^ 2) := by
  refine ⟨dripping_system, fun k => dripping_solution k 1, ?_⟩
  rintro ⟨C, hC, top, ht, h⟩
  obtain ⟨N, hN⟩ := exists_nat_gt (max (1 / top) C)
  have hN0 : (0 : ℝ) < N := lt_of_le_of_lt (by positivity) ((le_max_left _ _).trans_lt hN)
  have hd : (0 : ℝ) < 1 / N := by positivity
  have hle : 1 / (N : ℝ) ≤ top := by
    rw [div_le_iff₀ hN0, ← div_le_iff₀' ht]
    exact ((le_max_left _ _).trans_lt hN).le
  have key := h (1 / N) hd hle (fun n => cst square ((1 / N) ^ 2 * (n * (n + 1)))) (by simp) (fun n _ => ⟨trivial, trivial,
    ⟨_, block_cst _⟩, ?_⟩) N (by rw [mul_one_div, div_self hN0.ne'])
  · have e : cst square ((1 / N : ℝ) ^ 2 * (N * (N + 1))) - cst square ((N * (1 / N : ℝ)) ^ 2) = block (1 / N, 1 / N) := by
      rw [← block_cst, ← block_cst, ← map_sub]
      congr 1
      refine Prod.ext ?_ ?_ <;> simp only [Prod.fst_sub, Prod.snd_sub] <;> field_simp <;> ring
    simp only [e, size_block] at key
    rw [show (((1 / N : ℝ)) ^ 2 + (1 / N : ℝ) ^ 2) / 2 = (1 / N : ℝ) ^ 2 by ring, Real.sqrt_sq hd.le] at key
    have : (N : ℝ) ≤ C := by
      have := mul_le_mul_of_nonneg_right key (by positivity : (0 : ℝ) ≤ N ^ 2)
      field_simp at this
      linarith
    exact absurd ((le_max_right _ _).trans_lt hN) (not_lt.2 this)
  · rintro _ ⟨q, rfl⟩
    have hm : ∀ s r x y, (dripping s r).mass x y = ip x y := fun _ _ _ _ => rfl
    simp only [← block_cst, res_block, hm, ip_block]
    push_cast
    ring

end Verif.Converge
