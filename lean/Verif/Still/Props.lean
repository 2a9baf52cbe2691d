import Verif.Still.Model

/-!
C135: water at rest stays at rest in the 3D solver.  Every field of the coupled time integrators keeps its value over any number of
steps if the assembled residuals vanish at the state of rest; `Props2` shows for the weak forms that they do.
-/

set_option linter.unusedSectionVars false

namespace Verif.Still

open Finset RK

variable {E2 U2 U W H A σ X D2 D DX : Type} [AddCommGroup D2] [Module ℝ D2]
  [AddCommGroup E2] [Module ℝ E2] [AddCommGroup U2] [Module ℝ U2] [AddCommGroup U] [Module ℝ U] [AddCommGroup W]
  [AddCommGroup D] [Module ℝ D] [AddCommGroup X] [Module ℝ X] [AddCommGroup DX] [Module ℝ DX]

/-- What the explicit equations see at rest on the mesh `g` with the elevation `E`. -/
def calm (g : H → ℝ) (E : E2) (a : A) : View E2 U W H A := ⟨g, E, 0, 0, 0, fun _ => 0, 0, a⟩

/-- The state of rest with elevation `E`, mesh `g` and tracers `c` solves every equation of the solver: all residuals vanish there, the
solvers return the data, and the 2D solver keeps its initial guess where that is already a solution. -/
structure Solves (P : Env E2 U2 U W H A σ X D2 D DX) (E : E2) (g : H → ℝ) (c : σ → X) : Prop where
  mesh : P.ale = true → P.cg E = g
  keep : ∀ F k, F k = 0 → P.solve2 F k = k
  mass2 : P.mass2 0 = 0
  res2 : ∀ n i, P.res2 n i 0 (E, 0) (E, 0) = 0
  average : P.average g 0 = 0
  copy : P.copy 0 = 0
  wSolve : P.wSolve g 0 = 0
  head : P.baroclinic = true → P.head g c = 0
  massU : P.massU g 0 = 0
  invU : P.invU g 0 = 0
  resU : ∀ n i a, P.resU n i (calm g E a) 0 = 0
  invX : ∀ j, P.invX g (P.massX g (c j)) = c j
  resX : ∀ n i j a, P.resX n i j (calm g E a) (c j) = 0
  limX : P.limitT = true → ∀ j, P.limX g (c j) = c j
  limV : P.limitU = true → P.limV g 0 = 0
  implU : P.implicit = true → ∀ n a, P.implU n (calm g E a) 0 = 0
  implX : P.implicit = true → ∀ n j a, P.implX n j (calm g E a) (c j) = c j

/-- The fields of the solver are those of rest. -/
structure Rest {M T : Type} (uv : M → U) (sol : T → X) (E : E2) (g : H → ℝ) (c : σ → X) (s : St E2 U2 U W H A σ M T) : Prop where
  two : s.two.sol = (E, 0)
  uv : uv s.mom = 0
  dav : s.dav = 0
  w : s.w = 0
  pg : s.pg = 0
  mesh : s.geo = g
  surf : s.ws = fun _ => 0
  tr : ∀ j, sol (s.tr j) = c j
  split : s.split = 0
  k : ∀ i, s.two.k i = 0
  ed : s.ed = E

/-- The initial state: a level surface, no velocity, given tracers, and zero in all other fields, as `assign_initial_conditions` leaves
them.  Without moving mesh the mesh is the initial one. -/
structure Init {M T : Type} (P : Env E2 U2 U W H A σ X D2 D DX) (uv : M → U) (sol : T → X) (E : E2) (g : H → ℝ) (c : σ → X)
    (s : St E2 U2 U W H A σ M T) : Prop where
  two : s.two.sol = (E, 0)
  uv : uv s.mom = 0
  dav : s.dav = 0
  pg : s.pg = 0
  mesh : P.ale = false → s.geo = g
  surf : s.ws = fun _ => 0
  tr : ∀ j, sol (s.tr j) = c j
  split : s.split = 0
  k : ∀ i, s.two.k i = 0

variable {P : Env E2 U2 U W H A σ X D2 D DX} {E : E2} {g : H → ℝ} {c : σ → X}

theorem stage2_rest (h : Solves P E g c) (B : Tableau) (semi : Bool) (n i : ℕ) (s : Dirk (E2 × U2)) (h1 : s.sol = (E, 0))
    (h2 : i ≠ 0 → s.old = (E, 0)) (h3 : ∀ j, s.k j = 0) :
    (P.stage2 B semi n i 0 s).sol = (E, 0) ∧ (P.stage2 B semi n i 0 s).old = (E, 0) ∧ ∀ j, (P.stage2 B semi n i 0 s).k j = 0 := by
  have ho : (if i = 0 then ((E, 0) : E2 × U2) else s.old) = (E, 0) := by
    by_cases hi : i = 0
    · simp [hi]
    · simp [hi, h2 hi]
  have hnl : (if semi then ((E, 0) : E2 × U2) else (E, 0)) = (E, 0) := by split <;> rfl
  have hk : P.solve2 (fun k => -P.mass2 k +
      P.res2 n i 0 ((E, 0) + ∑ j ∈ range i, (B.a i j * P.dt) • s.k j + (B.a i i * P.dt) • k) (E, 0)) (s.k i) = 0 := by
    rw [h3 i]
    apply h.keep
    simp only [h.mass2, h3, smul_zero, sum_const_zero, add_zero, h.res2, neg_zero]
  have hks : ∀ j, Function.update s.k i 0 j = 0 := by
    intro j
    by_cases hj : j = i
    · simp [hj]
    · simp [hj, h3]
  unfold Env.stage2
  simp only [h1, ho, hnl, hk, hks, smul_zero, sum_const_zero, add_zero]
  simp

theorem advance2_rest (h : Solves P E g c) (B : Tableau) (semi : Bool) (n : ℕ) (s : Dirk (E2 × U2)) (h1 : s.sol = (E, 0))
    (h3 : ∀ j, s.k j = 0) (hn : 0 < B.n) :
    (P.advance2 B semi n 0 s).sol = (E, 0) ∧ ∀ j, (P.advance2 B semi n 0 s).k j = 0 := by
  have key : ∀ m, (loop (P.stage2 B semi n · 0 ·) m s).sol = (E, 0) ∧ (m ≠ 0 → (loop (P.stage2 B semi n · 0 ·) m s).old = (E, 0)) ∧
      ∀ j, (loop (P.stage2 B semi n · 0 ·) m s).k j = 0 := by
    intro m
    induction m with
    | zero => exact ⟨h1, fun h => absurd rfl h, h3⟩
    | succ m ih =>
      obtain ⟨a, b, d⟩ := stage2_rest h B semi n m _ ih.1 ih.2.1 ih.2.2
      exact ⟨a, fun _ => b, d⟩
  obtain ⟨a, b, d⟩ := key B.n
  unfold Env.advance2 Dirk.getFinal
  refine ⟨?_, d⟩
  simp only [d, b hn.ne', smul_zero, sum_const_zero, add_zero]

/-! ### Single operations -/

section Ops

variable {M T : Type} {uv : M → U} {sol : T → X} {set : U → M → M} {setT : X → T → T}

theorem moveMesh_rest (h : Solves P E g c) {s : St E2 U2 U W H A σ M T} (r : Rest uv sol E g c s) : P.moveMesh s = s := by
  unfold Env.moveMesh
  have h1 : s.two.sol.1 = s.ed := by rw [r.two, r.ed]
  have h2 : (if P.ale then P.cg s.ed else s.geo) = s.geo := by
    split
    next ha => rw [r.ed, h.mesh ha, r.mesh]
    · rfl
  rw [h1, h2]

theorem vertical_rest (h : Solves P E g c) {s : St E2 U2 U W H A σ M T} (r : Rest uv sol E g c s) : P.vertical uv s = s := by
  unfold Env.vertical
  have : P.wSolve s.geo (uv s.mom + s.dav) = s.w := by rw [r.uv, r.dav, r.mesh, add_zero, h.wSolve, r.w]
  rw [this]

theorem baroc_rest (h : Solves P E g c) {s : St E2 U2 U W H A σ M T} (r : Rest uv sol E g c s) : P.baroc sol s = s := by
  unfold Env.baroc
  have : (if P.baroclinic then P.head s.geo fun j => sol (s.tr j) else s.pg) = s.pg := by
    split
    next hb => rw [r.mesh, funext r.tr, h.head hb, r.pg]
    · rfl
  rw [this]

theorem couple_rest (hset : ∀ s, set (uv s) s = s) (h : Solves P E g c) {s : St E2 U2 U W H A σ M T} (r : Rest uv sol E g c s) :
    P.couple uv set s = s := by
  unfold Env.couple
  have hm : set (0 - P.copy (P.average s.geo 0)) s.mom = s.mom := by
    rw [r.mesh, h.average, h.copy, sub_zero, ← r.uv]; exact hset _
  simp only [r.uv, hm]
  rw [r.two, r.mesh, h.average, smul_zero, h.copy, ← r.split, ← r.dav, ← r.mesh]

theorem view_rest {s : St E2 U2 U W H A σ M T} (r : Rest uv sol E g c s) : s.view uv = calm g E s.aux := by
  unfold St.view calm
  rw [r.uv, r.dav, r.w, r.pg, r.mesh, r.surf, r.ed]

theorem momentumImpl_rest (hset : ∀ s, set (uv s) s = s) (h : Solves P E g c) (hi : P.implicit = true) (n : ℕ)
    {s : St E2 U2 U W H A σ M T} (r : Rest uv sol E g c s) : P.momentumImpl uv set n s = s := by
  unfold Env.momentumImpl
  have : set (P.implU n (s.view uv) (uv s.mom + s.dav) - s.dav) s.mom = s.mom := by
    rw [view_rest r, r.dav, r.uv, add_zero, h.implU hi, sub_zero]
    have := hset s.mom
    rwa [r.uv] at this
  rw [this]

theorem tracersImpl_rest (hset : ∀ s, setT (sol s) s = s) (h : Solves P E g c) (hi : P.implicit = true) (n : ℕ)
    {s : St E2 U2 U W H A σ M T} (r : Rest uv sol E g c s) : P.tracersImpl uv sol setT n s = s := by
  unfold Env.tracersImpl
  have : (fun j => setT (P.implX n j (s.view uv) (sol (s.tr j))) (s.tr j)) = s.tr := by
    funext j
    rw [view_rest r, r.tr, h.implX hi]
    have := hset (s.tr j)
    rwa [r.tr] at this
  rw [this]

theorem other_rest (f : St E2 U2 U W H A σ M T → A) {s : St E2 U2 U W H A σ M T} (r : Rest uv sol E g c s) :
    Rest uv sol E g c (other f s) :=
  ⟨r.two, r.uv, r.dav, r.w, r.pg, r.mesh, r.surf, r.tr, r.split, r.k, r.ed⟩

theorem start_rest (h : Solves P E g c) (f : St E2 U2 U W H A σ M T → A) {s : St E2 U2 U W H A σ M T} (r : Init P uv sol E g c s) :
    Rest uv sol E g c (start P f uv sol s) := by
  have hg : (if P.ale then P.cg s.two.sol.1 else s.geo) = g := by
    split
    next ha => rw [r.two, h.mesh ha]
    next ha => exact r.mesh (by simpa using ha)
  unfold start other Env.baroc Env.vertical Env.moveMesh
  refine ⟨r.two, r.uv, r.dav, ?_, ?_, hg, r.surf, r.tr, r.split, r.k, ?_⟩
  · simp only [hg, r.uv, r.dav, add_zero, h.wSolve]
  · simp only [hg]
    split
    next hb => rw [funext r.tr, h.head hb]
    · exact r.pg
  · simp only [r.two]

end Ops

/-! ### `CoupledTwoStageRK` -/

theorem setAle_sol (s : Ale U D) : setAle s.sol s = s := rfl

/-- Between the stages. -/
structure Mid (P : Env E2 U2 U W H A σ X D2 D DX) (E : E2) (g : H → ℝ) (c : σ → X) (s : StA E2 U2 U W H A σ X D DX) : Prop
    extends Rest Ale.sol Ale.sol E g c s where
  old : s.two.old = (E, 0)
  mu : s.mom.mu = 0
  muOld : s.mom.muOld = 0
  trMu : ∀ j, (s.tr j).mu = P.massX g (c j)
  trOld : ∀ j, (s.tr j).muOld = P.massX g (c j)
  e0 : P.ale = true → s.e0 = g

theorem store_rest {M T : Type} {uv : M → U} {sol : T → X} (i : ℕ) {s : St E2 U2 U W H A σ M T} (r : Rest uv sol E g c s) :
    Rest uv sol E g c (P.store i s) := by
  unfold Env.store
  split
  · split
    · exact ⟨r.two, r.uv, r.dav, r.w, r.pg, r.mesh, r.surf, r.tr, r.split, r.k, r.ed⟩
    · exact ⟨r.two, r.uv, r.dav, r.w, r.pg, r.mesh, r.surf, r.tr, r.split, r.k, r.ed⟩
  · exact r

theorem tail_rest (h : Solves P E g c) (turb : ℕ → StA E2 U2 U W H A σ X D DX → A) (n i : ℕ)
    {s : StA E2 U2 U W H A σ X D DX} (r : Rest Ale.sol Ale.sol E g c s) :
    (let s := P.couple Ale.sol setAle s
     let s := if i = 1 then
         (if P.implicit then P.momentumImpl Ale.sol setAle n (P.tracersImpl Ale.sol Ale.sol setAle n s) else s)
       else s
     let s := P.baroc Ale.sol s
     let s := P.vertical Ale.sol s
     if i = 1 then other (turb n) s else s) = if i = 1 then other (turb n) s else s := by
  have hi : (if i = 1 then
      (if P.implicit then P.momentumImpl Ale.sol setAle n (P.tracersImpl Ale.sol Ale.sol setAle n s) else s) else s) = s := by
    split
    · split
      next hp => rw [tracersImpl_rest setAle_sol h hp n r, momentumImpl_rest setAle_sol h hp n r]
      · rfl
    · rfl
  simp only [couple_rest setAle_sol h r, hi, baroc_rest h r, vertical_rest h r]

/-- Storing the elevation, the 2D mode and the mesh velocity. -/
theorem front_zero (h : Solves P E g c) (semi : Bool) (n : ℕ) {s : StA E2 U2 U W H A σ X D DX} (r : Rest Ale.sol Ale.sol E g c s) :
    ∃ s', (let s := P.store 0 s
      let s := { s with two := P.stage2 esdirkTrapezoid semi n 0 s.split s.two }
      P.meshVelocity 0 s) = s' ∧ Rest Ale.sol Ale.sol E g c s' ∧ s'.two.old = (E, 0) ∧ (P.ale = true → s'.e0 = g) := by
  refine ⟨_, rfl, ?_, ?_, ?_⟩
  · have r1 := store_rest (P := P) 0 r
    obtain ⟨a, b, d⟩ := stage2_rest h esdirkTrapezoid semi n 0 (P.store 0 s).two r1.two (fun h => absurd rfl h) r1.k
    simp only [r1.split]
    unfold Env.meshVelocity
    split
    next ha =>
      refine ⟨a, r1.uv, r1.dav, r1.w, r1.pg, r1.mesh, ?_, r1.tr, rfl, d, r1.ed⟩
      funext x
      simp only [a, if_true]
      simp [Env.store, ha, r.two]
    · exact ⟨a, r1.uv, r1.dav, r1.w, r1.pg, r1.mesh, r1.surf, r1.tr, rfl, d, r1.ed⟩
  · have r1 := store_rest (P := P) 0 r
    obtain ⟨a, b, d⟩ := stage2_rest h esdirkTrapezoid semi n 0 (P.store 0 s).two r1.two (fun h => absurd rfl h) r1.k
    simp only [r1.split]
    unfold Env.meshVelocity
    split <;> exact b
  · intro ha
    simp [Env.meshVelocity, ha, Env.store, r.two, h.mesh ha]

theorem stage_zero (h : Solves P E g c) (semi : Bool) (turb : ℕ → StA E2 U2 U W H A σ X D DX → A) (n : ℕ)
    {s : StA E2 U2 U W H A σ X D DX} (r : Rest Ale.sol Ale.sol E g c s) : Mid P E g c (stage P semi turb n 0 s) := by
  obtain ⟨s1, e1, r1, ho, he⟩ := front_zero h semi n r
  unfold stage
  simp only [] at e1 ⊢
  rw [e1]
  have hv := view_rest r1
  have hp : Rest Ale.sol Ale.sol E g c (prepare P n 0 s1) := by
    unfold prepare
    exact ⟨r1.two, r1.uv, r1.dav, r1.w, r1.pg, r1.mesh, r1.surf, r1.tr, r1.split, r1.k, r1.ed⟩
  rw [moveMesh_rest h hp]
  have hmu : (prepare P n 0 s1).mom.mu = 0 ∧ (prepare P n 0 s1).mom.muOld = 0 := by
    simp [prepare, Ale.prep1, r1.uv, hv, r1.mesh, h.massU, h.resU]
  have htr : ∀ j, ((prepare P n 0 s1).tr j).mu = P.massX g (c j) ∧ ((prepare P n 0 s1).tr j).muOld = P.massX g (c j) := by
    intro j
    simp [prepare, Ale.prep1, r1.tr, hv, r1.mesh, h.resX]
  have hs : Mid P E g c (solveStage P (prepare P n 0 s1)) := by
    refine ⟨⟨hp.two, ?_, hp.dav, hp.w, hp.pg, hp.mesh, hp.surf, ?_, hp.split, hp.k, hp.ed⟩, ?_, hmu.1, hmu.2, fun j => (htr j).1,
      fun j => (htr j).2, ?_⟩
    · simp only [solveStage, Ale.solve, hmu.1, hp.mesh, h.invU]
      split
      next hl => exact h.limV hl
      · rfl
    · intro j
      simp only [solveStage, Ale.solve, (htr j).1, hp.mesh, h.invX]
      split
      next hl => exact h.limX hl j
      · rfl
    · exact ho
    · exact he
  have := tail_rest h turb n 0 hs.toRest
  simp only [zero_ne_one, if_false] at this ⊢
  rw [this]
  exact hs

theorem front_one (h : Solves P E g c) (semi : Bool) (n : ℕ) {s : StA E2 U2 U W H A σ X D DX} (r : Mid P E g c s) :
    ∃ s', (let s := P.store 1 s
      let s := { s with two := P.stage2 esdirkTrapezoid semi n 1 s.split s.two }
      P.meshVelocity 1 s) = s' ∧ Rest Ale.sol Ale.sol E g c s' ∧ s'.mom = s.mom ∧ s'.tr = s.tr := by
  have r1 := store_rest (P := P) 1 r.toRest
  have ho : (P.store 1 s).two.old = (E, 0) := by
    unfold Env.store
    simp only [one_ne_zero, if_false]
    split <;> exact r.old
  obtain ⟨a, b, d⟩ := stage2_rest h esdirkTrapezoid semi n 1 (P.store 1 s).two r1.two (fun _ => ho) r1.k
  refine ⟨_, rfl, ?_, ?_, ?_⟩
  · simp only [r1.split]
    unfold Env.meshVelocity
    split
    next ha =>
      refine ⟨a, r1.uv, r1.dav, r1.w, r1.pg, r1.mesh, ?_, r1.tr, rfl, d, r1.ed⟩
      funext x
      simp only [a, one_ne_zero, if_false]
      simp [Env.store, ha, r.two, r.e0 ha, h.mesh ha]
      left; ring
    · exact ⟨a, r1.uv, r1.dav, r1.w, r1.pg, r1.mesh, r1.surf, r1.tr, rfl, d, r1.ed⟩
  · simp only [Env.meshVelocity, Env.store]
    split <;> simp
  · simp only [Env.meshVelocity, Env.store]
    split <;> simp

theorem stage_one (h : Solves P E g c) (semi : Bool) (turb : ℕ → StA E2 U2 U W H A σ X D DX → A) (n : ℕ)
    {s : StA E2 U2 U W H A σ X D DX} (r : Mid P E g c s) : Rest Ale.sol Ale.sol E g c (stage P semi turb n 1 s) := by
  obtain ⟨s1, e1, r1, hm, ht⟩ := front_one h semi n r
  unfold stage
  simp only [] at e1 ⊢
  rw [e1]
  have hv := view_rest r1
  have hp : Rest Ale.sol Ale.sol E g c (prepare P n 1 s1) := by
    unfold prepare
    exact ⟨r1.two, r1.uv, r1.dav, r1.w, r1.pg, r1.mesh, r1.surf, r1.tr, r1.split, r1.k, r1.ed⟩
  rw [moveMesh_rest h hp]
  have hmu : (prepare P n 1 s1).mom.mu = 0 := by
    simp [prepare, Ale.prep2, hm, r.mu, r.muOld, hv, r.uv, h.resU]
  have htr : ∀ j, ((prepare P n 1 s1).tr j).mu = P.massX g (c j) := by
    intro j
    simp only [prepare, one_ne_zero, if_false, Ale.prep2, ht, r.trMu, r.trOld, hv, r.tr, h.resX, smul_zero, add_zero]
    rw [← add_smul]; norm_num
  have hs : Rest Ale.sol Ale.sol E g c (solveStage P (prepare P n 1 s1)) := by
    refine ⟨hp.two, ?_, hp.dav, hp.w, hp.pg, hp.mesh, hp.surf, ?_, hp.split, hp.k, hp.ed⟩
    · simp only [solveStage, Ale.solve, hmu, hp.mesh, h.invU]
      split
      next hl => exact h.limV hl
      · rfl
    · intro j
      simp only [solveStage, Ale.solve, htr j, hp.mesh, h.invX]
      split
      next hl => exact h.limX hl j
      · rfl
  have := tail_rest h turb n 1 hs
  simp only [if_true] at this ⊢
  rw [this]
  exact other_rest _ hs

/-- C135: water at rest stays at rest with `CoupledTwoStageRK`: if the state of rest solves the equations, then after any number of steps
the elevation, the velocities, the mesh, the split residual and the pressure gradient are those of rest and all tracers are
unchanged. -/
theorem C135_two_stage (h : Solves P E g c) (semi : Bool) (turb : ℕ → StA E2 U2 U W H A σ X D DX → A)
    (init : StA E2 U2 U W H A σ X D DX → A) (s : StA E2 U2 U W H A σ X D DX) (r : Init P Ale.sol Ale.sol E g c s) (n : ℕ) :
    Rest Ale.sol Ale.sol E g c (run P semi turb init s n) := by
  induction n with
  | zero => exact start_rest h init r
  | succ n ih => exact stage_one h semi turb n (stage_zero h semi turb n ih)

/-! ### `CoupledLeapFrogAM3` -/

theorem setLeap_sol (s : Leap U D) : setLeap s.sol s = s := rfl

/-- Rest together with the stored data of the time integrators. -/
structure RestL (P : Env E2 U2 U W H A σ X D2 D DX) (E : E2) (g : H → ℝ) (c : σ → X) (s : StL E2 U2 U W H A σ X D DX) : Prop
    extends Rest Leap.sol Leap.sol E g c s where
  old : s.mom.old = 0
  trOld : ∀ j, (s.tr j).old = c j
  minv : s.mom.minv = P.invU g
  trMinv : ∀ j, (s.tr j).minv = P.invX g

/-- After `predict`: also the stored products with the mass matrix. -/
structure MidL (P : Env E2 U2 U W H A σ X D2 D DX) (E : E2) (g : H → ℝ) (c : σ → X) (s : StL E2 U2 U W H A σ X D DX) : Prop
    extends RestL P E g c s where
  msol : s.mom.msolOld = 0
  trMsol : ∀ j, (s.tr j).msolOld = P.massX g (c j)

theorem still_rest (s : StL E2 U2 U W H A σ X D DX) (r : RestL P E g c s) : RestL P E g c (P.still s) := by
  unfold Env.still
  split
  · exact ⟨⟨r.two, r.uv, r.dav, r.w, r.pg, r.mesh, rfl, r.tr, r.split, r.k, r.ed⟩, r.old, r.trOld, r.minv, r.trMinv⟩
  · exact r

theorem predict_rest (h : Solves P E g c) (n : ℕ) (s : StL E2 U2 U W H A σ X D DX) (r : RestL P E g c s) :
    MidL P E g c (predict P n s) := by
  have hv := view_rest r.toRest
  have hm : (s.mom.predict P.dt (P.massU s.geo) (P.resU n 0 (s.view Leap.sol))).sol = 0 := by
    simp [Leap.predict, r.old, r.uv, r.mesh, hv, h.massU, h.resU, r.minv, h.invU]
  have ht : ∀ j, ((s.tr j).predict P.dt (P.massX s.geo) (P.resX n 0 j (s.view Leap.sol))).sol = c j := by
    intro j
    simp only [Leap.predict, r.trOld, r.tr, r.mesh, hv, h.resX, smul_zero, add_zero, r.trMinv, ← add_smul]
    have : (1 / 2 - 2 * lfγ + (1 / 2 + 2 * lfγ) : ℝ) = 1 := by ring
    rw [this, one_smul, h.invX]
  unfold predict
  refine ⟨⟨⟨r.two, ?_, r.dav, r.w, r.pg, r.mesh, r.surf, ?_, r.split, r.k, r.ed⟩, r.uv, r.tr, r.minv, r.trMinv⟩, ?_, ?_⟩
  · simp only [hm]
    rw [r.mesh]
    split
    next hl => exact h.limV hl
    · rfl
  · intro j
    simp only [ht]
    rw [r.mesh]
    split
    next hl => exact h.limX hl j
    · rfl
  · simp only [Leap.predict, r.uv, r.mesh, h.massU]
  · intro j
    simp only [Leap.predict, r.tr, r.mesh]

theorem leapMode2d_rest (h : Solves P E g c) (semi : Bool) (n : ℕ) (s : StL E2 U2 U W H A σ X D DX) (r : MidL P E g c s) :
    MidL P E g c (leapMode2d P semi n s) := by
  obtain ⟨a, d⟩ := advance2_rest h dirk22 semi n s.two r.two r.k (by simp [dirk22, RK.mk])
  unfold leapMode2d
  simp only [r.split]
  split
  next ha =>
    refine ⟨⟨⟨a, r.uv, r.dav, r.w, r.pg, r.mesh, ?_, r.tr, rfl, d, r.ed⟩, r.old, r.trOld, r.minv, r.trMinv⟩, r.msol, r.trMsol⟩
    funext x
    simp only [a, r.two]
    ring
  · exact ⟨⟨⟨a, r.uv, r.dav, r.w, r.pg, r.mesh, r.surf, r.tr, rfl, d, r.ed⟩, r.old, r.trOld, r.minv, r.trMinv⟩, r.msol, r.trMsol⟩

theorem halfCouple_rest (h : Solves P E g c) (s : StL E2 U2 U W H A σ X D DX) (r : Rest Leap.sol Leap.sol E g c s) :
    halfCouple P 0 s = s := by
  have e1 : (1 / 2 + 2 * lfγ) • s.two.sol.1 + (1 / 2 - 2 * lfγ) • s.ed = s.ed := by
    rw [r.two, r.ed]
    simp only
    rw [← add_smul]
    have : (1 / 2 + 2 * lfγ + (1 / 2 - 2 * lfγ) : ℝ) = 1 := by ring
    rw [this, one_smul]
  have e2 : (s.two.sol.1, (1 / 2 + 2 * lfγ) • s.two.sol.2 + (1 / 2 - 2 * lfγ) • (0 : U2)) = s.two.sol := by
    rw [r.two]; simp
  unfold halfCouple
  simp only [e1, e2]
  have := couple_rest setLeap_sol h r
  rw [this]

theorem correct_rest (h : Solves P E g c) (n : ℕ) (s : StL E2 U2 U W H A σ X D DX) (r : MidL P E g c s) :
    RestL P E g c (correct P (P.moveMesh (evalRhs P n s))) := by
  have hv := view_rest r.toRest
  have hm : (evalRhs P n s).mom.rhs = 0 ∧ ∀ j, ((evalRhs P n s).tr j).rhs = 0 := by
    refine ⟨?_, fun j => ?_⟩
    · simp only [evalRhs, Leap.evalRhs, hv, r.uv, h.resU, smul_zero]
    · simp only [evalRhs, Leap.evalRhs, hv, r.tr, h.resX, smul_zero]
  have r1 : MidL P E g c (evalRhs P n s) := by
    unfold evalRhs
    exact ⟨⟨⟨r.two, r.uv, r.dav, r.w, r.pg, r.mesh, r.surf, r.tr, r.split, r.k, r.ed⟩, r.old, r.trOld, r.minv, r.trMinv⟩, r.msol,
      r.trMsol⟩
  rw [moveMesh_rest h r1.toRest]
  generalize evalRhs P n s = s at r1 hm
  unfold correct
  refine ⟨⟨r1.two, ?_, r1.dav, r1.w, r1.pg, r1.mesh, r1.surf, ?_, r1.split, r1.k, r1.ed⟩, r1.old, r1.trOld, ?_, ?_⟩
  · simp only [Leap.correct, hm.1, r1.msol, r1.mesh, add_zero, h.invU]
    split
    next hl => exact h.limV hl
    · rfl
  · intro j
    simp only [Leap.correct, hm.2 j, r1.trMsol, r1.mesh, zero_add, h.invX]
    split
    next hl => exact h.limX hl j
    · rfl
  · simp only [Leap.correct, r1.mesh]
  · intro j
    simp only [Leap.correct, r1.mesh]

theorem otherL_rest (f : StL E2 U2 U W H A σ X D DX → A) {s : StL E2 U2 U W H A σ X D DX} (r : RestL P E g c s) :
    RestL P E g c (other f s) := ⟨other_rest f r.toRest, r.old, r.trOld, r.minv, r.trMinv⟩

theorem leapAdvance_rest (h : Solves P E g c) (semi : Bool) (turb stab : ℕ → StL E2 U2 U W H A σ X D DX → A) (n : ℕ)
    (s : StL E2 U2 U W H A σ X D DX) (r : RestL P E g c s) : RestL P E g c (leapAdvance P semi turb stab n s) := by
  have r1 := predict_rest h n _ (still_rest s r)
  unfold leapAdvance
  simp only []
  rw [couple_rest setLeap_sol h r1.toRest, baroc_rest h r1.toRest]
  generalize predict P n (P.still s) = s1 at r1 ⊢
  have r2 := leapMode2d_rest h semi n s1 r1
  have h0 : s1.two.sol.2 = 0 := by rw [r1.two]
  rw [h0, halfCouple_rest h _ r2.toRest, vertical_rest h r2.toRest, baroc_rest h r2.toRest]
  have r3 := correct_rest h n _ r2
  generalize correct P (P.moveMesh (evalRhs P n (leapMode2d P semi n s1))) = s2 at r3 ⊢
  rw [couple_rest setLeap_sol h r3.toRest, baroc_rest h r3.toRest]
  split
  next hp =>
    have r4 := otherL_rest (turb n) r3
    rw [tracersImpl_rest setLeap_sol h hp n r4.toRest, momentumImpl_rest setLeap_sol h hp n r4.toRest, baroc_rest h r4.toRest,
      vertical_rest h r4.toRest]
    exact otherL_rest _ r4
  · rw [vertical_rest h r3.toRest]
    exact otherL_rest _ r3

/-- C135: water at rest stays at rest with `CoupledLeapFrogAM3`. -/
theorem C135_leap_frog (h : Solves P E g c) (semi : Bool) (turb stab : ℕ → StL E2 U2 U W H A σ X D DX → A)
    (init : StL E2 U2 U W H A σ X D DX → A) (s : StL E2 U2 U W H A σ X D DX) (r : Init P Leap.sol Leap.sol E g c s) (n : ℕ) :
    Rest Leap.sol Leap.sol E g c (leapRun P semi turb stab init s n) := by
  have key : RestL P E g c (leapRun P semi turb stab init s n) := by
    induction n with
    | zero =>
      have hg : (P.moveMesh s).geo = g := by
        unfold Env.moveMesh
        simp only
        split
        next ha => rw [r.two, h.mesh ha]
        next ha => exact r.mesh (by simpa using ha)
      unfold leapRun leapStart
      refine ⟨start_rest h init ⟨r.two, r.uv, r.dav, r.pg, fun _ => hg, r.surf, r.tr, r.split, r.k⟩, r.uv, r.tr, ?_, ?_⟩
      · show P.invU (P.moveMesh s).geo = _
        rw [hg]
      · intro j
        show P.invX (P.moveMesh s).geo = _
        rw [hg]
    | succ n ih => exact leapAdvance_rest h semi turb stab n _ ih
  exact key.toRest

end Verif.Still
