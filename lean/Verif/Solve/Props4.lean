import Verif.Solve.Props3
import Verif.Contract.Props3

/-!
C145: time steps of tracers and of the shallow water equations, whole runs, examples.
-/

namespace Verif.Solve

open Finset Verif.Dg Verif.Ext Verif.Contract Verif.Explicit

/-! ### Equations of one kind -/

section Kind

variable {V : Type*} [AddCommGroup V] [Module ℝ V]

/-- Every explicit step of an equation has exactly one result, for every time step. -/
structure Explicitly (E : Eqn V) (H : Submodule ℝ V) : Prop where
  erk : ∀ (T : RK.Tableau) (dt : ℝ) (old : V), ∃! new, ButcherStep E T dt H old new
  ssprk33 : ∀ (dt : ℝ) (old : V), ∃! new, Ssprk33Step E dt H old new
  euler : ∀ (dt : ℝ) (old : V), ∃! new, EulerStep E dt H old new
  ssprk22 : ∀ (dt : ℝ) (old : V), ∃! new, TwoStageStep E dt H old new

/-- Every implicit step of equations of the kind `C`, one for each time in the step, has exactly one result, but for finitely many time
steps. -/
structure Implicitly (C : Eqn V → Prop) (semi : Bool) (H : Submodule ℝ V) : Prop where
  theta : ∀ (E Eold : Eqn V) (theta : ℝ) (old : V), C E → C Eold → {dt : ℝ | ¬ ∃! new, ThetaStep E Eold dt theta semi H old new}.Finite
  dirk : ∀ (E : ℕ → Eqn V) (T : RK.Tableau) (old : V), (∀ i, C (E i)) → {dt : ℝ | ¬ ∃! new, TendencyStep E T dt semi H old new}.Finite
  dirkU : ∀ (E : ℕ → Eqn V) (T : RK.Tableau) (old : V), (∀ i, C (E i)) → 0 < T.n → (∀ i < T.n - 1, T.a i i ≠ 0) →
    {dt : ℝ | ¬ ∃! new, UStep E T dt semi H old new}.Finite

theorem explicitly {E : Eqn V} {H : Submodule ℝ V} [FiniteDimensional ℝ H] (W : Weak E) (hd : Regular H E.mass) : Explicitly E H :=
  ⟨fun T dt old => C145_erk W hd T dt old, fun dt old => C145_ssprk33 W hd dt old, fun dt old => C145_euler W hd dt old,
    fun dt old => C145_ssprk22 W hd dt old⟩

theorem implicitly {C : Eqn V → Prop} {semi : Bool} {H : Submodule ℝ V} [FiniteDimensional ℝ H] (W : ∀ E, C E → Weak E)
    (A : ∀ E, C E → ∀ v, Affine E v) (F : ∀ E, C E → Fixed E semi) (hm : ∀ E, C E → Regular H E.mass) (hd : ∀ E, C E → Regular H E.inner) :
    Implicitly C semi H :=
  ⟨fun E _ theta old h ho => C145_theta_finite (W E h) (W _ ho) theta semi old (A E h old) (F E h) (hm E h),
    fun _ _ old h => C145_dirk_finite (fun i _ => W _ (h i)) (fun i _ => A _ (h i)) semi old (fun i _ => F _ (h i)) fun i _ => hd _ (h i),
    fun _ _ old h hn ha => C145_dirk_u_finite (fun i _ => W _ (h i)) hn semi old (fun i _ => A _ (h i) old) (fun i _ => F _ (h i))
      (fun i _ => hm _ (h i)) (fun i _ => hd _ (h i)) ha⟩

omit [AddCommGroup V] [Module ℝ V] in
/-- C145: whole runs.  `Q n` is the step number `n`; if each has exactly one result, a start determines a run, and there is one. -/
theorem C145_runs {Q : ℕ → V → V → Prop} (h : ∀ n x, ∃! y, Q n x y) (start : V) :
    ∃! u : ℕ → V, u 0 = start ∧ ∀ n, Q n (u n) (u (n + 1)) := by
  choose f hf hu using h
  let u : ℕ → V := fun n => Nat.rec start (fun n x => f n x) n
  refine ⟨u, ⟨rfl, fun n => hf n (u n)⟩, ?_⟩
  rintro v ⟨h0, hv⟩
  funext n
  induction n with
  | zero => exact h0
  | succ n ih =>
    rw [hu n _ _ (hv n), ih]

end Kind

/-! ### The inner products -/

section Inner

theorem ip_zero {d : ℕ} {m : Mesh d} (hw : ∀ x, 0 < m.wC x) {c : Sc m} (h0 : ip c c = 0) (x : m.C) : (c (.cell x)).v = 0 := by
  have y := (sum_eq_zero_iff_of_nonneg fun x _ => mul_nonneg (hw x).le (mul_self_nonneg _)).1 h0 x (mem_univ x)
  exact mul_self_eq_zero.1 ((mul_eq_zero.1 y).resolve_left (hw x).ne')

/-- The quadrature rule tells the functions of a space from zero. -/
theorem regular_ip {d : ℕ} {m : Mesh d} {H : Submodule ℝ (Sc m)} (hw : ∀ x, 0 < m.wC x)
    (hdef : ∀ c ∈ H, (∀ x, (c (.cell x)).v = 0) → c = 0) : Regular H ip :=
  regular_of_definite fun c hc h0 => hdef c hc (ip_zero hw h0)

theorem regular_ipState {m : Mesh 2} {H : Submodule ℝ (State m)} (hw : ∀ x, 0 < m.wC x)
    (hdef : ∀ x ∈ H, (∀ c, (∀ i, (x.1 i (.cell c)).v = 0) ∧ (x.2 (.cell c)).v = 0) → x = 0) : Regular H ipState :=
  regular_of_definite fun x hx h0 => by
    have h1 : 0 ≤ ∑ i, ip (x.1 i) (x.1 i) := sum_nonneg fun i _ => ip_nonneg _
    have h2 := ip_nonneg x.2
    have e1 : ∑ i, ip (x.1 i) (x.1 i) = 0 := by unfold ipState at h0; linarith
    have e2 : ip x.2 x.2 = 0 := by unfold ipState at h0; linarith
    refine hdef x hx fun c => ⟨fun i => ip_zero hw ?_ c, ip_zero hw e2 c⟩
    exact (sum_eq_zero_iff_of_nonneg fun i _ => ip_nonneg _).1 e1 i (mem_univ i)

end Inner

/-! ### Tracers -/

section Tracers

/-- The tracer equations of the 2D model: any flow, diffusivity, source, boundary conditions, in both forms, with or without the test
functions of SUPG. -/
def IsTracer2 {m : Mesh 2} (E : Eqn (Sc m)) : Prop :=
  ∃ (T : Tracer2.Term m) (F : Tracer2.Flow m) (mu src : Option (Sc m)) (sup : Sc m →ₗ[ℝ] Sc m) (bc : ℕ → Option (Tracer2.BFuncs m)),
    E = Linear.tracerEqn T F mu src sup bc ∨ E = Linear.consTracerEqn T F mu src sup bc

/-- C145: tracers of the 2D model. -/
theorem C145_tracer2 {m : Mesh 2} {H : Submodule ℝ (Sc m)} [FiniteDimensional ℝ H] (hw : ∀ x, 0 < m.wC x)
    (hdef : ∀ c ∈ H, (∀ x, (c (.cell x)).v = 0) → c = 0) (semi : Bool) :
    (∀ E, IsTracer2 E → Explicitly E H) ∧ Implicitly IsTracer2 semi H := by
  have hr := regular_ip hw hdef
  have key : ∀ E : Eqn (Sc m), IsTracer2 E →
      Weak E ∧ (∀ v, Affine E v) ∧ Fixed E semi ∧ Regular H E.mass ∧ Regular H E.inner := by
    rintro E ⟨T, F, mu, src, sup, bc, rfl | rfl⟩
    · exact ⟨(C145_weak_tracer2 T F mu src sup bc).1, fun v => (C145_affine_tracer2 T F mu src sup bc v).1, Or.inr fun _ _ _ _ => rfl, hr, hr⟩
    · exact ⟨(C145_weak_tracer2 T F mu src sup bc).2, fun v => (C145_affine_tracer2 T F mu src sup bc v).2, Or.inr fun _ _ _ _ => rfl, hr, hr⟩
  exact ⟨fun E hE => explicitly (key E hE).1 (key E hE).2.2.2.1, implicitly (fun E hE => (key E hE).1) (fun E hE => (key E hE).2.1)
    (fun E hE => (key E hE).2.2.1) (fun E hE => (key E hE).2.2.2.1) fun E hE => (key E hE).2.2.2.2⟩

/-- The tracer equations of the 3D model. -/
def IsTracer3 {e : Mesh3} (E : Eqn (Sc e.m)) : Prop :=
  ∃ (T : Tracer3.Term e) (F : Tracer3.Fields e) (bc : ℕ → Option (Tracer3.BFuncs e)), E = tracer3 T F bc

/-- C145: tracers of the 3D model. -/
theorem C145_tracer3 {e : Mesh3} {H : Submodule ℝ (Sc e.m)} [FiniteDimensional ℝ H] (hw : ∀ x, 0 < e.m.wC x)
    (hdef : ∀ c ∈ H, (∀ x, (c (.cell x)).v = 0) → c = 0) (semi : Bool) :
    (∀ E, IsTracer3 (e := e) E → Explicitly E H) ∧ Implicitly (IsTracer3 (e := e)) semi H := by
  have hr := regular_ip hw hdef
  have key : ∀ E : Eqn (Sc e.m), IsTracer3 (e := e) E →
      Weak E ∧ (∀ v, Affine E v) ∧ Fixed E semi ∧ Regular H E.mass ∧ Regular H E.inner := by
    rintro E ⟨T, F, bc, rfl⟩
    exact ⟨C145_weak_tracer3 T F bc, C145_affine_tracer3 T F bc, Or.inr fun _ _ _ _ => rfl, hr, hr⟩
  exact ⟨fun E hE => explicitly (key E hE).1 (key E hE).2.2.2.1, implicitly (fun E hE => (key E hE).1) (fun E hE => (key E hE).2.1)
    (fun E hE => (key E hE).2.2.1) (fun E hE => (key E hE).2.2.2.1) fun E hE => (key E hE).2.2.2.2⟩

/-- C145: a tracer that is carried and diffused without being amplified (`Carried`, the conditions of C127) and has any source is stepped by
the implicit methods with every time step. -/
theorem C145_tracer_all {m : Mesh 2} {T : Tracer2.Term m} {F : Tracer2.Flow m} {mu : Option (Sc m)} {bc : ℕ → Option (Tracer2.BFuncs m)}
    {H : Submodule ℝ (Sc m)} (C : Carried T F mu bc H) [FiniteDimensional ℝ H] (hw : ∀ x, 0 < m.wC x)
    (hdef : ∀ c ∈ H, (∀ x, (c (.cell x)).v = 0) → c = 0) (src : ℕ → Option (Sc m)) (semi : Bool) (dt : ℝ) (hdt : 0 ≤ dt) (old : Sc m) :
    (∀ theta, 0 ≤ theta → ∃! new, ThetaStep (Linear.tracerEqn T F mu (src 0) id bc) (Linear.tracerEqn T F mu (src 1) id bc) dt theta semi H
      old new) ∧
    ∀ R : RK.Tableau, (∀ i < R.n, 0 ≤ R.a i i) →
      ∃! new, TendencyStep (fun i => Linear.tracerEqn T F mu (src i) id bc) R dt semi H old new := by
  have hW : ∀ i, Weak (Linear.tracerEqn T F mu (src i) id bc) := fun i => (C145_weak_tracer2 T F mu (src i) LinearMap.id bc).1
  have hA : ∀ i v, Affine (Linear.tracerEqn T F mu (src i) id bc) v := fun i v =>
    (C145_affine_tracer2 T F mu (src i) LinearMap.id bc v).1
  have hR : ∀ i v t, 0 ≤ t → Regular H (matrix ip (Linear.tracerEqn T F mu (src i) id bc) v t) := fun i v t ht => by
    refine C145_passive id v ht (fun x hx => hx) (fun x _ => ip_nonneg x) (fun x hx h0 => hdef x hx (ip_zero hw h0)) fun x hx => ?_
    have e : (Linear.tracerEqn T F mu (src i) id bc).res x v x - (Linear.tracerEqn T F mu (src i) id bc).res 0 v x =
        (tracer2 T F mu bc).res x v x - (tracer2 T F mu bc).res 0 v x := by
      simp only [Linear.tracerEqn, tracer2, id_eq]
      ring
    have h0 : (tracer2 T F mu bc).res 0 v x = 0 := ((C.linear v).1 x).map_zero
    simp only [id_eq]
    rw [e, h0, sub_zero]
    exact C.passive v x hx
  exact ⟨fun theta ht => C145_theta (hW 0) (hW 1) dt theta semi old (hA 0 old) (Or.inr fun _ _ _ _ => rfl) (hR 0 old _ (mul_nonneg hdt ht)),
    fun R ha => C145_dirk (fun i _ => hW i) (fun i _ => hA i) dt semi old fun i hi v _ => hR i v _ (mul_nonneg (ha i hi) hdt)⟩

end Tracers

/-! ### Shallow water equations -/

section Swe

variable {m : Mesh 2}

/-- The shallow water equations without wetting and drying, linear or not, and the 2D mode of the 3D model, with boundary conditions other
than `flux` alone. -/
def IsSwe (E : Eqn (State m)) : Prop :=
  ∃ (T : Swe.Term m) (K : Swe.Coeffs m) (bc : ℕ → Option (Swe.Funcs m)), T.depth.wetdry = false ∧ (∀ k f, bc k = some f → Plain T f) ∧
    (E = swe T K bc ∨ E = modeSplit T K bc)

/-- C145: explicit steps of the shallow water equations, with any boundary conditions. -/
theorem C145_swe_explicit {H : Submodule ℝ (State m)} [FiniteDimensional ℝ H] (hw : ∀ x, 0 < m.wC x)
    (hdef : ∀ x ∈ H, (∀ c, (∀ i, (x.1 i (.cell c)).v = 0) ∧ (x.2 (.cell c)).v = 0) → x = 0) (T : Swe.Term m) (K : Swe.Coeffs m)
    (bc : ℕ → Option (Swe.Funcs m)) (hd : T.depth.wetdry = false) : Explicitly (swe T K bc) H ∧ Explicitly (modeSplit T K bc) H := by
  have hr := regular_ipState hw hdef
  have hm : (swe T K bc).mass = ipState := funext fun _ => funext fun _ => swe_mass T K bc hd _ _
  exact ⟨explicitly (C145_weak_swe T K bc hd).1 (hm ▸ hr), explicitly (C145_weak_swe T K bc hd).2 hr⟩

/-- C145: implicit steps of the shallow water equations with `semi_implicit`, that is with coefficients from the old solution. -/
theorem C145_swe_implicit {H : Submodule ℝ (State m)} [FiniteDimensional ℝ H] (hw : ∀ x, 0 < m.wC x)
    (hdef : ∀ x ∈ H, (∀ c, (∀ i, (x.1 i (.cell c)).v = 0) ∧ (x.2 (.cell c)).v = 0) → x = 0) : Implicitly (IsSwe (m := m)) true H := by
  have hr := regular_ipState hw hdef
  have key : ∀ E : Eqn (State m), IsSwe E → Weak E ∧ (∀ v, Affine E v) ∧ Regular H E.mass ∧ Regular H E.inner := by
    rintro E ⟨T, K, bc, hd, hb, rfl | rfl⟩
    · have hm : (swe T K bc).mass = ipState := funext fun _ => funext fun _ => swe_mass T K bc hd _ _
      exact ⟨(C145_weak_swe T K bc hd).1, fun v => (C145_affine_swe T K bc hb v).1, hm ▸ hr, hr⟩
    · exact ⟨(C145_weak_swe T K bc hd).2, fun v => (C145_affine_swe T K bc hb v).2, hr, hr⟩
  exact implicitly (fun E hE => (key E hE).1) (fun E hE => (key E hE).2.1) (fun _ _ => Or.inl rfl) (fun E hE => (key E hE).2.2.1)
    fun E hE => (key E hE).2.2.2

/-- The coefficients without the forcing. -/
def unforced (K : Swe.Coeffs m) : Swe.Coeffs m :=
  { K with wind := none, pressure := none, source := none, volume := none, bottomDrag := none }

theorem forcing_out (T : Swe.Term m) (K : Swe.Coeffs m) (bc : ℕ → Option (Swe.Funcs m)) (x v w : State m) :
    (swe T K bc).res x v w - (swe T K bc).res 0 v w = (swe T (unforced K) bc).res x v w - (swe T (unforced K) bc).res 0 v w := by
  simp only [swe, Swe.momentum, Swe.continuity, unforced]
  ring

/-- C145: linear waves in a basin (`Basin`, the conditions of C127) with any wind, air pressure and sources are stepped by the implicit
methods with every time step. -/
theorem C145_waves_all {T : Swe.Term m} {K : ℕ → Swe.Coeffs m} {bc : ℕ → Option (Swe.Funcs m)} {Hu : Submodule ℝ (Vc m)}
    {He : Submodule ℝ (Sc m)} {D : ℝ} [FiniteDimensional ℝ (Hu.prod He)] (B : ∀ i, Basin T (unforced (K i)) bc Hu He D)
    (hb : ∀ k f, bc k = some f → Plain T f) (hw : ∀ x, 0 < m.wC x)
    (hdef : ∀ x ∈ Hu.prod He, (∀ c, (∀ i, (x.1 i (.cell c)).v = 0) ∧ (x.2 (.cell c)).v = 0) → x = 0) (dt : ℝ) (hdt : 0 ≤ dt)
    (old : State m) :
    (∀ theta, 0 ≤ theta → ∃! new, ThetaStep (swe T (K 0) bc) (swe T (K 1) bc) dt theta true (Hu.prod He) old new) ∧
    ∀ R : RK.Tableau, (∀ i < R.n, 0 ≤ R.a i i) → ∃! new, TendencyStep (fun i => swe T (K i) bc) R dt true (Hu.prod He) old new := by
  have hd := (B 0).linear.2.2
  have hm : ∀ i, (swe T (K i) bc).mass = ipState := fun i => funext fun _ => funext fun _ => swe_mass T (K i) bc hd _ _
  have hR : ∀ i v t, 0 ≤ t → Regular (Hu.prod He) (matrix ipState (swe T (K i) bc) v t) := fun i v t ht => by
    have hE := (B i).hasEnergy
    refine C145_passive (weight T.g D) v ht hE.maps (fun x _ => ?_) (fun x hx h0 => (B i).definite hdef hw x hx ?_) fun x hx => ?_
    · rw [ipState_energy]
      exact add_nonneg (mul_nonneg (B i).depth_pos.le (dx_nonneg fun c => sum_nonneg fun i _ => sq_nonneg _))
        (mul_nonneg (B i).g_pos.le (dx_nonneg fun c => sq_nonneg _))
    · rw [swe_mass T _ bc hd]
      exact h0
    · have z : (swe T (unforced (K i)) bc).res 0 v (weight T.g D x) = 0 := (((B i).linear' v).1 x).map_zero
      rw [forcing_out, z, sub_zero]
      exact (B i).passive v x hx
  exact ⟨fun theta ht => C145_theta (C145_weak_swe T (K 0) bc hd).1 (C145_weak_swe T (K 1) bc hd).1 dt theta true old
      (C145_affine_swe T (K 0) bc hb old).1 (Or.inl rfl) (by rw [hm]; exact hR 0 old _ (mul_nonneg hdt ht)),
    fun R ha => C145_dirk (fun i _ => (C145_weak_swe T (K i) bc hd).1) (fun i _ v => (C145_affine_swe T (K i) bc hb v).1) dt true old
      fun i hi v _ => hR i v _ (mul_nonneg (ha i hi) hdt)⟩

end Swe

/-! ### Examples -/

/-- The nonlinear equations on the square with a Flather boundary condition: explicit steps have one result. -/
example : Explicitly (swe { Swe.exTerm with nonlinear := true } exCoeffs fun k => if k = 1 then some [.elev fun _ => 1, .uv fun _ _ => 0] else none)
    ((Submodule.pi Set.univ fun _ => linears).prod linears) :=
  (C145_swe_explicit (fun c => show (0 : ℝ) < 1 / 6 by norm_num) linears_pair _ _ _ rfl).1

/-- The same equations stepped implicitly: every short time step has one result. -/
example (old : State square) : ∃ bound > 0, ∀ dt, 0 < dt → dt < bound → ∃! new,
    ThetaStep (swe { Swe.exTerm with nonlinear := true } exCoeffs fun k => if k = 1 then some [.elev fun _ => 1, .uv fun _ _ => 0] else none)
      (swe { Swe.exTerm with nonlinear := true } exCoeffs fun k => if k = 1 then some [.elev fun _ => 1, .uv fun _ _ => 0] else none)
      dt (1 / 2) true ((Submodule.pi Set.univ fun _ => linears).prod linears) old new := by
  have h : IsSwe (swe { Swe.exTerm with nonlinear := true } exCoeffs fun k =>
      if k = 1 then some [.elev fun _ => 1, .uv fun _ _ => 0] else none) := by
    refine ⟨_, _, _, ?_, fun k f hf => ?_, Or.inl rfl⟩
    · rfl
    · split at hf
      · obtain rfl := Option.some.inj hf
        exact Or.inl rfl
      · cases hf
  exact C145_small ((C145_swe_implicit (fun c => show (0 : ℝ) < 1 / 6 by norm_num) linears_pair).theta _ _ (1 / 2) old h h)

/-- Waves on the square pushed by a wind: every time step works. -/
example (tau : Vc square) (old : State square) : ∃! new, ThetaStep (swe Swe.exTerm { exCoeffs with wind := some tau } fun _ => none)
    (swe Swe.exTerm { exCoeffs with wind := some tau } fun _ => none) 3600 (1 / 2) true ((Submodule.pi Set.univ fun _ => linears).prod linears)
    old new :=
  (C145_waves_all (K := fun _ => { exCoeffs with wind := some tau }) (fun _ => exBasin) (fun _ _ h => by cases h)
    (fun c => show (0 : ℝ) < 1 / 6 by norm_num) linears_pair 3600 (by norm_num) old).1 (1 / 2) (by norm_num)

/-- An equation that amplifies its unknown, `du/dt = u`. -/
def growth : Eqn ℝ where
  mass x y := x * y
  inner x y := x * y
  res x _ y := x * y

/-- C145: single time steps have to be left out: one that is the inverse of the rate of growth and of the parameter has no result. -/
theorem C145_singular (theta : ℝ) (h : 0 < theta) : ¬ ∃ new, ThetaStep growth growth (1 / theta) theta false ⊤ 1 new := by
  rintro ⟨x, -, hx⟩
  have := hx 1 trivial
  have hp : 0 < 1 / theta := one_div_pos.2 h
  simp only [growth, mul_one] at this
  have e : x - 1 - 1 / theta * (theta * x + (1 - theta)) = -(1 / theta) := by field_simp; ring
  linarith

/-- Quadratic friction in one number. -/
def friction : Eqn ℝ where
  mass x y := x * y
  inner x y := x * y
  res x v y := -(v * x * y)

/-- C145: with coefficients from the unknown, that is without `semi_implicit`, two results are possible. -/
theorem C145_two : ThetaStep friction friction 1 1 false ⊤ 2 1 ∧ ThetaStep friction friction 1 1 false ⊤ 2 (-2) := by
  constructor <;> refine ⟨trivial, fun w _ => ?_⟩ <;> simp only [friction, Bool.false_eq_true, if_false] <;> ring

/-- With coefficients from the old solution there is one. -/
example : ∃! new, ThetaStep friction friction 1 1 true ⊤ 2 new :=
  ⟨2 / 3, ⟨trivial, fun w _ => by simp only [friction, if_true]; ring⟩, fun y hy => by
    have := hy.2 1 trivial
    simp only [friction, if_true] at this
    linarith⟩

end Verif.Solve
