import Verif.Solve.Props2

/-!
C145: the equations are linear in the unknown of an implicit step, apart from sources and boundary values.
-/

namespace Verif.Solve

open Finset Verif.Dg Verif.Ext Verif.Contract

/-! ### Linear plus constant -/

section Aff

variable {V : Type*} [AddCommGroup V] [Module ℝ V]

/-- A linear functional plus a constant. -/
def IsAff (f : V → ℝ) : Prop := IsLin fun x => f x - f 0

namespace IsAff

variable {f h : V → ℝ}

theorem const (c : ℝ) : IsAff fun _ : V => c := by simpa [IsAff] using (IsLin.zero : IsLin fun _ : V => (0 : ℝ))

theorem of_lin (hf : IsLin f) : IsAff f := by
  unfold IsAff
  simpa only [hf.map_zero, sub_zero] using hf

theorem congr {g : V → ℝ} (hg : IsLin g) (e : ∀ x, f x - f 0 = g x) : IsAff f := by
  unfold IsAff
  rw [funext e]
  exact hg

theorem add (hf : IsAff f) (hh : IsAff h) : IsAff fun x => f x + h x := congr (IsLin.add hf hh) fun x => by ring
theorem neg (hf : IsAff f) : IsAff fun x => -f x := congr (IsLin.neg hf) fun x => by ring
theorem sub (hf : IsAff f) (hh : IsAff h) : IsAff fun x => f x - h x := congr (IsLin.sub hf hh) fun x => by ring
theorem left (c : ℝ) (hf : IsAff f) : IsAff fun x => c * f x := congr (IsLin.left c hf) fun x => by ring
theorem right (hf : IsAff f) (c : ℝ) : IsAff fun x => f x * c := congr (IsLin.right hf c) fun x => by ring
theorem quot (hf : IsAff f) (c : ℝ) : IsAff fun x => f x / c := congr (IsLin.quot hf c) fun x => by ring

theorem sum {ι : Type*} {s : Finset ι} {F : ι → V → ℝ} (hF : ∀ i, IsAff (F i)) : IsAff fun x => ∑ i ∈ s, F i x :=
  congr (IsLin.sum hF) fun x => by rw [sum_sub_distrib]

theorem dx {d : ℕ} {m : Mesh d} {F : V → m.C → ℝ} (hF : ∀ c, IsAff fun x => F x c) : IsAff fun x => m.dx (F x) :=
  sum fun c => (hF c).left _

theorem dS {d : ℕ} {m : Mesh d} {F : V → m.S → ℝ} (hF : ∀ c, IsAff fun x => F x c) : IsAff fun x => m.dS (F x) :=
  sum fun c => (hF c).left _

theorem dB {d : ℕ} {m : Mesh d} {F : V → m.B → ℝ} (hF : ∀ c, IsAff fun x => F x c) : IsAff fun x => ∑ b, m.wB b * F x b :=
  sum fun c => (hF c).left _

theorem ite {p : Prop} [Decidable p] (hf : IsAff f) (hh : IsAff h) : IsAff fun x => if p then f x else h x := by
  split
  · exact hf
  · exact hh

/-- A functional that keeps weighted means. -/
theorem of_means (hf : ∀ (a b : ℝ) (x y : V), a + b = 1 → f (a • x + b • y) = a * f x + b * f y) : IsAff f := by
  have hs : ∀ (a : ℝ) (x : V), f (a • x) - f 0 = a * (f x - f 0) := fun a x => by
    have := hf a (1 - a) x 0 (by ring)
    rw [smul_zero, add_zero] at this
    rw [this]
    ring
  refine ⟨fun x y => ?_, hs⟩
  have h1 := hf (1 / 2) (1 / 2) x y (by norm_num)
  have h2 := hs 2 ((1 / 2 : ℝ) • x + (1 / 2 : ℝ) • y)
  have e : (2 : ℝ) • ((1 / 2 : ℝ) • x + (1 / 2 : ℝ) • y) = x + y := by module
  rw [e, h1] at h2
  simp only
  linarith

end IsAff

end Aff

/-- Shows that an expression is linear plus constant by its structure. -/
macro "aff" : tactic => `(tactic| repeat' first
  | exact IsAff.const _
  | exact IsAff.of_lin (IsLin.vel_v _ _) | exact IsAff.of_lin (IsLin.vel_g _ _ _) | exact IsAff.of_lin (IsLin.elev_v _)
  | exact IsAff.of_lin (IsLin.elev_g _ _)
  | (apply IsAff.neg) | (apply IsAff.add) | (apply IsAff.sub)
  | (apply IsAff.dx; intro _) | (apply IsAff.dS; intro _) | (apply IsAff.dB; intro _)
  | (apply IsAff.left) | (apply IsAff.right) | (apply IsAff.quot) | (apply IsAff.ite) | (apply IsAff.sum; intro _))

/-! ### Tracers, by superposition -/

section Tracers

theorem sc_self {d : ℕ} {m : Mesh d} {a b : ℝ} (h : a + b = 1) (f : Sc m) : f = Linear.sc a b f f := by
  funext x
  refine Jet.ext ?_ (funext fun i => ?_)
  · change (f x).v = a * (f x).v + b * (f x).v
    rw [← add_mul, h, one_mul]
  · change (f x).g i = a * (f x).g i + b * (f x).g i
    rw [← add_mul, h, one_mul]

theorem opt_self {α : Type*} {R : α → α → α → Prop} (h : ∀ x, R x x x) (o : Option α) : Linear.Opt3 R o o o := by
  cases o with
  | none => exact trivial
  | some x => exact h x

theorem bnds2_self {m : Mesh 2} {a b : ℝ} (h : a + b = 1) (bc : ℕ → Option (Tracer2.BFuncs m)) : Linear.Bnds2 a b bc bc bc := fun k =>
  opt_self (fun f => ⟨opt_self (fun v x => congrFun (sc_self (m := m) h fun _ => v x) (.bnd x)) _,
    opt_self (fun v x => by rw [← add_mul, h, one_mul]) _, rfl, rfl, rfl, rfl, rfl, rfl, rfl, rfl⟩) _

theorem bnds3_self {e : Mesh3} {a b : ℝ} (h : a + b = 1) (bc : ℕ → Option (Tracer3.BFuncs e)) : Linear.Bnds3 a b bc bc bc := fun k =>
  opt_self (fun f => ⟨opt_self (fun v x => by rw [← add_mul, h, one_mul]) _, rfl, rfl, rfl, rfl, rfl, rfl⟩) _

theorem affine_of_super {V : Type*} [AddCommGroup V] [Module ℝ V] {E : Eqn V} (h : ∀ a b : ℝ, a + b = 1 → Linear.Super a b E E E) (v : V) :
    Affine E v := fun w => IsAff.of_means fun a b x y hab => by
  have := (h a b hab).res x y v v w
  rwa [← add_smul, hab, one_smul] at this

/-- C145: the tracer equations of the 2D model with any sources and boundary conditions. -/
theorem C145_affine_tracer2 {m : Mesh 2} (T : Tracer2.Term m) (F : Tracer2.Flow m) (mu src : Option (Sc m)) (sup : Sc m →ₗ[ℝ] Sc m)
    (bc : ℕ → Option (Tracer2.BFuncs m)) (v : Sc m) :
    Affine (Linear.tracerEqn T F mu src sup bc) v ∧ Affine (Linear.consTracerEqn T F mu src sup bc) v :=
  ⟨affine_of_super (fun _ _ h => (Linear.C143_tracer2 T F mu src src src sup (sc_self h _) (bnds2_self h bc)).1) v,
    affine_of_super (fun _ _ h => (Linear.C143_tracer2 T F mu src src src sup (sc_self h _) (bnds2_self h bc)).2) v⟩

/-- C145: the tracer equation of the 3D model with any sources and boundary conditions. -/
theorem C145_affine_tracer3 {e : Mesh3} (T : Tracer3.Term e) (F : Tracer3.Fields e) (bc : ℕ → Option (Tracer3.BFuncs e)) (v : Sc e.m) :
    Affine (tracer3 T F bc) v :=
  affine_of_super (fun _ _ h => Linear.C143_tracer3_eqn T F F.source F.source F.source (sc_self h _) (bnds3_self h bc)) v

end Tracers

/-! ### Shallow water equations -/

section Swe

open Verif.Swe

variable {m : Mesh 2} (T : Swe.Term m) (K : Coeffs m) (bc : ℕ → Option (Funcs m))

/-- A boundary dictionary whose outer values are linear in the inner ones: not `flux` alone, where the outer velocity is the flux
divided by the depth of the unknown water level, unless this depth does not move. -/
def Plain (T : Swe.Term m) (f : Funcs m) : Prop :=
  f.elev.isSome ∨ f.uv.isSome ∨ f.un.isSome ∨ f.flux = none ∨ T.depth.nonlinear = false

theorem bndF_aff {f : Funcs m} (h : Plain T f) (k : ℕ) (b : m.B) :
    (IsAff fun x : State m => (bndF T f k b (x.2 (.bnd b)).v (atB x.1 b)).1) ∧
    ∀ i, IsAff fun x : State m => (bndF T f k b (x.2 (.bnd b)).v (atB x.1 b)).2 i := by
  unfold Plain at h
  have hd : T.depth.nonlinear = false → ∀ z, depthAt T (.bnd b) z = (T.depth.bathymetry (.bnd b)).v := fun h z => by
    simp [depthAt, Depth.total, h]
  unfold bndF bndFunctions
  cases he : f.elev <;> cases hu : f.uv <;> cases hn : f.un <;> cases hq : f.flux <;>
    simp only [he, hu, hn, hq, Option.isSome_none, Option.isSome_some, Bool.false_eq_true, false_or, reduceCtorEq] at h <;>
    simp only [Option.getD_some, Option.getD_none, atB] <;>
    try simp only [hd h]
  all_goals refine ⟨?_, fun i => ?_⟩ <;> aff

attribute [local irreducible] bndF

variable (hb : ∀ k f, bc k = some f → Plain T f)

include hb

theorem open_plain {k : ℕ} {f : Funcs m} (h : openFuncs (bc k) = some f) : Plain T f := by
  refine hb k f ?_
  unfold openFuncs at h
  split at h
  · exact h
  · exact absurd h (by simp)

theorem headBnd_aff (e : Sc m) (k : ℕ) (b : m.B) : IsAff fun x : State m => headBnd T bc x.1 x.2 e k b := by
  unfold headBnd
  cases h : openFuncs (bc k) with
  | none => simp only [normalAt]; aff
  | some f =>
    obtain ⟨h1, h2⟩ := bndF_aff T (open_plain T bc hb h) k b
    simp only [headOpen]
    aff
    all_goals first | exact h1 | exact h2 _

theorem headCorr_aff (e : Sc m) (k : ℕ) (b : m.B) : IsAff fun x : State m => headCorr T bc x.1 x.2 e k b := by
  unfold headCorr
  cases h : openFuncs (bc k) with
  | none => exact IsAff.const _
  | some f =>
    obtain ⟨h1, h2⟩ := bndF_aff T (open_plain T bc hb h) k b
    simp only [headOpen]
    aff
    all_goals first | exact h1 | exact h2 _

theorem pressure_aff (e : Sc m) (w : Vc m) : IsAff fun x : State m => pressure T bc x.1 x.2 e w := by
  have h1 := headBnd_aff T bc hb e
  have h2 := headCorr_aff T bc hb e
  unfold pressure
  cases T.etaDg <;> simp only [if_true, if_false, Bool.false_eq_true, bndLoop_eq, avg, jumpV] <;> aff
  · exact h2 _ _
  · exact h1 _ _

theorem volFlux_aff (v : State m) (k : ℕ) (b : m.B) : IsAff fun x : State m => volFlux T bc x.1 x.2 v.1 v.2 k b := by
  unfold volFlux
  cases h : openFuncs (bc k) with
  | none => exact IsAff.const _
  | some f =>
    obtain ⟨h1, h2⟩ := bndF_aff T (open_plain T bc hb h) k b
    simp only [fluxOpen]
    aff
    all_goals first | exact h1 | exact h2 _

theorem huDiv_aff (v : State m) (p : Sc m) : IsAff fun x : State m => huDiv T bc x.1 x.2 v.1 v.2 p := by
  have h1 := volFlux_aff T bc hb v
  unfold huDiv
  cases T.uDg <;> cases T.etaDg <;>
    simp only [if_true, if_false, Bool.false_eq_true, bndLoop_eq, avg, jumpN, normalAt, div, Pi.mul_apply, Jet.mul_g] <;> aff <;>
    exact h1 _ _

theorem momBnd_aff (v : State m) (w : Vc m) (k : ℕ) (b : m.B) : IsAff fun x : State m => momBnd T bc x.1 x.2 v.1 v.2 w k b := by
  unfold momBnd
  cases h : openFuncs (bc k) with
  | none => exact IsAff.const _
  | some f =>
    obtain ⟨h1, h2⟩ := bndF_aff T (open_plain T bc hb h) k b
    simp only [momFlux]
    aff
    all_goals exact h2 _

omit hb in
theorem lfBnd_aff (v w : Vc m) (k : ℕ) (b : m.B) : IsAff fun x : State m => lfBnd T bc x.1 v w k b := by
  unfold lfBnd
  cases openFuncs (bc k) <;> simp only [atB, normalAt] <;> aff

theorem swe_advection_aff (v : State m) (w : Vc m) : IsAff fun x : State m => advection T bc x.1 x.2 v.1 v.2 w := by
  have h1 := momBnd_aff T bc hb v w
  have h2 := lfBnd_aff T bc v.1 w
  unfold advection
  cases T.nonlinear <;> cases T.uDg <;> cases T.lf <;>
    simp only [if_true, if_false, Bool.false_eq_true, bndLoop_eq, jump, avg] <;> aff <;> first | exact h1 _ _ | exact h2 _ _

omit hb in
theorem symm_aff {a : State m → Fin 2 → Fin 2 → ℝ} (h : ∀ i j, IsAff fun x => a x i j) (i j : Fin 2) :
    IsAff fun x => Swe.symm T (a x) i j := by
  unfold Swe.symm
  split
  · exact (h i j).add (h j i)
  · exact h i j

omit hb in
theorem stress_aff (nu : Sc m) (p : Pt m) (i j : Fin 2) : IsAff fun x : State m => stress T nu x.1 p i j :=
  (symm_aff T (fun a b => IsAff.of_lin (IsLin.vel_g a b p)) i j).left _

omit hb in
theorem jump_aff (s : m.S) (i j : Fin 2) : IsAff fun x : State m => Swe.symm T (tensorJump x.1 s) i j :=
  symm_aff T (fun a _ => ((IsAff.of_lin (IsLin.vel_v a _)).right _).add ((IsAff.of_lin (IsLin.vel_v a _)).right _)) i j

attribute [local irreducible] stress Swe.symm

theorem viscBnd_aff (nu : Sc m) (w : Vc m) (k : ℕ) (b : m.B) : IsAff fun x : State m => viscBnd T bc nu x.1 x.2 w k b := by
  have key : ∀ d : State m → Fin 2 → ℝ, (∀ i, IsAff fun x => d x i) → IsAff fun x : State m => ∑ i, ∑ j,
      (sigma T (T.sipg (.bnd b)).v (m.volB b) (m.areaB b) *
        ((w i (.bnd b)).v * m.nb b j * ((nu (.bnd b)).v * Swe.symm T (fun a c => d x a * m.nb b c) i j)) -
      (w i (.bnd b)).g j * ((nu (.bnd b)).v * Swe.symm T (fun a c => d x a * m.nb b c) i j) -
      (w i (.bnd b)).v * m.nb b j * stress T nu x.1 (.bnd b) i j) := fun d hd => by
    have hs := symm_aff T (a := fun x a c => d x a * m.nb b c) fun a c => (hd a).right _
    exact IsAff.sum fun i => IsAff.sum fun j =>
      (((((hs i j).left _).left _).left _).sub (((hs i j).left _).left _)).sub ((stress_aff T nu _ i j).left _)
  unfold viscBnd deltaUv
  cases h : openFuncs (bc k) with
  | none => exact IsAff.const _
  | some f =>
    obtain ⟨h1, h2⟩ := bndF_aff T (open_plain T bc hb h) k b
    cases hn : f.un with
    | some u =>
      simp only [hn]
      exact key (fun x i => (normalAt x.1 b - u b) * m.nb b i) fun i => by simp only [normalAt]; aff
    | none =>
      cases hc : f.uv.isSome || f.flux.isSome with
      | false => simp only [hn, hc, Bool.false_eq_true, if_false]; exact IsAff.const _
      | true =>
        simp only [hn, hc, if_true]
        exact key (fun x i => atB x.1 b i - (bndF T f k b (x.2 (.bnd b)).v (atB x.1 b)).2 i) fun i =>
          (IsAff.of_lin (IsLin.vel_v i _)).sub (h2 i)

theorem viscosity_aff (nu : Option (Sc m)) (e : Sc m) (w : Vc m) : IsAff fun x : State m => viscosity T bc nu x.1 x.2 e w := by
  unfold viscosity
  cases nu with
  | none => exact IsAff.const _
  | some nu =>
    simp only [bndLoop_eq]
    refine IsAff.neg (((IsAff.dx fun c => IsAff.sum fun i => IsAff.sum fun j => (stress_aff T nu _ i j).left _).add
      (IsAff.ite (IsAff.add (IsAff.dS fun s => IsAff.sum fun i => IsAff.sum fun j => ?_)
        (IsAff.dB fun b => viscBnd_aff T bc hb nu w _ b)) (IsAff.const _))).add
      (IsAff.ite (IsAff.dx fun c => IsAff.neg (IsAff.sum fun j => IsAff.left _ (IsAff.sum fun i => (stress_aff T nu _ i j).left _)))
        (IsAff.const _)))
    exact (((((jump_aff T s i j).left _).left _).left _).sub (((jump_aff T s i j).left _).left _)).sub
      ((((stress_aff T nu _ i j).add (stress_aff T nu _ i j)).left _).left _)

theorem momentum_aff (v : State m) (w : Vc m) : IsAff fun x : State m => momentum T K bc x.1 x.2 v.1 v.2 w :=
  (((((((((((pressure_aff T bc hb v.2 w).add (swe_advection_aff T bc hb v w)).add (viscosity_aff T bc hb K.nu v.2 w)).add
    (IsAff.of_lin (coriolis_left K.coriolis w))).add (IsAff.const _)).add (IsAff.const _)).add
    (IsAff.of_lin (quadraticDrag_left T K.cd v w))).add (IsAff.of_lin (linearDrag_left K.linear w))).add
    (IsAff.of_lin (boundaryDrag_left bc v.1 w))).add (IsAff.const _)).add (IsAff.const _)).add (IsAff.of_lin (turbineDrag_left T K.farms v w))

theorem continuity_aff (v : State m) (p : Sc m) : IsAff fun x : State m => continuity T K bc x.1 x.2 v.1 v.2 p :=
  (huDiv_aff T bc hb v p).add (IsAff.const _)

/-- C145: the shallow water equations, linear or not, with coefficients from a given state, and the 2D mode of the 3D model. -/
theorem C145_affine_swe (v : State m) : Affine (swe T K bc) v ∧ Affine (modeSplit T K bc) v :=
  ⟨fun w => (momentum_aff T K bc hb v w.1).add (continuity_aff T K bc hb v w.2),
    fun w => ((((pressure_aff T bc hb v.2 w.1).add (IsAff.of_lin (coriolis_left K.coriolis w.1))).add (IsAff.const _)).add
      (IsAff.const _)).add (continuity_aff T K bc hb v w.2)⟩

end Swe

end Verif.Solve
