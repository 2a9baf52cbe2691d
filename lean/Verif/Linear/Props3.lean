import Verif.Linear.Lemmas
import Verif.Swe.Model

/-!
C143: superposition of solutions of the linear shallow water equations.
-/

namespace Verif.Linear

open Verif.Dg Verif.Swe

variable {m : Mesh 2} {a b : ℝ}

/-- One entry of a boundary dictionary: the same key, and the combination of the values.  The drag of a boundary is not
linear. -/
def Entry3 (a b : ℝ) : Entry m → Entry m → Entry m → Prop
  | .elev f, .elev g, .elev h => ∀ x, h x = a * f x + b * g x
  | .uv f, .uv g, .uv h => ∀ x i, h x i = a * f x i + b * g x i
  | .un f, .un g, .un h => ∀ x, h x = a * f x + b * g x
  | .flux f, .flux g, .flux h => ∀ x, h x = a * f x + b * g x
  | .other k, .other l, .other n => k = n ∧ l = n
  | _, _, _ => False

/-- Boundary dictionaries with the same keys in the same order. -/
inductive Dict3 (a b : ℝ) : Funcs m → Funcs m → Funcs m → Prop
  | nil : Dict3 a b [] [] []
  | cons {x y z : Entry m} {f g h : Funcs m} : Entry3 a b x y z → Dict3 a b f g h → Dict3 a b (x :: f) (y :: g) (z :: h)

/-- The same at every boundary. -/
def Dicts3 (a b : ℝ) (f g h : ℕ → Option (Funcs m)) : Prop := ∀ k, Opt3 (Dict3 a b) (f k) (g k) (h k)

/-- Combination of functions on the boundary. -/
abbrev RelB (a b : ℝ) (f g h : m.B → ℝ) : Prop := ∀ x, h x = a * f x + b * g x

namespace Dict3

variable {f g h : Funcs m}

theorem elev (H : Dict3 a b f g h) : Opt3 (RelB a b) (Funcs.elev f) (Funcs.elev g) (Funcs.elev h) := by
  induction H with
  | nil => exact trivial
  | @cons x y z f g h hx _ ih =>
    cases x <;> cases y <;> cases z <;> first | exact hx.elim | exact hx | exact ih

theorem uv (H : Dict3 a b f g h) :
    Opt3 (fun p q r => ∀ x i, r x i = a * p x i + b * q x i) (Funcs.uv f) (Funcs.uv g) (Funcs.uv h) := by
  induction H with
  | nil => exact trivial
  | @cons x y z f g h hx _ ih =>
    cases x <;> cases y <;> cases z <;> first | exact hx.elim | exact hx | exact ih

theorem un (H : Dict3 a b f g h) : Opt3 (RelB a b) (Funcs.un f) (Funcs.un g) (Funcs.un h) := by
  induction H with
  | nil => exact trivial
  | @cons x y z f g h hx _ ih =>
    cases x <;> cases y <;> cases z <;> first | exact hx.elim | exact hx | exact ih

theorem flux (H : Dict3 a b f g h) : Opt3 (RelB a b) (Funcs.flux f) (Funcs.flux g) (Funcs.flux h) := by
  induction H with
  | nil => exact trivial
  | @cons x y z f g h hx _ ih =>
    cases x <;> cases y <;> cases z <;> first | exact hx.elim | exact hx | exact ih

theorem drag (H : Dict3 a b f g h) : Funcs.drag f = none ∧ Funcs.drag g = none ∧ Funcs.drag h = none := by
  induction H with
  | nil => exact ⟨rfl, rfl, rfl⟩
  | @cons x y z f g h hx _ ih =>
    cases x <;> cases y <;> cases z <;> first | exact hx.elim | exact ih

theorem impose (H : Dict3 a b f g h) : imposeLoop f = imposeLoop h ∧ imposeLoop g = imposeLoop h := by
  induction H with
  | nil => exact ⟨rfl, rfl⟩
  | @cons x y z f g h hx _ ih =>
    cases x <;> cases y <;> cases z <;> first | exact hx.elim | exact ⟨rfl, rfl⟩ | (obtain ⟨rfl, rfl⟩ := hx; exact ⟨rfl, rfl⟩)

end Dict3

theorem openFuncs_eq {f g h : ℕ → Option (Funcs m)} (H : Dicts3 a b f g h) (k : ℕ) :
    Opt3 (Dict3 a b) (openFuncs (f k)) (openFuncs (g k)) (openFuncs (h k)) := by
  obtain ⟨h1, h2, h3⟩ | ⟨u, v, w, h1, h2, h3, hw⟩ := (H k).cases
  · rw [h1, h2, h3]
    exact trivial
  · rw [h1, h2, h3]
    obtain ⟨i1, i2⟩ := hw.impose
    simp only [openFuncs, imposeDynamic, i1, i2]
    cases imposeLoop w with
    | error _ => exact trivial
    | ok v => cases v with
      | true => exact hw
      | false => exact trivial

/-- The options of the linear equations: `use_nonlinear_equations` is off (it sets both flags), and so is wetting and
drying. -/
structure Lin (T : Term m) : Prop where
  nonlinear : T.nonlinear = false
  depth : T.depth.nonlinear = false
  wetdry : T.depth.wetdry = false

theorem totalH_lin {T : Term m} (L : Lin T) (eta : Sc m) : totalH T eta = T.depth.bathymetry := by
  funext x
  simp [totalH, Depth.total, L.depth]

theorem depthAt_lin {T : Term m} (L : Lin T) (x : Pt m) (eta : ℝ) : depthAt T x eta = (T.depth.bathymetry x).v := by
  simp [depthAt, Depth.total, L.depth]

/-- The outer values combine. -/
theorem bndF_eq {T : Term m} (L : Lin T) {f g h : Funcs m} (H : Dict3 a b f g h) (k : ℕ) (x : m.B) (e e' : ℝ) (u u' w : Fin 2 → ℝ)
    (hw : ∀ i, w i = a * u i + b * u' i) :
    (bndF T h k x (a * e + b * e') w).1 = a * (bndF T f k x e u).1 + b * (bndF T g k x e' u').1 ∧
    ∀ i, (bndF T h k x (a * e + b * e') w).2 i = a * (bndF T f k x e u).2 i + b * (bndF T g k x e' u').2 i := by
  unfold bndF bndFunctions
  simp only [depthAt_lin L]
  obtain ⟨h1, h2, h3⟩ | ⟨_, _, _, h1, h2, h3, he⟩ := H.elev.cases <;>
  obtain ⟨i1, i2, i3⟩ | ⟨_, _, _, i1, i2, i3, hu⟩ := H.uv.cases <;>
  obtain ⟨j1, j2, j3⟩ | ⟨_, _, _, j1, j2, j3, hn⟩ := H.un.cases <;>
  obtain ⟨k1, k2, k3⟩ | ⟨_, _, _, k1, k2, k3, hq⟩ := H.flux.cases <;>
  simp only [h1, h2, h3, i1, i2, i3, j1, j2, j3, k1, k2, k3, Option.getD] <;>
  refine ⟨by first | exact he x | trivial, fun i => ?_⟩ <;>
  first
  | exact hw i
  | exact hu x i
  | exact right_eq _ (hn x)
  | exact right_eq _ (div_eq' _ (hq x))

theorem atB_eq (u v : Vc m) (x : m.B) (i : Fin 2) : atB (vc a b u v) x i = a * atB u x i + b * atB v x i := rfl

variable {T : Term m} (L : Lin T) {f g h : ℕ → Option (Funcs m)} (H : Dicts3 a b f g h) (u u' uo uo' un : Vc m)
  (e e' eo eo' en : Sc m)
include L

theorem headOpen_eq {f g h : Funcs m} (H : Dict3 a b f g h) (k : ℕ) (x : m.B) :
    headOpen T h k (vc a b u u') (sc a b e e') en x = a * headOpen T f k u e eo x + b * headOpen T g k u' e' eo' x := by
  obtain ⟨e1, e2⟩ := bndF_eq L H k x (e (.bnd x)).v (e' (.bnd x)).v (atB u x) (atB u' x) (atB (vc a b u u') x)
    (atB_eq u u' x)
  simp only [headOpen, totalH_lin L, sc_v, e1, e2, atB_eq, Fin.sum_univ_two]
  ring

include H

theorem headBnd_eq (k : ℕ) (x : m.B) :
    headBnd T h (vc a b u u') (sc a b e e') en k x = a * headBnd T f u e eo k x + b * headBnd T g u' e' eo' k x := by
  unfold headBnd
  obtain ⟨h1, h2, h3⟩ | ⟨p, q, r, h1, h2, h3, hw⟩ := (openFuncs_eq H k).cases
  · simp only [h1, h2, h3, totalH_lin L, sc_v, normalAt_vc]
    ring
  · simp only [h1, h2, h3]
    exact headOpen_eq L u u' e e' eo eo' en hw k x

theorem headCorr_eq (k : ℕ) (x : m.B) :
    headCorr T h (vc a b u u') (sc a b e e') en k x = a * headCorr T f u e eo k x + b * headCorr T g u' e' eo' k x := by
  unfold headCorr
  obtain ⟨h1, h2, h3⟩ | ⟨p, q, r, h1, h2, h3, hw⟩ := (openFuncs_eq H k).cases
  · simp only [h1, h2, h3]
    exact zero_eq
  · simp only [h1, h2, h3]
    exact sub_eq (headOpen_eq L u u' e e' eo eo' en hw k x) (sc_v _ _ _)

theorem pressure_eq (w : Vc m) :
    pressure T h (vc a b u u') (sc a b e e') en w = a * pressure T f u e eo w + b * pressure T g u' e' eo' w := by
  unfold pressure
  refine ite_eq (neg_eq (add_eq (add_eq (dx_eq fun x => ?_) (dS_eq fun s => ?_)) (bndLoop_eq fun k x =>
    right_eq _ (left_eq _ (headBnd_eq L H u u' e e' eo eo' en k x))))) (neg_eq (add_eq (dx_eq fun x => left_eq _ (sum_eq fun i =>
    right_eq _ (sc_g _ _ _ i))) (bndLoop_eq fun k x => right_eq _ (left_eq _ (headCorr_eq L H u u' e e' eo eo' en k x)))))
  · simp only [sc_v]
    ring
  · simp only [totalH_lin L, avg_sc, jumpV_vc]
    ring

theorem volFlux_eq (k : ℕ) (x : m.B) :
    volFlux T h (vc a b u u') (sc a b e e') un en k x = a * volFlux T f u e uo eo k x + b * volFlux T g u' e' uo' eo' k x := by
  unfold volFlux
  obtain ⟨h1, h2, h3⟩ | ⟨p, q, r, h1, h2, h3, hw⟩ := (openFuncs_eq H k).cases
  · simp only [h1, h2, h3]
    exact zero_eq
  · simp only [h1, h2, h3]
    obtain ⟨e1, e2⟩ := bndF_eq L hw k x (e (.bnd x)).v (e' (.bnd x)).v (atB u x) (atB u' x) (atB (vc a b u u') x)
      (atB_eq u u' x)
    simp only [fluxOpen, totalH_lin L, depthAt_lin L, sc_v, e1, e2, atB_eq, Fin.sum_univ_two]
    ring

omit L in
theorem walled_eq (k : ℕ) : walled f k = walled h k ∧ walled g k = walled h k := by
  unfold walled
  obtain ⟨h1, h2, h3⟩ | ⟨p, q, r, h1, h2, h3, hw⟩ := (openFuncs_eq H k).cases
  · simp only [h1, h2, h3, and_self]
  · simp only [h1, h2, h3]
    obtain ⟨j1, j2, j3⟩ | ⟨_, _, _, j1, j2, j3, -⟩ := hw.un.cases <;> simp [j1, j2, j3]

theorem huDiv_eq (phi : Sc m) :
    huDiv T h (vc a b u u') (sc a b e e') un en phi = a * huDiv T f u e uo eo phi + b * huDiv T g u' e' uo' eo' phi := by
  unfold huDiv
  refine ite_eq (neg_eq (add_eq (add_eq (dx_eq fun x => ?_) (ite_eq (dS_eq fun s => sum_eq fun i => ?_) zero_eq))
    (bndLoop_eq fun k x => right_eq _ (volFlux_eq L H u u' uo uo' un e e' eo eo' en k x)))) (neg_eq (add_eq (dx_eq fun x =>
    right_eq _ (sum_eq fun i => ?_)) (bndLoop_eq fun k x => ?_)))
  · simp only [totalH_lin L, vc_v, Fin.sum_univ_two]
    ring
  · simp only [totalH_lin L, avg_vc, jumpN_sc]
    ring
  · simp only [totalH_lin L]
    change (T.depth.bathymetry (.cell x)).g i * (vc a b u u' i (.cell x)).v + (T.depth.bathymetry (.cell x)).v *
        (vc a b u u' i (.cell x)).g i =
      a * ((T.depth.bathymetry (.cell x)).g i * (u i (.cell x)).v + (T.depth.bathymetry (.cell x)).v * (u i (.cell x)).g i) +
      b * ((T.depth.bathymetry (.cell x)).g i * (u' i (.cell x)).v + (T.depth.bathymetry (.cell x)).v * (u' i (.cell x)).g i)
    simp only [vc_v, vc_g]
    ring
  · obtain ⟨w1, w2⟩ := walled_eq H k
    rw [w1, w2]
    refine ite_eq ?_ zero_eq
    simp only [totalH_lin L, normalAt_vc]
    ring

omit L H in
theorem symm_eq (p q r : Fin 2 → Fin 2 → ℝ) (hr : ∀ i j, r i j = a * p i j + b * q i j) (i j : Fin 2) :
    symm T r i j = a * symm T p i j + b * symm T q i j := by
  unfold Swe.symm
  exact ite_eq (add_eq (hr i j) (hr j i)) (hr i j)

omit L H in
theorem stress_eq (nu : Sc m) (x : Pt m) (i j : Fin 2) :
    stress T nu (vc a b u u') x i j = a * stress T nu u x i j + b * stress T nu u' x i j :=
  left_eq _ (symm_eq _ _ _ (fun _ _ => rfl) i j)

omit L H in
theorem tensorJump_eq (s : m.S) (i j : Fin 2) :
    tensorJump (vc a b u u') s i j = a * tensorJump u s i j + b * tensorJump u' s i j :=
  add_eq (right_eq _ rfl) (right_eq _ rfl)

theorem deltaUv_eq (k : ℕ) (x : m.B) :
    Opt3 (fun p q r => ∀ i, r i = a * p i + b * q i) (deltaUv T f u e k x) (deltaUv T g u' e' k x)
      (deltaUv T h (vc a b u u') (sc a b e e') k x) := by
  unfold deltaUv
  obtain ⟨h1, h2, h3⟩ | ⟨p, q, r, h1, h2, h3, hw⟩ := (openFuncs_eq H k).cases
  · simp only [h1, h2, h3]
    exact trivial
  · simp only [h1, h2, h3]
    obtain ⟨e1, e2⟩ := bndF_eq L hw k x (e (.bnd x)).v (e' (.bnd x)).v (atB u x) (atB u' x) (atB (vc a b u u') x)
      (atB_eq u u' x)
    obtain ⟨j1, j2, j3⟩ | ⟨_, _, _, j1, j2, j3, hn⟩ := hw.un.cases
    · obtain ⟨i1, i2, i3⟩ | ⟨_, _, _, i1, i2, i3, -⟩ := hw.uv.cases <;>
      obtain ⟨k1, k2, k3⟩ | ⟨_, _, _, k1, k2, k3, -⟩ := hw.flux.cases <;>
      simp only [j1, j2, j3, i1, i2, i3, k1, k2, k3, Option.isSome, Bool.or_false, Bool.or_true, Bool.false_eq_true, if_false, if_true] <;>
      first | exact trivial | exact fun i => sub_eq (atB_eq u u' x i) (e2 i)
    · simp only [j1, j2, j3]
      exact fun i => right_eq _ (sub_eq (normalAt_vc u u' x) (hn x))

theorem viscBnd_eq (nu : Sc m) (w : Vc m) (k : ℕ) (x : m.B) :
    viscBnd T h nu (vc a b u u') (sc a b e e') w k x = a * viscBnd T f nu u e w k x + b * viscBnd T g nu u' e' w k x := by
  unfold viscBnd
  obtain ⟨h1, h2, h3⟩ | ⟨p, q, r, h1, h2, h3, hd⟩ := (deltaUv_eq L H u u' e e' k x).cases
  · simp only [h1, h2, h3]
    exact zero_eq
  · simp only [h1, h2, h3]
    refine sum_eq fun i => sum_eq fun j => ?_
    have hs : ∀ i j, symm T (fun a c => r a * m.nb x c) i j =
        a * symm T (fun a c => p a * m.nb x c) i j + b * symm T (fun a c => q a * m.nb x c) i j :=
      symm_eq _ _ _ fun i j => right_eq _ (hd i)
    rw [hs, stress_eq]
    ring

theorem viscosity_eq (nu : Option (Sc m)) (w : Vc m) :
    viscosity T h nu (vc a b u u') (sc a b e e') en w =
      a * viscosity T f nu u e eo w + b * viscosity T g nu u' e' eo' w := by
  unfold viscosity
  cases nu with
  | none => exact zero_eq
  | some nu =>
    refine neg_eq (add_eq (add_eq (dx_eq fun x => sum_eq fun i => sum_eq fun j => left_eq _ (stress_eq u u' nu _ i j))
      (ite_eq (add_eq (dS_eq fun s => sum_eq fun i => sum_eq fun j => ?_) (bndLoop_eq fun k x =>
        viscBnd_eq L H u u' e e' nu w k x)) zero_eq)) (ite_eq (dx_eq fun x => neg_eq (sum_eq fun j => left_eq _ (sum_eq fun i => ?_)))
        zero_eq))
    · rw [symm_eq _ _ _ (tensorJump_eq u u' s), stress_eq, stress_eq]
      ring
    · rw [totalH_lin L, totalH_lin L, totalH_lin L]
      exact left_eq _ (stress_eq u u' nu _ i j)

omit L H in
theorem coriolis_eq (c : Option (Sc m)) (w : Vc m) :
    coriolis c (vc a b u u') w = a * coriolis c u w + b * coriolis c u' w := by
  unfold coriolis
  cases c with
  | none => exact zero_eq
  | some c =>
    refine neg_eq (dx_eq fun x => ?_)
    simp only [vc_v]
    ring

omit L H in
theorem linearDrag_eq (c : Option (Sc m)) (w : Vc m) :
    linearDrag c (vc a b u u') w = a * linearDrag c u w + b * linearDrag c u' w := by
  unfold linearDrag
  cases c with
  | none => exact zero_eq
  | some c => exact neg_eq (dx_eq fun x => left_eq _ (sum_eq fun i => left_eq _ (vc_v _ _ _ _)))

omit L H in
theorem windStress_or (tau : Option (Vc m)) (w : Vc m) :
    windStress T tau en w = m.dx fun x => (∑ i, (vcOr tau i (.cell x)).v * (w i (.cell x)).v) / (totalH T en (.cell x)).v / T.rho0 := by
  cases tau with
  | none => simp [windStress, vcOr, Mesh.dx]
  | some s => rfl

omit L H in
theorem atmPressure_or (p : Option (Sc m)) (w : Vc m) :
    atmPressure T p w = -(m.dx fun x => (∑ i, (scOr p (.cell x)).g i * (w i (.cell x)).v) / T.rho0) := by
  cases p with
  | none => simp [atmPressure, scOr, Mesh.dx]
  | some s => rfl

omit L H in
theorem momentumSource_or (s : Option (Vc m)) (w : Vc m) :
    momentumSource s w = m.dx fun x => ∑ i, (vcOr s i (.cell x)).v * (w i (.cell x)).v := by
  cases s with
  | none => simp [momentumSource, vcOr, Mesh.dx]
  | some s => rfl

omit L H in
theorem volumeSource_or (s : Option (Sc m)) (phi : Sc m) :
    volumeSource s phi = m.dx fun x => (scOr s (.cell x)).v * (phi (.cell x)).v := by
  cases s with
  | none => simp [volumeSource, scOr, Mesh.dx]
  | some s => rfl

omit L in
theorem boundaryDrag_eq (uv uvOld w : Vc m) :
    boundaryDrag f uv uvOld w = 0 ∧ boundaryDrag g uv uvOld w = 0 ∧ boundaryDrag h uv uvOld w = 0 := by
  have hz : ∀ p : ℕ → Option (Funcs m), (∀ k, (p k).bind Funcs.drag = none) → boundaryDrag p uv uvOld w = 0 := fun p hp => by
    simp only [boundaryDrag, dragBnd, hp]
    simp [Mesh.bndLoop, Mesh.ds]
  refine ⟨hz f fun k => ?_, hz g fun k => ?_, hz h fun k => ?_⟩ <;>
  · obtain ⟨h1, h2, h3⟩ | ⟨p, q, r, h1, h2, h3, hw⟩ := (H k).cases
    · simp [h1, h2, h3]
    · simp [h1, h2, h3, hw.drag]

omit L H

/-- Coefficients of the linear equations: the forces combine, viscosity, Coriolis parameter and linear drag are the same,
the terms with squares of the velocity are absent. -/
structure Coeffs3 (a b : ℝ) (A B C : Coeffs m) : Prop where
  wind : vcOr C.wind = vc a b (vcOr A.wind) (vcOr B.wind)
  pressure : scOr C.pressure = sc a b (scOr A.pressure) (scOr B.pressure)
  source : vcOr C.source = vc a b (vcOr A.source) (vcOr B.source)
  volume : scOr C.volume = sc a b (scOr A.volume) (scOr B.volume)
  nu₁ : A.nu = C.nu
  nu₂ : B.nu = C.nu
  coriolis₁ : A.coriolis = C.coriolis
  coriolis₂ : B.coriolis = C.coriolis
  linear₁ : A.linear = C.linear
  linear₂ : B.linear = C.linear
  cd : A.cd = none ∧ B.cd = none ∧ C.cd = none
  bottomDrag : A.bottomDrag = none ∧ B.bottomDrag = none ∧ C.bottomDrag = none
  farms : A.farms = [] ∧ B.farms = [] ∧ C.farms = []

include L H in
/-- C143: the momentum equation of the linear shallow water equations. -/
theorem C143_momentum {A B C : Coeffs m} (K : Coeffs3 a b A B C) (w : Vc m) :
    momentum T C h (vc a b u u') (sc a b e e') un en w = a * momentum T A f u e uo eo w + b * momentum T B g u' e' uo' eo' w := by
  obtain ⟨kw, kp, ks, -, n1, n2, c1, c2, l1, l2, ⟨d1, d2, d3⟩, ⟨b1, b2, b3⟩, ⟨f1, f2, f3⟩⟩ := K
  unfold momentum
  rw [n1, n2, c1, c2, l1, l2]
  refine add_eq (add_eq (add_eq (add_eq (add_eq (add_eq (add_eq (add_eq (add_eq (add_eq (add_eq
    (pressure_eq L H u u' e e' eo eo' en w) ?_) (viscosity_eq L H u u' e e' eo eo' en C.nu w)) (coriolis_eq u u' _ w)) ?_) ?_) ?_)
    (linearDrag_eq u u' _ w)) ?_) ?_) ?_) ?_
  · simp [advection, L.nonlinear]
  · rw [windStress_or, windStress_or, windStress_or, kw, totalH_lin L, totalH_lin L, totalH_lin L]
    exact dx_eq fun x => div_eq' _ (div_eq' _ (sum_eq fun i => right_eq _ (vc_v _ _ _ _)))
  · rw [atmPressure_or, atmPressure_or, atmPressure_or, kp]
    exact neg_eq (dx_eq fun x => div_eq' _ (sum_eq fun i => right_eq _ (sc_g _ _ _ _)))
  · simp [quadraticDrag, d1, d2, d3]
  · rw [(boundaryDrag_eq H _ _ w).1, (boundaryDrag_eq H _ _ w).2.1, (boundaryDrag_eq H _ _ w).2.2]
    exact zero_eq
  · simp [bottomDrag3d, b1, b2, b3]
  · rw [momentumSource_or, momentumSource_or, momentumSource_or, ks]
    exact dx_eq fun x => sum_eq fun i => right_eq _ (vc_v _ _ _ _)
  · simp [turbineDrag, f1, f2, f3]

include L H in
/-- C143: the continuity equation of the linear shallow water equations. -/
theorem C143_continuity {A B C : Coeffs m} (K : Coeffs3 a b A B C) (phi : Sc m) :
    continuity T C h (vc a b u u') (sc a b e e') un en phi =
      a * continuity T A f u e uo eo phi + b * continuity T B g u' e' uo' eo' phi := by
  unfold continuity
  refine add_eq (huDiv_eq L H u u' uo uo' un e e' eo eo' en phi) ?_
  rw [volumeSource_or, volumeSource_or, volumeSource_or, K.volume]
  exact dx_eq fun x => right_eq _ (sc_v _ _ _)

include L in
/-- C143: the mass terms of the linear shallow water equations. -/
theorem C143_mass (phi : Sc m) :
    massEta T (sc a b e e') phi = a * massEta T e phi + b * massEta T e' phi := by
  have h0 : ∀ x y, T.depth.displacement x y = 0 := fun x y => by simp [Depth.displacement, L.wetdry]
  simp only [massEta, h0]
  exact add_eq (dx_eq fun x => right_eq _ (sc_v _ _ _)) (neg_eq (neg_eq (dx_eq fun x => by simp)))

end Verif.Linear
