import Verif.Frame.Props
import Verif.Tracer2.Model

/-!
C140 for depth-averaged tracers.
-/

namespace Verif.Frame

open Verif.Dg Verif.Tracer2

variable {m m' : Mesh 2}

namespace View

variable (V : View m m')

/-- The entry of a boundary in the new description. -/
def tracerFuncs (f : BFuncs m) : BFuncs m' where
  elev := f.elev.map fun e x => rot V.R (e (V.b x))
  value := f.value.map fun e x => rot V.R (e (V.b x))
  uv := f.uv.map fun e x => rotV V.R (e (V.b x))
  flux := f.flux.map fun e x => e (V.b x)
  un := f.un.map fun e x => e (V.b x)
  diffFlux := f.diffFlux.map fun e x => e (V.b x)

/-- The boundary conditions. -/
def tracerBcs (bc : ℕ → Option (BFuncs m)) (k : ℕ) : Option (BFuncs m') := (bc k).map V.tracerFuncs

/-- Members and options of the terms. -/
def tracerTerm (T : Term m) : Term m' :=
  ⟨V.depth T.depth, T.dg, T.lf, T.blen, V.sc T.sipg, T.p, T.triangle, T.z⟩

/-- The flow. -/
def flow (F : Flow m) : Flow m' :=
  ⟨F.uv.map V.vc, V.sc F.elev, V.sc F.factor, F.lfFactor, F.uvP1.map V.vc, F.uvMag.map V.sc⟩

theorem tracerBnd_eq (T : Term m) (factor : Sc m) (f : BFuncs m) (k : ℕ) (x : m'.B) (c : Jet 2) (u : Fin 2 → ℝ)
    (e : Jet 2) : Tracer2.bndFunctions (V.tracerTerm T) (V.sc factor) (V.tracerFuncs f) k x (rot V.R c) (rotV V.R u)
      (rot V.R e) = (rot V.R (Tracer2.bndFunctions T factor f k (V.b x) c u e).1,
        rotV V.R (Tracer2.bndFunctions T factor f k (V.b x) c u e).2.1,
        rot V.R (Tracer2.bndFunctions T factor f k (V.b x) c u e).2.2) := by
  have hn : ∀ (a : ℝ) (u : Fin 2 → ℝ), (fun i => a * rotV V.R u i) = rotV V.R fun i => a * u i := fun a u =>
    funext fun i => (rotV_smul _ _ _ _).symm
  have ht : ∀ e, ((V.depth T.depth).total (.bnd x) (rot V.R e)).v = (T.depth.total (.bnd (V.b x)) e).v := fun e => by
    rw [V.total_eq]
    rfl
  unfold Tracer2.bndFunctions tracerFuncs tracerTerm
  simp only [V.nb, sc_v, pt_bnd]
  cases f.elev <;> cases f.value <;> cases f.uv <;> cases f.flux <;> cases f.un <;> simp [hn, ht]

theorem corrected_eq (F : Flow m) (uv : Vc m) : corrected (V.flow F) (V.vc uv) = V.vc (corrected F uv) :=
  sc_mul_vc V F.factor uv

end View

open View

variable (V : View m m')

/-- At interior facets where the mean normal velocity vanishes, the normal velocity vanishes on both sides (or
`sign(0)` is zero).  Else the upwind side is not defined by the flow. -/
def Settled (T : Term m) (uv : Vc m) : Prop :=
  T.z = 0 ∨ ∀ s, unAv uv s = 0 → ∑ i, (uv i (.plus s)).v * m.np s i = 0 ∧ ∑ i, (uv i (.minus s)).v * m.nm s i = 0

theorem unAv_eq (hf : m.Flat) (uv : Vc m) (x : m'.S) : unAv (V.vc uv) x = V.sign x * unAv uv (V.s x) := by
  have e : ∀ {m : Mesh 2} (u : Vc m) s, unAv u s = ∑ i, avg (u i) s * m.nm s i := fun u s => by
    rw [Fin.sum_univ_two]; rfl
  rw [e, e, V.nm]
  simp only [avg_vc, dot_rot V.orth, View.sign]
  cases V.flip x
  · simp
  · simp [hf _ _, Fin.sum_univ_two]

/-- The upwind switch at a facet whose sides are exchanged. -/
theorem upwind_neg (T : Term m) (x : ℝ) (h : T.z = 0 ∨ x ≠ 0) : upwind T (-x) = 1 - upwind T x := by
  unfold upwind
  rw [sgn_neg T.z x h]
  ring

/-- The upwind value times what it multiplies, `a` on the plus side and `b` on the minus side. -/
theorem upwind_swap (T : Term m) (un cp cm a b : ℝ) (h : T.z = 0 ∨ un ≠ 0 ∨ a = 0 ∧ b = 0) :
    (cp * upwind T (-un) + cm * (1 - upwind T (-un))) * (b + a) = (cm * upwind T un + cp * (1 - upwind T un)) * (a + b) := by
  have h' : (T.z = 0 ∨ un ≠ 0) ∨ a = 0 ∧ b = 0 := by tauto
  rcases h' with h | ⟨h1, h2⟩
  · rw [upwind_neg T un h]
    ring
  · rw [h1, h2]
    ring

theorem advBnd_eq (T : Term m) (F : Flow m) (uv : Vc m) (bc : ℕ → Option (BFuncs m)) (c : Sc m) (k : ℕ) (x : m'.B) :
    advBndFlux (V.tracerTerm T) (V.flow F) (V.vc uv) (V.tracerBcs bc) (V.sc c) k x =
      advBndFlux T F uv bc c k (V.b x) := by
  have hd := fun u v : Fin 2 → ℝ => by simpa only [Fin.sum_univ_two] using dot_rot V.orth u v
  unfold advBndFlux View.tracerBcs
  cases bc k with
  | none =>
    simp only [Option.map_none, vc_v, V.nb, hd, sc_v]
    rfl
  | some f =>
    have hb := V.tracerBnd_eq T F.factor f k x (c (.bnd (V.b x))) (fun i => (uv i (.bnd (V.b x))).v) (F.elev (.bnd (V.b x)))
    simp only [Option.map_some]
    rw [show (fun i => (V.vc uv i (.bnd x)).v) = rotV V.R fun i => (uv i (.bnd (V.b x))).v from rfl,
      show V.sc c (.bnd x) = rot V.R (c (.bnd (V.b x))) from rfl,
      show (V.flow F).elev (.bnd x) = rot V.R (F.elev (.bnd (V.b x))) from rfl,
      show (V.flow F).factor = V.sc F.factor from rfl, hb]
    simp only [vc_v, pt_bnd, ← rotV_add, ← rotV_smul V.R (1 / 2), V.nb, hd, rot_v]
    rfl

/-- C140: advection of a tracer. -/
theorem C140_tracer_advection (hf : m.Flat) (T : Term m) (F : Flow m) (bc : ℕ → Option (BFuncs m)) (c test : Sc m)
    (hz : ∀ uv, F.uv = some uv → Settled T (corrected F uv)) :
    Tracer2.advection (V.tracerTerm T) (V.flow F) (V.tracerBcs bc) (V.sc c) (V.sc test) =
      Tracer2.advection T F bc c test := by
  unfold Tracer2.advection
  cases hu : F.uv with
  | none => simp [View.flow, hu]
  | some uv2 =>
    simp only [show (V.flow F).uv = some (V.vc uv2) by simp [View.flow, hu], corrected_eq]
    have hz := hz uv2 hu
    generalize corrected F uv2 = uv at hz
    congr 1
    refine congrArg₂ (· + ·) (congrArg₂ (· + ·) (V.dx_eq fun x => congrArg Neg.neg ?_) ?_)
      (V.bndLoop_eq fun k x => ?_)
    · have := congrArg (fun u : Vc m' => div u (.cell x)) (sc_mul_vc V test uv)
      simp only [div_vc] at this
      have e : ∀ {m : Mesh 2} (u : Vc m) (t : Sc m) (y : Pt m), div (fun i => t * u i) y =
          ((u 0 * t) y).g 0 + ((u 1 * t) y).g 1 := by
        intro m u t y
        unfold div
        rw [Fin.sum_univ_two]
        change (t y).g 0 * (u 0 y).v + (t y).v * (u 0 y).g 0 + ((t y).g 1 * (u 1 y).v + (t y).v * (u 1 y).g 1) =
          (u 0 y).g 0 * (t y).v + (u 0 y).v * (t y).g 0 + ((u 1 y).g 1 * (t y).v + (u 1 y).v * (t y).g 1)
        ring
      rw [e, e] at this
      rw [← add_mul, ← add_mul, this]
      rfl
    · refine if_congr Iff.rfl (congrArg₂ (· + ·) (V.dS_eq fun x => ?_) (if_congr Iff.rfl (V.dS_eq fun x => ?_) rfl)) rfl
      · have e : ∀ {m : Mesh 2} (u : Vc m) (t : Sc m) (s : m.S),
            ((t (.plus s)).v * ((u 0 (.plus s)).v * m.np s 0) + (t (.minus s)).v * ((u 0 (.minus s)).v * m.nm s 0)) +
            ((t (.plus s)).v * ((u 1 (.plus s)).v * m.np s 1) + (t (.minus s)).v * ((u 1 (.minus s)).v * m.nm s 1)) =
            (t (.plus s)).v * (∑ i, (u i (.plus s)).v * m.np s i) +
              (t (.minus s)).v * ∑ i, (u i (.minus s)).v * m.nm s i := by
          intro m u t s
          rw [Fin.sum_univ_two, Fin.sum_univ_two]
          ring
        rw [e, e, unAv_eq V hf]
        simp only [vc_v, V.np, V.nm, dot_rot V.orth, sc_v, pt_plus, pt_minus, View.sign]
        have hz' : T.z = 0 ∨ unAv uv (V.s x) ≠ 0 ∨
            (test (.plus (V.s x))).v * (∑ i, (uv i (.plus (V.s x))).v * m.np (V.s x) i) = 0 ∧
              (test (.minus (V.s x))).v * (∑ i, (uv i (.minus (V.s x))).v * m.nm (V.s x) i) = 0 := by
          rcases hz with h | h
          · exact .inl h
          · by_cases h0 : unAv uv (V.s x) = 0
            · obtain ⟨h1, h2⟩ := h _ h0
              exact .inr (.inr ⟨by rw [h1, mul_zero], by rw [h2, mul_zero]⟩)
            · exact .inr (.inl h0)
        cases V.flip x
        · simp only [Bool.false_eq_true, if_false, one_mul]
          rfl
        · simp only [if_true, neg_one_mul]
          exact upwind_swap T _ _ _ _ _ hz'
      · rw [unAv_eq V hf, jump_sc, jump_sc, abs_mul, show |V.sign x| = 1 by unfold View.sign; split <;> simp]
        change 1 / 2 * (1 * _) * F.lfFactor * _ = _
        linear_combination (1 / 2 * |unAv uv (V.s x)| * F.lfFactor * (jump test (V.s x) * jump c (V.s x))) * V.sign_mul x
    · rw [advBnd_eq]; rfl

theorem abs_sign (x : m'.S) : |V.sign x| = 1 := by
  unfold View.sign
  split <;> simp

theorem consBnd_eq (T : Term m) (F : Flow m) (uv : Vc m) (bc : ℕ → Option (BFuncs m)) (c : Sc m) (k : ℕ) (x : m'.B) :
    consBndFlux (V.tracerTerm T) (V.flow F) (V.vc uv) (V.tracerBcs bc) (V.sc c) k x =
      consBndFlux T F uv bc c k (V.b x) := by
  have hd := fun u v : Fin 2 → ℝ => by simpa only [Fin.sum_univ_two] using dot_rot V.orth u v
  unfold consBndFlux View.tracerBcs
  cases bc k with
  | none =>
    simp only [Option.map_none, vc_v, V.nb, hd, sc_v]
    rfl
  | some f =>
    have hb := V.tracerBnd_eq T F.factor f k x (c (.bnd (V.b x))) (fun i => (uv i (.bnd (V.b x))).v) (F.elev (.bnd (V.b x)))
    simp only [Option.map_some]
    rw [show (fun i => (V.vc uv i (.bnd x)).v) = rotV V.R fun i => (uv i (.bnd (V.b x))).v from rfl,
      show V.sc c (.bnd x) = rot V.R (c (.bnd (V.b x))) from rfl,
      show (V.flow F).elev (.bnd x) = rot V.R (F.elev (.bnd (V.b x))) from rfl,
      show (V.flow F).factor = V.sc F.factor from rfl, hb]
    simp only [vc_v, pt_bnd, ← rotV_add, ← rotV_smul V.R (1 / 2), V.nb, hd, rot_v]
    generalize Tracer2.bndFunctions T F.factor f k (V.b x) (c (.bnd (V.b x))) (fun i => (uv i (.bnd (V.b x))).v)
      (F.elev (.bnd (V.b x))) = r
    rw [show upwind (V.tracerTerm T) = upwind T from rfl]
    generalize upwind T _ = a
    refine Eq.trans ?_ (hd (fun i => (c (.bnd (V.b x))).v * (uv i (.bnd (V.b x))).v * a + r.1.v * r.2.1 i * (1 - a))
      (m.nb (V.b x)))
    simp only [rotV_add, rotV_smul, rotV_smul']

theorem consGamma_eq (hf : m.Flat) (F : Flow m) (uv : Vc m) (x : m'.S) :
    consGamma (V.flow F) (V.vc uv) x = consGamma F uv (V.s x) := by
  have h := fun u : Vc m => congrArg abs (unAv_eq V hf u x)
  simp only [abs_mul, abs_sign, one_mul] at h
  unfold consGamma View.flow
  cases F.uvP1 with
  | some u => exact congrArg₂ (· * ·) (congrArg₂ (· * ·) rfl (h u)) rfl
  | none =>
    cases F.uvMag with
    | some u => simp only [Option.map_none, Option.map_some, avg_sc]
    | none => simp only [Option.map_none, h]

/-- C140: advection of a tracer in conservative form. -/
theorem C140_tracer_conservative (hf : m.Flat) (T : Term m) (F : Flow m) (bc : Option (ℕ → Option (BFuncs m)))
    (c test : Sc m) (hz : ∀ uv, F.uv = some uv → Settled T (corrected F uv)) :
    consAdvection (V.tracerTerm T) (V.flow F) (bc.map V.tracerBcs) (V.sc c) (V.sc test) =
      consAdvection T F bc c test := by
  have hd := fun u v : Fin 2 → ℝ => by simpa only [Fin.sum_univ_two] using dot_rot V.orth u v
  unfold consAdvection
  cases hu : F.uv with
  | none => simp [View.flow, hu]
  | some uv2 =>
    simp only [show (V.flow F).uv = some (V.vc uv2) by simp [View.flow, hu], corrected_eq]
    have hz := hz uv2 hu
    generalize corrected F uv2 = uv at hz
    congr 1
    refine congrArg₂ (· + ·) (congrArg₂ (· + ·) (V.dx_eq fun x => congrArg Neg.neg ?_) ?_) ?_
    · rw [← add_mul, ← add_mul, sc_g, vc_v, vc_v, hd]
      rfl
    · refine if_congr Iff.rfl (congrArg₂ (· + ·) (V.dS_eq fun x => ?_) (if_congr Iff.rfl (V.dS_eq fun x => ?_) rfl)) rfl
      · have hs : (V.flip x = true → T.z = 0 ∨ unAv uv (V.s x) ≠ 0) → ∀ i,
            consFlux (V.tracerTerm T) (V.vc uv) (V.sc c) x i = rotV V.R (consFlux T uv c (V.s x)) i := by
          intro hq i
          unfold consFlux
          rw [unAv_eq V hf]
          simp only [rotV_add, rotV_smul', rotV_smul, sc_v, vc_v, pt_plus, pt_minus, View.sign]
          change _ * upwind T _ + _ * (1 - upwind T _) = _
          cases hx : V.flip x
          · simp only [Bool.false_eq_true, if_false, one_mul]
          · simp only [if_true, neg_one_mul]
            rw [upwind_neg T _ (hq hx)]
            ring
        by_cases h0 : T.z = 0 ∨ unAv uv (V.s x) ≠ 0
        · rw [hs fun _ => h0, hs fun _ => h0, jumpN_sc, jumpN_sc, hd]
        · push Not at h0
          obtain ⟨hz1, h0⟩ := h0
          obtain ⟨h1, h2⟩ := (hz.resolve_left hz1) _ h0
          have flat : ∀ i, m.nm (V.s x) i = -m.np (V.s x) i := fun i => hf _ i
          have hm : ∀ i, m'.nm x i = -m'.np x i := by
            intro i
            rw [V.nm, V.np, ← rotV_neg]
            congr 1
            funext j
            cases V.flip x <;> simp [flat j]
          -- the normal velocity is zero on both sides in both descriptions
          have h3 : ∀ {m : Mesh 2} (T : Term m) (u : Vc m) (c t : Sc m) (s : m.S), (∀ i, m.nm s i = -m.np s i) →
              (∑ i, (u i (.plus s)).v * m.np s i = 0) → (∑ i, (u i (.minus s)).v * m.nm s i = 0) →
              consFlux T u c s 0 * jumpN t s 0 + consFlux T u c s 1 * jumpN t s 1 = 0 := by
            intro m T u c t s hn hp hq
            rw [Fin.sum_univ_two] at hp hq
            unfold consFlux jumpN
            simp only [hn] at hq ⊢
            generalize upwind T _ = a
            linear_combination ((t (.plus s)).v - (t (.minus s)).v) * ((c (.plus s)).v * (1 - a) * hp -
              (c (.minus s)).v * a * hq)
          rw [h3 T uv c test (V.s x) flat h1 h2]
          refine h3 _ _ _ _ _ hm ?_ ?_
          · simp only [vc_v, V.np, dot_rot V.orth, pt_plus]
            cases V.flip x
            · exact h1
            · exact h2
          · simp only [vc_v, V.nm, dot_rot V.orth, pt_minus]
            cases V.flip x
            · exact h2
            · exact h1
      · rw [consGamma_eq V hf, jump_sc, jump_sc]
        linear_combination (consGamma F uv (V.s x) * (jump test (V.s x) * jump c (V.s x))) * V.sign_mul x
    · cases bc with
      | none => rfl
      | some bc => exact V.bndLoop_eq fun k x => by rw [consBnd_eq]; rfl

theorem tracerSigma_eq (T : Term m) (x : m'.S) : Tracer2.sigmaMax (V.tracerTerm T) x = Tracer2.sigmaMax T (V.s x) := by
  unfold Tracer2.sigmaMax
  have hs : ∀ a b c, Tracer2.sigma (V.tracerTerm T) a b c = Tracer2.sigma T a b c := fun _ _ _ => rfl
  simp only [hs, V.volP, V.volM, V.areaS, show (V.tracerTerm T).sipg = V.sc T.sipg from rfl, sc_v, pt_plus, pt_minus]
  cases V.flip x
  · rfl
  · simp only [if_true]
    split <;> split <;> first | rfl | linarith

theorem avgFlux_eq (mu f : Sc m) (x : m'.S) (i : Fin 2) :
    avgFlux (V.sc mu) (V.sc f) x i = rotV V.R (avgFlux mu f (V.s x)) i := by
  unfold avgFlux
  simp only [rotV_smul, rotV_add, sc_v, sc_g, pt_plus, pt_minus]
  cases V.flip x
  · rfl
  · simp only [if_true]
    ring

theorem diffBnd_eq (T : Term m) (F : Flow m) (mu : Sc m) (bc : ℕ → Option (BFuncs m)) (c : Sc m) (k : ℕ) (x : m'.B) :
    diffBndFlux (V.tracerTerm T) (V.flow F) (V.sc mu) (V.tracerBcs bc) (V.sc c) k x =
      diffBndFlux T F mu bc c k (V.b x) := by
  have hd := fun u v : Fin 2 → ℝ => by simpa only [Fin.sum_univ_two] using dot_rot V.orth u v
  unfold diffBndFlux View.tracerBcs
  cases bc k with
  | none => rfl
  | some f =>
    simp only [Option.map_some]
    cases hq : f.diffFlux with
    | some q => simp [View.tracerFuncs, hq]
    | none =>
      simp only [show (V.tracerFuncs f).diffFlux = none by simp [View.tracerFuncs, hq]]
      have key : ∀ u : Fin 2 → ℝ,
          (let r := Tracer2.bndFunctions (V.tracerTerm T) (V.flow F).factor (V.tracerFuncs f) k x (V.sc c (.bnd x)) (rotV V.R u)
            ((V.flow F).elev (.bnd x))
          let uvAv : Fin 2 → ℝ := fun i => (1 / 2) * (rotV V.R u i + r.2.1 i)
          let sw := upwind (V.tracerTerm T) (m'.nb x 0 * uvAv 0 + m'.nb x 1 * uvAv 1)
          ∑ i, (V.sc mu (.bnd x)).v * ((V.sc c (.bnd x)).g i * sw + r.1.g i * (1 - sw)) * m'.nb x i) =
          (let r := Tracer2.bndFunctions T F.factor f k (V.b x) (c (.bnd (V.b x))) u (F.elev (.bnd (V.b x)))
          let uvAv : Fin 2 → ℝ := fun i => (1 / 2) * (u i + r.2.1 i)
          let sw := upwind T (m.nb (V.b x) 0 * uvAv 0 + m.nb (V.b x) 1 * uvAv 1)
          ∑ i, (mu (.bnd (V.b x))).v * ((c (.bnd (V.b x))).g i * sw + r.1.g i * (1 - sw)) * m.nb (V.b x) i) := by
        intro u
        have hb := V.tracerBnd_eq T F.factor f k x (c (.bnd (V.b x))) u (F.elev (.bnd (V.b x)))
        rw [show V.sc c (.bnd x) = rot V.R (c (.bnd (V.b x))) from rfl,
          show (V.flow F).elev (.bnd x) = rot V.R (F.elev (.bnd (V.b x))) from rfl,
          show (V.flow F).factor = V.sc F.factor from rfl, hb]
        simp only [← rotV_add, ← rotV_smul V.R (1 / 2), V.nb, hd]
        refine dot_eq V.orth (fun i => ?_) fun i => rfl
        simp only [rotV_smul, rotV_add, rotV_smul']
        rfl
      cases hF : F.uv with
      | none =>
        simp only [show (V.flow F).uv = none by simp [View.flow, hF]]
        have := key fun _ => 0
        rw [show rotV V.R (fun _ => 0) = fun _ => 0 from funext fun i => rotV_zero _ i] at this
        exact this
      | some uv =>
        simp only [show (V.flow F).uv = some (V.vc uv) by simp [View.flow, hF], corrected_eq]
        exact key fun i => (corrected F uv i (.bnd (V.b x))).v

/-- C140: diffusion of a tracer. -/
theorem C140_tracer_diffusion (T : Term m) (F : Flow m) (mu : Option (Sc m)) (bc : ℕ → Option (BFuncs m))
    (c test : Sc m) : Tracer2.diffusion (V.tracerTerm T) (V.flow F) (mu.map V.sc) (V.tracerBcs bc) (V.sc c) (V.sc test) =
      Tracer2.diffusion T F mu bc c test := by
  cases mu with
  | none => rfl
  | some mu =>
    simp only [Tracer2.diffusion, Option.map_some]
    congr 1
    refine congrArg₂ (· + ·) (congrArg₂ (· + ·) (V.dx_eq fun x => ?_) ?_) (V.bndLoop_eq fun k x => ?_)
    · refine dot_eq V.orth (fun i => rfl) fun i => ?_
      rw [rotV_smul]
      rfl
    · refine if_congr Iff.rfl (congrArg₂ (· + ·) (congrArg₂ (· + ·) (V.dS_eq fun x => ?_) (V.dS_eq fun x => ?_))
        (V.dS_eq fun x => ?_)) rfl
      · rw [tracerSigma_eq]
        refine congrArg₂ (· * ·) rfl (dot_eq V.orth (jumpN_sc V test x) fun i => ?_)
        rw [rotV_smul, avg_sc, jumpN_sc]
      · exact congrArg Neg.neg (dot_eq V.orth (avgFlux_eq V mu test x) (jumpN_sc V c x))
      · exact congrArg Neg.neg (dot_eq V.orth (jumpN_sc V test x) (avgFlux_eq V mu c x))
    · rw [diffBnd_eq]; rfl

/-- C140: sources of a tracer. -/
theorem C140_tracer_sources (T : Term m) (elev : Sc m) (src : Option (Sc m)) (test : Sc m) :
    Tracer2.source (src.map V.sc) (V.sc test) = Tracer2.source src test ∧
    consSource (V.tracerTerm T) (V.sc elev) (src.map V.sc) (V.sc test) = consSource T elev src test := by
  cases src with
  | none => exact ⟨rfl, rfl⟩
  | some r =>
    refine ⟨congrArg Neg.neg (V.dx_eq fun x => rfl), congrArg Neg.neg (V.dx_eq fun x => congrArg Neg.neg ?_)⟩
    rw [show (V.tracerTerm T).depth = V.depth T.depth from rfl, show V.sc elev (.cell x) = rot V.R (elev (.cell (V.c x))) from rfl,
      V.total_eq]
    rfl

end Verif.Frame
