import Verif.Strong.Props
import Verif.Tracer2.Model
import Verif.Tracer3.Props3

/-!
C138: the weak forms of the tracer equations are those of the equations in the documentation of the terms.
-/

namespace Verif.Strong

open Verif.Dg

section TwoD

open Verif.Tracer2

variable {m : Mesh 2}

/-- The prescribed tracer value and normal velocity are those of the solution; where nothing is prescribed there is
nothing to match. -/
def FitsT (T : Tracer2.Term m) (F : Flow m) (u : Vc m) (bc : ℕ → Option (BFuncs m)) (c : Sc m) (b : m.B) : Prop :=
  ∀ f, bc (m.marker b) = some f →
    let r := Tracer2.bndFunctions T F.factor f (m.marker b) b (c (.bnd b)) (fun i => (u i (.bnd b)).v) (F.elev (.bnd b))
    r.1.v = (c (.bnd b)).v ∧ r.2.1 0 * m.nb b 0 + r.2.1 1 * m.nb b 1 = (u 0 (.bnd b)).v * m.nb b 0 + (u 1 (.bnd b)).v * m.nb b 1

theorem advBnd_fits (T : Tracer2.Term m) (F : Flow m) (u : Vc m) (bc : ℕ → Option (BFuncs m)) (c : Sc m) (b : m.B)
    (h : FitsT T F u bc c b) :
    advBndFlux T F u bc c (m.marker b) b = (c (.bnd b)).v * ((u 0 (.bnd b)).v * m.nb b 0 + (u 1 (.bnd b)).v * m.nb b 1) := by
  unfold advBndFlux
  cases hb : bc (m.marker b) with
  | none => rfl
  | some f =>
    obtain ⟨h1, h2⟩ := h f hb
    simp only [h1]
    linear_combination (1 / 2) * (c (.bnd b)).v * h2

theorem consBnd_fits (T : Tracer2.Term m) (F : Flow m) (u : Vc m) (bc : ℕ → Option (BFuncs m)) (c : Sc m) (b : m.B)
    (h : FitsT T F u bc c b) :
    consBndFlux T F u bc c (m.marker b) b = (c (.bnd b)).v * ((u 0 (.bnd b)).v * m.nb b 0 + (u 1 (.bnd b)).v * m.nb b 1) := by
  unfold consBndFlux
  cases hb : bc (m.marker b) with
  | none => rfl
  | some f =>
    obtain ⟨h1, h2⟩ := h f hb
    simp only [h1]
    generalize upwind T _ = sw
    linear_combination (1 - sw) * (c (.bnd b)).v * h2

/-- C138, `u · grad(T)`: the advection term of a tracer without jumps, for any velocity `u` (times its correction factor),
with jumps or not. -/
theorem C138_advection (T : Tracer2.Term m) (F : Flow m) (bc : ℕ → Option (BFuncs m)) (uv u : Vc m) (c test : Sc m)
    (hF : F.uv = some uv) (hu : ∀ i, u i = F.factor * uv i) (hc : Cont c) (hf : m.Flat)
    (hcg : T.dg = false → Cont test ∧ ∀ i, Cont (u i)) (hb : ∀ b, FitsT T F u bc c b)
    (hd : DivExact m fun i => c * (u i * test)) :
    Tracer2.advection T F bc c test =
      m.dx fun x => -((∑ i, (u i (.cell x)).v * (c (.cell x)).g i) * (test (.cell x)).v) := by
  have p := parts_grad c (fun i => u i * test) hc hd
  have hcor : corrected F uv = u := funext fun i => (hu i).symm
  have e1 : m.dx (fun x => -(((u 0 * test) (.cell x)).g 0 * (c (.cell x)).v + ((u 1 * test) (.cell x)).g 1 * (c (.cell x)).v)) =
      -m.dx fun x => (c (.cell x)).v * div (fun i => u i * test) (.cell x) := by
    rw [← dx_neg]; exact dx_congr fun x => by simp only [div, Fin.sum_univ_two]; ring
  have e2 : m.dS (fun s => ((c (.minus s)).v * upwind T (unAv u s) + (c (.plus s)).v * (1 - upwind T (unAv u s))) *
        (((test (.plus s)).v * ((u 0 (.plus s)).v * m.np s 0) + (test (.minus s)).v * ((u 0 (.minus s)).v * m.nm s 0)) +
          ((test (.plus s)).v * ((u 1 (.plus s)).v * m.np s 1) + (test (.minus s)).v * ((u 1 (.minus s)).v * m.nm s 1)))) =
      m.dS fun s => avg c s * jumpV (fun i => u i * test) s := dS_congr fun s => by
    rw [hc.avg]
    simp only [← hc s, jumpV, Fin.sum_univ_two, Pi.mul_apply, Jet.mul_v]
    ring
  have e3 : m.dS (fun s => (1 / 2) * |unAv u s| * F.lfFactor * (jump test s * jump c s)) = 0 :=
    (dS_congr (h := fun _ => 0) fun s => by rw [hc.jump]; ring).trans dS_zero
  have e4 : m.bndLoop (fun k b => advBndFlux T F u bc c k b * (test (.bnd b)).v) =
      ∑ b, m.wB b * ((c (.bnd b)).v * normalAt (fun i => u i * test) b) := by
    rw [bndLoop_eq]
    refine dB_congr fun b => ?_
    rw [advBnd_fits T F u bc c b (hb b)]
    simp only [normalAt, Fin.sum_univ_two, Pi.mul_apply, Jet.mul_v]
    ring
  have e5 : m.dx (fun x => -((∑ i, (u i (.cell x)).v * (c (.cell x)).g i) * (test (.cell x)).v)) =
      -m.dx fun x => ∑ i, (c (.cell x)).g i * ((u i * test) (.cell x)).v := by
    rw [← dx_neg]; exact dx_congr fun x => by simp only [Fin.sum_univ_two, Pi.mul_apply, Jet.mul_v]; ring
  unfold Tracer2.advection
  rw [hF]
  by_cases hdg : T.dg = true
  · simp only [hcor, if_pos hdg, e1, e2, e3, ite_self, e4, e5, p]
    ring
  · obtain ⟨h1, h2⟩ := hcg (by simpa using hdg)
    have z : m.dS (fun s => avg c s * jumpV (fun i => u i * test) s) = 0 :=
      (dS_congr (h := fun _ => 0) fun s => by rw [Cont.jumpV (fun i => (h2 i).mul h1) hf, mul_zero]).trans dS_zero
    simp only [hcor, if_neg hdg, e1, e4, e5, p, z]
    ring

/-- C138, `div(u q)`: the conservative advection term for a tracer and a velocity without jumps. -/
theorem C138_conservative (T : Tracer2.Term m) (F : Flow m) (bc : ℕ → Option (BFuncs m)) (uv u : Vc m) (q test : Sc m)
    (hF : F.uv = some uv) (hu : ∀ i, u i = F.factor * uv i) (hq : Cont q) (huc : ∀ i, Cont (u i)) (hf : m.Flat)
    (hcg : T.dg = false → Cont test) (hb : ∀ b, FitsT T F u bc q b) (hd : DivExact m fun i => test * (q * u i)) :
    consAdvection T F (some bc) q test =
      m.dx fun x => -((∑ i, (q (.cell x) * u i (.cell x)).g i) * (test (.cell x)).v) := by
  have p := parts_flux (fun i => q * u i) test (fun i => hq.mul (huc i)) hd
  have hcor : corrected F uv = u := funext fun i => (hu i).symm
  have e1 : m.dx (fun x => -((test (.cell x)).g 0 * (u 0 (.cell x)).v * (q (.cell x)).v +
        (test (.cell x)).g 1 * (u 1 (.cell x)).v * (q (.cell x)).v)) =
      -m.dx fun x => ∑ i, (test (.cell x)).g i * ((q * u i) (.cell x)).v := by
    rw [← dx_neg]; exact dx_congr fun x => by simp only [Fin.sum_univ_two, Pi.mul_apply, Jet.mul_v]; ring
  have e2 : m.dS (fun s => consFlux T u q s 0 * jumpN test s 0 + consFlux T u q s 1 * jumpN test s 1) =
      m.dS fun s => ∑ i, jumpN test s i * avg (q * u i) s := dS_congr fun s => by
    simp only [(hq.mul (huc _)).avg, Fin.sum_univ_two, consFlux, ← hq s, ← huc _ s, Pi.mul_apply, Jet.mul_v]
    ring
  have e3 : m.dS (fun s => consGamma F u s * (jump test s * jump q s)) = 0 :=
    (dS_congr (h := fun _ => 0) fun s => by rw [hq.jump]; ring).trans dS_zero
  have e4 : m.bndLoop (fun k b => consBndFlux T F u bc q k b * (test (.bnd b)).v) =
      ∑ b, m.wB b * (normalAt (fun i => q * u i) b * (test (.bnd b)).v) := by
    rw [bndLoop_eq]
    refine dB_congr fun b => ?_
    rw [consBnd_fits T F u bc q b (hb b)]
    simp only [normalAt, Fin.sum_univ_two, Pi.mul_apply, Jet.mul_v]
    ring
  have e5 : m.dx (fun x => -((∑ i, (q (.cell x) * u i (.cell x)).g i) * (test (.cell x)).v)) =
      -m.dx fun x => div (fun i => q * u i) (.cell x) * (test (.cell x)).v := by
    rw [← dx_neg]; rfl
  unfold consAdvection
  rw [hF]
  by_cases hdg : T.dg = true
  · simp only [hcor, if_pos hdg, e1, e2, e3, ite_self, e4, e5, p]
    ring
  · have z : m.dS (fun s => ∑ i, jumpN test s i * avg (q * u i) s) = 0 :=
      (dS_congr (h := fun _ => 0) fun s => Finset.sum_eq_zero fun i _ => by
        rw [(hcg (by simpa using hdg)).jumpN hf, zero_mul]).trans dS_zero
    simp only [hcor, if_neg hdg, e1, e4, e5, p, z]
    ring

/-- C138, `div(mu grad(T))`: the diffusion term for a tracer without jumps whose diffusive flux `Q = mu grad(T)` has none
either; the flux through the boundary is the one that the boundary data prescribe. -/
theorem C138_diffusion (T : Tracer2.Term m) (F : Flow m) (bc : ℕ → Option (BFuncs m)) (mu c test : Sc m) (Q : Vc m)
    (hQ : ∀ i x, (Q i x).v = (mu x).v * (c x).g i) (hQc : ∀ i, Cont (Q i)) (hc : Cont c) (hf : m.Flat)
    (hcg : T.dg = false → Cont test)
    (hb : ∀ b, diffBndFlux T F mu bc c (m.marker b) b = ∑ i, (Q i (.bnd b)).v * m.nb b i)
    (hd : DivExact m fun i => test * Q i) :
    Tracer2.diffusion T F (some mu) bc c test = m.dx fun x => (∑ i, (Q i (.cell x)).g i) * (test (.cell x)).v := by
  have p := parts_flux Q test hQc hd
  have e1 : m.dx (fun x => ∑ i, (test (.cell x)).g i * ((mu (.cell x)).v * (c (.cell x)).g i)) =
      m.dx fun x => ∑ i, (test (.cell x)).g i * (Q i (.cell x)).v := dx_congr fun x => by simp only [hQ]
  have e2 : m.dS (fun s => Tracer2.sigmaMax T s * ∑ i, jumpN test s i * (avg mu s * jumpN c s i)) = 0 :=
    (dS_congr (h := fun _ => 0) fun s => by simp [hc.jumpN hf]).trans dS_zero
  have e3 : m.dS (fun s => -∑ i, avgFlux mu test s i * jumpN c s i) = 0 :=
    (dS_congr (h := fun _ => 0) fun s => by simp [hc.jumpN hf]).trans dS_zero
  have e4 : m.dS (fun s => -∑ i, jumpN test s i * avgFlux mu c s i) = -m.dS fun s => ∑ i, jumpN test s i * avg (Q i) s := by
    rw [← dS_neg]
    exact dS_congr fun s => by simp only [avgFlux, avg, hQ]
  have e5 : m.bndLoop (fun k b => -(diffBndFlux T F mu bc c k b * (test (.bnd b)).v)) =
      -∑ b, m.wB b * (normalAt Q b * (test (.bnd b)).v) := by
    rw [bndLoop_eq, ← Swe.dB_neg]
    exact dB_congr fun b => by rw [hb b]; rfl
  have e6 : m.dx (fun x => (∑ i, (Q i (.cell x)).g i) * (test (.cell x)).v) =
      m.dx fun x => div Q (.cell x) * (test (.cell x)).v := rfl
  unfold Tracer2.diffusion
  by_cases hdg : T.dg = true
  · simp only [if_pos hdg, e1, e2, e3, e4, e5, e6, p]
    ring
  · have z : m.dS (fun s => ∑ i, jumpN test s i * avg (Q i) s) = 0 :=
      (dS_congr (h := fun _ => 0) fun s => Finset.sum_eq_zero fun i _ => by
        rw [(hcg (by simpa using hdg)).jumpN hf, zero_mul]).trans dS_zero
    simp only [if_neg hdg, e1, e5, e6, p, z]
    ring

/-- C138: the boundary data fit where no condition is given and no flux passes, where the flux is prescribed, and where
neither value nor velocity differ from the solution. -/
theorem C138_boundary (T : Tracer2.Term m) (F : Flow m) (bc : ℕ → Option (BFuncs m)) (mu c : Sc m) (b : m.B) (x : ℝ) :
    (bc (m.marker b) = none → x = 0 → diffBndFlux T F mu bc c (m.marker b) b = x) ∧
    (∀ f q, bc (m.marker b) = some f → f.diffFlux = some q → x = q b → diffBndFlux T F mu bc c (m.marker b) b = x) ∧
    (∀ f, bc (m.marker b) = some f → f.diffFlux = none → f.value = none →
      x = ∑ i, (mu (.bnd b)).v * (c (.bnd b)).g i * m.nb b i → diffBndFlux T F mu bc c (m.marker b) b = x) := by
  refine ⟨fun h hx => ?_, fun f q h h1 hx => ?_, fun f h h1 h2 hx => ?_⟩
  · simp [diffBndFlux, h, hx]
  · simp [diffBndFlux, h, h1, hx]
  · simp only [diffBndFlux, h, h1, hx, Tracer2.bndFunctions, h2, Fin.sum_univ_two]
    ring

/-! ### Examples on the square -/

/-- Discontinuous elements. -/
noncomputable def trTerm : Tracer2.Term square where
  depth := ⟨cst square 10, true, false, cst square 0⟩
  dg := true
  lf := true
  blen := fun _ => 1
  sipg := cst square 1
  p := 1
  triangle := true
  z := 0

/-- The flow `(x, -y)`. -/
noncomputable def trFlow : Flow square where
  uv := some exUv
  elev := cst square 0
  factor := cst square 1
  lfFactor := 1

theorem trFlow_u (i : Fin 2) : exUv i = trFlow.factor * exUv i := (cst_one_mul _).symm

/-- Boundary conditions without keys. -/
def trBc : ℕ → Option (BFuncs square) := fun _ => some {}

theorem tr_fits (c : Sc square) (b : square.B) : FitsT trTerm trFlow exUv trBc c b := by
  intro f hf
  obtain rfl : ({} : BFuncs square) = f := Option.some.inj hf
  exact ⟨rfl, rfl⟩

/-- A linear tracer in the flow `(x, -y)` with diffusivity 1, for all linear test functions with jumps. -/
example (r s t a b c a' b' c' : ℝ) :
    let T := squareField (lin r s t) (lin r s t)
    let phi := squareField (lin a b c) (lin a' b' c')
    Tracer2.advection trTerm trFlow trBc T phi =
      square.dx (fun x => -((∑ i, (exUv i (.cell x)).v * (T (.cell x)).g i) * (phi (.cell x)).v)) ∧
    consAdvection trTerm trFlow (some trBc) T phi =
      square.dx (fun x => -((∑ i, (T (.cell x) * exUv i (.cell x)).g i) * (phi (.cell x)).v)) ∧
    Tracer2.diffusion trTerm trFlow (some (cst square 1)) trBc T phi = 0 := by
  intro T phi
  have hl : ∀ i : Fin 2, (![lin 0 1 0, lin 0 0 (-1)] i).d = 0 ∧ (![lin 0 1 0, lin 0 0 (-1)] i).e = 0 ∧
      (![lin 0 1 0, lin 0 0 (-1)] i).f = 0 := fun i => by fin_cases i <;> exact ⟨rfl, rfl, rfl⟩
  refine ⟨?_, ?_, ?_⟩
  · refine C138_advection trTerm trFlow trBc exUv exUv T phi rfl trFlow_u (square_cont _) square_flat (fun h => nomatch h)
      (tr_fits T) ?_
    have : (fun i => T * (exUv i * phi)) = fun i => squareField (lin r s t) (lin r s t) * squareField
        (Quad.mulLin (![lin 0 1 0, lin 0 0 (-1)] i) (lin a b c)) (Quad.mulLin (![lin 0 1 0, lin 0 0 (-1)] i) (lin a' b' c')) := by
      funext i
      rw [← squareField_mul _ _ _ _ (hl i) (hl i) (lin_deg _ _ _) (lin_deg _ _ _)]
      rfl
    rw [this]
    exact square_divExact_cubic (fun _ => _) (fun _ => _) _ _ (fun _ => lin_deg _ _ _) (fun _ => lin_deg _ _ _)
  · refine C138_conservative trTerm trFlow trBc exUv exUv T phi rfl trFlow_u (square_cont _) (fun i => square_cont _) square_flat
      (fun h => nomatch h) (tr_fits T) ?_
    have : (fun i => phi * (T * exUv i)) = fun i => squareField (lin a b c) (lin a' b' c') * squareField
        (Quad.mulLin (lin r s t) (![lin 0 1 0, lin 0 0 (-1)] i)) (Quad.mulLin (lin r s t) (![lin 0 1 0, lin 0 0 (-1)] i)) := by
      funext i
      rw [← squareField_mul _ _ _ _ (lin_deg _ _ _) (lin_deg _ _ _) (hl i) (hl i)]
      rfl
    rw [this]
    exact square_divExact_cubic (fun _ => _) (fun _ => _) _ _ (fun _ => lin_deg _ _ _) (fun _ => lin_deg _ _ _)
  · let Q : Vc square := fun i => squareField (lin (![s, t] i) 0 0) (lin (![s, t] i) 0 0)
    have hQ : ∀ i x, (Q i x).v = (cst square 1 x).v * (T x).g i := fun i x => by
      have : ∀ p q, ((lin (![s, t] i) 0 0).jet p q).v = (Jet.const 1 : Jet 2).v * ((lin r s t).jet p q).g i := fun p q => by
        fin_cases i <;> simp [Quad.jet, lin]
      cases x with
      | cell c => cases c <;> exact this _ _
      | plus c => cases c <;> exact this _ _
      | minus c => cases c <;> exact this _ _
      | bnd c => cases c <;> exact this _ _
    rw [C138_diffusion trTerm trFlow trBc (cst square 1) T phi Q hQ (fun i => square_cont _) (square_cont _) square_flat
      (fun h => nomatch h)]
    · refine (dx_congr (h := fun _ => 0) fun x => ?_).trans dx_zero
      have : ∀ p q : ℝ, (∑ i, ((lin (![s, t] i) 0 0).jet p q).g i) = 0 := fun p q => by simp [Quad.jet, lin]
      have h : (∑ i, (Q i (.cell x)).g i) = 0 := by cases x <;> exact this _ _
      rw [h, zero_mul]
    · intro b
      exact (C138_boundary trTerm trFlow trBc (cst square 1) T b _).2.2 {} rfl rfl rfl
        (Finset.sum_congr rfl fun i _ => by rw [hQ])
    · exact square_divExact_cubic (fun _ => _) (fun _ => _) _ _ (fun _ => lin_deg _ _ _) (fun _ => lin_deg _ _ _)

/-- C138 (violated): the equation at the head of the module, called non-conservative, has `div(u T)`.  The non-conservative
form that the code takes has `u · grad(T)`: in the flow `(x, 0)` the tracer `T = 1` does not change. -/
theorem C138_documented_violated :
    ∃ (F : Flow square) (u : Vc square) (bc : ℕ → Option (BFuncs square)) (c test : Sc square), F.uv = some u ∧
      F.factor = cst square 1 ∧ Cont c ∧ (∀ i, Cont (u i)) ∧
      Tracer2.advection trTerm F bc c test ≠
        square.dx fun x => -((∑ i, (c (.cell x) * u i (.cell x)).g i) * (test (.cell x)).v) := by
  let u : Vc square := fun i => squareField (![lin 0 1 0, lin 0 0 0] i) (![lin 0 1 0, lin 0 0 0] i)
  have hu : ∀ i, u i = cst square 1 * u i := fun i => (cst_one_mul _).symm
  refine ⟨{ trFlow with uv := some u }, u, trBc, cst square 1, cst square 1, rfl, rfl, fun s => rfl, fun i => square_cont _, ?_⟩
  rw [C138_advection trTerm { trFlow with uv := some u } trBc u u (cst square 1) (cst square 1) rfl hu (fun s => rfl) square_flat
    (fun h => nomatch h)]
  · have e1 : square.dx (fun x => -((∑ i, (u i (.cell x)).v * (cst square 1 (.cell x)).g i) * (cst square 1 (.cell x)).v)) = 0 :=
      (dx_congr (h := fun _ => 0) fun x => by simp).trans dx_zero
    have e2 : square.dx (fun x => -((∑ i, (cst square 1 (.cell x) * u i (.cell x)).g i) * (cst square 1 (.cell x)).v)) = -1 := by
      have : ∀ p q : ℝ, (∑ i, (Jet.const 1 * (![lin 0 1 0, lin 0 0 0] i).jet p q).g i) = 1 := fun p q => by
        simp [Quad.jet, lin]
      have h : ∀ x : square.C, (∑ i, (cst square 1 (.cell x) * u i (.cell x)).g i) = 1 := fun x => by
        cases x <;> exact this _ _
      refine (dx_congr (h := fun _ => -1) fun x => by rw [h]; simp).trans ?_
      change (∑ c : SqC, (1 / 6 : ℝ) * -1) = -1
      rw [sum_sqC]; norm_num
    rw [e1, e2]
    norm_num
  · intro b f hf
    obtain rfl : ({} : BFuncs square) = f := Option.some.inj hf
    exact ⟨rfl, rfl⟩
  · have : (fun i => cst square 1 * (u i * cst square 1)) = u := by
      funext i x
      apply Jet.ext
      · simp
      · funext j; simp
    rw [this]
    exact square_divExact _ _

end TwoD

section ThreeD

open Verif.Ext Verif.Tracer3

variable {e : Mesh3}

/-- An extruded mesh whose layers are stacked vertically: the facets between columns and the sides are vertical. -/
def Upright (e : Mesh3) : Prop :=
  (∀ s, e.hor s = false → e.m.np s 2 = 0) ∧ ∀ b, e.face b = .side → e.m.nb b 2 = 0

/-- C138, `div_h(u T) + d(w T)/dz`: both advection terms of the 3D equation for a tracer and velocities without jumps; `W`
is the vertical velocity relative to the mesh.  Nothing passes the bottom and the sides without a condition. -/
theorem C138_advection_3d (T : Tracer3.Term e) (F : Tracer3.Fields e) (bc : ℕ → Option (Tracer3.BFuncs e)) (uv U : Vc e.m)
    (w W c test : Sc e.m) (hF : F.uv = some uv) (hFw : F.w = some w)
    (hU : ∀ i x, (U i x) = match F.uvDav with | some d => uv i x + d i x | none => uv i x)
    (hW : ∀ x, W x = match F.wMesh with | some q => w x - q x | none => w x)
    (hh : T.hdg = true) (hv : T.vdg = true) (hs : T.symm = true) (hf : e.m.Flat) (hup : Upright e)
    (h2 : ∀ x, (U 2 x).v = 0) (hUc : ∀ i, Cont (U i)) (hWc : Cont W) (hc : Cont c)
    (hbot : ∀ b, e.face b = .bottom →
      (U 0 (.bnd b)).v * e.m.nb b 0 + (U 1 (.bnd b)).v * e.m.nb b 1 + (W (.bnd b)).v * e.m.nb b 2 = 0)
    (hside : ∀ b, e.face b = .side → match bc (e.m.marker b) with
      | none => (U 0 (.bnd b)).v * e.m.nb b 0 + (U 1 (.bnd b)).v * e.m.nb b 1 = 0
      | some f => ∀ v, f.value = some v → v b = (c (.bnd b)).v)
    (hd : DivExact e.m fun i => test * (c * (![U 0, U 1, W] : Vc e.m) i)) :
    Tracer3.hAdvection T F bc c test + Tracer3.vAdvection T F c test =
      e.m.dx fun x => -(((c (.cell x) * U 0 (.cell x)).g 0 + (c (.cell x) * U 1 (.cell x)).g 1 +
        (c (.cell x) * W (.cell x)).g 2) * (test (.cell x)).v) := by
  have hGc : ∀ i, Cont ((![U 0, U 1, W] : Vc e.m) i) := fun i => by
    fin_cases i
    · exact hUc 0
    · exact hUc 1
    · exact hWc
  have p := parts_flux (fun i => c * (![U 0, U 1, W] : Vc e.m) i) test (fun i => hc.mul (hGc i)) hd
  have hU' : totalUv F uv = U := funext fun i => funext fun x => by
    rw [hU i x]
    unfold totalUv
    cases F.uvDav <;> rfl
  have hW' : vertVelo F w = W := funext fun x => by
    rw [hW x]
    unfold vertVelo
    cases F.wMesh <;> rfl
  have hcu : ∀ un s, Tracer3.cUp T c un s = (c (.plus s)).v := fun un s => by
    unfold Tracer3.cUp
    rw [← hc s]; ring
  have ha2 : ∀ s, avg (U 2) s = 0 := fun s => by simp [avg, h2]
  have e1 : e.m.dx (fun x => -((c (.cell x)).v * ∑ i, (U i (.cell x)).v * (test (.cell x)).g i)) +
      e.m.dx (fun x => -((c (.cell x)).v * (W (.cell x)).v * (test (.cell x)).g 2)) =
      -e.m.dx fun x => ∑ i, (test (.cell x)).g i * ((c * (![U 0, U 1, W] : Vc e.m) i) (.cell x)).v := by
    rw [← dx_add, ← dx_neg]
    refine dx_congr fun x => ?_
    simp only [Fin.sum_univ_three, h2, Pi.mul_apply, Jet.mul_v, Matrix.cons_val_zero, Matrix.cons_val_one, Matrix.cons_val]
    ring
  have e2 : e.dSv (fun s => Tracer3.cUp T c (Tracer3.unAv U s) s * facetDiv U test s) +
      e.dSh (fun s => Tracer3.cUp T c (Tracer3.unAv U s) s * facetDiv U test s) +
      e.dSh (fun s => Tracer3.cUp T c (avg W s * e.m.nm s 2) s * avg W s * jumpN test s 2) =
      e.m.dS fun s => ∑ i, jumpN test s i * avg (c * (![U 0, U 1, W] : Vc e.m) i) s := by
    unfold Mesh3.dSv Mesh3.dSh
    rw [← dS_add, ← dS_add]
    refine dS_congr fun s => ?_
    simp only [(hc.mul (hGc _)).avg, hcu, facetDiv, ha2, (hUc _).avg, hWc.avg, Fin.sum_univ_three, Pi.mul_apply, Jet.mul_v,
      Matrix.cons_val_zero, Matrix.cons_val_one, Matrix.cons_val]
    cases hs : e.hor s
    · have z : jumpN test s 2 = 0 := by simp [jumpN, hf s 2, hup.1 s hs]
      simp [z]
      ring
    · simp
      ring
  have l1 : ∀ g : e.m.S → ℝ, e.dSv (fun s => g s * (jump test s * jump c s)) = 0 := fun g =>
    (dS_congr (h := fun _ => 0) fun s => by simp [hc.jump s]).trans dS_zero
  have l2 : ∀ g : e.m.S → ℝ, e.dSh (fun s => g s * (jump test s * jump c s)) = 0 := fun g =>
    (dS_congr (h := fun _ => 0) fun s => by simp [hc.jump s]).trans dS_zero
  have e4 : e.sideLoop (fun k b => Tracer3.sideTerm T U (bc k) c test b) +
      e.dsurf (fun b => (c (.bnd b)).v * normalH U b * (test (.bnd b)).v) +
      e.dsurf (fun b => (c (.bnd b)).v * (W (.bnd b)).v * e.m.nb b 2 * (test (.bnd b)).v) =
      ∑ b, e.m.wB b * (normalAt (fun i => c * (![U 0, U 1, W] : Vc e.m) i) b * (test (.bnd b)).v) := by
    rw [sideLoop_eq]
    unfold Mesh3.dsurf
    rw [← dB_add, ← dB_add]
    refine dB_congr fun b => ?_
    have en : normalAt (fun i => c * (![U 0, U 1, W] : Vc e.m) i) b = (c (.bnd b)).v *
        ((U 0 (.bnd b)).v * e.m.nb b 0 + (U 1 (.bnd b)).v * e.m.nb b 1 + (W (.bnd b)).v * e.m.nb b 2) := by
      simp only [normalAt, Fin.sum_univ_three, Pi.mul_apply, Jet.mul_v, Matrix.cons_val_zero, Matrix.cons_val_one,
        Matrix.cons_val]
      ring
    rw [en]
    cases hb : e.face b
    · simp [normalH]; ring
    · simp [hbot b hb]
    · have h := hside b hb
      simp only [hup.2 b hb, mul_zero, add_zero, if_true, reduceCtorEq, if_false]
      unfold Tracer3.sideTerm
      split at h
      · next h0 => rw [h0]; simp [h]
      · next f h0 =>
        rw [h0]
        have hr : (Tracer3.bndF f b (c (.bnd b)).v fun i => (U i (.bnd b)).v).1 = (c (.bnd b)).v := by
          unfold Tracer3.bndF Tracer3.bndFunctions
          cases hval : f.value with
          | none => cases f.uv <;> cases f.flux <;> cases f.un <;> rfl
          | some v => cases f.uv <;> cases f.flux <;> cases f.un <;> simp [h v hval]
        simp only [Tracer3.sideFlux, hr, normalH]
        ring
  have e5 : e.m.dx (fun x => -(((c (.cell x) * U 0 (.cell x)).g 0 + (c (.cell x) * U 1 (.cell x)).g 1 +
        (c (.cell x) * W (.cell x)).g 2) * (test (.cell x)).v)) =
      -e.m.dx fun x => div (fun i => c * (![U 0, U 1, W] : Vc e.m) i) (.cell x) * (test (.cell x)).v := by
    rw [← dx_neg]
    refine dx_congr fun x => ?_
    simp only [div, Fin.sum_univ_three, Pi.mul_apply, Matrix.cons_val_zero, Matrix.cons_val_one, Matrix.cons_val]
  unfold Tracer3.hAdvection Tracer3.vAdvection
  rw [hF, hFw]
  simp only [hU', hW', if_pos hh, if_pos hv, if_pos hs, l1, l2, add_zero, ite_self]
  rw [e5]
  linarith [p, e1, e2, e4]

/-- C138: the whole 3D tracer equation.  `Q` is the horizontal diffusive flux, `G` the vertical one; neither passes the
sides, nor the vertical one surface and bottom. -/
theorem C138_tracer_3d (T : Tracer3.Term e) (F : Tracer3.Fields e) (bc : ℕ → Option (Tracer3.BFuncs e)) (uv U : Vc e.m)
    (w W c test mu nu G : Sc e.m) (Q : Vc e.m) (hF : F.uv = some uv) (hFw : F.w = some w) (hmu : F.diffH = some mu)
    (hnu : F.diffV = some nu)
    (hU : ∀ i x, (U i x) = match F.uvDav with | some d => uv i x + d i x | none => uv i x)
    (hW : ∀ x, W x = match F.wMesh with | some q => w x - q x | none => w x)
    (hh : T.hdg = true) (hv : T.vdg = true) (hs : T.symm = true) (hf : e.m.Flat) (hup : Upright e)
    (h2 : ∀ x, (U 2 x).v = 0) (hUc : ∀ i, Cont (U i)) (hWc : Cont W) (hc : Cont c)
    (hbot : ∀ b, e.face b = .bottom →
      (U 0 (.bnd b)).v * e.m.nb b 0 + (U 1 (.bnd b)).v * e.m.nb b 1 + (W (.bnd b)).v * e.m.nb b 2 = 0)
    (hside : ∀ b, e.face b = .side → match bc (e.m.marker b) with
      | none => (U 0 (.bnd b)).v * e.m.nb b 0 + (U 1 (.bnd b)).v * e.m.nb b 1 = 0
      | some f => ∀ v, f.value = some v → v b = (c (.bnd b)).v)
    (hQ : ∀ i x, i ≠ 2 → (Q i x).v = (mu x).v * (c x).g i) (hQ2 : Q 2 = cst e.m 0) (hQc : ∀ i, Cont (Q i))
    (hQs : ∀ b, e.face b = .side → (mu (.bnd b)).v * (c (.bnd b)).g 0 * e.m.nb b 0 +
      (mu (.bnd b)).v * (c (.bnd b)).g 1 * e.m.nb b 1 = 0)
    (hG : ∀ x, (G x).v = (nu x).v * (c x).g 2) (hGc : Cont G)
    (hGb : ∀ b, e.face b = .side ∨ (G (.bnd b)).v = 0)
    (hd : DivExact e.m fun i => test * (c * (![U 0, U 1, W] : Vc e.m) i))
    (hdQ : DivExact e.m fun i => test * Q i)
    (hdG : DivExact e.m fun i => test * if i = 2 then G else cst e.m 0) :
    Tracer3.residual T F bc c test = e.m.dx fun x => (test (.cell x)).v *
      (-((c (.cell x) * U 0 (.cell x)).g 0 + (c (.cell x) * U 1 (.cell x)).g 1 + (c (.cell x) * W (.cell x)).g 2) +
        ((Q 0 (.cell x)).g 0 + (Q 1 (.cell x)).g 1) + (G (.cell x)).g 2 + F.source.elim 0 fun r => (r (.cell x)).v) := by
  have a1 := C138_advection_3d T F bc uv U w W c test hF hFw hU hW hh hv hs hf hup h2 hUc hWc hc hbot hside hd
  have a2 := Tracer3.C88_horizontal_consistent T F mu c test Q hmu hh hf hQ hQ2 hc (fun s i => hQc i s) hQs hdQ
  have a3 := Tracer3.C88_consistent T F nu c test G hnu hv hf hG (fun s _ => hc s) (fun s _ => hGc s) hup.1 hup.2
    (fun b hb => (hGb b).resolve_left hb) hdG
  have a4 : Tracer3.source F test = e.m.dx fun x => (test (.cell x)).v * F.source.elim 0 fun r => (r (.cell x)).v := by
    unfold Tracer3.source
    cases F.source with
    | none => simp [dx_zero]
    | some r => exact dx_congr fun x => mul_comm _ _
  unfold Tracer3.residual
  rw [a1, a2, a3, a4, ← dx_add, ← dx_add, ← dx_add]
  exact dx_congr fun x => by ring

/-! ### Example in the tank -/

theorem tank_upright : Upright tank := by
  refine ⟨fun s hs => by simp [tank] at hs, fun b => ?_⟩
  change tkFace b = .side → tkN b 2 = 0
  cases b <;> simp [tkFace, tkN]

/-- A tracer that is linear in space in the uniform flow along the bottom of the tank; prescribed values at the open sides;
any test function that is constant in each layer. -/
example (r s t q a b : ℝ) :
    let c := tankField ⟨r, s, t, q⟩ ⟨r, s, t, q⟩
    let phi := tankField ⟨a, 0, 0, 0⟩ ⟨b, 0, 0, 0⟩
    Tracer3.hAdvection Tracer3.exTerm Tracer3.exFields (fun k => if k == 1 || k == 2 then
        some { value := some fun b => (c (.bnd b)).v } else none) c phi +
      Tracer3.vAdvection Tracer3.exTerm Tracer3.exFields c phi =
      tank.m.dx fun x => -((s + q) * (phi (.cell x)).v) := by
  intro c phi
  have hU : ∀ i : Fin 3, (![tankUv 0, tankUv 1, cst tank.m 1] : Vc tank.m) i = cst tank.m (![1, 0, 1] i) := fun i => by
    fin_cases i <;> rfl
  rw [C138_advection_3d Tracer3.exTerm Tracer3.exFields _ tankUv tankUv (cst tank.m 1) (cst tank.m 1) c phi rfl rfl
    (fun _ _ => rfl) (fun _ => rfl) rfl rfl rfl tank_flat tank_upright (fun x => rfl) (fun i s => rfl) (fun s => rfl)
    (fun s => by cases s; rfl)]
  · refine dx_congr fun x => ?_
    have h : ∀ g : Fin 3, (c (.cell x)).g g = ![s, t, q] g := fun g => by cases x <;> rfl
    simp [tankUv, h]
  · intro b
    change tkFace b = .bottom → _
    have : ((tankUv 0 (.bnd b)).v * tank.m.nb b 0 + (tankUv 1 (.bnd b)).v * tank.m.nb b 1 +
        (cst tank.m 1 (.bnd b)).v * tank.m.nb b 2) = tkN b 0 + tkN b 2 := by
      simp [tankUv]; rfl
    rw [this]
    cases b <;> simp [tkFace, tkN]
  · intro b
    change tkFace b = .side → _
    intro hb
    by_cases h : (tank.m.marker b == 1 || tank.m.marker b == 2) = true
    · simp only [h, if_true]
      rintro v hv
      rw [← Option.some.inj hv]
    · simp only [h]
      have e : (tankUv 0 (.bnd b)).v * tank.m.nb b 0 + (tankUv 1 (.bnd b)).v * tank.m.nb b 1 = tkN b 0 := by
        simp [tankUv]; rfl
      rw [if_neg (by simp), e]
      change ¬ (tkMarker b == 1 || tkMarker b == 2) = true at h
      cases b <;> simp [tkFace, tkN, tkMarker] at *
  · have : (fun i => phi * (c * (![tankUv 0, tankUv 1, cst tank.m 1] : Vc tank.m) i)) = fun i => tankField
        ⟨a * (r * ![1, 0, 1] i), a * (s * ![1, 0, 1] i), a * (t * ![1, 0, 1] i), a * (q * ![1, 0, 1] i)⟩
        ⟨b * (r * ![1, 0, 1] i), b * (s * ![1, 0, 1] i), b * (t * ![1, 0, 1] i), b * (q * ![1, 0, 1] i)⟩ := by
      funext i x
      rw [hU]
      cases x with
      | cell y => cases y <;> (apply Jet.ext; · simp [c, phi, tankField, Lin.jet]; ring
                               · funext j; fin_cases j <;> simp [c, phi, tankField, Lin.jet])
      | plus y => cases y; (apply Jet.ext; · simp [c, phi, tankField, Lin.jet]; ring
                            · funext j; fin_cases j <;> simp [c, phi, tankField, Lin.jet])
      | minus y => cases y; (apply Jet.ext; · simp [c, phi, tankField, Lin.jet]; ring
                             · funext j; fin_cases j <;> simp [c, phi, tankField, Lin.jet])
      | bnd y => cases y <;> (apply Jet.ext; · simp [c, phi, tankField, Lin.jet]; ring
                              · funext j; fin_cases j <;> simp [c, phi, tankField, Lin.jet])
    rw [this]
    exact tank_divExact _ _

end ThreeD

end Verif.Strong
