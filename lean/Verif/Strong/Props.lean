import Verif.Strong.Lemmas
import Verif.Swe.Lemmas
import Verif.Swe.Props

/-!
C137: the weak forms are those of the documented differential equations.  For fields without jumps the form of each
term is the integral of the term of the equation times the test function, whatever the test function.
-/

namespace Verif.Strong

open Verif.Dg Verif.Swe

variable {m : Mesh 2}

/-- The boundary data agree with the flow: no flow through closed boundaries, and the prescribed elevation and normal
velocity at open ones are those of the flow. -/
def Fits (T : Term m) (bc : ℕ → Option (Funcs m)) (uv : Vc m) (eta : Sc m) (b : m.B) : Prop :=
  match openFuncs (bc (m.marker b)) with
  | none => ∑ i, (uv i (.bnd b)).v * m.nb b i = 0
  | some f =>
    let r := bndF T f (m.marker b) b (eta (.bnd b)).v (fun i => (uv i (.bnd b)).v)
    r.1 = (eta (.bnd b)).v ∧ ∑ i, r.2 i * m.nb b i = ∑ i, (uv i (.bnd b)).v * m.nb b i

theorem headOpen_fits (T : Term m) (f : Funcs m) (uv : Vc m) (eta etaOld : Sc m) (b : m.B) (k : ℕ)
    (h1 : (bndF T f k b (eta (.bnd b)).v (fun i => (uv i (.bnd b)).v)).1 = (eta (.bnd b)).v)
    (h2 : ∑ i, (bndF T f k b (eta (.bnd b)).v (fun i => (uv i (.bnd b)).v)).2 i * m.nb b i =
      ∑ i, (uv i (.bnd b)).v * m.nb b i) : headOpen T f k uv eta etaOld b = (eta (.bnd b)).v := by
  have e : (∑ i, (atB uv b i - (bndF T f k b (eta (.bnd b)).v (atB uv b)).2 i) * m.nb b i) = 0 := by
    simp only [sub_mul, Finset.sum_sub_distrib]
    exact sub_eq_zero.2 h2.symm
  have e1 : (bndF T f k b (eta (.bnd b)).v (atB uv b)).1 = (eta (.bnd b)).v := h1
  simp only [headOpen, e, e1]
  ring

/-- C137, `g grad(eta)`: the pressure term for a flow without jumps that agrees with the boundary data. -/
theorem C137_pressure (T : Term m) (bc : ℕ → Option (Funcs m)) (uv : Vc m) (eta etaOld : Sc m) (w : Vc m) (hf : m.Flat)
    (hu : ∀ i, Cont (uv i)) (he : Cont eta) (hb : ∀ b, Fits T bc uv eta b)
    (hd : T.etaDg = true → DivExact m fun i => eta * w i) :
    pressure T bc uv eta etaOld w = m.dx fun x => -(T.g * ∑ i, (eta (.cell x)).g i * (w i (.cell x)).v) := by
  unfold pressure
  split
  · next hdg =>
    have p := parts_grad eta w he (hd hdg)
    have e1 : m.dx (fun x => -(T.g * (eta (.cell x)).v * div w (.cell x))) =
        -T.g * m.dx fun x => (eta (.cell x)).v * div w (.cell x) := by
      rw [← dx_smul]; exact dx_congr fun x => by ring
    have e2 : m.dS (fun s => T.g * (avg eta s + Real.sqrt (avg (totalH T etaOld) s / T.g) * jumpV uv s) * jumpV w s) =
        T.g * m.dS fun s => avg eta s * jumpV w s := by
      rw [← dS_smul]; exact dS_congr fun s => by rw [Cont.jumpV hu hf]; ring
    have e3 : m.bndLoop (fun k b => T.g * headBnd T bc uv eta etaOld k b * normalAt w b) =
        T.g * ∑ b, m.wB b * ((eta (.bnd b)).v * normalAt w b) := by
      rw [bndLoop_eq, ← dB_smul]
      refine dB_congr fun b => ?_
      have h := hb b
      unfold Fits at h
      unfold headBnd
      split at h
      · next h0 => rw [h0]; simp only [normalAt, h]; ring
      · next f h0 => rw [h0]; simp only [headOpen_fits T f uv eta etaOld b _ h.1 h.2]; ring
    have e4 : m.dx (fun x => -(T.g * ∑ i, (eta (.cell x)).g i * (w i (.cell x)).v)) =
        -T.g * m.dx fun x => ∑ i, (eta (.cell x)).g i * (w i (.cell x)).v := by
      rw [← dx_smul]; exact dx_congr fun x => by ring
    simp only [e1, e2, e3, e4, p]
    ring
  · have e3 : m.bndLoop (fun k b => T.g * headCorr T bc uv eta etaOld k b * normalAt w b) = 0 := by
      rw [bndLoop_eq]
      refine Finset.sum_eq_zero fun b _ => ?_
      have h := hb b
      unfold Fits at h
      unfold headCorr
      split at h
      · next h0 => rw [h0]; ring
      · next f h0 => rw [h0]; simp only [headOpen_fits T f uv eta etaOld b _ h.1 h.2]; ring
    simp only [e3, add_zero]
    rw [← dx_neg]

theorem fluxOpen_fits (T : Term m) (f : Funcs m) (uv : Vc m) (eta : Sc m) (b : m.B) (k : ℕ)
    (h1 : (bndF T f k b (eta (.bnd b)).v (fun i => (uv i (.bnd b)).v)).1 = (eta (.bnd b)).v)
    (h2 : ∑ i, (bndF T f k b (eta (.bnd b)).v (fun i => (uv i (.bnd b)).v)).2 i * m.nb b i =
      ∑ i, (uv i (.bnd b)).v * m.nb b i) :
    fluxOpen T f k uv eta uv eta b = (totalH T eta (.bnd b)).v * ∑ i, (uv i (.bnd b)).v * m.nb b i := by
  have e : (∑ i, (atB uv b i - (bndF T f k b (eta (.bnd b)).v (atB uv b)).2 i) * m.nb b i) = 0 := by
    simp only [sub_mul, Finset.sum_sub_distrib]
    exact sub_eq_zero.2 h2.symm
  have e0 : (∑ i, (atB uv b i + (bndF T f k b (eta (.bnd b)).v (atB uv b)).2 i) * m.nb b i) =
      2 * ∑ i, (uv i (.bnd b)).v * m.nb b i := by
    simp only [add_mul, Finset.sum_add_distrib]
    have h2' : ∑ i, (bndF T f k b (eta (.bnd b)).v (atB uv b)).2 i * m.nb b i =
      ∑ i, (uv i (.bnd b)).v * m.nb b i := h2
    rw [h2', two_mul]; rfl
  have e1 : (bndF T f k b (eta (.bnd b)).v (atB uv b)).1 = (eta (.bnd b)).v := h1
  simp only [fluxOpen, e, e0, e1, totalH_v, sub_self, mul_zero, add_zero]
  ring_nf

/-- C137, `div(H u)`: the divergence term for a flow without jumps.  With a continuous elevation space the test
functions are continuous too, and with a continuous velocity space the code closes the boundaries that have `un`. -/
theorem C137_volume (T : Term m) (bc : ℕ → Option (Funcs m)) (uv : Vc m) (eta phi : Sc m) (hf : m.Flat)
    (hu : ∀ i, Cont (uv i)) (he : Cont eta) (hh : Cont (fun x => T.depth.total x (eta x))) (hb : ∀ b, Fits T bc uv eta b)
    (hphi : T.etaDg = false → Cont phi)
    (hw : T.uDg = false → ∀ b, walled bc (m.marker b) = true → ∑ i, (uv i (.bnd b)).v * m.nb b i = 0)
    (hd : T.uDg = true → DivExact m fun i => phi * (fun x => T.depth.total x (eta x) * uv i x)) :
    huDiv T bc uv eta uv eta phi =
      m.dx fun x => -((∑ i, (T.depth.total (.cell x) (eta (.cell x)) * uv i (.cell x)).g i) * (phi (.cell x)).v) := by
  unfold huDiv
  have hc : ∀ i, Cont (fun x => T.depth.total x (eta x) * uv i x) := fun i => Cont.mul hh (hu i)
  split
  · next hdg =>
    have p := parts_flux (fun i x => T.depth.total x (eta x) * uv i x) phi hc (hd hdg)
    have e2 : (if T.etaDg then m.dS fun s => ∑ i, jumpN phi s i * (avg (totalH T eta) s * (avg (uv i) s +
          Real.sqrt (T.g / avg (totalH T eta) s) * jumpN eta s i)) else 0) =
        m.dS fun s => ∑ i, jumpN phi s i * avg (fun x => T.depth.total x (eta x) * uv i x) s := by
      split
      · refine dS_congr fun s => Finset.sum_congr rfl fun i _ => ?_
        rw [he.jumpN hf, (hu i).avg, (hc i).avg, Cont.avg (f := totalH T eta) hh]
        simp only [totalH, Jet.mul_v]
        ring
      · next h0 =>
        symm
        refine (dS_congr (h := fun _ => 0) fun s => Finset.sum_eq_zero fun i _ => ?_).trans dS_zero
        rw [(hphi (by simpa using h0)).jumpN hf, zero_mul]
    have e3 : m.bndLoop (fun k b => volFlux T bc uv eta uv eta k b * (phi (.bnd b)).v) =
        ∑ b, m.wB b * (normalAt (fun i x => T.depth.total x (eta x) * uv i x) b * (phi (.bnd b)).v) := by
      rw [bndLoop_eq]
      refine dB_congr fun b => ?_
      have h := hb b
      unfold Fits at h
      have en : normalAt (fun i x => T.depth.total x (eta x) * uv i x) b =
          (totalH T eta (.bnd b)).v * ∑ i, (uv i (.bnd b)).v * m.nb b i := by
        simp only [normalAt, Jet.mul_v, totalH, Finset.mul_sum, mul_assoc]
      rw [en]
      unfold volFlux
      split at h
      · next h0 => rw [h0, h]; ring
      · next f h0 => rw [h0]; simp only [fluxOpen_fits T f uv eta b _ h.1 h.2]
    have e1 : m.dx (fun x => -∑ i, (phi (.cell x)).g i * ((totalH T eta (.cell x)).v * (uv i (.cell x)).v)) =
        -m.dx fun x => ∑ i, (phi (.cell x)).g i * (T.depth.total (.cell x) (eta (.cell x)) * uv i (.cell x)).v := by
      rw [← dx_neg]; rfl
    rw [dx_neg]
    simp only [e1, e2, e3, p, div]
    ring
  · next hdg =>
    have e3 : m.bndLoop (fun k b => if walled bc k then
        -((totalH T eta (.bnd b)).v * normalAt uv b * (phi (.bnd b)).v) else 0) = 0 := by
      rw [bndLoop_eq]
      refine Finset.sum_eq_zero fun b _ => ?_
      split
      · next h => simp only [normalAt, hw (by simpa using hdg) b h]; ring
      · ring
    simp only [e3, add_zero]
    rw [← dx_neg]
    exact dx_congr fun x => rfl

/-- As `Fits`, with both components of the velocity. -/
def FitsUv (T : Term m) (bc : ℕ → Option (Funcs m)) (uv : Vc m) (eta : Sc m) (b : m.B) : Prop :=
  match openFuncs (bc (m.marker b)) with
  | none => ∑ i, (uv i (.bnd b)).v * m.nb b i = 0
  | some f => bndF T f (m.marker b) b (eta (.bnd b)).v (fun i => (uv i (.bnd b)).v) =
      ((eta (.bnd b)).v, fun i => (uv i (.bnd b)).v)

theorem FitsUv.fits {T : Term m} {bc : ℕ → Option (Funcs m)} {uv : Vc m} {eta : Sc m} {b : m.B}
    (h : FitsUv T bc uv eta b) : Fits T bc uv eta b := by
  unfold FitsUv at h
  unfold Fits
  split at h
  · exact h
  · simp only [h, and_self]

/-- C137, `u · grad(u)`: the advection term for a velocity without jumps. -/
theorem C137_advection (T : Term m) (bc : ℕ → Option (Funcs m)) (uv : Vc m) (eta : Sc m) (w : Vc m) (hn : T.nonlinear = true)
    (hu : ∀ i, Cont (uv i)) (hf : m.Flat) (hw : T.uDg = false → ∀ i, Cont (w i)) (hb : ∀ b, FitsUv T bc uv eta b)
    (hd : ∀ i, DivExact m fun j => uv i * (w i * uv j)) :
    advection T bc uv eta uv eta w =
      m.dx fun x => -∑ i, (∑ j, (uv j (.cell x)).v * (uv i (.cell x)).g j) * (w i (.cell x)).v := by
  unfold advection
  rw [if_pos hn]
  have p := fun i => parts_grad (uv i) (fun j => w i * uv j) (hu i) (hd i)
  have e1 : m.dx (fun x => -∑ i, div (fun j => w i * uv j) (.cell x) * (uv i (.cell x)).v) =
      -(m.dx (fun x => (uv 0 (.cell x)).v * div (fun j => w 0 * uv j) (.cell x)) +
        m.dx (fun x => (uv 1 (.cell x)).v * div (fun j => w 1 * uv j) (.cell x))) := by
    rw [← dx_add, ← dx_neg]; exact dx_congr fun x => by rw [Fin.sum_univ_two]; ring
  have e2 : m.dS (fun s => ∑ i, avg (uv i) s * jumpV (fun j => w i * uv j) s) =
      m.dS (fun s => avg (uv 0) s * jumpV (fun j => w 0 * uv j) s) +
        m.dS (fun s => avg (uv 1) s * jumpV (fun j => w 1 * uv j) s) := by
    rw [← dS_add]; exact dS_congr fun s => by rw [Fin.sum_univ_two]
  have e3 : m.dS (fun s => (1 / 2) * |∑ j, avg (uv j) s * m.nm s j| * T.lfFactor * ∑ i, jump (w i) s * jump (uv i) s) = 0 :=
    (dS_congr (h := fun _ => 0) fun s => by simp [(hu _).jump s]).trans dS_zero
  have e4 : m.bndLoop (fun k b => lfBnd T bc uv uv w k b) = 0 := by
    rw [bndLoop_eq]
    refine Finset.sum_eq_zero fun b _ => ?_
    have h := hb b
    unfold FitsUv at h
    unfold lfBnd
    split at h
    · next h0 => rw [h0]; simp only [normalAt, h, abs_zero]; ring
    · next f h0 => rw [h0]; simp
  have e5 : m.bndLoop (fun k b => momBnd T bc uv eta uv eta w k b) =
      (∑ b, m.wB b * ((uv 0 (.bnd b)).v * normalAt (fun j => w 0 * uv j) b)) +
        ∑ b, m.wB b * ((uv 1 (.bnd b)).v * normalAt (fun j => w 1 * uv j) b) := by
    rw [bndLoop_eq, ← dB_add]
    refine dB_congr fun b => ?_
    have h := hb b
    unfold FitsUv at h
    have en : ∀ i, normalAt (fun j => w i * uv j) b = (w i (.bnd b)).v * ∑ j, (uv j (.bnd b)).v * m.nb b j := fun i => by
      simp only [normalAt, Pi.mul_apply, Jet.mul_v, Finset.mul_sum, mul_assoc]
    rw [en, en]
    unfold momBnd
    split at h
    · next h0 => rw [h0, h]; ring
    · next f h0 =>
      have h' : bndF T f (m.marker b) b (eta (.bnd b)).v (atB uv b) = ((eta (.bnd b)).v, fun i => (uv i (.bnd b)).v) := h
      rw [h0]
      simp only [momFlux, h', atB, Fin.sum_univ_two, sub_self]
      ring
  have e6 : m.dx (fun x => -∑ i, (∑ j, (uv j (.cell x)).v * (uv i (.cell x)).g j) * (w i (.cell x)).v) =
      -(m.dx (fun x => ∑ j, (uv 0 (.cell x)).g j * ((w 0 * uv j) (.cell x)).v) +
        m.dx (fun x => ∑ j, (uv 1 (.cell x)).g j * ((w 1 * uv j) (.cell x)).v)) := by
    rw [← dx_add, ← dx_neg]
    refine dx_congr fun x => ?_
    simp only [Fin.sum_univ_two, Pi.mul_apply, Jet.mul_v]
    ring
  have q : (if T.uDg then m.dS (fun s => ∑ i, avg (uv i) s * jumpV (fun j => w i * uv j) s) +
        (if T.lf then m.dS (fun s => (1 / 2) * |∑ j, avg (uv j) s * m.nm s j| * T.lfFactor *
          ∑ i, jump (w i) s * jump (uv i) s) + m.bndLoop (fun k b => lfBnd T bc uv uv w k b) else 0) else 0) =
      m.dS (fun s => ∑ i, avg (uv i) s * jumpV (fun j => w i * uv j) s) := by
    split
    · rw [e3, e4]; simp
    · next h0 =>
      symm
      refine (dS_congr (h := fun _ => 0) fun s => Finset.sum_eq_zero fun i _ => ?_).trans dS_zero
      rw [Cont.jumpV (fun j => (hw (by simpa using h0) i).mul (hu j)) hf, mul_zero]
  simp only [q]
  simp only [e1, e2, e5, e6, p]
  ring

/-- C137: without the nonlinear terms there is no advection. -/
theorem C137_linear (T : Term m) (bc : ℕ → Option (Funcs m)) (uv uvOld : Vc m) (eta etaOld : Sc m) (w : Vc m)
    (hn : T.nonlinear = false) : advection T bc uv eta uvOld etaOld w = 0 := by
  unfold advection
  rw [if_neg (by simp [hn])]

/-- The stress tensor `nu (grad u + grad(u)^T)`, or `nu grad u`, is the field `tau`: a tensor with derivatives of its own,
without jumps. -/
structure IsStress (T : Term m) (nu : Sc m) (uv : Vc m) (tau : Fin 2 → Fin 2 → Sc m) : Prop where
  value : ∀ x i j, (tau i j x).v = (nu x).v * ((uv i x).g j + if T.gradDiv then (uv j x).g i else 0)
  cont : ∀ i j, Cont (tau i j)

/-- What the boundary data have to be for the viscosity term: the prescribed velocity is that of the flow, and no stress
acts where none is prescribed. -/
def FitsVisc (T : Term m) (bc : ℕ → Option (Funcs m)) (uv : Vc m) (eta : Sc m) (tau : Fin 2 → Fin 2 → Sc m) (b : m.B) :
    Prop :=
  match (if T.uDg then deltaUv T bc uv eta (m.marker b) b else none) with
  | none => ∀ i, ∑ j, (tau i j (.bnd b)).v * m.nb b j = 0
  | some d => ∀ i, d i = 0

/-- C137, `div(nu (grad u + grad(u)^T)) + nu grad(H)/H · (grad u + grad(u)^T)`: the viscosity term. -/
theorem C137_viscosity (T : Term m) (bc : ℕ → Option (Funcs m)) (nu : Sc m) (uv : Vc m) (eta etaOld : Sc m) (w : Vc m)
    (tau : Fin 2 → Fin 2 → Sc m) (ht : IsStress T nu uv tau) (hf : m.Flat) (hu : ∀ i, Cont (uv i))
    (hw : T.uDg = false → ∀ i, Cont (w i)) (hb : ∀ b, FitsVisc T bc uv eta tau b)
    (hd : ∀ i, DivExact m fun j => w i * tau i j) :
    viscosity T bc (some nu) uv eta etaOld w = m.dx fun x => ∑ i, (w i (.cell x)).v * ((∑ j, (tau i j (.cell x)).g j) +
      if T.gradDepth then ∑ j, (T.depth.total (.cell x) (etaOld (.cell x))).g j /
        (T.depth.total (.cell x) (etaOld (.cell x))).v * (tau j i (.cell x)).v else 0) := by
  have hv : ∀ x i j, stress T nu uv x i j = (tau i j x).v := fun x i j => by
    rw [ht.value]
    unfold stress Swe.symm
    split <;> simp
  have p := fun i => parts_flux (fun j => tau i j) (w i) (ht.cont i) (hd i)
  have ts : ∀ s i j, tensorJump uv s i j = 0 := fun s i j => (hu i).jumpN hf s j
  have sy : ∀ s i j, Swe.symm T (tensorJump uv s) i j = 0 := fun s i j => by simp [Swe.symm, ts]
  unfold viscosity
  have e1 : m.dx (fun x => ∑ i, ∑ j, (w i (.cell x)).g j * stress T nu uv (.cell x) i j) =
      m.dx (fun x => ∑ j, (w 0 (.cell x)).g j * (tau 0 j (.cell x)).v) +
        m.dx (fun x => ∑ j, (w 1 (.cell x)).g j * (tau 1 j (.cell x)).v) := by
    rw [← dx_add]
    exact dx_congr fun x => by simp only [Fin.sum_univ_two, hv]
  have e2 : m.dS (fun s => ∑ i, ∑ j,
      (sigmaMax T s * (tensorJump w s i j * (avg nu s * Swe.symm T (tensorJump uv s) i j)) -
        (1 / 2) * ((w i (.plus s)).g j + (w i (.minus s)).g j) * (avg nu s * Swe.symm T (tensorJump uv s) i j) -
        tensorJump w s i j * ((1 / 2) * (stress T nu uv (.plus s) i j + stress T nu uv (.minus s) i j)))) =
      -(m.dS (fun s => ∑ j, jumpN (w 0) s j * avg (tau 0 j) s) + m.dS (fun s => ∑ j, jumpN (w 1) s j * avg (tau 1 j) s)) := by
    rw [← dS_add, ← dS_neg]
    refine dS_congr fun s => ?_
    simp only [sy, hv, Fin.sum_univ_two, tensorJump, jumpN, avg]
    ring
  have e3 : (if T.uDg then m.bndLoop (fun k b => viscBnd T bc nu uv eta w k b) else 0) =
      -((∑ b, m.wB b * (normalAt (fun j => tau 0 j) b * (w 0 (.bnd b)).v)) +
        ∑ b, m.wB b * (normalAt (fun j => tau 1 j) b * (w 1 (.bnd b)).v)) := by
    rw [← dB_add, ← Swe.dB_neg]
    have : (if T.uDg then m.bndLoop (fun k b => viscBnd T bc nu uv eta w k b) else 0) =
        ∑ b, m.wB b * if T.uDg then viscBnd T bc nu uv eta w (m.marker b) b else 0 := by
      split
      · rw [bndLoop_eq]
      · simp
    rw [this]
    refine dB_congr fun b => ?_
    have h := hb b
    unfold FitsVisc at h
    unfold viscBnd
    by_cases h0 : T.uDg = true
    · rw [if_pos h0] at h ⊢
      split at h
      · next h1 => rw [h1]; simp only [normalAt, h]; ring
      · next d h1 =>
        rw [h1]
        simp only [normalAt, h, hv, Swe.symm, zero_mul, add_zero, ite_self, mul_zero, Fin.sum_univ_two]
        ring
    · rw [if_neg h0] at h ⊢
      simp only at h
      simp only [normalAt, h]; ring
  have e2' : (if T.uDg then m.dS (fun s => ∑ i, ∑ j,
      (sigmaMax T s * (tensorJump w s i j * (avg nu s * Swe.symm T (tensorJump uv s) i j)) -
        (1 / 2) * ((w i (.plus s)).g j + (w i (.minus s)).g j) * (avg nu s * Swe.symm T (tensorJump uv s) i j) -
        tensorJump w s i j * ((1 / 2) * (stress T nu uv (.plus s) i j + stress T nu uv (.minus s) i j)))) +
        m.bndLoop (fun k b => viscBnd T bc nu uv eta w k b) else 0) =
      -(m.dS (fun s => ∑ j, jumpN (w 0) s j * avg (tau 0 j) s) + m.dS (fun s => ∑ j, jumpN (w 1) s j * avg (tau 1 j) s)) +
      if T.uDg then m.bndLoop (fun k b => viscBnd T bc nu uv eta w k b) else 0 := by
    split
    · rw [e2]
    · next h0 =>
      have z : ∀ i, m.dS (fun s => ∑ j, jumpN (w i) s j * avg (tau i j) s) = 0 := fun i =>
        (dS_congr (h := fun _ => 0) fun s => Finset.sum_eq_zero fun j _ => by
          rw [(hw (by simpa using h0) i).jumpN hf, zero_mul]).trans dS_zero
      rw [z, z]; simp
  have e4 : (if T.gradDepth then m.dx fun x => -∑ j, (w j (.cell x)).v *
      ∑ i, (totalH T etaOld (.cell x)).g i / (totalH T etaOld (.cell x)).v * stress T nu uv (.cell x) i j else 0) =
      -m.dx fun x => ∑ i, (w i (.cell x)).v * if T.gradDepth then ∑ j, (T.depth.total (.cell x) (etaOld (.cell x))).g j /
        (T.depth.total (.cell x) (etaOld (.cell x))).v * (tau j i (.cell x)).v else 0 := by
    split
    · rw [← dx_neg]; exact dx_congr fun x => by simp only [hv]; rfl
    · simp [dx_zero]
  have e5 : (m.dx fun x => ∑ i, (w i (.cell x)).v * ((∑ j, (tau i j (.cell x)).g j) +
      if T.gradDepth then ∑ j, (T.depth.total (.cell x) (etaOld (.cell x))).g j /
        (T.depth.total (.cell x) (etaOld (.cell x))).v * (tau j i (.cell x)).v else 0)) =
      m.dx (fun x => div (fun j => tau 0 j) (.cell x) * (w 0 (.cell x)).v) +
      m.dx (fun x => div (fun j => tau 1 j) (.cell x) * (w 1 (.cell x)).v) +
      m.dx fun x => ∑ i, (w i (.cell x)).v * if T.gradDepth then ∑ j, (T.depth.total (.cell x) (etaOld (.cell x))).g j /
        (T.depth.total (.cell x) (etaOld (.cell x))).v * (tau j i (.cell x)).v else 0 := by
    rw [← dx_add, ← dx_add]
    refine dx_congr fun x => ?_
    simp only [Fin.sum_univ_two, div]
    ring
  simp only [e1, e2', e3, e4, e5, p]
  ring

/-! ### All terms together -/

/-- Right hand side of the documented momentum equation at a point, solved for the time derivative: advection, surface
slope, viscosity, rotation, wind, atmospheric pressure, quadratic and linear drag, bottom drag of the 3D model, source and
turbines.  `tau` is the viscous stress. -/
noncomputable def accel (T : Term m) (K : Coeffs m) (uv : Vc m) (eta : Sc m) (tau : Fin 2 → Fin 2 → Sc m) (x : m.C)
    (i : Fin 2) : ℝ :=
  let u : Fin 2 → ℝ := fun j => (uv j (.cell x)).v
  let H := T.depth.total (.cell x) (eta (.cell x))
  (if T.nonlinear then -∑ j, u j * (uv i (.cell x)).g j else 0)
  - T.g * (eta (.cell x)).g i
  + (K.nu.elim 0 fun _ => (∑ j, (tau i j (.cell x)).g j) +
      if T.gradDepth then ∑ j, H.g j / H.v * (tau j i (.cell x)).v else 0)
  + (K.coriolis.elim 0 fun f => (f (.cell x)).v * ![u 1, -u 0] i)
  + (K.wind.elim 0 fun t => (t i (.cell x)).v / (H.v * T.rho0))
  - (K.pressure.elim 0 fun p => (p (.cell x)).g i / T.rho0)
  - (K.cd.elim 0 fun c => c x * Real.sqrt (u 0 ^ 2 + u 1 ^ 2 + T.smoother ^ 2) * u i / H.v)
  - (K.linear.elim 0 fun c => (c (.cell x)).v * u i)
  - (K.bottomDrag.elim 0 fun c => K.uvBottom.elim 0 fun b => (c (.cell x)).v *
      Real.sqrt ((b 0 (.cell x)).v ^ 2 + (b 1 (.cell x)).v ^ 2) * (b i (.cell x)).v / H.v)
  + (K.source.elim 0 fun s => (s i (.cell x)).v)
  - (K.farms.map fun F => if F.inside x then
      F.ct u H.v * F.density x * Real.sqrt (u 0 ^ 2 + u 1 ^ 2) * u i / H.v else 0).sum

theorem turbine_dx (T : Term m) (farms : List (Farm m)) (uv : Vc m) (eta : Sc m) (w : Vc m) :
    turbineDrag T farms uv uv eta w = m.dx fun x => ∑ i, (w i (.cell x)).v *
      -(farms.map fun F => if F.inside x then
        F.ct (fun j => (uv j (.cell x)).v) (T.depth.total (.cell x) (eta (.cell x))).v * F.density x *
          Real.sqrt ((uv 0 (.cell x)).v ^ 2 + (uv 1 (.cell x)).v ^ 2) * (uv i (.cell x)).v /
          (T.depth.total (.cell x) (eta (.cell x))).v else 0).sum := by
  unfold turbineDrag
  induction farms with
  | nil => simp [dx_zero]
  | cons F r ih =>
    simp only [List.map_cons, List.sum_cons, neg_add]
    rw [ih, ← dx_neg, ← dx_add]
    refine dx_congr fun x => ?_
    simp only [Fin.sum_univ_two, totalH, sq]
    split
    · ring
    · ring

/-- C137: the momentum part of the weak form is the integral of the documented momentum equation times the test
function, and the drag of the boundaries. -/
theorem C137_momentum (T : Term m) (K : Coeffs m) (bc : ℕ → Option (Funcs m)) (uv : Vc m) (eta : Sc m) (w : Vc m)
    (tau : Fin 2 → Fin 2 → Sc m) (hf : m.Flat) (hu : ∀ i, Cont (uv i)) (he : Cont eta)
    (hw : T.uDg = false → ∀ i, Cont (w i)) (hb : ∀ b, FitsUv T bc uv eta b)
    (ht : ∀ nu, K.nu = some nu → IsStress T nu uv tau ∧ (∀ b, FitsVisc T bc uv eta tau b) ∧
      ∀ i, DivExact m fun j => w i * tau i j)
    (hd : T.etaDg = true → DivExact m fun i => eta * w i)
    (ha : T.nonlinear = true → ∀ i, DivExact m fun j => uv i * (w i * uv j)) :
    momentum T K bc uv eta uv eta w =
      m.dx (fun x => ∑ i, (w i (.cell x)).v * accel T K uv eta tau x i) + boundaryDrag bc uv uv w := by
  have e1 := C137_pressure T bc uv eta eta w hf hu he (fun b => (hb b).fits) hd
  have e2 : advection T bc uv eta uv eta w = m.dx fun x => ∑ i, (w i (.cell x)).v *
      if T.nonlinear then -∑ j, (uv j (.cell x)).v * (uv i (.cell x)).g j else 0 := by
    by_cases hn : T.nonlinear = true
    · rw [C137_advection T bc uv eta w hn hu hf hw hb (ha hn)]
      refine dx_congr fun x => ?_
      simp only [Fin.sum_univ_two, if_pos hn]
      ring
    · rw [C137_linear T bc uv uv eta eta w (by simpa using hn)]
      simp [hn, dx_zero]
  have e3 : viscosity T bc K.nu uv eta eta w = m.dx fun x => ∑ i, (w i (.cell x)).v *
      K.nu.elim 0 fun _ => (∑ j, (tau i j (.cell x)).g j) + if T.gradDepth then
        ∑ j, (T.depth.total (.cell x) (eta (.cell x))).g j / (T.depth.total (.cell x) (eta (.cell x))).v *
          (tau j i (.cell x)).v else 0 := by
    cases hk : K.nu with
    | none => simp [viscosity, dx_zero]
    | some nu =>
      obtain ⟨h1, h2, h3⟩ := ht nu hk
      exact C137_viscosity T bc nu uv eta eta w tau h1 hf hu hw h2 h3
  have e4 : coriolis K.coriolis uv w = m.dx fun x => ∑ i, (w i (.cell x)).v *
      K.coriolis.elim 0 fun f => (f (.cell x)).v * ![(uv 1 (.cell x)).v, -(uv 0 (.cell x)).v] i := by
    unfold coriolis
    cases K.coriolis with
    | none => simp [dx_zero]
    | some f =>
      dsimp only
      rw [← dx_neg]
      refine dx_congr fun x => ?_
      simp only [Fin.sum_univ_two, Option.elim_some, Matrix.cons_val_zero, Matrix.cons_val_one]
      ring
  have e5 : windStress T K.wind eta w = m.dx fun x => ∑ i, (w i (.cell x)).v *
      K.wind.elim 0 fun t => (t i (.cell x)).v / ((T.depth.total (.cell x) (eta (.cell x))).v * T.rho0) := by
    unfold windStress
    cases K.wind with
    | none => simp [dx_zero]
    | some f =>
      refine dx_congr fun x => ?_
      simp only [Fin.sum_univ_two, Option.elim_some, totalH, div_eq_mul_inv, mul_inv]
      ring
  have e6 : atmPressure T K.pressure w = m.dx fun x => ∑ i, (w i (.cell x)).v *
      -K.pressure.elim 0 fun p => (p (.cell x)).g i / T.rho0 := by
    unfold atmPressure
    cases K.pressure with
    | none => simp [dx_zero]
    | some f =>
      dsimp only
      rw [← dx_neg]
      refine dx_congr fun x => ?_
      simp only [Fin.sum_univ_two, Option.elim_some]
      ring
  have e7 : quadraticDrag T K.cd uv uv eta w = m.dx fun x => ∑ i, (w i (.cell x)).v *
      -K.cd.elim 0 fun c => c x * Real.sqrt ((uv 0 (.cell x)).v ^ 2 + (uv 1 (.cell x)).v ^ 2 + T.smoother ^ 2) *
        (uv i (.cell x)).v / (T.depth.total (.cell x) (eta (.cell x))).v := by
    unfold quadraticDrag
    cases K.cd with
    | none => simp [dx_zero]
    | some f =>
      dsimp only
      rw [← dx_neg]
      refine dx_congr fun x => ?_
      simp only [Fin.sum_univ_two, Option.elim_some, totalH, sq]
      ring
  have e8 : linearDrag K.linear uv w = m.dx fun x => ∑ i, (w i (.cell x)).v *
      -K.linear.elim 0 fun c => (c (.cell x)).v * (uv i (.cell x)).v := by
    unfold linearDrag
    cases K.linear with
    | none => simp [dx_zero]
    | some f =>
      dsimp only
      rw [← dx_neg]
      refine dx_congr fun x => ?_
      simp only [Fin.sum_univ_two, Option.elim_some]
      ring
  have e9 : bottomDrag3d T K.bottomDrag K.uvBottom eta w = m.dx fun x => ∑ i, (w i (.cell x)).v *
      -K.bottomDrag.elim 0 fun c => K.uvBottom.elim 0 fun b => (c (.cell x)).v *
        Real.sqrt ((b 0 (.cell x)).v ^ 2 + (b 1 (.cell x)).v ^ 2) * (b i (.cell x)).v /
          (T.depth.total (.cell x) (eta (.cell x))).v := by
    unfold bottomDrag3d
    cases K.bottomDrag with
    | none => simp [dx_zero]
    | some f =>
      cases K.uvBottom with
      | none => simp [dx_zero]
      | some b =>
        dsimp only
        rw [← dx_neg]
        refine dx_congr fun x => ?_
        simp only [Fin.sum_univ_two, Option.elim_some, totalH]
        ring
  have e10 : momentumSource K.source w = m.dx fun x => ∑ i, (w i (.cell x)).v *
      K.source.elim 0 fun s => (s i (.cell x)).v := by
    unfold momentumSource
    cases K.source with
    | none => simp [dx_zero]
    | some f =>
      refine dx_congr fun x => ?_
      simp only [Fin.sum_univ_two, Option.elim_some]
      ring
  have e11 := turbine_dx T K.farms uv eta w
  have key : m.dx (fun x => ∑ i, (w i (.cell x)).v * accel T K uv eta tau x i) =
      pressure T bc uv eta eta w + advection T bc uv eta uv eta w + viscosity T bc K.nu uv eta eta w +
        coriolis K.coriolis uv w + windStress T K.wind eta w + atmPressure T K.pressure w +
        quadraticDrag T K.cd uv uv eta w + linearDrag K.linear uv w + bottomDrag3d T K.bottomDrag K.uvBottom eta w +
        momentumSource K.source w + turbineDrag T K.farms uv uv eta w := by
    rw [e1, e2, e3, e4, e5, e6, e7, e8, e9, e10, e11]
    simp only [← dx_add]
    refine dx_congr fun x => ?_
    simp only [accel, Fin.sum_univ_two]
    ring
  rw [key]
  unfold momentum
  ring

/-- C137: the continuity part of the weak form is the integral of the documented free surface equation times the test
function. -/
theorem C137_continuity (T : Term m) (K : Coeffs m) (bc : ℕ → Option (Funcs m)) (uv : Vc m) (eta phi : Sc m) (hf : m.Flat)
    (hu : ∀ i, Cont (uv i)) (he : Cont eta) (hh : Cont (fun x => T.depth.total x (eta x))) (hb : ∀ b, Fits T bc uv eta b)
    (hphi : T.etaDg = false → Cont phi)
    (hw : T.uDg = false → ∀ b, walled bc (m.marker b) = true → ∑ i, (uv i (.bnd b)).v * m.nb b i = 0)
    (hd : T.uDg = true → DivExact m fun i => phi * (fun x => T.depth.total x (eta x) * uv i x)) :
    continuity T K bc uv eta uv eta phi = m.dx fun x => (phi (.cell x)).v *
      (-(∑ i, (T.depth.total (.cell x) (eta (.cell x)) * uv i (.cell x)).g i) +
        K.volume.elim 0 fun s => (s (.cell x)).v) := by
  unfold continuity
  rw [C137_volume T bc uv eta phi hf hu he hh hb hphi hw hd]
  have : volumeSource K.volume phi = m.dx fun x => (phi (.cell x)).v * K.volume.elim 0 fun s => (s (.cell x)).v := by
    unfold volumeSource
    cases K.volume with
    | none => simp [dx_zero]
    | some s => exact dx_congr fun x => by simp only [Option.elim_some]; ring
  rw [this, ← dx_add]
  exact dx_congr fun x => by ring

/-- C137: a smooth flow that satisfies the documented equations at the points of the cells satisfies the discrete
equations: `ut` and `etat` are the time derivatives. -/
theorem C137_solution (T : Term m) (K : Coeffs m) (bc : ℕ → Option (Funcs m)) (uv ut : Vc m) (eta etat : Sc m) (w : Vc m)
    (phi : Sc m) (tau : Fin 2 → Fin 2 → Sc m)
    (pde1 : ∀ x i, (ut i (.cell x)).v = accel T K uv eta tau x i)
    (pde2 : ∀ x, (etat (.cell x)).v + ∑ i, (T.depth.total (.cell x) (eta (.cell x)) * uv i (.cell x)).g i =
      K.volume.elim 0 fun s => (s (.cell x)).v)
    (hf : m.Flat) (hu : ∀ i, Cont (uv i)) (he : Cont eta) (hh : Cont (fun x => T.depth.total x (eta x)))
    (hdg : T.uDg = true) (hedg : T.etaDg = true) (hb : ∀ b, FitsUv T bc uv eta b) (hdrag : ∀ k, (bc k).bind Funcs.drag = none)
    (ht : ∀ nu, K.nu = some nu → IsStress T nu uv tau ∧ (∀ b, FitsVisc T bc uv eta tau b) ∧
      ∀ i, DivExact m fun j => w i * tau i j)
    (hd : DivExact m fun i => eta * w i) (ha : T.nonlinear = true → ∀ i, DivExact m fun j => uv i * (w i * uv j))
    (hv : DivExact m fun i => phi * (fun x => T.depth.total x (eta x) * uv i x)) :
    m.dx (fun x => ∑ i, (ut i (.cell x)).v * (w i (.cell x)).v) = momentum T K bc uv eta uv eta w ∧
    m.dx (fun x => (etat (.cell x)).v * (phi (.cell x)).v) = continuity T K bc uv eta uv eta phi := by
  constructor
  · rw [C137_momentum T K bc uv eta w tau hf hu he (fun h => by simp [hdg] at h) hb ht (fun _ => hd) ha]
    have : boundaryDrag bc uv uv w = 0 := by
      unfold boundaryDrag
      rw [bndLoop_eq, Finset.sum_eq_zero fun b _ => by simp [dragBnd, hdrag], neg_zero]
    rw [this, add_zero]
    exact dx_congr fun x => Finset.sum_congr rfl fun i _ => by rw [pde1]; ring
  · rw [C137_continuity T K bc uv eta phi hf hu he hh (fun b => (hb b).fits) (fun h => by simp [hedg] at h)
      (fun h => by simp [hdg] at h) (fun _ => hv)]
    exact dx_congr fun x => by rw [← pde2]; ring

/-! ### Example on the square -/

set_option maxHeartbeats 1000000 in
/-- The quadrature of `square` is exact for products of a linear and a quadratic function, both with jumps. -/
theorem square_divExact_cubic (r r' p p' : Fin 2 → Quad) (hr : ∀ i, (r i).d = 0 ∧ (r i).e = 0 ∧ (r i).f = 0)
    (hr' : ∀ i, (r' i).d = 0 ∧ (r' i).e = 0 ∧ (r' i).f = 0) :
    DivExact square fun i => squareField (r i) (r' i) * squareField (p i) (p' i) := by
  have h : Real.sqrt 2 ≠ 0 := by positivity
  have e1 := sum_sqC fun c => (1 / 6 : ℝ) * div (fun i => squareField (r i) (r' i) * squareField (p i) (p' i)) (.cell c)
  have e2 := sum_sqS fun s => sqWS s * jumpV (fun i => squareField (r i) (r' i) * squareField (p i) (p' i)) s
  have e3 := sum_sqB fun b => sqWB b * normalAt (fun i => squareField (r i) (r' i) * squareField (p i) (p' i)) b
  change (∑ c : SqC, (1 / 6 : ℝ) * div (fun i => squareField (r i) (r' i) * squareField (p i) (p' i)) (.cell c)) =
    (∑ s : SqS, sqWS s * jumpV (fun i => squareField (r i) (r' i) * squareField (p i) (p' i)) s) +
      ∑ b : SqB, sqWB b * normalAt (fun i => squareField (r i) (r' i) * squareField (p i) (p' i)) b
  rw [e1, e2, e3]
  simp only [div, jumpV, normalAt, Fin.sum_univ_two, Pi.mul_apply, Jet.mul_v, Jet.mul_g]
  simp only [squareField, Quad.jet, sqWS, sqWB, square, sqNx, sqNy, Matrix.cons_val_zero, Matrix.cons_val_one, hr, hr']
  field_simp
  ring

theorem square_cont (q : Quad) : Cont (squareField q q) := fun s => by cases s <;> rfl

/-- A polynomial of degree one. -/
def lin (a b c : ℝ) : Quad := ⟨a, b, c, 0, 0, 0⟩

theorem lin_deg (a b c : ℝ) : (lin a b c).d = 0 ∧ (lin a b c).e = 0 ∧ (lin a b c).f = 0 := ⟨rfl, rfl, rfl⟩

/-- The flow `(x, -y)`. -/
noncomputable def exUv : Vc square := fun i => squareField (![lin 0 1 0, lin 0 0 (-1)] i) (![lin 0 1 0, lin 0 0 (-1)] i)

/-- The elevation `-x`. -/
noncomputable def exEta : Sc square := squareField (lin 0 (-1) 0) (lin 0 (-1) 0)

/-- Nonlinear equations over depth 10 with the symmetric stress and the term of the depth gradient. -/
noncomputable def exT : Term square :=
  { exTerm with depth := ⟨cst square 10, true, false, cst square 0⟩, nonlinear := true, lf := true, gradDiv := true,
                gradDepth := true }

/-- Viscosity 1 and rotation 3. -/
noncomputable def exK : Coeffs square := { noCoeffs with nu := some (cst square 1), coriolis := some (cst square 3) }

/-- Elevation and velocity are prescribed everywhere. -/
noncomputable def exB : ℕ → Option (Funcs square) := fun _ =>
  some [.elev fun b => (exEta (.bnd b)).v, .uv fun b i => (exUv i (.bnd b)).v]

/-- The stress: `2` and `-2` on the diagonal. -/
noncomputable def exTau : Fin 2 → Fin 2 → Sc square := fun i j =>
  squareField (lin (![![2, 0], ![0, -2]] i j) 0 0) (lin (![![2, 0], ![0, -2]] i j) 0 0)

theorem ex_depth (x : Pt square) : exT.depth.total x (exEta x) = squareField (lin 10 (-1) 0) (lin 10 (-1) 0) x := by
  have : ∀ a b, Jet.const 10 + (lin 0 (-1) 0).jet a b + 0 = (lin 10 (-1) 0).jet a b := fun a b => by
    apply Jet.ext
    · simp [Quad.jet, lin]
    · funext i; fin_cases i <;> simp [Quad.jet, lin]
  rw [show exT.depth.total x (exEta x) = Jet.const 10 + exEta x + 0 from rfl]
  cases x with
  | cell c => cases c <;> exact this _ _
  | plus c => cases c <;> exact this _ _
  | minus c => cases c <;> exact this _ _
  | bnd c => cases c <;> exact this _ _

theorem ex_fits (b : square.B) : FitsUv exT exB exUv exEta b := rfl

theorem ex_stress : IsStress exT (cst square 1) exUv exTau := by
  refine ⟨fun x i j => ?_, fun i j => square_cont _⟩
  have : ∀ a b, ((lin (![![2, 0], ![0, -2]] i j) 0 0).jet a b).v = (Jet.const 1 : Jet 2).v *
      (((![lin 0 1 0, lin 0 0 (-1)] i).jet a b).g j + ((![lin 0 1 0, lin 0 0 (-1)] j).jet a b).g i) := fun a b => by
    fin_cases i <;> fin_cases j <;> norm_num [Quad.jet, lin]
  rw [show exT.gradDiv = true from rfl, if_pos rfl]
  cases x with
  | cell c => cases c <;> exact this _ _
  | plus c => cases c <;> exact this _ _
  | minus c => cases c <;> exact this _ _
  | bnd c => cases c <;> exact this _ _

/-- The flow `(x, -y)` with elevation `-x`: for all linear test functions with jumps the weak forms are the integrals of
the momentum equation and of the free surface equation. -/
example (a b c a' b' c' : Fin 2 → ℝ) (k l n k' l' n' : ℝ) :
    let w : Vc square := fun i => squareField (lin (a i) (b i) (c i)) (lin (a' i) (b' i) (c' i))
    let phi := squareField (lin k l n) (lin k' l' n')
    momentum exT exK exB exUv exEta exUv exEta w =
      square.dx (fun x => ∑ i, (w i (.cell x)).v * accel exT exK exUv exEta exTau x i) ∧
    continuity exT exK exB exUv exEta exUv exEta phi =
      square.dx fun x => (phi (.cell x)).v * (squareField (lin 0 1 0) (lin 0 1 0) (.cell x)).v := by
  intro w phi
  have hu : ∀ i, Cont (exUv i) := fun i => square_cont _
  have hl : ∀ i : Fin 2, (![lin 0 1 0, lin 0 0 (-1)] i).d = 0 ∧ (![lin 0 1 0, lin 0 0 (-1)] i).e = 0 ∧
      (![lin 0 1 0, lin 0 0 (-1)] i).f = 0 := fun i => by fin_cases i <;> exact ⟨rfl, rfl, rfl⟩
  have hm : (fun x => exT.depth.total x (exEta x)) = squareField (lin 10 (-1) 0) (lin 10 (-1) 0) := funext ex_depth
  constructor
  · rw [C137_momentum exT exK exB exUv exEta w exTau square_flat hu (square_cont _) (fun h => nomatch h) ex_fits]
    · have : boundaryDrag exB exUv exUv w = 0 := by
        unfold boundaryDrag
        rw [bndLoop_eq, Finset.sum_eq_zero fun b _ => by simp [dragBnd, exB, Funcs.drag], neg_zero]
      rw [this, add_zero]
    · intro nu hnu
      obtain rfl : cst square 1 = nu := Option.some.inj hnu
      refine ⟨ex_stress, fun b => ?_, fun i => ?_⟩
      · unfold FitsVisc
        rw [show exT.uDg = true from rfl, if_pos rfl]
        have : deltaUv exT exB exUv exEta (square.marker b) b = some fun i => atB exUv b i - atB exUv b i := rfl
        rw [this]
        intro i
        exact sub_self _
      · exact square_divExact_cubic (fun _ => lin (a i) (b i) (c i)) (fun _ => lin (a' i) (b' i) (c' i)) _ _
          (fun _ => lin_deg _ _ _) (fun _ => lin_deg _ _ _)
    · intro _
      exact square_divExact_cubic (fun _ => lin 0 (-1) 0) (fun _ => lin 0 (-1) 0) _ _
          (fun _ => lin_deg _ _ _) (fun _ => lin_deg _ _ _)
    · intro _ i
      have : (fun j => exUv i * (w i * exUv j)) = fun j => squareField (![lin 0 1 0, lin 0 0 (-1)] i)
          (![lin 0 1 0, lin 0 0 (-1)] i) * squareField (Quad.mulLin (lin (a i) (b i) (c i)) (![lin 0 1 0, lin 0 0 (-1)] j))
          (Quad.mulLin (lin (a' i) (b' i) (c' i)) (![lin 0 1 0, lin 0 0 (-1)] j)) := by
        funext j
        rw [← squareField_mul _ _ _ _ (lin_deg _ _ _) (lin_deg _ _ _) (hl j) (hl j)]
        rfl
      rw [this]
      exact square_divExact_cubic (fun _ => _) (fun _ => _) _ _ (fun _ => hl i) (fun _ => hl i)
  · rw [C137_continuity exT exK exB exUv exEta phi square_flat hu (square_cont _) (by rw [hm]; exact square_cont _)
      (fun b => (ex_fits b).fits) (fun h => nomatch h) (fun h => nomatch h)]
    · refine dx_congr fun x => ?_
      have : ∀ p q : ℝ, -(∑ i, ((lin 10 (-1) 0).jet p q * (![lin 0 1 0, lin 0 0 (-1)] i).jet p q).g i) + 0 =
          ((lin 0 1 0).jet p q).v := fun p q => by
        simp [Quad.jet, lin, Fin.sum_univ_two]
        ring
      congr 1
      rw [ex_depth]
      cases x <;> exact this _ _
    · intro _
      have : (fun i => phi * fun x => exT.depth.total x (exEta x) * exUv i x) = fun i => phi * squareField
          (Quad.mulLin (lin 10 (-1) 0) (![lin 0 1 0, lin 0 0 (-1)] i))
          (Quad.mulLin (lin 10 (-1) 0) (![lin 0 1 0, lin 0 0 (-1)] i)) := by
        funext i
        rw [← squareField_mul _ _ _ _ (lin_deg _ _ _) (lin_deg _ _ _) (hl i) (hl i), ← hm]
        rfl
      rw [this]
      exact square_divExact_cubic (fun _ => _) (fun _ => _) _ _ (fun _ => lin_deg _ _ _) (fun _ => lin_deg _ _ _)

end Verif.Strong
