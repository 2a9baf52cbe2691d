import Verif.Tracer3.Props

/-!
C87: mass and variance of tracers on extruded meshes.
-/

namespace Verif.Tracer3

open Verif.Dg Verif.Ext

variable {e : Mesh3}

/-- The boundary condition prescribes no velocity. -/
def NoVelocity (f : BFuncs e) : Prop := f.uv = none ∧ f.flux = none ∧ f.un = none

/-- Flow of water out of the moving domain at a point of the surface. -/
def surfaceFlow (F : Fields e) (uv : Vc e.m) (w : Sc e.m) (b : e.m.B) : ℝ :=
  normalH (totalUv F uv) b + ((w (.bnd b)).v - (meshW F (.bnd b)).v) * e.m.nb b 2

/-- Tracer that leaves through a point of a side, per unit area: none without entry; otherwise the flow times the interior
value where it goes out, and times the prescribed value, if any, where it comes in. -/
noncomputable def sideOut (f : Option (BFuncs e)) (q c : ℝ) (b : e.m.B) : ℝ :=
  match f with
  | none => 0
  | some f => if 0 ≤ q then q * c else q * (f.value.getD fun _ => c) b

theorem upwind_mul (T : Term e) (q : ℝ) : upwind T q * q = (|q| + q) / 2 := by
  unfold upwind
  have := sgn_mul_self T.z q
  linear_combination this / 2

theorem sideFlux_eq (T : Term e) (uv : Vc e.m) (f : BFuncs e) (c : Sc e.m) (b : e.m.B) (hf : NoVelocity f) :
    sideFlux T uv f c b = sideOut (some f) (normalH uv b) (c (.bnd b)).v b := by
  obtain ⟨h1, h2, h3⟩ := hf
  have hr : bndF f b (c (.bnd b)).v (fun i => (uv i (.bnd b)).v) =
      ((f.value.getD fun _ => (c (.bnd b)).v) b, fun i => (uv i (.bnd b)).v) := by
    unfold bndF bndFunctions
    rw [h1, h2, h3]
    cases f.value <;> rfl
  have hq : e.m.nb b 0 * ((1 / 2) * ((uv 0 (.bnd b)).v + (uv 0 (.bnd b)).v)) +
      e.m.nb b 1 * ((1 / 2) * ((uv 1 (.bnd b)).v + (uv 1 (.bnd b)).v)) = normalH uv b := by
    unfold normalH; ring
  unfold sideFlux
  simp only [hr, hq]
  have hup := upwind_mul T (normalH uv b)
  set q := normalH uv b
  unfold sideOut
  simp only
  split
  · next h =>
    rw [abs_of_nonneg h] at hup
    linear_combination -((f.value.getD fun _ => (c (.bnd b)).v) b - (c (.bnd b)).v) * hup
  · next h =>
    rw [abs_of_neg (not_le.1 h)] at hup
    linear_combination -((f.value.getD fun _ => (c (.bnd b)).v) b - (c (.bnd b)).v) * hup

/-- C87: the total of the tracer changes by what advection carries through the sides with an entry and through the
surface, by the source, and by the horizontal diffusion terms at the surface and the bottom. -/
theorem C87_mass (T : Term e) (F : Fields e) (bc : ℕ → Option (BFuncs e)) (uv : Vc e.m) (w c : Sc e.m)
    (hu : F.uv = some uv) (hw : F.w = some w) (hhd : T.hdg = true) (hvd : T.vdg = true) (hsy : T.symm = true)
    (hflat : e.m.Flat) (hno : ∀ j f, bc j = some f → NoVelocity f) :
    residual T F bc c (cst e.m 1) =
      -(e.sideLoop fun k b => sideOut (bc k) (normalH (totalUv F uv) b) (c (.bnd b)).v b) -
      e.dsurf (fun b => surfaceFlow F uv w b * (c (.bnd b)).v) +
      hDiffusion T F c (cst e.m 1) + (F.source.map fun r => e.m.dx fun x => (r (.cell x)).v).getD 0 := by
  have hsrc : source F (cst e.m 1) = (F.source.map fun r => e.m.dx fun x => (r (.cell x)).v).getD 0 := by
    unfold source
    cases F.source with
    | none => rfl
    | some r => exact dx_congr fun x => by simp
  have hj : ∀ s i, jumpN (cst e.m 1) s i = 0 := fun s i => by simp [jumpN, hflat s i]
  have hj' : ∀ s, jump (cst e.m 1) s = 0 := fun s => by simp [jump]
  have hv : vDiffusion T F c (cst e.m 1) = 0 := by
    unfold vDiffusion
    cases F.diffV with
    | none => rfl
    | some mu => simp [hj, dx_zero, dS_zero, Mesh3.dSh]
  have h1 : hAdvection T F bc c (cst e.m 1) =
      -(e.sideLoop fun k b => sideOut (bc k) (normalH (totalUv F uv) b) (c (.bnd b)).v b) -
      e.dsurf fun b => normalH (totalUv F uv) b * (c (.bnd b)).v := by
    rw [hAdvection_eq T F bc uv _ _ hu hhd hsy]
    have hs : (e.sideLoop fun k b => sideTerm T (totalUv F uv) (bc k) c (cst e.m 1) b) =
        e.sideLoop fun k b => sideOut (bc k) (normalH (totalUv F uv) b) (c (.bnd b)).v b := by
      rw [sideLoop_eq, sideLoop_eq]
      refine dB_congr fun b => ?_
      cases hb : bc (e.m.marker b) with
      | none => rfl
      | some f =>
        simp only [sideTerm, cst_apply, Jet.const_v, mul_one]
        rw [sideFlux_eq T _ f c b (hno _ f hb)]
    have hd : (e.dsurf fun b => (c (.bnd b)).v * normalH (totalUv F uv) b * (cst e.m 1 (.bnd b)).v) =
        e.dsurf fun b => normalH (totalUv F uv) b * (c (.bnd b)).v :=
      dsurf_congr fun b _ => by simp only [cst_apply, Jet.const_v]; ring
    rw [hs, hd]
    simp [facetDiv, hj, hj', Mesh3.dSh, Mesh3.dSv, dx_zero, dS_zero]
    ring
  have h2 : vAdvection T F c (cst e.m 1) =
      -e.dsurf fun b => ((w (.bnd b)).v - (meshW F (.bnd b)).v) * e.m.nb b 2 * (c (.bnd b)).v := by
    rw [vAdvection_eq T F w _ _ hw hvd]
    have hd : (e.dsurf fun b => (c (.bnd b)).v * ((w (.bnd b)).v - (meshW F (.bnd b)).v) * e.m.nb b 2 *
          (cst e.m 1 (.bnd b)).v) =
        e.dsurf fun b => ((w (.bnd b)).v - (meshW F (.bnd b)).v) * e.m.nb b 2 * (c (.bnd b)).v :=
      dsurf_congr fun b _ => by simp only [cst_apply, Jet.const_v]; ring
    rw [hd]
    simp [hj, hj', Mesh3.dSh, dx_zero, dS_zero]
  have h3 : (e.dsurf fun b => surfaceFlow F uv w b * (c (.bnd b)).v) =
      (e.dsurf fun b => normalH (totalUv F uv) b * (c (.bnd b)).v) +
      e.dsurf fun b => ((w (.bnd b)).v - (meshW F (.bnd b)).v) * e.m.nb b 2 * (c (.bnd b)).v := by
    rw [← dsurf_add]
    exact dsurf_congr fun b _ => by unfold surfaceFlow; ring
  unfold residual
  rw [hv, h1, h2, h3, hsrc]
  ring

/-- C87: in a closed basin whose mesh follows the surface, advection and vertical diffusion keep the total. -/
theorem C87_conserved (T : Term e) (F : Fields e) (uv : Vc e.m) (w c : Sc e.m)
    (hu : F.uv = some uv) (hw : F.w = some w) (hhd : T.hdg = true) (hvd : T.vdg = true) (hsy : T.symm = true)
    (hflat : e.m.Flat) (hsurf : ∀ b, e.face b = .surf → surfaceFlow F uv w b = 0)
    (hdiff : F.diffH = none) (hsrc : F.source = none) :
    residual T F (fun _ => none) c (cst e.m 1) = 0 := by
  rw [C87_mass T F _ uv w c hu hw hhd hvd hsy hflat (fun j f h => by cases h)]
  have h1 : (e.dsurf fun b => surfaceFlow F uv w b * (c (.bnd b)).v) = e.dsurf fun _ => 0 :=
    dsurf_congr fun b hb => by rw [hsurf b hb, zero_mul]
  unfold hDiffusion
  rw [h1, hdiff, hsrc]
  simp [sideLoop_eq, sideOut, Mesh3.dsurf]

/-! ### Variance -/

/-- What leaves through a point of a side, in terms of half the square: outflow takes the square of the interior value,
inflow with value `v` brings the square of `v` less the square of the difference. -/
noncomputable def sideOut2 (f : Option (BFuncs e)) (q c : ℝ) (b : e.m.B) : ℝ :=
  match f with
  | none => 0
  | some f => if 0 ≤ q then q / 2 * c ^ 2 else
      let v := (f.value.getD fun _ => c) b
      q / 2 * (v ^ 2 - (c - v) ^ 2)

/-- The factor of the jumps: upwinding and, if used, Lax-Friedrichs. -/
noncomputable def weight (T : Term e) (F : Fields e) : ℝ := 1 + if T.lf then F.lfFactor else 0

/-- The sum over the facets of the squares of the jumps, weighted with the flow through them. -/
noncomputable def jumps (T : Term e) (F : Fields e) (uv : Vc e.m) (w c : Sc e.m) : ℝ :=
  e.m.dS (fun s => (1 / 2) * |unAv (totalUv F uv) s| * weight T F *
    ((c (.plus s)).v - (c (.minus s)).v) ^ 2) +
  e.dSh fun s => (1 / 2) * |(avg w s - avg (meshW F) s) * e.m.nm s 2| * weight T F *
    ((c (.plus s)).v - (c (.minus s)).v) ^ 2

theorem cUp_mul (T : Term e) (c : Sc e.m) (q : ℝ) (s : e.m.S) :
    cUp T c q s * (q * ((c (.minus s)).v - (c (.plus s)).v)) =
      (1 / 2) * (q * ((c (.minus s)).v ^ 2 - (c (.plus s)).v ^ 2)) +
      (1 / 2) * |q| * ((c (.plus s)).v - (c (.minus s)).v) ^ 2 := by
  have h := upwind_mul T q
  unfold cUp
  linear_combination ((c (.minus s)).v - (c (.plus s)).v) ^ 2 * h

/-- The identity with the side terms as they are. -/
theorem advection_identity (T : Term e) (F : Fields e) (bc : ℕ → Option (BFuncs e)) (bfs : ℕ → Bool) (uv : Vc e.m)
    (w c : Sc e.m) (hu : F.uv = some uv) (hw : F.w = some w)
    (hhd : T.hdg = true) (hvd : T.vdg = true) (hsy : T.symm = true) (hflat : e.m.Flat)
    (hsolve : Solves bfs (totalUv F uv) w (c * c))
    (h2b : ∀ b, e.face b = .surf → (totalUv F uv 2 (.bnd b)).v = 0)
    (h2s : ∀ s, avg (totalUv F uv 2) s = 0) :
    hAdvection T F bc c c + vAdvection T F c c - (1 / 2) * wLeft (meshW F) (c * c) =
      -jumps T F uv w c -
      (e.sideLoop fun k b => sideTerm T (totalUv F uv) (bc k) c c b -
        if bfs k then normalH (totalUv F uv) b / 2 * (c (.bnd b)).v ^ 2 else 0) -
      e.dsurf fun b => surfaceFlow F uv w b / 2 * (c (.bnd b)).v ^ 2 := by
  rw [hAdvection_eq T F bc uv _ _ hu hhd hsy, vAdvection_eq T F w _ _ hw hvd]
  unfold Solves wLeft wRight at hsolve
  unfold wLeft
  dsimp only at hsolve
  set U := totalUv F uv with hU
  have a1 : (e.m.dx fun x => -((c (.cell x)).v * ∑ i, (U i (.cell x)).v * (c (.cell x)).g i)) =
      -(1 / 2) * e.m.dx fun x => ∑ i, (U i (.cell x)).v * ((c * c) (.cell x)).g i := by
    rw [← dx_smul]
    refine dx_congr fun x => ?_
    simp only [Fin.sum_univ_three, Pi.mul_apply, Jet.mul_g]; ring
  have fd : ∀ (t : Sc e.m) s, facetDiv U t s = unAv U s * ((t (.minus s)).v - (t (.plus s)).v) := by
    intro t s
    unfold facetDiv unAv jumpN
    rw [h2s s, hflat s 0, hflat s 1]; ring
  have sq : ∀ p : Pt e.m, ((c * c) p).v = (c p).v ^ 2 := fun p => by
    simp only [Pi.mul_apply, Jet.mul_v]; ring
  have fh : ∀ s, cUp T c (unAv U s) s * facetDiv U c s = (1 / 2) * facetDiv U (c * c) s +
      (1 / 2) * |unAv U s| * ((c (.plus s)).v - (c (.minus s)).v) ^ 2 := by
    intro s
    rw [fd, fd, sq, sq]
    exact cUp_mul T c _ s
  have fv : ∀ s, cUp T c ((avg w s - avg (meshW F) s) * e.m.nm s 2) s * (avg w s - avg (meshW F) s) *
      jumpN c s 2 = (1 / 2) * (avg w s * jumpN (c * c) s 2) + -(1 / 2) * (avg (meshW F) s * jumpN (c * c) s 2) +
      (1 / 2) * |(avg w s - avg (meshW F) s) * e.m.nm s 2| * ((c (.plus s)).v - (c (.minus s)).v) ^ 2 := by
    intro s
    have h := cUp_mul T c ((avg w s - avg (meshW F) s) * e.m.nm s 2) s
    have hn : e.m.np s 2 = -e.m.nm s 2 := by rw [hflat s 2]; ring
    unfold jumpN
    rw [sq, sq, hn]
    linear_combination h
  have a2 : e.dSv (fun s => cUp T c (unAv U s) s * facetDiv U c s) +
      e.dSh (fun s => cUp T c (unAv U s) s * facetDiv U c s) =
      (1 / 2) * e.dSv (fun s => facetDiv U (c * c) s) + (1 / 2) * e.dSh (fun s => facetDiv U (c * c) s) +
      e.m.dS fun s => (1 / 2) * |unAv U s| * ((c (.plus s)).v - (c (.minus s)).v) ^ 2 := by
    rw [← dSv_smul, ← dSh_smul, ← dSh_add_dSv (e := e) (fun s => (1 / 2) * |unAv U s| * _),
      dSv_congr (fun s _ => fh s), dSh_congr (fun s _ => fh s), dSv_add, dSh_add]
    ring
  have a3 : (if T.lf = true then
      e.dSv (fun s => (1 / 2) * |unAv U s| * F.lfFactor * (jump c s * jump c s)) +
      e.dSh (fun s => (1 / 2) * |unAv U s| * F.lfFactor * (jump c s * jump c s)) else 0) =
      (if T.lf then F.lfFactor else 0) *
        e.m.dS fun s => (1 / 2) * |unAv U s| * ((c (.plus s)).v - (c (.minus s)).v) ^ 2 := by
    split
    · rw [← dS_smul, ← dSh_add_dSv (e := e), add_comm]
      congr 1
      · exact dSh_congr fun s _ => by unfold jump; ring
      · exact dSv_congr fun s _ => by unfold jump; ring
    · rw [zero_mul]
  have a4 : (e.sideLoop fun k b => sideTerm T U (bc k) c c b) =
      -(1 / 2) * (e.sideLoop fun j b => if bfs j then -(normalH U b * ((c * c) (.bnd b)).v) else 0) +
      e.sideLoop fun k b => sideTerm T U (bc k) c c b -
        if bfs k then normalH U b / 2 * (c (.bnd b)).v ^ 2 else 0 := by
    rw [sideLoop_eq, sideLoop_eq, sideLoop_eq, ← dB_smul, ← dB_add]
    refine dB_congr fun b => ?_
    by_cases hb : e.face b = .side
    · rw [if_pos hb, if_pos hb, if_pos hb, sq]
      split <;> ring
    · simp [hb]
  have a5 : (e.dsurf fun b => (c (.bnd b)).v * normalH U b * (c (.bnd b)).v) =
      (1 / 2) * (e.dsurf fun b => ((U 0 (.bnd b)).v * e.m.nb b 0 + (U 1 (.bnd b)).v * e.m.nb b 1 +
        (U 2 (.bnd b)).v * e.m.nb b 2) * ((c * c) (.bnd b)).v) +
      e.dsurf fun b => normalH U b / 2 * (c (.bnd b)).v ^ 2 := by
    rw [← dsurf_smul, ← dsurf_add]
    refine dsurf_congr fun b hb => ?_
    rw [h2b b hb, sq]
    simp only [normalH]; ring
  have b1 : (e.m.dx fun x => -((c (.cell x)).v * ((w (.cell x)).v - (meshW F (.cell x)).v) * (c (.cell x)).g 2)) =
      -(1 / 2) * (e.m.dx fun x => ((c * c) (.cell x)).g 2 * (w (.cell x)).v) +
      (1 / 2) * e.m.dx fun x => ((c * c) (.cell x)).g 2 * (meshW F (.cell x)).v := by
    rw [← dx_smul, ← dx_smul, ← dx_add]
    exact dx_congr fun x => by simp only [Pi.mul_apply, Jet.mul_g]; ring
  have b2 : e.dSh (fun s => cUp T c ((avg w s - avg (meshW F) s) * e.m.nm s 2) s * (avg w s - avg (meshW F) s) *
      jumpN c s 2) =
      (1 / 2) * e.dSh (fun s => avg w s * jumpN (c * c) s 2) +
      -(1 / 2) * e.dSh (fun s => avg (meshW F) s * jumpN (c * c) s 2) +
      e.dSh fun s => (1 / 2) * |(avg w s - avg (meshW F) s) * e.m.nm s 2| *
        ((c (.plus s)).v - (c (.minus s)).v) ^ 2 := by
    rw [← dSh_smul, ← dSh_smul, ← dSh_add, ← dSh_add]
    exact dSh_congr fun s _ => fv s
  have b3 : (if T.lf = true then e.dSh fun s => (1 / 2) * |(avg w s - avg (meshW F) s) * e.m.nm s 2| *
      F.lfFactor * (jump c s * jump c s) else 0) = (if T.lf then F.lfFactor else 0) *
      e.dSh fun s => (1 / 2) * |(avg w s - avg (meshW F) s) * e.m.nm s 2| *
        ((c (.plus s)).v - (c (.minus s)).v) ^ 2 := by
    split
    · rw [← dSh_smul]
      exact dSh_congr fun s _ => by unfold jump; ring
    · rw [zero_mul]
  have b4 : (e.dsurf fun b => (c (.bnd b)).v * ((w (.bnd b)).v - (meshW F (.bnd b)).v) * e.m.nb b 2 *
      (c (.bnd b)).v) =
      (1 / 2) * e.dsurf (fun b => (w (.bnd b)).v * ((c * c) (.bnd b)).v * e.m.nb b 2) +
      -(1 / 2) * e.dsurf (fun b => (meshW F (.bnd b)).v * ((c * c) (.bnd b)).v * e.m.nb b 2) +
      e.dsurf fun b => ((w (.bnd b)).v - (meshW F (.bnd b)).v) * e.m.nb b 2 / 2 * (c (.bnd b)).v ^ 2 := by
    rw [← dsurf_smul, ← dsurf_smul, ← dsurf_add, ← dsurf_add]
    exact dsurf_congr fun b _ => by rw [sq]; ring
  have c1 : (e.dsurf fun b => surfaceFlow F uv w b / 2 * (c (.bnd b)).v ^ 2) =
      (e.dsurf fun b => normalH U b / 2 * (c (.bnd b)).v ^ 2) +
      e.dsurf fun b => ((w (.bnd b)).v - (meshW F (.bnd b)).v) * e.m.nb b 2 / 2 * (c (.bnd b)).v ^ 2 := by
    rw [← dsurf_add]
    exact dsurf_congr fun b _ => by unfold surfaceFlow; ring
  have c2 : jumps T F uv w c = weight T F *
      ((e.m.dS fun s => (1 / 2) * |unAv U s| * ((c (.plus s)).v - (c (.minus s)).v) ^ 2) +
      e.dSh fun s => (1 / 2) * |(avg w s - avg (meshW F) s) * e.m.nm s 2| *
        ((c (.plus s)).v - (c (.minus s)).v) ^ 2) := by
    unfold jumps
    rw [mul_add, ← dS_smul, ← dSh_smul]
    congr 1
    · exact dS_congr fun s => by ring
    · exact dSh_congr fun s _ => by ring
  rw [a1, a2, a3, a4, a5, b1, b2, b3, b4, c1, c2]
  unfold weight
  linear_combination -(1 / 2) * hsolve

/-- C87: with the tracer as test function, and less half the contribution of the moving mesh, advection gives the rate of
half the integral of the square of the tracer: a nonpositive sum over the facets and what passes the sides
and the surface.  The vertical velocity equation must hold for the square of the tracer. -/
theorem C87_identity (T : Term e) (F : Fields e) (bc : ℕ → Option (BFuncs e)) (bfs : ℕ → Bool) (uv : Vc e.m)
    (w c : Sc e.m) (hu : F.uv = some uv) (hw : F.w = some w)
    (hhd : T.hdg = true) (hvd : T.vdg = true) (hsy : T.symm = true) (hflat : e.m.Flat)
    (hsolve : Solves bfs (totalUv F uv) w (c * c))
    (h2b : ∀ b, e.face b = .surf → (totalUv F uv 2 (.bnd b)).v = 0)
    (h2s : ∀ s, avg (totalUv F uv 2) s = 0)
    (hopen : ∀ b, e.face b = .side → (bc (e.m.marker b)).isSome = bfs (e.m.marker b))
    (hno : ∀ j f, bc j = some f → NoVelocity f) :
    hAdvection T F bc c c + vAdvection T F c c - (1 / 2) * wLeft (meshW F) (c * c) =
      -jumps T F uv w c -
      (e.sideLoop fun k b => sideOut2 (bc k) (normalH (totalUv F uv) b) (c (.bnd b)).v b) -
      e.dsurf fun b => surfaceFlow F uv w b / 2 * (c (.bnd b)).v ^ 2 := by
  rw [advection_identity T F bc bfs uv w c hu hw hhd hvd hsy hflat hsolve h2b h2s]
  have a4 : (e.sideLoop fun k b => sideTerm T (totalUv F uv) (bc k) c c b -
      if bfs k then normalH (totalUv F uv) b / 2 * (c (.bnd b)).v ^ 2 else 0) =
      e.sideLoop fun k b => sideOut2 (bc k) (normalH (totalUv F uv) b) (c (.bnd b)).v b := by
    rw [sideLoop_eq, sideLoop_eq]
    refine dB_congr fun b => ?_
    by_cases hb : e.face b = .side
    · rw [if_pos hb, if_pos hb, ← hopen b hb]
      cases hbc : bc (e.m.marker b) with
      | none => simp [sideTerm, sideOut2]
      | some f =>
        simp only [sideTerm, Option.isSome_some, if_true, sideOut2]
        rw [sideFlux_eq T _ f c b (hno _ f hbc)]
        unfold sideOut
        simp only
        split <;> ring
    · simp [hb]
  rw [a4]

/-- C87: in a closed basin whose mesh follows the surface advection does not let the variance grow. -/
theorem C87_variance (T : Term e) (F : Fields e) (uv : Vc e.m)
    (w c : Sc e.m) (hu : F.uv = some uv) (hw : F.w = some w)
    (hhd : T.hdg = true) (hvd : T.vdg = true) (hsy : T.symm = true) (hflat : e.m.Flat)
    (hlf : 0 ≤ F.lfFactor)
    (hsolve : Solves (fun _ => false) (totalUv F uv) w (c * c))
    (h2b : ∀ b, e.face b = .surf → (totalUv F uv 2 (.bnd b)).v = 0)
    (h2s : ∀ s, avg (totalUv F uv 2) s = 0)
    (hsurf : ∀ b, e.face b = .surf → surfaceFlow F uv w b = 0) :
    hAdvection T F (fun _ => none) c c + vAdvection T F c c - (1 / 2) * wLeft (meshW F) (c * c) ≤ 0 := by
  rw [C87_identity T F _ (fun _ => false) uv w c hu hw hhd hvd hsy hflat hsolve h2b h2s (fun _ _ => rfl)
    (fun j f h => by cases h)]
  have hw0 : 0 ≤ weight T F := by unfold weight; split <;> linarith
  have h1 : 0 ≤ jumps T F uv w c := by
    unfold jumps
    refine add_nonneg (dS_nonneg fun s => ?_) (dSh_nonneg fun s => ?_) <;> positivity
  have h2 : (e.dsurf fun b => surfaceFlow F uv w b / 2 * (c (.bnd b)).v ^ 2) = e.dsurf fun _ => 0 :=
    dsurf_congr fun b hb => by rw [hsurf b hb]; ring
  have h3 : (e.sideLoop fun _ b => sideOut2 (e := e) none (normalH (totalUv F uv) b) (c (.bnd b)).v b) = 0 := by
    simp [sideLoop_eq, sideOut2]
  have h4 : (e.dsurf fun _ => (0 : ℝ)) = 0 := by simp [Mesh3.dsurf]
  rw [h2, h3, h4]
  linarith

/-! ### Example: the uniform flow through the tank -/

/-- Fresh water above salt water. -/
noncomputable def exSalt : Sc tank.m := tankField ⟨35, 0, 0, 0⟩ ⟨0, 0, 0, 0⟩

/-- 35 on the left, interior values on the right. -/
noncomputable def exBc' : ℕ → Option (BFuncs tank) := fun k =>
  if k == 1 || k == 2 then some (if k = 1 then { value := some fun _ => 35 } else {}) else none

example : hAdvection exTerm exFields exBc' exSalt exSalt + vAdvection exTerm exFields exSalt exSalt -
      (1 / 2) * wLeft (meshW exFields) (exSalt * exSalt) =
      -jumps exTerm exFields tankUv (cst tank.m 1) exSalt -
      (tank.sideLoop fun k b => sideOut2 (exBc' k) (normalH (totalUv exFields tankUv) b) (exSalt (.bnd b)).v b) -
      tank.dsurf fun b => surfaceFlow exFields tankUv (cst tank.m 1) b / 2 * (exSalt (.bnd b)).v ^ 2 := by
  refine C87_identity exTerm exFields exBc' (fun k => k == 1 || k == 2) tankUv (cst tank.m 1) exSalt rfl rfl
    rfl rfl rfl tank_flat ?_ (fun b _ => ?_) (fun s => ?_) (fun b _ => ?_) ?_
  · have h : exSalt * exSalt = tankField ⟨35 * 35, 0, 0, 0⟩ ⟨0, 0, 0, 0⟩ := by
      have key : ∀ (x y : ℝ) (p q r : ℝ), (⟨x, 0, 0, 0⟩ : Lin).jet p q r * (⟨x, 0, 0, 0⟩ : Lin).jet p q r =
          (⟨x * x, 0, 0, 0⟩ : Lin).jet p q r := by
        intro x y p q r
        apply Jet.ext
        · simp [Lin.jet]
        · funext i; fin_cases i <;> simp [Lin.jet]
      have k0 : ∀ (p q r : ℝ), (⟨0, 0, 0, 0⟩ : Lin).jet p q r * (⟨0, 0, 0, 0⟩ : Lin).jet p q r =
          (⟨0, 0, 0, 0⟩ : Lin).jet p q r := by
        intro p q r
        rw [key 0 0]; simp
      funext p
      cases p with
      | cell c => cases c <;> first | exact key 35 0 _ _ _ | exact k0 _ _ _
      | plus c => cases c; exact key 35 0 _ _ _
      | minus c => cases c; exact k0 _ _ _
      | bnd c => cases c <;> first | exact key 35 0 _ _ _ | exact k0 _ _ _
    rw [h]
    exact tank_solves _ _
  · simp [totalUv, exFields, tankUv]
  · simp [totalUv, exFields, tankUv, avg]
  · unfold exBc'
    cases (tank.m.marker b == 1 || tank.m.marker b == 2) <;> simp
  · intro j f hj
    unfold exBc' at hj
    split at hj
    · simp only [Option.some.injEq] at hj
      subst hj
      split <;> exact ⟨rfl, rfl, rfl⟩
    · cases hj

end Verif.Tracer3
