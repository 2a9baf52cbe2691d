import Verif.Space.Model
import Verif.Swe.Props
import Verif.Tracer2.Props6

/-!
C142: the equations leave out facet terms only where nothing can jump.
-/

namespace Verif.Space

/-- What is the same on both sides of a facet: the function, its normal component, or nothing. -/
inductive Trace
  | all | normal | none
deriving DecidableEq, Repr

/-- The two kinds of facets of extruded meshes; plane meshes have facets between columns only. -/
inductive Facet
  | columns | layers
deriving DecidableEq, Repr

/-- Conformity of the finite elements by their names: Lagrange elements are continuous, Raviart-Thomas and
Brezzi-Douglas-Marini elements have continuous normal components, the others are discontinuous. -/
def famTrace : String → Option Trace
  | "Lagrange" => some .all
  | "Q" => some .all
  | "Raviart-Thomas" => some .normal
  | "RTCF" => some .normal
  | "Brezzi-Douglas-Marini" => some .normal
  | "BDMCF" => some .normal
  | "Discontinuous Lagrange" => some .none
  | "DQ" => some .none
  | _ => none

/-- Conformity of an element.  In a product of a horizontal and a vertical element the facets between columns see the
first factor and those between layers the second.  `HDiv` makes horizontal vectors of a normal continuous element times
any other: their vertical component is zero, so the normal component between layers is continuous; of any element times
a continuous one it makes vertical vectors, whose normal component between columns is zero. -/
def Elt.trace : Elt → Facet → Option Trace
  | .fin f _, _ => famTrace f
  | .tensor (.fin a _) _, .columns => famTrace a
  | .tensor _ (.fin b _), .layers => famTrace b
  | .vector e, k => e.trace k
  | .hdiv (.tensor (.fin a _) (.fin b _)), _ =>
    if famTrace a = some .normal ∨ famTrace b = some .all then some .normal else none
  | _, _ => none

/-- The meaning of the three values of `ElementContinuity`. -/
def Conf.trace : Conf → Trace
  | .cg => .all
  | .hdiv => .normal
  | .dg => .none

/-- The reported continuity is that of the element. -/
def Faithful (e : Elt) : Prop :=
  ∃ h v, continuity e = some (h, v) ∧ e.trace .columns = some h.trace ∧ e.trace .layers = some v.trace

theorem finiteElement_cases {name : String} {c : Cell} {e : Elt} (h : finiteElement name c = some e) :
    ∃ f t, e = .fin f c ∧ elemTypes.lookup f = some t ∧ famTrace f = some t.trace := by
  unfold finiteElement at h
  split at h <;> simp only [Option.map_some, Option.map_none, Option.some.injEq, reduceCtorEq] at h <;> subst h <;>
    first
    | exact ⟨_, .dg, rfl, rfl, rfl⟩
    | exact ⟨_, .cg, rfl, rfl, rfl⟩
    | exact ⟨_, .hdiv, rfl, rfl, rfl⟩

/-- C142: on plane meshes `element_continuity` accepts every element of `get_functionspace` and tells its continuity. -/
theorem C142_plane (c : Cell) (fam : String) (vector : Bool) (e : Elt) (h : space2 c fam vector = some e) :
    Faithful e := by
  unfold space2 at h
  cases hf : finiteElement fam c with
  | none => simp [hf] at h
  | some a =>
    obtain ⟨f, t, rfl, h1, h2⟩ := finiteElement_cases hf
    cases vector <;> simp [hf] at h <;> subst h
    · refine ⟨t, t, ?_, by simpa [Elt.trace] using h2, by simpa [Elt.trace] using h2⟩
      simp [continuity, baseElement, dropHdiv, dropMixed, dropVector, dropEnriched, typeOf, h1]
    · refine ⟨t, t, ?_, by simpa [Elt.trace] using h2, by simpa [Elt.trace] using h2⟩
      simp [continuity, baseElement, dropHdiv, dropMixed, dropVector, dropEnriched, typeOf, h1]

/-- C142: the same on extruded meshes, without `hdiv`. -/
theorem C142_extruded (c : Cell) (hfam vfam : String) (vector : Bool) (e : Elt)
    (h : space3 c hfam vfam vector false = some e) : Faithful e := by
  unfold space3 at h
  cases hf : finiteElement hfam c with
  | none => simp [hf] at h
  | some a =>
    cases hg : finiteElement vfam .interval with
    | none => simp [hf, hg] at h
    | some b =>
      obtain ⟨f, t, rfl, h1, h2⟩ := finiteElement_cases hf
      obtain ⟨f', t', rfl, h1', h2'⟩ := finiteElement_cases hg
      cases vector <;> simp [hf, hg] at h <;> subst h
      · refine ⟨t, t', ?_, by simpa [Elt.trace] using h2, by simpa [Elt.trace] using h2'⟩
        simp [continuity, baseElement, dropHdiv, dropMixed, dropVector, dropEnriched, typeOf, h1, h1']
      · refine ⟨t, t', ?_, by simpa [Elt.trace] using h2, by simpa [Elt.trace] using h2'⟩
        simp [continuity, baseElement, dropHdiv, dropMixed, dropVector, dropEnriched, typeOf, h1, h1']

/-- Cells of plane meshes. -/
def Plane (c : Cell) : Prop := c = .triangle ∨ c = .quad

theorem flow2_none {c : Cell} {family : String} (h : family ∉ ["rt-dg", "bdm-dg", "dg-cg", "dg-dg"]) :
    flow2 c family = none := by
  simp only [List.mem_cons, List.not_mem_nil, or_false, not_or] at h
  obtain ⟨h1, h2, h3, h4⟩ := h
  unfold flow2
  dsimp only
  split
  · exact absurd rfl h1
  · exact absurd rfl h2
  · exact absurd rfl h3
  · exact absurd rfl h4
  · rfl

theorem tracer2_none {c : Cell} {tracer : String} (h : tracer ∉ ["dg", "cg"]) : tracer2 c tracer = none := by
  simp only [List.mem_cons, List.not_mem_nil, or_false, not_or] at h
  obtain ⟨h1, h2⟩ := h
  unfold tracer2
  split
  · exact absurd rfl h1
  · exact absurd rfl h2
  · rfl

theorem spaces2_none {c : Cell} {family tracer : String}
    (h : ¬ (family ∈ ["rt-dg", "bdm-dg", "dg-cg", "dg-dg"] ∧ tracer ∈ ["dg", "cg"])) : spaces2 c family tracer = none := by
  unfold spaces2
  by_cases hf : family ∈ ["rt-dg", "bdm-dg", "dg-cg", "dg-dg"]
  · rw [tracer2_none fun ht => h ⟨hf, ht⟩]
    simp
  · rw [flow2_none hf]
    rfl

/-- C142: the 2D solver.  The velocity is never continuous, the elevation is continuous for `dg-cg` only, tracers for `cg`
only; other names are rejected. -/
theorem C142_solver2d (c : Cell) (hc : Plane c) (family tracer : String) :
    ((spaces2 c family tracer).isSome ↔
      family ∈ ["rt-dg", "bdm-dg", "dg-cg", "dg-dg"] ∧ tracer ∈ ["dg", "cg"]) ∧
    ∀ V, spaces2 c family tracer = some V → Faithful V.u ∧ Faithful V.eta ∧ Faithful V.q ∧
      V.u.trace .columns = some (if family ∈ ["rt-dg", "bdm-dg"] then .normal else .none) ∧
      V.eta.trace .columns = some (if family = "dg-cg" then .all else .none) ∧
      V.q.trace .columns = some (if tracer = "cg" then .all else .none) := by
  by_cases h : family ∈ ["rt-dg", "bdm-dg", "dg-cg", "dg-dg"] ∧ tracer ∈ ["dg", "cg"]
  · obtain ⟨hf, ht⟩ := h
    simp only [List.mem_cons, List.not_mem_nil, or_false] at hf ht
    rcases hc with rfl | rfl <;> rcases hf with rfl | rfl | rfl | rfl <;> rcases ht with rfl | rfl <;>
      refine ⟨by decide, fun V hV => ?_⟩ <;> cases hV <;>
      refine ⟨⟨_, _, rfl, rfl, rfl⟩, ⟨_, _, rfl, rfl, rfl⟩, ⟨_, _, rfl, rfl, rfl⟩, by decide, by decide, by decide⟩
  · rw [spaces2_none h]
    exact ⟨⟨fun h' => (by cases h'), fun h' => absurd h' h⟩, fun V hV => by cases hV⟩

theorem spaces3_none {c : Cell} {family : String} (h : family ∉ ["rt-dg", "bdm-dg", "dg-dg"]) :
    spaces3 c family = none := by
  simp only [List.mem_cons, List.not_mem_nil, or_false, not_or] at h
  obtain ⟨h1, h2, h3⟩ := h
  have : flow3 c family = none := by
    unfold flow3
    split
    · exact absurd rfl h1
    · exact absurd rfl h2
    · exact absurd rfl h3
    · rfl
  unfold spaces3
  rw [this]
  rfl

/-- C142: the 3D solver.  Tracers are discontinuous in both directions, the baroclinic head between columns only; other
names are rejected, among them `dg-cg`. -/
theorem C142_solver3d (c : Cell) (hc : Plane c) (family : String) :
    ((spaces3 c family).isSome ↔ family ∈ ["rt-dg", "bdm-dg", "dg-dg"]) ∧
    ∀ V, spaces3 c family = some V →
      Faithful V.u ∧ Faithful V.w ∧ Faithful V.h ∧ Faithful V.bhead ∧ Faithful V.u2 ∧ Faithful V.eta2 ∧
      (∀ k, V.u.trace k = some (if family = "dg-dg" then .none else .normal)) ∧
      (∀ k, V.h.trace k = some .none) ∧
      V.bhead.trace .columns = some .none ∧ V.bhead.trace .layers = some .all := by
  by_cases h : family ∈ ["rt-dg", "bdm-dg", "dg-dg"]
  · have h' := h
    simp only [List.mem_cons, List.not_mem_nil, or_false] at h
    rcases hc with rfl | rfl <;> rcases h with rfl | rfl | rfl <;>
      refine ⟨by decide, fun V hV => ?_⟩ <;> cases hV <;>
      refine ⟨⟨_, _, rfl, rfl, rfl⟩, ⟨_, _, rfl, rfl, rfl⟩, ⟨_, _, rfl, rfl, rfl⟩, ⟨_, _, rfl, rfl, rfl⟩,
        ⟨_, _, rfl, rfl, rfl⟩, ⟨_, _, rfl, rfl, rfl⟩, fun k => by cases k <;> decide, fun k => by cases k <;> decide,
        by decide, by decide⟩
  · rw [spaces3_none h]
    exact ⟨by simp [h], fun V hV => by cases hV⟩

/-- Quadrilaterals with Raviart-Thomas velocities and continuous tracers. -/
example : ∃ V, spaces2 .quad "rt-dg" "cg" = some V ∧ continuity V.u = some (.hdiv, .hdiv) ∧
    continuity V.eta = some (.dg, .dg) ∧ continuity V.q = some (.cg, .cg) := ⟨_, rfl, rfl, rfl, rfl⟩

/-- The 3D solver with discontinuous velocities on triangles. -/
example : ∃ V, spaces3 .triangle "dg-dg" = some V ∧ continuity V.u = some (.dg, .dg) ∧
    continuity V.bhead = some (.dg, .cg) := ⟨_, rfl, rfl, rfl⟩

/-! ### The terms that are left out -/

open Verif.Dg

variable {m : Mesh 2}

/-- Both sides of every facet have the same value. -/
def Single (f : Sc m) : Prop := ∀ s, (f (.plus s)).v = (f (.minus s)).v

theorem jumpN_single (hm : m.Flat) {f : Sc m} (hf : Single f) (s : m.S) (i : Fin 2) : jumpN f s i = 0 := by
  unfold jumpN
  rw [hf s, hm s i]
  ring

theorem jump_single {f : Sc m} (hf : Single f) (s : m.S) : jump f s = 0 := by
  unfold jump
  rw [hf s]
  ring

theorem jumpV_single (hm : m.Flat) {u : Vc m} (hu : ∀ i, Single (u i)) (s : m.S) : jumpV u s = 0 := by
  unfold jumpV
  simp only [Fin.sum_univ_two, hu _ s, hm s]
  ring

/-- C142: diffusion of continuous tracers: the facet terms are zero. -/
theorem C142_diffusion (hm : m.Flat) (T : Tracer2.Term m) (F : Tracer2.Flow m) (mu : Option (Sc m))
    (bc : ℕ → Option (Tracer2.BFuncs m)) (c test : Sc m) (hc : Single c) (ht : Single test) :
    Tracer2.diffusion { T with dg := false } F mu bc c test = Tracer2.diffusion { T with dg := true } F mu bc c test := by
  unfold Tracer2.diffusion
  cases mu with
  | none => rfl
  | some mu =>
    simp only [jumpN_single hm hc, jumpN_single hm ht]
    simp [Mesh.dS]
    rfl

/-- C142: the conservative form of the advection. -/
theorem C142_conservative (hm : m.Flat) (T : Tracer2.Term m) (F : Tracer2.Flow m)
    (bc : Option (ℕ → Option (Tracer2.BFuncs m))) (c test : Sc m) (ht : Single test) :
    Tracer2.consAdvection { T with dg := false } F bc c test =
      Tracer2.consAdvection { T with dg := true } F bc c test := by
  unfold Tracer2.consAdvection
  cases F.uv with
  | none => rfl
  | some u =>
    simp only [jumpN_single hm ht, jump_single ht]
    simp [Mesh.dS]
    rfl

/-- C142: the other form of the advection, if the normal velocity is continuous; see `C72_continuous_violated` for a
discontinuous one. -/
theorem C142_advection (T : Tracer2.Term m) (F : Tracer2.Flow m) (bc : ℕ → Option (Tracer2.BFuncs m))
    (c test : Sc m) (ht : Single test)
    (hu : ∀ u, F.uv = some u → ∀ s, jumpV (Tracer2.corrected F u) s = 0) :
    Tracer2.advection { T with dg := false } F bc c test = Tracer2.advection { T with dg := true } F bc c test := by
  cases hF : F.uv with
  | none => unfold Tracer2.advection; simp only [hF]
  | some u =>
    rw [Tracer2.advection_eq _ F bc u c test hF, Tracer2.advection_eq _ F bc u c test hF]
    have h0 : ∀ s, jumpV (fun i => Tracer2.corrected F u i * test) s = 0 := by
      intro s
      have h := hu u hF s
      have e : jumpV (fun i => Tracer2.corrected F u i * test) s =
          (test (.minus s)).v * jumpV (Tracer2.corrected F u) s := by
        unfold jumpV
        simp only [Pi.mul_apply, Jet.mul_v, ht s, Fin.sum_univ_two]
        ring
      rw [e, h, mul_zero]
    have hs : ∀ T' : Tracer2.Term m, m.dS (Tracer2.advFacet T' (Tracer2.corrected F u) c test) = 0 := by
      intro T'
      rw [← dS_zero (m := m)]
      refine dS_congr fun s => ?_
      unfold Tracer2.advFacet
      rw [h0, mul_zero]
    simp only [hs, jump_single ht]
    simp [Mesh.dS]
    rfl

/-- C142: the facet terms of the continuity equation for a continuous elevation space. -/
theorem C142_continuity (hm : m.Flat) (T : Swe.Term m) (bc : ℕ → Option (Swe.Funcs m)) (uv : Vc m) (eta : Sc m)
    (uvOld : Vc m) (etaOld phi : Sc m) (hu : T.uDg = true) (hp : Single phi) :
    Swe.huDiv { T with etaDg := false } bc uv eta uvOld etaOld phi =
      Swe.huDiv { T with etaDg := true } bc uv eta uvOld etaOld phi := by
  unfold Swe.huDiv
  simp only [jumpN_single hm hp, hu]
  simp [Mesh.dS]
  rfl

/-- A quadratic function on the square has single values. -/
theorem single_square (p : Quad) : Single (squareField p p) := by
  intro s
  cases s <;> rfl

/-- A rotating flow. -/
noncomputable def rotating : Tracer2.Flow square :=
  let u : Sc square := squareField ⟨0, 0, 1, 0, 0, 0⟩ ⟨0, 0, 1, 0, 0, 0⟩
  let v : Sc square := squareField ⟨0, -1, 0, 0, 0, 0⟩ ⟨0, -1, 0, 0, 0, 0⟩
  { Tracer2.exFlow with uv := some fun i => if i = 0 then u else v }

/-- The hypotheses of `C142_advection` hold for a rotating flow and a linear test function. -/
example (c : Sc square) :
    Tracer2.advection { Tracer2.exTerm with dg := false } rotating (fun _ => none) c
        (squareField ⟨1, -1, -1, 0, 0, 0⟩ ⟨1, -1, -1, 0, 0, 0⟩) =
      Tracer2.advection { Tracer2.exTerm with dg := true } rotating (fun _ => none) c
        (squareField ⟨1, -1, -1, 0, 0, 0⟩ ⟨1, -1, -1, 0, 0, 0⟩) := by
  refine C142_advection _ _ _ c _ (single_square _) ?_
  intro u hu
  cases hu
  refine jumpV_single square_flat fun i s => ?_
  have h : ∀ p : Quad, Single (cst square 1 * squareField p p) := fun p => by
    rw [cst_one_mul]
    exact single_square p
  change ((cst square 1 * if i = 0 then _ else _) _).v = ((cst square 1 * if i = 0 then _ else _) _).v
  split
  · exact h _ s
  · exact h _ s

/-- C142: continuous tracers with the discontinuous velocities of `dg-dg` and `dg-cg`, which the 2D solver accepts
(`C142_solver2d`): the form for discontinuous elements has facet terms that are not zero, and the form without them
changes the total of a constant tracer. -/
theorem C142_advection_violated (k : ℝ) (hk : k ≠ 0) :
    Tracer2.advection { Tracer2.exTerm with dg := false } Tracer2.exShear (fun _ => none) (cst square k) (cst square 1) ≠ 0 ∧
    Tracer2.advection { Tracer2.exTerm with dg := true } Tracer2.exShear (fun _ => none) (cst square k) (cst square 1) = 0 ∧
    Single (cst square k) ∧ Single (cst square 1) := by
  refine ⟨Tracer2.C72_continuous_violated k hk, ?_, fun _ => rfl, fun _ => rfl⟩
  refine Tracer2.C72_constant _ Tracer2.exShear _ _ (cst square 1) k rfl rfl (by simp) (by simp) ?_
  have hf : (fun i => Tracer2.exShear.factor * (squareField ⟨if i = 0 then 1 else 0, 0, 0, 0, 0, 0⟩ ⟨0, 0, 0, 0, 0, 0⟩) *
      cst square 1) = fun i : Fin 2 => squareField ⟨if i = 0 then 1 else 0, 0, 0, 0, 0, 0⟩ ⟨0, 0, 0, 0, 0, 0⟩ := by
    funext i
    change cst square 1 * _ * cst square 1 = _
    rw [cst_one_mul]
    funext x
    apply Jet.ext
    · simp
    · funext j; simp
  rw [hf]
  exact square_divExact _ _

end Verif.Space
