import Verif.Local.Lemmas
import Verif.Tracer2.Model

/-!
C144: the tendency of a 2D tracer in a cell depends on this cell and its neighbours.
-/

namespace Verif.Local

open Verif.Dg Verif.Tracer2

variable {m : Mesh 2} {κ : Type*} {own : Pt m → κ} {k : κ}

/-- Optional vector fields that are both absent, or both present and the same in the cells of `A`. -/
def SameO (own : Pt m → κ) (A : Set κ) : Option (Vc m) → Option (Vc m) → Prop
  | none, none => True
  | some u, some v => SameV own A u v
  | _, _ => False

/-- Two flows that are the same in the cells of `A`.  The correction factor of the velocity and the Lax-Friedrichs factor
are given. -/
structure SameFlow (own : Pt m → κ) (A : Set κ) (F G : Flow m) : Prop where
  uv : SameO own A F.uv G.uv
  elev : Same own A F.elev G.elev
  factor : F.factor = G.factor
  lf : F.lfFactor = G.lfFactor
  p1 : F.uvP1 = none ∧ G.uvP1 = none
  mag : F.uvMag = none ∧ G.uvMag = none

theorem SameFlow.cases {A : Set κ} {F G : Flow m} (h : SameFlow own A F G) :
    (F.uv = none ∧ G.uv = none) ∨ ∃ u v, F.uv = some u ∧ G.uv = some v ∧ SameV own A u v := by
  have h := h.uv
  cases hF : F.uv <;> cases hG : G.uv <;> rw [hF, hG] at h
  · exact .inl ⟨rfl, rfl⟩
  · exact h.elim
  · exact h.elim
  · exact .inr ⟨_, _, rfl, rfl, h⟩

theorem corrected_same {A : Set κ} {F G : Flow m} (h : SameFlow own A F G) {u v : Vc m} (huv : SameV own A u v) :
    SameV own A (corrected F u) (corrected G v) := fun i x hx => by
  change F.factor x * u i x = G.factor x * v i x
  rw [h.factor, huv i x hx]

section

variable (T : Term m) {F G : Flow m} (hF : SameFlow own (near own k) F G) {c c' test : Sc m} (hc : Same own (near own k) c c')
  (ht : Only own k test)
include hF hc

theorem advBndFlux_same {u v : Vc m} (huv : SameV own (near own k) u v) (bc : ℕ → Option (BFuncs m)) (j : ℕ) (x : m.B)
    (hx : own (.bnd x) = k) : advBndFlux T F u bc c j x = advBndFlux T G v bc c' j x := by
  simp only [advBndFlux, hc.cell hx, (huv _).cell hx, hF.elev.cell hx, hF.factor]

theorem consBndFlux_same {u v : Vc m} (huv : SameV own (near own k) u v) (bc : ℕ → Option (BFuncs m)) (j : ℕ) (x : m.B)
    (hx : own (.bnd x) = k) : consBndFlux T F u bc c j x = consBndFlux T G v bc c' j x := by
  simp only [consBndFlux, hc.cell hx, (huv _).cell hx, hF.elev.cell hx, hF.factor]

theorem diffBndFlux_same (mu : Sc m) (bc : ℕ → Option (BFuncs m)) (j : ℕ) (x : m.B)
    (hx : own (.bnd x) = k) : diffBndFlux T F mu bc c j x = diffBndFlux T G mu bc c' j x := by
  obtain ⟨h1, h2⟩ | ⟨u, v, h1, h2, huv⟩ := hF.cases
  · simp only [diffBndFlux, h1, h2, hc.cell hx, hF.elev.cell hx, hF.factor]
  · simp only [diffBndFlux, h1, h2, hc.cell hx, hF.elev.cell hx, hF.factor, (corrected_same hF huv _).cell hx]

include ht

/-- C144: advection of a tracer, non-conservative form: tested with a function of one cell, the form is the same for two
tracers and flows that are the same in this cell and its neighbours. -/
theorem C144_advection (bc : ℕ → Option (BFuncs m)) : advection T F bc c test = advection T G bc c' test := by
  unfold advection
  obtain ⟨h1, h2⟩ | ⟨u, v, h1, h2, huv⟩ := hF.cases
  · rw [h1, h2]
  · rw [h1, h2]
    have hw := corrected_same hF huv
    refine congrArg Neg.neg (congrArg₂ _ (congrArg₂ _ (dx_congr (k := k) (own := own) (fun x hx => ?_) (fun x hx => ?_) fun x hx => ?_)
      (if_congr Iff.rfl (congrArg₂ _ (dS_congr (k := k) (own := own) (fun s hs => ?_) (fun s hp hm => ?_) fun s hp hm => ?_)
      (if_congr Iff.rfl (dS_congr (k := k) (own := own) (fun s hs => ?_) (fun s hp hm => ?_) fun s hp hm => ?_) rfl)) rfl))
      (bndLoop_congr (k := k) (own := own) (fun j x hx => ?_) (fun j x hx => ?_) fun j x hx => ?_))
    · have e : ∀ i, (corrected F u i * test) (.cell x) = (corrected G v i * test) (.cell x) := fun i => by
        change corrected F u i (.cell x) * test (.cell x) = corrected G v i (.cell x) * test (.cell x)
        rw [(hw i).cell hx]
      rw [e, e, hc.cell hx]
    · have e : ∀ (f : Sc m) i, ((f * test) (.cell x)).g i = 0 := fun f i => by
        change (f (.cell x)).g i * (test (.cell x)).v + (f (.cell x)).v * (test (.cell x)).g i = 0
        rw [ht _ hx, zv, zg, mul_zero, mul_zero, add_zero]
      simp only [e, zero_mul, add_zero, neg_zero]
    · have e : ∀ (f : Sc m) i, ((f * test) (.cell x)).g i = 0 := fun f i => by
        change (f (.cell x)).g i * (test (.cell x)).v + (f (.cell x)).v * (test (.cell x)).g i = 0
        rw [ht _ hx, zv, zg, mul_zero, mul_zero, add_zero]
      simp only [e, zero_mul, add_zero, neg_zero]
    · simp only [unAv, avg, (hc.facet hs).1, (hc.facet hs).2, ((hw _).facet hs).1, ((hw _).facet hs).2]
    · simp only [ht _ hp, ht _ hm, zv, zero_mul, add_zero, mul_zero]
    · simp only [ht _ hp, ht _ hm, zv, zero_mul, add_zero, mul_zero]
    · simp only [unAv, avg, jump, (hc.facet hs).1, (hc.facet hs).2, ((hw _).facet hs).1, ((hw _).facet hs).2, hF.lf]
    · simp only [jump, ht _ hp, ht _ hm, sub_self, zero_mul, mul_zero]
    · simp only [jump, ht _ hp, ht _ hm, sub_self, zero_mul, mul_zero]
    · rw [advBndFlux_same T hF hc hw bc j x hx]
    · rw [ht _ hx, zv, mul_zero]
    · rw [ht _ hx, zv, mul_zero]

/-- C144: advection of a tracer, conservative form. -/
theorem C144_conservative (bc : Option (ℕ → Option (BFuncs m))) : consAdvection T F bc c test = consAdvection T G bc c' test := by
  unfold consAdvection
  obtain ⟨h1, h2⟩ | ⟨u, v, h1, h2, huv⟩ := hF.cases
  · rw [h1, h2]
  · rw [h1, h2]
    have hw := corrected_same hF huv
    refine congrArg Neg.neg (congrArg₂ _ (congrArg₂ _ (dx_congr (k := k) (own := own) (fun x hx => ?_) (fun x hx => ?_) fun x hx => ?_)
      (if_congr Iff.rfl (congrArg₂ _ (dS_congr (k := k) (own := own) (fun s hs => ?_) (fun s hp hm => ?_) fun s hp hm => ?_)
      (if_congr Iff.rfl (dS_congr (k := k) (own := own) (fun s hs => ?_) (fun s hp hm => ?_) fun s hp hm => ?_) rfl)) rfl)) ?_)
    · simp only [(hw _).cell hx, hc.cell hx]
    · simp only [ht _ hx, zg, zero_mul, add_zero, neg_zero]
    · simp only [ht _ hx, zg, zero_mul, add_zero, neg_zero]
    · simp only [consFlux, unAv, avg, (hc.facet hs).1, (hc.facet hs).2, ((hw _).facet hs).1, ((hw _).facet hs).2]
    · simp only [jumpN, ht _ hp, ht _ hm, zv, zero_mul, add_zero, mul_zero]
    · simp only [jumpN, ht _ hp, ht _ hm, zv, zero_mul, add_zero, mul_zero]
    · simp only [consGamma, hF.p1.1, hF.p1.2, hF.mag.1, hF.mag.2, unAv, avg, jump, (hc.facet hs).1, (hc.facet hs).2,
        ((hw _).facet hs).1, ((hw _).facet hs).2, hF.lf]
    · simp only [jump, ht _ hp, ht _ hm, sub_self, zero_mul, mul_zero]
    · simp only [jump, ht _ hp, ht _ hm, sub_self, zero_mul, mul_zero]
    · cases bc with
      | none => rfl
      | some bc =>
        refine bndLoop_congr (k := k) (own := own) (fun j x hx => ?_) (fun j x hx => ?_) fun j x hx => ?_
        · rw [consBndFlux_same T hF hc hw bc j x hx]
        · rw [ht _ hx, zv, mul_zero]
        · rw [ht _ hx, zv, mul_zero]

/-- C144: diffusion of a tracer. -/
theorem C144_diffusion (mu : Option (Sc m)) (bc : ℕ → Option (BFuncs m)) :
    diffusion T F mu bc c test = diffusion T G mu bc c' test := by
  unfold diffusion
  cases mu with
  | none => rfl
  | some mu =>
    refine congrArg Neg.neg (congrArg₂ _ (congrArg₂ _ (dx_congr (k := k) (own := own) (fun x hx => ?_) (fun x hx => ?_) fun x hx => ?_)
      (if_congr Iff.rfl (congrArg₂ _ (congrArg₂ _ (dS_congr (k := k) (own := own) (fun s hs => ?_) (fun s hp hm => ?_) fun s hp hm => ?_)
      (dS_congr (k := k) (own := own) (fun s hs => ?_) (fun s hp hm => ?_) fun s hp hm => ?_))
      (dS_congr (k := k) (own := own) (fun s hs => ?_) (fun s hp hm => ?_) fun s hp hm => ?_)) rfl))
      (bndLoop_congr (k := k) (own := own) (fun j x hx => ?_) (fun j x hx => ?_) fun j x hx => ?_))
    · simp only [hc.cell hx]
    · simp only [ht _ hx, zg, zero_mul, Finset.sum_const_zero]
    · simp only [ht _ hx, zg, zero_mul, Finset.sum_const_zero]
    · simp only [jumpN, (hc.facet hs).1, (hc.facet hs).2]
    · simp only [jumpN, ht _ hp, ht _ hm, zv, zero_mul, add_zero, mul_zero, Finset.sum_const_zero]
    · simp only [jumpN, ht _ hp, ht _ hm, zv, zero_mul, add_zero, mul_zero, Finset.sum_const_zero]
    · simp only [jumpN, (hc.facet hs).1, (hc.facet hs).2]
    · simp only [avgFlux, ht _ hp, ht _ hm, zg, zero_mul, add_zero, mul_zero, Finset.sum_const_zero, neg_zero]
    · simp only [avgFlux, ht _ hp, ht _ hm, zg, zero_mul, add_zero, mul_zero, Finset.sum_const_zero, neg_zero]
    · simp only [avgFlux, (hc.facet hs).1, (hc.facet hs).2]
    · simp only [jumpN, ht _ hp, ht _ hm, zv, zero_mul, add_zero, Finset.sum_const_zero, neg_zero]
    · simp only [jumpN, ht _ hp, ht _ hm, zv, zero_mul, add_zero, Finset.sum_const_zero, neg_zero]
    · rw [diffBndFlux_same T hF hc mu bc j x hx]
    · rw [ht _ hx, zv, mul_zero, neg_zero]
    · rw [ht _ hx, zv, mul_zero, neg_zero]

end

end Verif.Local
