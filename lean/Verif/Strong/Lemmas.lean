import Verif.Dg.Lemmas

/-! Integration by parts with test functions that jump across facets, and functions that do not. -/

namespace Verif.Strong

open Verif.Dg

variable {d : ℕ} {m : Mesh d}

/-- A scalar expression that has one value on both sides of each interior facet. -/
def Cont (f : Sc m) : Prop := ∀ s, (f (.plus s)).v = (f (.minus s)).v

theorem Cont.avg {f : Sc m} (h : Cont f) (s : m.S) : avg f s = (f (.plus s)).v := by
  unfold Dg.avg
  rw [← h s]
  ring

theorem Cont.jump {f : Sc m} (h : Cont f) (s : m.S) : jump f s = 0 := by
  unfold Dg.jump
  rw [h s, sub_self]

theorem Cont.jumpN {f : Sc m} (h : Cont f) (hf : m.Flat) (s : m.S) (i : Fin d) : jumpN f s i = 0 := by
  unfold Dg.jumpN
  rw [hf s i, ← h s]
  ring

theorem Cont.jumpV {f : Vc m} (h : ∀ i, Cont (f i)) (hf : m.Flat) (s : m.S) : jumpV f s = 0 := by
  unfold Dg.jumpV
  rw [← Finset.sum_add_distrib]
  refine Finset.sum_eq_zero fun i _ => ?_
  rw [hf s i, ← h i s]
  ring

theorem Cont.mul {f g : Sc m} (hf : Cont f) (hg : Cont g) : Cont (f * g) := fun s => by
  simp only [Pi.mul_apply, Jet.mul_v, hf s, hg s]

/-- Integration by parts of `F · grad phi`, where the flux `F` is continuous and the test function need not be. -/
theorem parts_flux (F : Vc m) (phi : Sc m) (hF : ∀ i, Cont (F i)) (hd : DivExact m fun i => phi * F i) :
    m.dx (fun c => ∑ i, (phi (.cell c)).g i * (F i (.cell c)).v) =
      m.dS (fun s => ∑ i, jumpN phi s i * avg (F i) s) + (∑ b, m.wB b * (normalAt F b * (phi (.bnd b)).v))
      - m.dx fun c => div F (.cell c) * (phi (.cell c)).v := by
  unfold DivExact at hd
  have e1 : m.dx (fun c => div (fun i => phi * F i) (.cell c)) =
      m.dx (fun c => div F (.cell c) * (phi (.cell c)).v)
        + m.dx fun c => ∑ i, (phi (.cell c)).g i * (F i (.cell c)).v := by
    rw [← dx_add]
    refine dx_congr fun c => ?_
    simp only [div, Pi.mul_apply, Jet.mul_g, Finset.sum_mul, ← Finset.sum_add_distrib]
    exact Finset.sum_congr rfl fun i _ => by ring
  have e2 : m.dS (fun s => jumpV (fun i => phi * F i) s) = m.dS fun s => ∑ i, jumpN phi s i * avg (F i) s :=
    dS_congr fun s => by
      simp only [jumpV, ← Finset.sum_add_distrib]
      refine Finset.sum_congr rfl fun i _ => ?_
      rw [(hF i).avg]
      simp only [jumpN, Pi.mul_apply, Jet.mul_v, ← hF i s]
      ring
  have e3 : (∑ b, m.wB b * normalAt (fun i => phi * F i) b) = ∑ b, m.wB b * (normalAt F b * (phi (.bnd b)).v) :=
    dB_congr fun b => by
      simp only [normalAt, Pi.mul_apply, Jet.mul_v, Finset.sum_mul]
      exact Finset.sum_congr rfl fun i _ => by ring
  rw [e1, e2, e3] at hd
  linarith

/-- Integration by parts of `eta div w`, where `eta` is continuous and the vector `w` need not be. -/
theorem parts_grad (eta : Sc m) (w : Vc m) (he : Cont eta) (hd : DivExact m fun i => eta * w i) :
    m.dx (fun c => (eta (.cell c)).v * div w (.cell c)) =
      m.dS (fun s => avg eta s * jumpV w s) + (∑ b, m.wB b * ((eta (.bnd b)).v * normalAt w b))
      - m.dx fun c => ∑ i, (eta (.cell c)).g i * (w i (.cell c)).v := by
  unfold DivExact at hd
  have e1 : m.dx (fun c => div (fun i => eta * w i) (.cell c)) =
      m.dx (fun c => (eta (.cell c)).v * div w (.cell c))
        + m.dx fun c => ∑ i, (eta (.cell c)).g i * (w i (.cell c)).v := by
    rw [← dx_add]
    refine dx_congr fun c => ?_
    simp only [div, Pi.mul_apply, Jet.mul_g, Finset.mul_sum, ← Finset.sum_add_distrib]
    exact Finset.sum_congr rfl fun i _ => by ring
  have e2 : m.dS (fun s => jumpV (fun i => eta * w i) s) = m.dS fun s => avg eta s * jumpV w s :=
    dS_congr fun s => by
      rw [he.avg]
      simp only [jumpV, Pi.mul_apply, Jet.mul_v, ← he s, mul_add, Finset.mul_sum]
      congr 1 <;> exact Finset.sum_congr rfl fun i _ => by ring
  have e3 : (∑ b, m.wB b * normalAt (fun i => eta * w i) b) = ∑ b, m.wB b * ((eta (.bnd b)).v * normalAt w b) :=
    dB_congr fun b => by
      simp only [normalAt, Pi.mul_apply, Jet.mul_v, Finset.mul_sum]
      exact Finset.sum_congr rfl fun i _ => by ring
  rw [e1, e2, e3] at hd
  linarith

end Verif.Strong
