import Verif.Frame.Model
import Mathlib.Tactic.Ring
import Mathlib.Tactic.LinearCombination
import Mathlib.Tactic.FieldSimp
import Mathlib.Tactic.Linarith
import Mathlib.Algebra.BigOperators.Ring.Finset

namespace Verif.Frame

open Verif.Dg

variable {d : ℕ}

section algebra

variable (R : Fin d → Fin d → ℝ)

theorem rotV_add (u v : Fin d → ℝ) (i : Fin d) : rotV R (fun j => u j + v j) i = rotV R u i + rotV R v i := by
  simp [rotV, mul_add, Finset.sum_add_distrib]

theorem rotV_sub (u v : Fin d → ℝ) (i : Fin d) : rotV R (fun j => u j - v j) i = rotV R u i - rotV R v i := by
  simp [rotV, mul_sub, Finset.sum_sub_distrib]

theorem rotV_neg (u : Fin d → ℝ) (i : Fin d) : rotV R (fun j => -u j) i = -rotV R u i := by
  simp [rotV]

theorem rotV_smul (a : ℝ) (u : Fin d → ℝ) (i : Fin d) : rotV R (fun j => a * u j) i = a * rotV R u i := by
  simp only [rotV, Finset.mul_sum]
  exact Finset.sum_congr rfl fun j _ => by ring

theorem rotV_smul' (a : ℝ) (u : Fin d → ℝ) (i : Fin d) : rotV R (fun j => u j * a) i = rotV R u i * a := by
  rw [mul_comm, ← rotV_smul]
  simp only [mul_comm]

theorem rotV_zero (i : Fin d) : rotV R (fun _ => 0) i = 0 := by simp [rotV]

theorem rotT_apply (A : Fin d → Fin d → ℝ) (i j : Fin d) : rotT R A i j = ∑ a, ∑ b, R i a * R j b * A a b := by
  simp only [rotT, rotV, Finset.mul_sum]
  exact Finset.sum_congr rfl fun a _ => Finset.sum_congr rfl fun b _ => by ring

theorem rotT_add (A B : Fin d → Fin d → ℝ) (i j : Fin d) :
    rotT R (fun a b => A a b + B a b) i j = rotT R A i j + rotT R B i j := by
  simp [rotT_apply, mul_add, Finset.sum_add_distrib]

theorem rotT_smul (c : ℝ) (A : Fin d → Fin d → ℝ) (i j : Fin d) :
    rotT R (fun a b => c * A a b) i j = c * rotT R A i j := by
  simp only [rotT_apply, Finset.mul_sum]
  exact Finset.sum_congr rfl fun a _ => Finset.sum_congr rfl fun b _ => by ring

theorem rotT_swap (A : Fin d → Fin d → ℝ) (i j : Fin d) : rotT R (fun a b => A b a) i j = rotT R A j i := by
  simp only [rotT_apply]
  rw [Finset.sum_comm]
  exact Finset.sum_congr rfl fun a _ => Finset.sum_congr rfl fun b _ => by ring

theorem rotT_outer (u v : Fin d → ℝ) (i j : Fin d) : rotT R (fun a b => u a * v b) i j = rotV R u i * rotV R v j := by
  simp only [rotT_apply, rotV, Finset.sum_mul_sum]
  exact Finset.sum_congr rfl fun a _ => Finset.sum_congr rfl fun b _ => by ring

variable {R} (h : ∀ i j, ∑ k, R k i * R k j = if i = j then 1 else 0)
include h

/-- The inner product does not depend on the axes. -/
theorem dot_rot (u v : Fin d → ℝ) : ∑ i, rotV R u i * rotV R v i = ∑ i, u i * v i := by
  calc ∑ i, rotV R u i * rotV R v i = ∑ i, ∑ a, ∑ b, R i a * R i b * (u a * v b) := by
        refine Finset.sum_congr rfl fun i _ => ?_
        simp only [rotV, Finset.sum_mul_sum]
        exact Finset.sum_congr rfl fun a _ => Finset.sum_congr rfl fun b _ => by ring
    _ = ∑ a, ∑ b, (∑ i, R i a * R i b) * (u a * v b) := by
        rw [Finset.sum_comm]
        refine Finset.sum_congr rfl fun a _ => ?_
        rw [Finset.sum_comm]
        exact Finset.sum_congr rfl fun b _ => by rw [Finset.sum_mul]
    _ = _ := by simp [h]

/-- The inner product of two vectors that turn with the axes. -/
theorem dot_eq {a b u v : Fin d → ℝ} (ha : ∀ i, a i = rotV R u i) (hb : ∀ i, b i = rotV R v i) :
    ∑ i, a i * b i = ∑ i, u i * v i := by
  rw [← dot_rot h u v]
  exact Finset.sum_congr rfl fun i _ => by rw [ha, hb]

/-- A tensor times a vector. -/
theorem mulVec_rot (A : Fin d → Fin d → ℝ) (v : Fin d → ℝ) (i : Fin d) :
    ∑ j, rotT R A i j * rotV R v j = rotV R (fun a => ∑ b, A a b * v b) i := by
  simp only [rotT, Finset.sum_mul]
  rw [Finset.sum_comm]
  simp only [mul_assoc, ← Finset.mul_sum, dot_rot h]
  rfl

/-- A vector times a tensor. -/
theorem vecMul_rot (A : Fin d → Fin d → ℝ) (v : Fin d → ℝ) (j : Fin d) :
    ∑ i, rotV R v i * rotT R A i j = rotV R (fun b => ∑ a, v a * A a b) j := by
  have := mulVec_rot h (fun a b => A b a) v j
  simp only [rotT_swap] at this
  rw [show (∑ i, rotV R v i * rotT R A i j) = ∑ i, rotT R A i j * rotV R v i from
    Finset.sum_congr rfl fun i _ => mul_comm _ _, this]
  simp only [mul_comm]

/-- The contraction of two tensors. -/
theorem ddot_rot (A B : Fin d → Fin d → ℝ) :
    ∑ i, ∑ j, rotT R A i j * rotT R B i j = ∑ i, ∑ j, A i j * B i j := by
  have e : ∀ i, ∑ j, rotT R A i j * rotT R B i j = ∑ a, ∑ b, R i a * R i b * ∑ j, A a j * B b j := by
    intro i
    calc ∑ j, rotT R A i j * rotT R B i j = ∑ j, ∑ a, ∑ b, R i a * R i b * (rotV R (A a) j * rotV R (B b) j) := by
          refine Finset.sum_congr rfl fun j _ => ?_
          simp only [rotT, Finset.sum_mul_sum]
          exact Finset.sum_congr rfl fun a _ => Finset.sum_congr rfl fun b _ => by ring
      _ = _ := by
          rw [Finset.sum_comm]
          refine Finset.sum_congr rfl fun a _ => ?_
          rw [Finset.sum_comm]
          exact Finset.sum_congr rfl fun b _ => by rw [← Finset.mul_sum, dot_rot h]
  simp only [e]
  rw [Finset.sum_comm]
  refine Finset.sum_congr rfl fun a _ => ?_
  rw [Finset.sum_comm]
  simp only [← Finset.sum_mul, h]
  simp

/-- The contraction of two tensors that turn with the axes. -/
theorem ddot_eq {a b A B : Fin d → Fin d → ℝ} (ha : ∀ i j, a i j = rotT R A i j) (hb : ∀ i j, b i j = rotT R B i j) :
    ∑ i, ∑ j, a i j * b i j = ∑ i, ∑ j, A i j * B i j := by
  rw [← ddot_rot h A B]
  exact Finset.sum_congr rfl fun i _ => Finset.sum_congr rfl fun j _ => by rw [ha, hb]

/-- The trace. -/
theorem trace_rot (A : Fin d → Fin d → ℝ) : ∑ i, rotT R A i i = ∑ i, A i i := by
  simp only [rotT_apply]
  rw [Finset.sum_comm]
  refine Finset.sum_congr rfl fun a _ => ?_
  rw [Finset.sum_comm]
  simp only [← Finset.sum_mul, h]
  simp

end algebra

section jets

variable (R : Fin d → Fin d → ℝ)

@[simp] theorem rot_v (a : Jet d) : (rot R a).v = a.v := rfl

theorem rot_mul (a b : Jet d) : rot R (a * b) = rot R a * rot R b := by
  refine Jet.ext rfl (funext fun i => ?_)
  change rotV R (fun j => a.g j * b.v + a.v * b.g j) i = rotV R a.g i * b.v + a.v * rotV R b.g i
  rw [rotV_add, rotV_smul, rotV_smul']

theorem rot_add (a b : Jet d) : rot R (a + b) = rot R a + rot R b :=
  Jet.ext rfl (funext fun i => rotV_add R a.g b.g i)

theorem rot_sub (a b : Jet d) : rot R (a - b) = rot R a - rot R b :=
  Jet.ext rfl (funext fun i => rotV_sub R a.g b.g i)

theorem rot_const (x : ℝ) : rot R (Jet.const x) = Jet.const x :=
  Jet.ext rfl (funext fun i => rotV_zero R i)

theorem rot_zero : rot R 0 = 0 := rot_const R 0

theorem rot_sqrt (a : Jet d) : rot R (Jet.sqrt a) = Jet.sqrt (rot R a) := by
  refine Jet.ext rfl (funext fun i => ?_)
  change rotV R (fun j => a.g j / (2 * Real.sqrt a.v)) i = rotV R a.g i / (2 * Real.sqrt a.v)
  simp only [div_eq_mul_inv]
  rw [rotV_smul']

end jets

namespace View

variable {m m' : Mesh d} (V : View m m')

@[simp] theorem sc_v (f : Sc m) (x : Pt m') : (V.sc f x).v = (f (V.pt x)).v := rfl

theorem sc_g (f : Sc m) (x : Pt m') : (V.sc f x).g = rotV V.R (f (V.pt x)).g := rfl

theorem vc_v (u : Vc m) (i : Fin d) (x : Pt m') : (V.vc u i x).v = rotV V.R (fun j => (u j (V.pt x)).v) i := rfl

theorem vc_g (u : Vc m) (i j : Fin d) (x : Pt m') :
    (V.vc u i x).g j = rotT V.R (fun a b => (u a (V.pt x)).g b) i j := rfl

@[simp] theorem pt_cell (x : m'.C) : V.pt (.cell x) = .cell (V.c x) := rfl

@[simp] theorem pt_bnd (x : m'.B) : V.pt (.bnd x) = .bnd (V.b x) := rfl

theorem pt_plus (x : m'.S) : V.pt (.plus x) = if V.flip x then .minus (V.s x) else .plus (V.s x) := rfl

theorem pt_minus (x : m'.S) : V.pt (.minus x) = if V.flip x then .plus (V.s x) else .minus (V.s x) := rfl

theorem dx_eq {f : m'.C → ℝ} {g : m.C → ℝ} (h : ∀ x, f x = g (V.c x)) : m'.dx f = m.dx g := by
  unfold Mesh.dx
  rw [← V.c.sum_comp]
  exact Finset.sum_congr rfl fun x _ => by rw [h, V.wC]

theorem dS_eq {f : m'.S → ℝ} {g : m.S → ℝ} (h : ∀ x, f x = g (V.s x)) : m'.dS f = m.dS g := by
  unfold Mesh.dS
  rw [← V.s.sum_comp]
  exact Finset.sum_congr rfl fun x _ => by rw [h, V.wS]

theorem ds_eq (k : ℕ) {f : m'.B → ℝ} {g : m.B → ℝ} (h : ∀ x, f x = g (V.b x)) : m'.ds k f = m.ds k g := by
  unfold Mesh.ds
  rw [← V.b.sum_comp]
  exact Finset.sum_congr rfl fun x _ => by rw [h, V.wB, V.marker]

theorem bndLoop_eq {f : ℕ → m'.B → ℝ} {g : ℕ → m.B → ℝ} (h : ∀ k x, f k x = g k (V.b x)) :
    m'.bndLoop f = m.bndLoop g := by
  unfold Mesh.bndLoop
  rw [(V.markers.map _).sum_eq]
  exact congrArg List.sum (List.map_congr_left fun k _ => V.ds_eq k (h k))

theorem avg_sc (f : Sc m) (x : m'.S) : avg (V.sc f) x = avg f (V.s x) := by
  unfold avg
  simp only [sc_v, pt]
  split <;> ring_nf

/-- The mean of a vector. -/
theorem avg_vc (u : Vc m) (i : Fin d) (x : m'.S) : avg (V.vc u i) x = rotV V.R (fun j => avg (u j) (V.s x)) i := by
  unfold avg
  rw [rotV_smul, rotV_add]
  simp only [vc_v, pt]
  split <;> ring_nf

theorem jumpN_sc (f : Sc m) (x : m'.S) (i : Fin d) : jumpN (V.sc f) x i = rotV V.R (jumpN f (V.s x)) i := by
  unfold jumpN
  rw [rotV_add, rotV_smul, rotV_smul]
  simp only [sc_v, pt, V.np, V.nm]
  split
  · exact add_comm _ _
  · rfl

/-- The jump of a vector with the normal, as a tensor. -/
theorem jumpN_vc (u : Vc m) (x : m'.S) (i j : Fin d) :
    jumpN (V.vc u i) x j = rotT V.R (fun i => jumpN (u i) (V.s x)) i j := by
  have h : rotT V.R (fun i => jumpN (u i) (V.s x)) i j = rotT V.R (fun a b => (u a (.plus (V.s x))).v * m.np (V.s x) b) i j +
      rotT V.R (fun a b => (u a (.minus (V.s x))).v * m.nm (V.s x) b) i j := rotT_add ..
  rw [h, rotT_outer, rotT_outer]
  unfold jumpN
  simp only [vc_v, pt, V.np, V.nm]
  split
  · exact add_comm _ _
  · rfl

include V in
/-- The normals of the two sides stay opposite. -/
theorem flat (hf : m.Flat) : m'.Flat := by
  intro x i
  rw [V.np, V.nm, ← rotV_neg]
  refine congrArg (fun n => rotV V.R n i) (funext fun j => ?_)
  split
  · rw [hf, neg_neg]
  · exact hf _ _

theorem jumpV_vc (u : Vc m) (x : m'.S) : jumpV (V.vc u) x = jumpV u (V.s x) := by
  unfold jumpV
  simp only [vc_v, V.np, V.nm, dot_rot V.orth, pt]
  split
  · exact add_comm _ _
  · rfl

/-- The size of a component along the normal of a facet. -/
theorem abs_normal (hf : m.Flat) (u : Fin d → ℝ) (x : m'.S) :
    |∑ i, rotV V.R u i * m'.nm x i| = |∑ i, u i * m.nm (V.s x) i| := by
  rw [V.nm, dot_rot V.orth]
  split
  · rw [← abs_neg, ← Finset.sum_neg_distrib]
    exact congrArg abs (Finset.sum_congr rfl fun i _ => by rw [hf, mul_neg])
  · rfl

/-- The sign by which a jump changes. -/
def sign (x : m'.S) : ℝ := if V.flip x then -1 else 1

theorem sign_mul (x : m'.S) : V.sign x * V.sign x = 1 := by
  unfold sign
  split <;> norm_num

theorem jump_sc (f : Sc m) (x : m'.S) : jump (V.sc f) x = V.sign x * jump f (V.s x) := by
  unfold jump sign
  simp only [sc_v, pt]
  split <;> simp

theorem jump_vc (u : Vc m) (i : Fin d) (x : m'.S) :
    jump (V.vc u i) x = V.sign x * rotV V.R (fun j => jump (u j) (V.s x)) i := by
  unfold jump sign
  simp only [vc_v, pt, rotV_sub]
  split <;> simp

theorem div_vc (u : Vc m) (x : Pt m') : div (V.vc u) x = div u (V.pt x) := by
  unfold div
  simp only [vc_g]
  exact trace_rot V.orth _

theorem normalAt_vc (u : Vc m) (x : m'.B) : normalAt (V.vc u) x = normalAt u (V.b x) := by
  unfold normalAt
  simp only [vc_v, V.nb, dot_rot V.orth]
  rfl

theorem displacement_eq (D : Depth m) (x : Pt m') (eta : Jet d) :
    (V.depth D).displacement x (rot V.R eta) = rot V.R (D.displacement (V.pt x) eta) := by
  unfold Depth.displacement depth sc
  simp only
  split
  · rw [rot_mul, rot_sub, rot_sqrt, rot_add, rot_mul, rot_mul, rot_add, rot_const]
  · exact (rot_zero _).symm

theorem total_eq (D : Depth m) (x : Pt m') (eta : Jet d) :
    (V.depth D).total x (rot V.R eta) = rot V.R (D.total (V.pt x) eta) := by
  unfold Depth.total
  rw [displacement_eq]
  unfold depth sc
  simp only
  split
  · rw [rot_add, rot_add]
  · rfl

end View

/-! ### Upwinding -/

/-- `sign` is odd except for its value at zero. -/
theorem sgn_neg (z x : ℝ) (h : z = 0 ∨ x ≠ 0) : sgn z (-x) = -sgn z x := by
  unfold sgn
  rcases lt_trichotomy x 0 with hx | hx | hx
  · rw [if_pos (by linarith), if_neg (by linarith), if_pos hx]
    norm_num
  · rcases h with h | h
    · simp [hx, h]
    · exact absurd hx h
  · rw [if_neg (by linarith), if_pos (by linarith), if_pos hx]

/-! ### Every change of description -/

/-- The mesh with turned axes and exchanged sides. -/
def turned (m : Mesh d) (R : Fin d → Fin d → ℝ) (flip : m.S → Bool) : Mesh d where
  C := m.C
  S := m.S
  B := m.B
  wC := m.wC
  wS := m.wS
  wB := m.wB
  np := fun x => rotV R (if flip x then m.nm x else m.np x)
  nm := fun x => rotV R (if flip x then m.np x else m.nm x)
  nb := fun x => rotV R (m.nb x)
  marker := m.marker
  markers := m.markers
  volP := fun x => if flip x then m.volM x else m.volP x
  volM := fun x => if flip x then m.volP x else m.volM x
  volB := m.volB
  areaS := m.areaS
  areaB := m.areaB
  wC_nonneg := m.wC_nonneg
  wS_nonneg := m.wS_nonneg
  wB_nonneg := m.wB_nonneg
  markers_nodup := m.markers_nodup
  marker_mem := m.marker_mem

/-- Every mesh has a description with any axes and any naming of the sides. -/
def turn (m : Mesh d) (R : Fin d → Fin d → ℝ) (h : ∀ i j, ∑ k, R k i * R k j = if i = j then 1 else 0)
    (flip : m.S → Bool) : View m (turned m R flip) where
  R := R
  orth := h
  c := Equiv.refl _
  s := Equiv.refl _
  b := Equiv.refl _
  flip := flip
  wC := fun _ => rfl
  wS := fun _ => rfl
  wB := fun _ => rfl
  np := fun _ => rfl
  nm := fun _ => rfl
  nb := fun _ => rfl
  marker := fun _ => rfl
  markers := List.Perm.refl _
  volP := fun _ => rfl
  volM := fun _ => rfl
  volB := fun _ => rfl
  areaS := fun _ => rfl
  areaB := fun _ => rfl

end Verif.Frame
