import Verif.Linear.Model
import Verif.Ext.Model
import Mathlib.Tactic.Ring
import Mathlib.Tactic.LinearCombination

/-!
Operators and integrals of linear combinations.
-/

namespace Verif.Linear

open Verif.Dg Verif.Ext

variable {d : ℕ} {m : Mesh d} {a b : ℝ}

@[simp] theorem jet_v (x y : Jet d) : (jet a b x y).v = a * x.v + b * y.v := rfl
@[simp] theorem jet_g (x y : Jet d) (i : Fin d) : (jet a b x y).g i = a * x.g i + b * y.g i := rfl
@[simp] theorem sc_v (f g : Sc m) (x : Pt m) : (sc a b f g x).v = a * (f x).v + b * (g x).v := rfl
@[simp] theorem sc_g (f g : Sc m) (x : Pt m) (i : Fin d) : (sc a b f g x).g i = a * (f x).g i + b * (g x).g i := rfl
@[simp] theorem vc_v (u v : Vc m) (i : Fin d) (x : Pt m) : (vc a b u v i x).v = a * (u i x).v + b * (v i x).v := rfl
@[simp] theorem vc_g (u v : Vc m) (i j : Fin d) (x : Pt m) :
    (vc a b u v i x).g j = a * (u i x).g j + b * (v i x).g j := rfl
@[simp] theorem jet_zero_v : (0 : Jet d).v = 0 := rfl
@[simp] theorem jet_zero_g (i : Fin d) : (0 : Jet d).g i = 0 := rfl
@[simp] theorem zero_v (x : Pt m) : ((0 : Sc m) x).v = 0 := rfl
@[simp] theorem zero_g (x : Pt m) (i : Fin d) : ((0 : Sc m) x).g i = 0 := rfl

/-! ### Sums -/

theorem add_eq {x y z x' y' z' : ℝ} (h : z = a * x + b * y) (h' : z' = a * x' + b * y') :
    z + z' = a * (x + x') + b * (y + y') := by
  rw [h, h']
  ring

theorem sub_eq {x y z x' y' z' : ℝ} (h : z = a * x + b * y) (h' : z' = a * x' + b * y') :
    z - z' = a * (x - x') + b * (y - y') := by
  rw [h, h']
  ring

theorem neg_eq {x y z : ℝ} (h : z = a * x + b * y) : -z = a * -x + b * -y := by
  rw [h]
  ring

theorem left_eq (c : ℝ) {x y z : ℝ} (h : z = a * x + b * y) : c * z = a * (c * x) + b * (c * y) := by
  rw [h]
  ring

theorem right_eq (c : ℝ) {x y z : ℝ} (h : z = a * x + b * y) : z * c = a * (x * c) + b * (y * c) := by
  rw [h]
  ring

theorem div_eq' (c : ℝ) {x y z : ℝ} (h : z = a * x + b * y) : z / c = a * (x / c) + b * (y / c) := by
  rw [h]
  ring

theorem zero_eq : (0 : ℝ) = a * 0 + b * 0 := by ring

theorem ite_eq {p : Prop} [Decidable p] {x y z x' y' z' : ℝ} (h : z = a * x + b * y) (h' : z' = a * x' + b * y') :
    (if p then z else z') = a * (if p then x else x') + b * (if p then y else y') := by
  split
  · exact h
  · exact h'

theorem sum_eq {ι : Type*} [Fintype ι] {f g h : ι → ℝ} (e : ∀ i, h i = a * f i + b * g i) :
    ∑ i, h i = a * ∑ i, f i + b * ∑ i, g i := by
  rw [Finset.mul_sum, Finset.mul_sum, ← Finset.sum_add_distrib]
  exact Finset.sum_congr rfl fun i _ => e i

theorem list_eq {ι : Type*} (l : List ι) {f g h : ι → ℝ} (e : ∀ i, h i = a * f i + b * g i) :
    (l.map h).sum = a * (l.map f).sum + b * (l.map g).sum := by
  induction l with
  | nil => simp
  | cons x l ih =>
    simp only [List.map_cons, List.sum_cons]
    exact add_eq (e x) ih

/-! ### Integrals -/

theorem dx_eq {f g h : m.C → ℝ} (e : ∀ x, h x = a * f x + b * g x) : m.dx h = a * m.dx f + b * m.dx g :=
  sum_eq fun x => left_eq _ (e x)

theorem dS_eq {f g h : m.S → ℝ} (e : ∀ x, h x = a * f x + b * g x) : m.dS h = a * m.dS f + b * m.dS g :=
  sum_eq fun x => left_eq _ (e x)

theorem bndLoop_eq {f g h : ℕ → m.B → ℝ} (e : ∀ k x, h k x = a * f k x + b * g k x) :
    m.bndLoop h = a * m.bndLoop f + b * m.bndLoop g :=
  list_eq _ fun k => sum_eq fun x => ite_eq (left_eq _ (e k x)) zero_eq

variable {e : Mesh3}

theorem dSh_eq {f g h : e.m.S → ℝ} (he : ∀ x, h x = a * f x + b * g x) : e.dSh h = a * e.dSh f + b * e.dSh g :=
  dS_eq fun x => ite_eq (he x) zero_eq

theorem dSv_eq {f g h : e.m.S → ℝ} (he : ∀ x, h x = a * f x + b * g x) : e.dSv h = a * e.dSv f + b * e.dSv g :=
  dS_eq fun x => ite_eq zero_eq (he x)

theorem dsurf_eq {f g h : e.m.B → ℝ} (he : ∀ x, h x = a * f x + b * g x) :
    e.dsurf h = a * e.dsurf f + b * e.dsurf g :=
  sum_eq fun x => left_eq _ (ite_eq (he x) zero_eq)

theorem dbottom_eq {f g h : e.m.B → ℝ} (he : ∀ x, h x = a * f x + b * g x) :
    e.dbottom h = a * e.dbottom f + b * e.dbottom g :=
  sum_eq fun x => left_eq _ (ite_eq (he x) zero_eq)

theorem sideLoop_eq {f g h : ℕ → e.m.B → ℝ} (he : ∀ k x, h k x = a * f k x + b * g k x) :
    e.sideLoop h = a * e.sideLoop f + b * e.sideLoop g :=
  bndLoop_eq fun k x => ite_eq (he k x) zero_eq

/-! ### Operators -/

@[simp] theorem avg_sc (f g : Sc m) (s : m.S) : avg (sc a b f g) s = a * avg f s + b * avg g s := by
  simp only [avg, sc_v]
  ring

@[simp] theorem avg_vc (u v : Vc m) (i : Fin d) (s : m.S) : avg (vc a b u v i) s = a * avg (u i) s + b * avg (v i) s :=
  avg_sc _ _ s

@[simp] theorem jump_sc (f g : Sc m) (s : m.S) : jump (sc a b f g) s = a * jump f s + b * jump g s := by
  simp only [jump, sc_v]
  ring

@[simp] theorem jumpN_sc (f g : Sc m) (s : m.S) (i : Fin d) :
    jumpN (sc a b f g) s i = a * jumpN f s i + b * jumpN g s i := by
  simp only [jumpN, sc_v]
  ring

@[simp] theorem jumpV_vc (u v : Vc m) (s : m.S) : jumpV (vc a b u v) s = a * jumpV u s + b * jumpV v s :=
  add_eq (sum_eq fun _ => right_eq _ rfl) (sum_eq fun _ => right_eq _ rfl)

@[simp] theorem div_vc (u v : Vc m) (x : Pt m) : div (vc a b u v) x = a * div u x + b * div v x :=
  sum_eq fun _ => rfl

@[simp] theorem normalAt_vc (u v : Vc m) (x : m.B) :
    normalAt (vc a b u v) x = a * normalAt u x + b * normalAt v x :=
  sum_eq fun _ => right_eq _ rfl

/-! ### Optional values -/

theorem Opt3.cases {α : Type*} {R : α → α → α → Prop} {x y z : Option α} (h : Opt3 R x y z) :
    (x = none ∧ y = none ∧ z = none) ∨ ∃ u v w, x = some u ∧ y = some v ∧ z = some w ∧ R u v w := by
  cases x <;> cases y <;> cases z <;> first | exact .inl ⟨rfl, rfl, rfl⟩ | exact .inr ⟨_, _, _, rfl, rfl, rfl, h⟩ | exact h.elim

end Verif.Linear
