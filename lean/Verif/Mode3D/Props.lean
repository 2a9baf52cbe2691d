import Verif.Mode3D.Model
import Mathlib.Tactic.Ring
import Mathlib.Tactic.FieldSimp
import Mathlib.Tactic.Linarith
import Mathlib.Tactic.NormNum
import Mathlib.Data.List.Pairwise
import Mathlib.Data.List.Sort

/-!
Property C31: mode splitting and moving mesh.
-/

namespace Verif.Mode3D

theorem integral_cons (e : Elem) (col : List Elem) :
    integral (e :: col) = e.h * (e.a + e.b) / 2 + integral col := by
  simp [integral]

theorem thickness_cons (e : Elem) (col : List Elem) :
    thickness (e :: col) = e.h + thickness col := by
  simp [thickness]

theorem integral_shift (v : ℚ) (col : List Elem) :
    integral (shift v col) = integral col + v * thickness col := by
  induction col with
  | nil => simp [integral, shift, thickness]
  | cons e col ih =>
    have : shift v (e :: col) = { e with a := e.a + v, b := e.b + v } :: shift v col := rfl
    rw [this, integral_cons, integral_cons, thickness_cons, ih]
    ring

theorem average_eq (elev bath : ℚ) (col : List Elem) :
    average elev bath col = integral col / (elev + bath) := by
  induction col with
  | nil => simp [average, integral]
  | cons e col ih =>
    have : average elev bath (e :: col)
        = e.h * (e.a / (elev + bath) + e.b / (elev + bath)) / 2 + average elev bath col := by
      simp [average, integral]
    rw [this, ih, integral_cons]
    ring

theorem shift_shift (v w : ℚ) (col : List Elem) : shift v (shift w col) = shift (v + w) col := by
  simp only [shift, List.map_map]
  refine List.map_congr_left fun e _ => ?_
  simp only [Function.comp, Elem.mk.injEq, true_and]
  constructor <;> ring

theorem shift_zero (col : List Elem) : shift 0 col = col := by
  simp [shift]

/-- Mean of a column in the sense of the user: integral over thickness. -/
def mean (col : List Elem) : ℚ := integral col / thickness col

theorem mean_shift (v : ℚ) (col : List Elem) (h : thickness col ≠ 0) :
    mean (shift v col) = mean col + v := by
  have ht : thickness (shift v col) = thickness col := by
    simp [thickness, shift, List.map_map, Function.comp_def]
  rw [mean, mean, ht, integral_shift]
  field_simp

/-- C31: removing the depth average.  Deviation plus average is the original field and the
deviation has zero mean, when the column fills the water depth (`C31_column_depth`). -/
theorem C31_split (elev bath : ℚ) (s : Vel) (hd : thickness s.dev = elev + bath)
    (hpos : 0 < elev + bath) :
    shift (removeAverage elev bath s).dav (removeAverage elev bath s).dev = s.dev ∧
    mean (removeAverage elev bath s).dev = 0 ∧ (removeAverage elev bath s).dav = mean s.dev := by
  have hne : thickness s.dev ≠ 0 := by rw [hd]; exact hpos.ne'
  have hm : average elev bath s.dev = mean s.dev := by rw [average_eq, mean, hd]
  refine ⟨?_, ?_, hm⟩
  · simp only [removeAverage]; rw [shift_shift, add_neg_cancel, shift_zero]
  · simp only [removeAverage]; rw [mean_shift _ _ hne, hm, add_neg_cancel]

/-- C31: after the coupling the mean of the total velocity is the 2D velocity, and what was removed
from the column is given to the 2D mode: `dt` times the coupling term plus the new deviation is the
old one.  A second coupling changes nothing but resets the coupling term to zero. -/
theorem C31_coupling (elev bath dt : ℚ) (hdt : 0 < dt) (s : Vel)
    (hd : thickness s.dev = elev + bath) (hpos : 0 < elev + bath) :
    mean (update2dCoupling elev bath dt s).total = s.uv2d ∧
    shift (dt * (update2dCoupling elev bath dt s).split) (update2dCoupling elev bath dt s).dev = s.dev ∧
    update2dCoupling elev bath dt (update2dCoupling elev bath dt s)
      = { update2dCoupling elev bath dt s with split := 0 } := by
  obtain ⟨h1, h2, h3⟩ := C31_split elev bath s hd hpos
  have hth : thickness (removeAverage elev bath s).dev = thickness s.dev := by
    simp [removeAverage, thickness, shift, List.map_map, Function.comp_def]
  have hne : thickness (removeAverage elev bath s).dev ≠ 0 := by rw [hth, hd]; exact hpos.ne'
  refine ⟨?_, ?_, ?_⟩
  · have : (update2dCoupling elev bath dt s).total = shift s.uv2d (removeAverage elev bath s).dev := rfl
    rw [this, mean_shift _ _ hne, h2, zero_add]
  · have : dt * (update2dCoupling elev bath dt s).split = (removeAverage elev bath s).dav := by
      simp only [update2dCoupling]; field_simp
    rw [this]; exact h1
  · have h0 : average elev bath (removeAverage elev bath s).dev = 0 := by
      have : average elev bath (removeAverage elev bath s).dev
          = mean (removeAverage elev bath s).dev := by rw [average_eq, mean, hth, hd]
      rw [this, h2]
    have hdev : (update2dCoupling elev bath dt s).dev = (removeAverage elev bath s).dev := rfl
    have h0' : average elev bath (update2dCoupling elev bath dt s).dev = 0 := by rw [hdev, h0]
    simp only [update2dCoupling, removeAverage] at h0' ⊢
    simp only [h0', neg_zero, shift_zero, zero_div]

/-- C31: exporting leaves the stored deviation as it was, and the exporter sees the total velocity;
an operation on the total velocity acts on the total velocity. -/
theorem C31_export (s : Vel) (f : List Elem → List Elem) :
    withTotal id s = s ∧ (withTotal f s).total = f s.total := by
  constructor
  · simp only [withTotal, id]
    rw [shift_shift, neg_add_cancel, shift_zero]
  · simp only [withTotal, Vel.total]
    rw [shift_shift, add_neg_cancel, shift_zero]

/-- Three elements of different thickness, elevation 1, bathymetry 5. -/
example : thickness [⟨1, 2, 3⟩, ⟨2, 0, 1⟩, ⟨3, 1, 1⟩] = (1 : ℚ) + 5 := by norm_num [thickness]
example : (removeAverage 1 5 ⟨[⟨1, 2, 3⟩, ⟨2, 0, 1⟩, ⟨3, 1, 1⟩], 0, 7, 0⟩).dav = 13 / 12 := by
  norm_num [removeAverage, average, integral]

/-! ### Moving mesh -/

/-- C31: the bottom stays at minus the bathymetry and the surface is at the elevation. -/
theorem C31_mesh_ends (bath eta : ℚ) (hb : 0 < bath) :
    newZ bath eta (-bath) = -bath ∧ newZ bath eta 0 = eta := by
  constructor
  · simp [newZ]
  · simp only [newZ, zero_add, add_zero]; field_simp

/-- C31: layers stay ordered exactly while the water depth is positive. -/
theorem C31_mesh_ordered (bath eta z z' : ℚ) (hb : 0 < bath) (hz : z < z') :
    newZ bath eta z < newZ bath eta z' ↔ 0 < eta + bath := by
  have : newZ bath eta z' - newZ bath eta z = (eta + bath) * ((z' - z) / bath) := by
    simp only [newZ]; field_simp; ring
  rw [← sub_pos, this]
  exact mul_pos_iff_of_pos_right (div_pos (by linarith) hb)

/-- C31: the whole column stays strictly increasing. -/
theorem C31_mesh_column_ordered (bath eta : ℚ) (hb : 0 < bath) (hd : 0 < eta + bath) (zs : List ℚ)
    (h : zs.Pairwise (· < ·)) : (zs.map (newZ bath eta)).Pairwise (· < ·) := by
  rw [List.pairwise_map]
  exact h.imp fun hz => (C31_mesh_ordered bath eta _ _ hb hz).2 hd

theorem heights_sum (z : ℚ) (zs : List ℚ) :
    (heights (z :: zs)).sum = zs.getLastD z - z := by
  induction zs generalizing z with
  | nil => simp [heights]
  | cons z' zs ih =>
    rw [heights, List.sum_cons, ih, List.getLastD_cons]
    ring

/-- C31: the elements of a moved column (nodes `-bath, …, 0` at rest) fill exactly the water depth,
so that the hypothesis of `C31_split` holds on the mesh the library builds. -/
theorem C31_column_depth (bath eta : ℚ) (hb : 0 < bath) (zs : List ℚ) :
    (heights ((-bath :: (zs ++ [0])).map (newZ bath eta))).sum = eta + bath := by
  rw [List.map_cons, heights_sum, List.map_append, List.map_cons, List.map_nil,
    List.getLastD_concat, (C31_mesh_ends bath eta hb).1, (C31_mesh_ends bath eta hb).2]
  ring

/-- C31: mesh velocity times the step is the displacement of every node (one-stage form). -/
theorem C31_mesh_velocity (bath dt old new zref : ℚ) (hdt : 0 < dt) :
    dt * newW bath (wSurf dt 1 old new) zref = newZ bath new zref - newZ bath old zref := by
  simp only [newW, wSurf, newZ]
  field_simp
  ring

/-- C31: two-stage form.  The first stage moves the mesh with the first mesh velocity; the whole
step is the mean of both. -/
theorem C31_mesh_velocity_rk (bath dt e0 e1 e2 zref : ℚ) (hdt : 0 < dt) :
    newZ bath e1 zref = newZ bath e0 zref + dt * newW bath (wSurfRK dt 0 e0 0 e1) zref ∧
    newZ bath e2 zref = newZ bath e0 zref + dt / 2 * (newW bath (wSurfRK dt 0 e0 0 e1) zref
      + newW bath (wSurfRK dt 1 e0 e1 e2) zref) := by
  constructor
  · simp only [newW, wSurfRK, newZ, if_true]; field_simp; ring
  · simp only [newW, wSurfRK, newZ, if_true, one_ne_zero, if_false]; field_simp; ring

/-- C31: discrete geometric conservation law used in C26, per element: the difference of mesh
velocities at its two ends times the step is the change of its thickness. -/
theorem C31_gcl (bath dt e0 e1 e2 z z' : ℚ) (hdt : 0 < dt) :
    dt * (newW bath (wSurfRK dt 0 e0 0 e1) z' - newW bath (wSurfRK dt 0 e0 0 e1) z)
      = (newZ bath e1 z' - newZ bath e1 z) - (newZ bath e0 z' - newZ bath e0 z) ∧
    dt * (newW bath (wSurfRK dt 1 e0 e1 e2) z' - newW bath (wSurfRK dt 1 e0 e1 e2) z)
      = 2 * (newZ bath e2 z' - newZ bath e2 z) - (newZ bath e1 z' - newZ bath e1 z)
        - (newZ bath e0 z' - newZ bath e0 z) := by
  have h := C31_mesh_velocity_rk bath dt e0 e1 e2 z hdt
  have h' := C31_mesh_velocity_rk bath dt e0 e1 e2 z' hdt
  constructor
  · linarith [h.1, h'.1]
  · linarith [h.1, h'.1, h.2, h'.2]

example : ([-10, -5, -2, 0].map (newZ 10 2)) = [(-10 : ℚ), -4, -2 / 5, 2] := by
  norm_num [newZ]

end Verif.Mode3D
