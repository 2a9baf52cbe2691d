import Verif.Ext.Model
import Verif.Dg.Lemmas

/-!
Lemmas about extruded meshes.
-/

namespace Verif.Ext

open Verif.Dg

variable {e : Mesh3}

/-- The loop over the markers visits every point of the sides once. -/
theorem sideLoop_eq (f : ℕ → e.m.B → ℝ) :
    e.sideLoop f = ∑ b, e.m.wB b * if e.face b = .side then f (e.m.marker b) b else 0 := bndLoop_eq _ _

/-- Both kinds of interior facets together. -/
theorem dSh_add_dSv (f : e.m.S → ℝ) : e.dSh f + e.dSv f = e.m.dS f := by
  unfold Mesh3.dSh Mesh3.dSv
  rw [← dS_add]
  exact dS_congr fun s => by cases e.hor s <;> simp

theorem dSh_congr {f h : e.m.S → ℝ} (hh : ∀ s, e.hor s = true → f s = h s) : e.dSh f = e.dSh h :=
  dS_congr fun s => by
    cases hs : e.hor s
    · simp
    · simp [hh s hs]

theorem dSv_congr {f h : e.m.S → ℝ} (hh : ∀ s, e.hor s = false → f s = h s) : e.dSv f = e.dSv h :=
  dS_congr fun s => by
    cases hs : e.hor s
    · simp [hh s hs]
    · simp

theorem dSh_add (f h : e.m.S → ℝ) : e.dSh (fun s => f s + h s) = e.dSh f + e.dSh h := by
  unfold Mesh3.dSh; rw [← dS_add]; exact dS_congr fun s => by cases e.hor s <;> simp

theorem dSv_add (f h : e.m.S → ℝ) : e.dSv (fun s => f s + h s) = e.dSv f + e.dSv h := by
  unfold Mesh3.dSv; rw [← dS_add]; exact dS_congr fun s => by cases e.hor s <;> simp

theorem dSh_smul (a : ℝ) (f : e.m.S → ℝ) : e.dSh (fun s => a * f s) = a * e.dSh f := by
  unfold Mesh3.dSh; rw [← dS_smul]; exact dS_congr fun s => by cases e.hor s <;> simp

theorem dSv_smul (a : ℝ) (f : e.m.S → ℝ) : e.dSv (fun s => a * f s) = a * e.dSv f := by
  unfold Mesh3.dSv; rw [← dS_smul]; exact dS_congr fun s => by cases e.hor s <;> simp

theorem dSh_nonneg {f : e.m.S → ℝ} (h : ∀ s, 0 ≤ f s) : 0 ≤ e.dSh f :=
  dS_nonneg fun s => by cases e.hor s <;> simp [h s]

theorem dSv_nonneg {f : e.m.S → ℝ} (h : ∀ s, 0 ≤ f s) : 0 ≤ e.dSv f :=
  dS_nonneg fun s => by cases e.hor s <;> simp [h s]

theorem dsurf_add (f h : e.m.B → ℝ) : e.dsurf (fun b => f b + h b) = e.dsurf f + e.dsurf h := by
  unfold Mesh3.dsurf; rw [← dB_add]; exact dB_congr fun b => by split <;> simp

theorem dsurf_smul (a : ℝ) (f : e.m.B → ℝ) : e.dsurf (fun b => a * f b) = a * e.dsurf f := by
  unfold Mesh3.dsurf; rw [← dB_smul]; exact dB_congr fun b => by split <;> simp

theorem dsurf_congr {f h : e.m.B → ℝ} (hh : ∀ b, e.face b = .surf → f b = h b) : e.dsurf f = e.dsurf h :=
  dB_congr fun b => by by_cases hb : e.face b = .surf <;> simp [hb, hh b]

theorem dbottom_add (f h : e.m.B → ℝ) : e.dbottom (fun b => f b + h b) = e.dbottom f + e.dbottom h := by
  unfold Mesh3.dbottom; rw [← dB_add]; exact dB_congr fun b => by split <;> simp

theorem dbottom_smul (a : ℝ) (f : e.m.B → ℝ) : e.dbottom (fun b => a * f b) = a * e.dbottom f := by
  unfold Mesh3.dbottom; rw [← dB_smul]; exact dB_congr fun b => by split <;> simp

theorem dbottom_congr {f h : e.m.B → ℝ} (hh : ∀ b, e.face b = .bottom → f b = h b) :
    e.dbottom f = e.dbottom h :=
  dB_congr fun b => by by_cases hb : e.face b = .bottom <;> simp [hb, hh b]

theorem dsurf_nonneg {f : e.m.B → ℝ} (h : ∀ b, e.face b = .surf → 0 ≤ f b) : 0 ≤ e.dsurf f :=
  dB_nonneg fun b => by by_cases hb : e.face b = .surf <;> simp [hb, h b]

theorem dbottom_nonneg {f : e.m.B → ℝ} (h : ∀ b, e.face b = .bottom → 0 ≤ f b) : 0 ≤ e.dbottom f :=
  dB_nonneg fun b => by by_cases hb : e.face b = .bottom <;> simp [hb, h b]

/-- The boundary is the surface, the bottom and the sides. -/
theorem boundary_split (f : e.m.B → ℝ) :
    ∑ b, e.m.wB b * f b = e.dsurf f + e.dbottom f + e.sideLoop fun _ b => f b := by
  rw [sideLoop_eq]
  unfold Mesh3.dsurf Mesh3.dbottom
  rw [← dB_add, ← dB_add]
  exact dB_congr fun b => by cases e.face b <;> simp

end Verif.Ext
