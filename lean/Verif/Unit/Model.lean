import Verif.Dg.Model

/-!
A change of units: lengths, times and densities are measured in other units, so that the same mesh and the same fields
have other numbers.  Not part of the code: the vocabulary in which C141 is stated.
-/

namespace Verif.Unit

open Verif.Dg

variable {d : ℕ}

/-- How many of the new units are in one of the old: `L` of length, `T` of time, `R` of density. -/
structure Conv where
  L : ℝ
  T : ℝ
  R : ℝ
  hL : 0 < L
  hT : 0 < T
  hR : 0 < R

/-- Value and gradient of an expression of which one old unit is `k` new units. -/
noncomputable def jet (k L : ℝ) (a : Jet d) : Jet d := ⟨k * a.v, fun i => k / L * a.g i⟩

namespace Conv

variable (U : Conv) {m : Mesh d}

/-- The mesh: volumes and areas have other numbers, normals have no unit. -/
abbrev mesh (m : Mesh d) : Mesh d where
  C := m.C
  S := m.S
  B := m.B
  wC := fun x => U.L ^ d * m.wC x
  wS := fun x => U.L ^ (d - 1) * m.wS x
  wB := fun x => U.L ^ (d - 1) * m.wB x
  np := m.np
  nm := m.nm
  nb := m.nb
  marker := m.marker
  markers := m.markers
  volP := fun x => U.L ^ d * m.volP x
  volM := fun x => U.L ^ d * m.volM x
  volB := fun x => U.L ^ d * m.volB x
  areaS := fun x => U.L ^ (d - 1) * m.areaS x
  areaB := fun x => U.L ^ (d - 1) * m.areaB x
  wC_nonneg := fun x => mul_nonneg (pow_nonneg U.hL.le _) (m.wC_nonneg x)
  wS_nonneg := fun x => mul_nonneg (pow_nonneg U.hL.le _) (m.wS_nonneg x)
  wB_nonneg := fun x => mul_nonneg (pow_nonneg U.hL.le _) (m.wB_nonneg x)
  markers_nodup := m.markers_nodup
  marker_mem := m.marker_mem

/-- The same point. -/
def pt : Pt (U.mesh m) → Pt m
  | .cell x => .cell x
  | .plus x => .plus x
  | .minus x => .minus x
  | .bnd x => .bnd x

/-- A scalar of unit `k`. -/
noncomputable def sc (k : ℝ) (f : Sc m) : Sc (U.mesh m) := fun x => jet k U.L (f (U.pt x))

/-- A vector of unit `k`. -/
noncomputable def vc (k : ℝ) (u : Vc m) : Vc (U.mesh m) := fun i => U.sc k (u i)

/-- The depth. -/
noncomputable def depth (D : Depth m) : Depth (U.mesh m) := ⟨U.sc U.L D.bathymetry, D.nonlinear, D.wetdry, U.sc U.L D.alpha⟩

end Conv

end Verif.Unit
