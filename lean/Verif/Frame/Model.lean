import Verif.Dg.Model

/-!
Two descriptions of one mesh: other numbers of cells and facets, the two sides of a facet named the other way round
(firedrake's plus and minus depend on the numbering, and so on the partition between processes), and turned or mirrored
axes.  Not part of the code: the vocabulary in which C140 is stated.
-/

namespace Verif.Frame

open Verif.Dg

variable {d : ℕ}

/-- The components of a vector in the new axes. -/
def rotV (R : Fin d → Fin d → ℝ) (u : Fin d → ℝ) (i : Fin d) : ℝ := ∑ j, R i j * u j

/-- The components of a tensor in the new axes. -/
def rotT (R : Fin d → Fin d → ℝ) (A : Fin d → Fin d → ℝ) (i j : Fin d) : ℝ := ∑ a, R i a * rotV R (A a) j

/-- Value and gradient of an expression in the new axes. -/
def rot (R : Fin d → Fin d → ℝ) (a : Jet d) : Jet d := ⟨a.v, rotV R a.g⟩

/-- `m'` is another description of `m`: `R` turns or mirrors the axes, `c`, `s`, `b` are the old numbers of cells and
facets (through their quadrature points), `flip` says which interior facets have their sides exchanged. -/
structure View (m m' : Mesh d) where
  R : Fin d → Fin d → ℝ
  orth : ∀ i j, ∑ k, R k i * R k j = if i = j then 1 else 0
  c : m'.C ≃ m.C
  s : m'.S ≃ m.S
  b : m'.B ≃ m.B
  flip : m'.S → Bool
  wC : ∀ x, m'.wC x = m.wC (c x)
  wS : ∀ x, m'.wS x = m.wS (s x)
  wB : ∀ x, m'.wB x = m.wB (b x)
  np : ∀ x, m'.np x = rotV R (if flip x then m.nm (s x) else m.np (s x))
  nm : ∀ x, m'.nm x = rotV R (if flip x then m.np (s x) else m.nm (s x))
  nb : ∀ x, m'.nb x = rotV R (m.nb (b x))
  marker : ∀ x, m'.marker x = m.marker (b x)
  markers : m'.markers.Perm m.markers
  volP : ∀ x, m'.volP x = if flip x then m.volM (s x) else m.volP (s x)
  volM : ∀ x, m'.volM x = if flip x then m.volP (s x) else m.volM (s x)
  volB : ∀ x, m'.volB x = m.volB (b x)
  areaS : ∀ x, m'.areaS x = m.areaS (s x)
  areaB : ∀ x, m'.areaB x = m.areaB (b x)

namespace View

variable {m m' : Mesh d} (V : View m m')

/-- The same point in the old description. -/
def pt : Pt m' → Pt m
  | .cell x => .cell (V.c x)
  | .plus x => if V.flip x then .minus (V.s x) else .plus (V.s x)
  | .minus x => if V.flip x then .plus (V.s x) else .minus (V.s x)
  | .bnd x => .bnd (V.b x)

/-- A scalar expression in the new description. -/
def sc (f : Sc m) : Sc m' := fun x => rot V.R (f (V.pt x))

/-- A vector valued expression in the new description. -/
def vc (u : Vc m) : Vc m' := fun i x =>
  ⟨rotV V.R (fun j => (u j (V.pt x)).v) i, rotT V.R (fun a b => (u a (V.pt x)).g b) i⟩

/-- The depth in the new description. -/
def depth (D : Depth m) : Depth m' := ⟨V.sc D.bathymetry, D.nonlinear, D.wetdry, V.sc D.alpha⟩

end View

end Verif.Frame
