import Mathlib.Analysis.SpecialFunctions.Pow.Real

/-!
Model of `extrude_mesh_sigma`, thetis/utility.py:350-418.  The bathymetry and the stretch factor are
continuous P1 functions, so that the kernel writes one value per mesh node whatever cell it is called
for; the model is the kernel at one node.  Floats are real numbers.
-/

namespace Verif.Extrude

/-- C `round`: half away from zero. -/
noncomputable def cround (x : ℝ) : ℤ := if 0 ≤ x then ⌊x + 1 / 2⌋ else -⌊-x + 1 / 2⌋

/-- `min_depth_arr`, utility.py:379-382; `none` is the IndexError for too many entries (`None` for the
argument is the empty list). -/
noncomputable def minDepthArr (n : ℕ) (minDepth : List ℝ) : Option (ℕ → ℝ) :=
  if minDepth.length ≤ n + 1 then some fun i => minDepth.getD i 1e22 else none

/-- `layer`, utility.py:396. -/
noncomputable def layer (n : ℕ) (sigma : ℝ) : ℕ :=
  (min (max (cround (sigma * (n + 1) - 1)) 0) (n : ℤ)).toNat

/-- The kernel at one node, utility.py:390-399; `p` is the old position (with the vertical coordinate
between 0 and 1), `m` the array of depths. -/
noncomputable def kernel (n : ℕ) (bath stretch : ℝ) (m : ℕ → ℝ) (p : ℝ × ℝ × ℝ) : ℝ × ℝ × ℝ :=
  let sigma := 1 - p.2.2
  let newZ := -bath * sigma ^ stretch
  let maxZ := -m (layer n sigma)
  (p.1, p.2.1, max newZ maxZ)

/-- The old position of level `k`, counted from the bottom, of a column: `ExtrudedMesh` with
`layer_height = 1/n_layers`, utility.py:362. -/
noncomputable def oldNode (n : ℕ) (x y : ℝ) (k : ℕ) : ℝ × ℝ × ℝ := (x, y, k * (1 / n))

/-- The nodes of one column from the bottom to the top; `none` is an exception. -/
noncomputable def column (n : ℕ) (x y bath stretch : ℝ) (minDepth : List ℝ) :
    Option (List (ℝ × ℝ × ℝ)) :=
  (minDepthArr n minDepth).map fun m =>
    (List.range (n + 1)).map fun k => kernel n bath stretch m (oldNode n x y k)

end Verif.Extrude
