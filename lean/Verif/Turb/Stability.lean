import Mathlib.Analysis.SpecialFunctions.Pow.Real

/-!
Model of `thetis/stability_functions.py`.  All functions act on one node; floats are real numbers.
-/

namespace Verif.Turb

/-- Coefficients of a stability function, stability_functions.py:117-133. -/
structure Coef where
  d0 : ℝ
  d1 : ℝ
  d2 : ℝ
  d3 : ℝ
  d4 : ℝ
  d5 : ℝ
  n0 : ℝ
  n1 : ℝ
  n2 : ℝ
  nb0 : ℝ
  nb1 : ℝ
  nb2 : ℝ

/-- Denominator of both functions, stability_functions.py:326. -/
def Coef.den (c : Coef) (ab as : ℝ) : ℝ :=
  c.d0 + c.d1 * ab + c.d2 * as + c.d3 * ab * as + c.d4 * ab ^ 2 + c.d5 * as ^ 2

/-- `eval_funcs`, stability_functions.py:316-329. -/
noncomputable def Coef.evalFuncs (c : Coef) (ab as : ℝ) : ℝ × ℝ :=
  ((c.n0 + c.n1 * ab + c.n2 * as) / c.den ab as, (c.nb0 + c.nb1 * ab + c.nb2 * as) / c.den ab as)

/-- Quadratic coefficient in `compute_alpha_shear_steady`, stability_functions.py:172. -/
def Coef.qa (c : Coef) (ri : ℝ) : ℝ :=
  -c.d5 + c.n2 - (c.d3 - c.n1 + c.nb2) * ri - (c.d4 + c.nb1) * ri ^ 2

/-- Linear coefficient, stability_functions.py:173. -/
def Coef.qb (c : Coef) (ri : ℝ) : ℝ := -c.d2 + c.n0 - (c.d1 + c.nb0) * ri

/-- Constant coefficient, stability_functions.py:174. -/
def Coef.qc (c : Coef) : ℝ := -c.d0

/-- `compute_alpha_shear_steady` with `analytical=True`, stability_functions.py:168-177. -/
noncomputable def Coef.alphaShearSteady (c : Coef) (ri : ℝ) : ℝ :=
  (-c.qb ri + Real.sqrt (c.qb ri ^ 2 - 4 * c.qa ri * c.qc)) / 2 / c.qa ri

/-- `compute_c3_minus`, stability_functions.py:179-206; `as` is the numerically solved steady shear
number (the minimiser of scipy is a parameter). -/
noncomputable def Coef.c3Minus (c : Coef) (c1 c2 ri as : ℝ) : ℝ :=
  let s := c.evalFuncs (ri * as) as
  c2 - (c2 - c1) * s.1 / s.2 / ri

/-- Steady shear number in `compute_cmu0`, stability_functions.py:218-223. -/
noncomputable def Coef.cmu0Shear (c : Coef) : ℝ :=
  let a := c.d5 - c.n2
  let b := c.d2 - c.n0
  (-b - Real.sqrt (b ^ 2 - 4 * a * c.d0)) / 2 / a

/-- `compute_cmu0` with `analytical=True`, stability_functions.py:208-237. -/
noncomputable def Coef.cmu0 (c : Coef) : ℝ := (c.evalFuncs 0 c.cmu0Shear).1 ^ (0.25 : ℝ)

/-- `compute_kappa`, stability_functions.py:239-248. -/
noncomputable def computeKappa (sigma cmu0 n c1 c2 : ℝ) : ℝ :=
  cmu0 / |n| * Real.sqrt (sigma * (c2 - c1))

/-- `compute_sigma_psi`, stability_functions.py:250-259. -/
noncomputable def computeSigmaPsi (kappa cmu0 n c1 c2 : ℝ) : ℝ :=
  (n * kappa) ^ 2 / (cmu0 ^ 2 * (c2 - c1))

/-- `compute_length_clim`, stability_functions.py:261-274. -/
noncomputable def Coef.lengthClim (c : Coef) (cmu0 ri : ℝ) : ℝ :=
  cmu0 ^ 3 * Real.sqrt (ri * c.alphaShearSteady ri / 2)

/-- `get_alpha_buoy_min`, stability_functions.py:276-286. -/
noncomputable def Coef.alphaBuoyMin (c : Coef) : ℝ :=
  0.5 * (Real.sqrt ((c.d1 + c.nb0) ^ 2 - 4 * c.d0 * (c.d4 + c.nb1)) - (c.d1 + c.nb0))
    / (c.d4 + c.nb1)

/-- `get_alpha_shear_max`, stability_functions.py:288-304. -/
noncomputable def Coef.alphaShearMax (c : Coef) (ab : ℝ) : ℝ :=
  (c.d0 * c.n0 + (c.d0 * c.n1 + c.d1 * c.n0) * ab + (c.d1 * c.n1 + c.d4 * c.n0) * ab ^ 2
      + c.d4 * c.n1 * ab ^ 3)
    / (c.d2 * c.n0 + (c.d2 * c.n1 + c.d3 * c.n0) * ab + c.d3 * c.n1 * ab ^ 2)

/-- `get_alpha_buoy_smooth_min`, stability_functions.py:306-314; `m` is the minimum, `ac` the
critical value. -/
noncomputable def smoothMin (m ac ab : ℝ) : ℝ := ab - (ab - ac) ^ 2 / (ab + m - 2 * ac)

/-- Options of the limiter, stability_functions.py:90-106. -/
structure LimOpts where
  limShear : Bool
  limBuoy : Bool
  smooth : Bool
  crit : ℝ

/-- Limited normalised frequencies in `evaluate`, stability_functions.py:342-358, with
`compute_normalized_frequencies` (56-78). -/
noncomputable def Coef.limited (c : Coef) (o : LimOpts) (shear2 buoy2 k eps : ℝ) : ℝ × ℝ :=
  let ab := k ^ 2 / eps ^ 2 * buoy2
  let as := k ^ 2 / eps ^ 2 * shear2
  let ab := if o.limBuoy then
      (if o.smooth then (if ab < o.crit then smoothMin c.alphaBuoyMin o.crit ab else ab)
       else max ab c.alphaBuoyMin)
    else ab
  let as := if o.limShear then min as (c.alphaShearMax ab) else as
  (ab, as)

/-- `evaluate`, stability_functions.py:331-360. -/
noncomputable def Coef.evaluate (c : Coef) (o : LimOpts) (shear2 buoy2 k eps : ℝ) : ℝ × ℝ :=
  let l := c.limited o shear2 buoy2 k eps
  c.evalFuncs l.1 l.2

/-- Parameters `l1` to `l8` of the Canuto and Cheng functions. -/
structure Lam where
  l1 : ℝ
  l2 : ℝ
  l3 : ℝ
  l4 : ℝ
  l5 : ℝ
  l6 : ℝ
  l7 : ℝ
  l8 : ℝ

/-- Intermediate coefficients `s0 … s6`, `dd0 … dd5`. -/
structure Inter where
  s0 : ℝ
  s1 : ℝ
  s2 : ℝ
  s4 : ℝ
  s5 : ℝ
  s6 : ℝ
  dd0 : ℝ
  dd1 : ℝ
  dd2 : ℝ
  dd3 : ℝ
  dd4 : ℝ
  dd5 : ℝ

/-- Canuto coefficients, stability_functions.py:538-550. -/
noncomputable def canutoInter (l : Lam) : Inter where
  s0 := 1.5 * l.l1 * l.l5 ^ 2
  s1 := -l.l4 * (l.l6 + l.l7) + 2 * l.l4 * l.l5 * (l.l1 - l.l2 / 3.0 - l.l3)
    + 1.5 * l.l1 * l.l5 * l.l8
  s2 := -3.0 / 8 * l.l1 * (l.l6 ^ 2 - l.l7 ^ 2)
  s4 := 2 * l.l5
  s5 := 2 * l.l4
  s6 := 2.0 / 3 * l.l5 * (3 * l.l3 ^ 2 - l.l2 ^ 2) - 0.5 * l.l5 * l.l1 * (3 * l.l3 - l.l2)
    + 0.75 * l.l1 * (l.l6 - l.l7)
  dd0 := 3 * l.l5 ^ 2
  dd1 := l.l5 * (7 * l.l4 + 3 * l.l8)
  dd2 := l.l5 ^ 2 * (3 * l.l3 ^ 2 - l.l2 ^ 2) - 0.75 * (l.l6 ^ 2 - l.l7 ^ 2)
  dd3 := l.l4 * (4 * l.l4 + 3 * l.l8)
  dd5 := 0.25 * (l.l2 ^ 2 - 3 * l.l3 ^ 2) * (l.l6 ^ 2 - l.l7 ^ 2)
  dd4 := l.l4 * (l.l2 * l.l6 - 3 * l.l3 * l.l7 - l.l5 * (l.l2 ^ 2 - l.l3 ^ 2))
    + l.l5 * l.l8 * (3 * l.l3 ^ 2 - l.l2 ^ 2)

/-- Cheng coefficients, stability_functions.py:647-659. -/
noncomputable def chengInter (l : Lam) : Inter where
  s0 := 0.5 * l.l1
  s1 := -1.0 / 3 * l.l4 * (l.l5 ^ 2)⁻¹ * (l.l6 + l.l7)
    + 2.0 / 3 * l.l4 / l.l5 * (l.l1 - 1.0 / 3 * l.l2 - l.l3) + 0.5 * l.l1 / l.l5 * l.l8
  s2 := 1.0 / 8 * l.l1 * (l.l5 ^ 2)⁻¹ * (l.l6 ^ 2 - l.l7 ^ 2)
  s4 := 2.0 / 3 / l.l5
  s5 := 2.0 / 3 * l.l4 * (l.l5 ^ 2)⁻¹
  s6 := 2.0 / 3 / l.l5 * (l.l3 ^ 2 - 1.0 / 3 * l.l2 ^ 2)
    - 0.5 * l.l1 / l.l5 * (l.l3 - 1.0 / 3 * l.l2)
  dd0 := 1
  dd1 := (7.0 / 3 * l.l4 + l.l8) / l.l5
  dd2 := (l.l3 ^ 2 - 1.0 / 3 * l.l2 ^ 2) - 0.25 * (l.l5 ^ 2)⁻¹ * (l.l6 ^ 2 - l.l7 ^ 2)
  dd3 := 1.0 / 3 * l.l4 * (l.l5 ^ 2)⁻¹ * (4 * l.l4 + 3 * l.l8)
  dd4 := 1.0 / 3 * l.l4 * (l.l5 ^ 2)⁻¹
      * (l.l2 * l.l6 - 3 * l.l3 * l.l7 - l.l5 * (l.l2 ^ 2 - l.l3 ^ 2))
    + l.l8 * (l.l3 ^ 2 - 1.0 / 3 * l.l2 ^ 2) / l.l5
  dd5 := -1.0 / 4 * (l.l5 ^ 2)⁻¹ * (l.l3 ^ 2 - 1.0 / 3 * l.l2 ^ 2) * (l.l6 ^ 2 - l.l7 ^ 2)

/-- Unit conversion, stability_functions.py:552-567 and 661-676 (`alpha_scalar = 4`,
`cu_scalar = 2`). -/
noncomputable def Inter.coef (i : Inter) : Coef where
  d0 := i.dd0
  d1 := 4 * i.dd1
  d2 := 4 * i.dd2
  d3 := 4 ^ 2 * i.dd4
  d4 := 4 ^ 2 * i.dd3
  d5 := 4 ^ 2 * i.dd5
  n0 := 2 * i.s0
  n1 := 2 * 4 * i.s1
  n2 := 2 * 4 * i.s2
  nb0 := 2 * i.s4
  nb1 := 2 * 4 * i.s5
  nb2 := 2 * 4 * i.s6

/-- `eval_funcs_new`, stability_functions.py:569-585 and 678-694. -/
noncomputable def Inter.evalFuncsNew (i : Inter) (ab as : ℝ) : ℝ × ℝ :=
  let tN2 := 4 * ab
  let tS2 := 4 * as
  let dsm := i.s0 + i.s1 * tN2 + i.s2 * tS2
  let dsh := i.s4 + i.s5 * tN2 + i.s6 * tS2
  let den := i.dd0 + i.dd1 * tN2 + i.dd2 * tS2 + i.dd3 * tN2 ^ 2 + i.dd4 * tN2 * tS2
    + i.dd5 * tS2 ^ 2
  (2 * dsm / den, 2 * dsh / den)

/-- Parameters of Umlauf and Burchard (2005). -/
structure Gotm where
  cc1 : ℝ
  cc2 : ℝ
  cc3 : ℝ
  cc4 : ℝ
  cc5 : ℝ
  cc6 : ℝ
  cb1 : ℝ
  cb2 : ℝ
  cb3 : ℝ
  cb4 : ℝ
  cb5 : ℝ
  cbb : ℝ

namespace Gotm
/-! stability_functions.py:443-457 -/
noncomputable def a1 (g : Gotm) : ℝ := 2.0 / 3.0 - 0.5 * g.cc2
noncomputable def a2 (g : Gotm) : ℝ := 1.0 - 0.5 * g.cc3
noncomputable def a3 (g : Gotm) : ℝ := 1.0 - 0.5 * g.cc4
noncomputable def a5 (g : Gotm) : ℝ := 0.5 - 0.5 * g.cc6
noncomputable def ab1 (g : Gotm) : ℝ := 1.0 - g.cb2
noncomputable def ab2 (g : Gotm) : ℝ := 1.0 - g.cb3
noncomputable def ab3 (g : Gotm) : ℝ := 2.0 * (1.0 - g.cb4)
noncomputable def ab5 (g : Gotm) : ℝ := 2.0 * g.cbb * (1.0 - g.cb5)
noncomputable def nn (g : Gotm) : ℝ := 0.5 * g.cc1
noncomputable def nb (g : Gotm) : ℝ := g.cb1

/-- stability_functions.py:460-476. -/
noncomputable def coef (g : Gotm) : Coef where
  d0 := 36.0 * g.nn ^ 3 * g.nb ^ 2
  d1 := 84.0 * g.a5 * g.ab3 * g.nn ^ 2 * g.nb + 36.0 * g.ab5 * g.nn ^ 3 * g.nb
  d2 := 9.0 * (g.ab2 ^ 2 - g.ab1 ^ 2) * g.nn ^ 3
    - 12.0 * (g.a2 ^ 2 - 3.0 * g.a3 ^ 2) * g.nn * g.nb ^ 2
  d3 := 12.0 * g.a5 * g.ab3 * (g.a2 * g.ab1 - 3.0 * g.a3 * g.ab2) * g.nn
    + 12.0 * g.a5 * g.ab3 * (g.a3 ^ 2 - g.a2 ^ 2) * g.nb
    + 12.0 * g.ab5 * (3.0 * g.a3 ^ 2 - g.a2 ^ 2) * g.nn * g.nb
  d4 := 48.0 * g.a5 ^ 2 * g.ab3 ^ 2 * g.nn + 36.0 * g.a5 * g.ab3 * g.ab5 * g.nn ^ 2
  d5 := 3.0 * (g.a2 ^ 2 - 3.0 * g.a3 ^ 2) * (g.ab1 ^ 2 - g.ab2 ^ 2) * g.nn
  n0 := 36.0 * g.a1 * g.nn ^ 2 * g.nb ^ 2
  n1 := -12.0 * g.a5 * g.ab3 * (g.ab1 + g.ab2) * g.nn ^ 2
    + 8.0 * g.a5 * g.ab3 * (6.0 * g.a1 - g.a2 - 3.0 * g.a3) * g.nn * g.nb
    + 36.0 * g.a1 * g.ab5 * g.nn ^ 2 * g.nb
  n2 := 9.0 * g.a1 * (g.ab2 ^ 2 - g.ab1 ^ 2) * g.nn ^ 2
  nb0 := 12.0 * g.ab3 * g.nn ^ 3 * g.nb
  nb1 := 12.0 * g.a5 * g.ab3 ^ 2 * g.nn ^ 2
  nb2 := 9.0 * g.a1 * g.ab3 * (g.ab1 - g.ab2) * g.nn ^ 2
    + (6.0 * g.a1 * (g.a2 - 3.0 * g.a3) - 4.0 * (g.a2 ^ 2 - 3.0 * g.a3 ^ 2)) * g.ab3 * g.nn * g.nb
end Gotm

/-! Parameter sets, stability_functions.py:697-739 and 742-823. -/
noncomputable def lamCanutoA : Lam := ⟨0.107, 0.0032, 0.0864, 0.12, 11.9, 0.4, 0, 0.48⟩
noncomputable def lamCanutoB : Lam := ⟨0.127, 0.00336, 0.0906, 0.101, 11.2, 0.4, 0, 0.318⟩
noncomputable def lamCheng : Lam := ⟨0.107, 0.0032, 0.0864, 0.1, 11.04, 0.786, 0.643, 0.547⟩
noncomputable def canutoA : Coef := (canutoInter lamCanutoA).coef
noncomputable def canutoB : Coef := (canutoInter lamCanutoB).coef
noncomputable def cheng : Coef := (chengInter lamCheng).coef
noncomputable def gotmKanthaClayson : Gotm :=
  ⟨6, 0.32, 0, 0, 0, 0, 3.728, 0.7, 0.7, 0, 0.2, 0.6102⟩

/-- Names accepted by `GLSModelOptions.stability_function_name` (options.py:300-303). -/
inductive StabName
  | canutoA
  | canutoB
  | kanthaClayson
  | cheng
deriving DecidableEq, Repr

/-- Selection in `GenericLengthScaleModel.__init__`, turbulence.py:423-432.  The module
`stability_functions` defines no `StabilityFunctionKanthaClayson` (only
`GOTMStabilityFunctionKanthaClayson`), so that branch raises `NameError` (`none`). -/
noncomputable def selectStability : StabName → Option Coef
  | .kanthaClayson => none
  | .canutoA => some Verif.Turb.canutoA
  | .canutoB => some Verif.Turb.canutoB
  | .cheng => some Verif.Turb.cheng

end Verif.Turb
