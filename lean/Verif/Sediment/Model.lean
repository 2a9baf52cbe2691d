import Mathlib.Analysis.SpecialFunctions.Pow.Real
import Mathlib.Analysis.SpecialFunctions.Trigonometric.Arctan
import Mathlib.Analysis.SpecialFunctions.Trigonometric.Inverse
import Verif.Forcing.Model

/-!
Model of `thetis/sediment_model.py`, of the exchange terms of `thetis/sediment_eq_2d.py` and of
`thetis/exner_eq.py`.  UFL expressions and nodal interpolations are modelled by their values at one
point; projections of expressions are read as evaluation at that point as well (the loss of sign
that an L2 projection may cause is not modelled).  UFL `conditional` is `if`.  Divisions by a
quantity that may vanish in the code are noted where they occur.
-/

namespace Verif.Sediment

open Real

/-! ### Constants and options -/

/-- `physical_constants['g_grav']`, physical_constants.py:7. -/
noncomputable def g : ℝ := 9.81
/-- `physical_constants['rho0']`, physical_constants.py:8. -/
noncomputable def rhow : ℝ := 1000
/-- `physical_constants['von_karman']`, physical_constants.py:9. -/
noncomputable def kappa : ℝ := 0.4

/-- The options read by `SedimentModel.__init__`, sediment_model.py:82-134, at one point.  `visc` is
the morphological viscosity, or the horizontal viscosity if that is not given (lines 124-127). -/
structure Opts where
  size : ℝ
  bedRef : ℝ
  rhos : ℝ
  visc : ℝ
  beta : ℝ
  surbeta2 : ℝ
  alphaSecc : ℝ
  suspended : Bool
  bedload : Bool
  angleCorr : Bool
  slopeMag : Bool
  advCorr : Bool
  secondary : Bool

/-- The flow state after projection to P1 (sediment_model.py:158-163): velocity, total depth, bed
(positive downwards) and their gradients at the point. -/
structure Flow where
  u : ℝ
  v : ℝ
  depth : ℝ
  bathy : ℝ
  dbdx : ℝ
  dbdy : ℝ
  dddx : ℝ
  dddy : ℝ

/-- `ksp`, sediment_model.py:121. -/
noncomputable def Opts.ksp (o : Opts) : ℝ := 3 * o.size
/-- `a`, sediment_model.py:122. -/
noncomputable def Opts.a (o : Opts) : ℝ := o.bedRef / 2
/-- `R`, sediment_model.py:137. -/
noncomputable def Opts.R (o : Opts) : ℝ := o.rhos / rhow - 1
/-- `dstar`, sediment_model.py:139. -/
noncomputable def Opts.dstar (o : Opts) : ℝ := o.size * (g * o.R / o.visc ^ 2) ^ (1 / 3 : ℝ)

/-- The check of sediment_model.py:140-141 on the nodal values of `dstar` (of one process): `true`
if the constructor raises. -/
def dstarCheck (vals : List ℝ) : Prop := ∃ m ∈ vals, (∀ x ∈ vals, x ≤ m) ∧ m < 1

/-- `thetacr` as a function of `dstar`, sediment_model.py:142-145. -/
noncomputable def thetacrOf (d : ℝ) : ℝ :=
  if d < 4 then 0.24 * d ^ (-1 : ℝ)
  else if d < 10 then 0.14 * d ^ (-0.64 : ℝ)
  else if d < 20 then 0.04 * d ^ (-0.1 : ℝ)
  else if d < 150 then 0.013 * d ^ (0.29 : ℝ)
  else 0.055

/-- `thetacr`, sediment_model.py:142. -/
noncomputable def Opts.thetacr (o : Opts) : ℝ := thetacrOf o.dstar
/-- `taucr`, sediment_model.py:148. -/
noncomputable def Opts.taucr (o : Opts) : ℝ := (o.rhos - rhow) * g * o.size * o.thetacr

/-- `settling_velocity`, sediment_model.py:151-155. -/
noncomputable def Opts.ws (o : Opts) : ℝ :=
  if o.size ≤ 1e-4 then g * o.size ^ 2 * o.R / (18 * o.visc)
  else if o.size ≤ 1e-3 then
    10 * o.visc / o.size * (sqrt (1 + 0.01 * (o.R * g * o.size ^ 3 / o.visc ^ 2)) - 1)
  else 1.1 * sqrt (g * o.size * o.R)

/-- `qfc`, sediment_model.py:166-169. -/
noncomputable def qfc (o : Opts) (q : Flow) : ℝ :=
  let hc := if q.depth > 0.001 then q.depth else 0.001
  let aux := if 11.036 * hc / o.bedRef > 1.001 then 11.036 * hc / o.bedRef else 1.001
  2 / (log aux / kappa) ^ 2

/-- `cfactor`, sediment_model.py:171-172. -/
noncomputable def cfactor (o : Opts) (q : Flow) : ℝ :=
  if q.depth > o.ksp then 2 * (1 / kappa * log (11.036 * q.depth / o.ksp)) ^ (-2 : ℤ) else 0

/-- `mu`, sediment_model.py:174. -/
noncomputable def mu (o : Opts) (q : Flow) : ℝ := if qfc o q > 0 then cfactor o q / qfc o q else 0

/-- `unorm` (squared speed), sediment_model.py:177. -/
def unorm (q : Flow) : ℝ := q.u ^ 2 + q.v ^ 2

/-- The expression of the bed stress, sediment_model.py:179 and 398. -/
noncomputable def bedStressOf (o : Opts) (q : Flow) : ℝ := rhow * 0.5 * qfc o q * unorm q

/-! ### Suspended sediment, sediment_model.py:181-211 -/

/-- `B`, sediment_model.py:183. -/
noncomputable def bHeight (o : Opts) (q : Flow) : ℝ := if o.a > q.depth then 1 else o.a / q.depth
/-- `ustar`, sediment_model.py:184. -/
noncomputable def ustar (o : Opts) (q : Flow) : ℝ := sqrt (0.5 * qfc o q * unorm q)

/-- `rouse_number`, sediment_model.py:185; `none` stands for the infinite quotient at zero shear
velocity. -/
noncomputable def rouse (o : Opts) (q : Flow) : Option ℝ :=
  if ustar o q = 0 then none else some (o.ws / (kappa * ustar o q) - 1)

/-- The inner expression of `intermediate_step` for a finite Rouse number, sediment_model.py:187-189. -/
noncomputable def stepOf (b r : ℝ) : ℝ :=
  if |r| > 1e-4 then b * (1 - b ^ min r 3) / min r 3 else -b * log b

/-- `intermediate_step`, sediment_model.py:187-189 (the minimum of an infinite number and 3 is 3). -/
noncomputable def intermediateStep (o : Opts) (q : Flow) : ℝ :=
  match rouse o q with
  | none => bHeight o q * (1 - bHeight o q ^ (3 : ℝ)) / 3
  | some r => stepOf (bHeight o q) r

/-- `integrated_rouse`, sediment_model.py:191-192. -/
noncomputable def integratedRouse (o : Opts) (q : Flow) : ℝ :=
  max (if intermediateStep o q > 1e-12 then 1 / intermediateStep o q else 1e12) 1

/-- `transport_stage_param`, sediment_model.py:195-197. -/
noncomputable def transportStage (o : Opts) (q : Flow) : ℝ :=
  let t := rhow * 0.5 * qfc o q * unorm q * mu o q
  if t > 0 then (t - o.taucr) / o.taucr else -1

/-- The expression of `erosion_concentration`, sediment_model.py:199-201. -/
noncomputable def erosionConc (o : Opts) (q : Flow) : ℝ :=
  0.015 * (o.size / o.a) * max (transportStage o q) 0 ^ (1.5 : ℝ) / o.dstar ^ (0.3 : ℝ)

/-! ### Velocity correction factor, sediment_model.py:5-55 -/

/-- `Amax`, sediment_model.py:27-31. -/
noncomputable def amax (depth ksp a : ℝ) : ℝ :=
  let b := if depth > 1.1 * ksp then ksp / depth else 1 / 1.1
  let c := if depth > 1.1 * a then a / depth else 1 / 1.1
  if c > b then c else b

/-- `r1conv`, sediment_model.py:33-34 (an infinite quotient at zero shear velocity is not below 1). -/
noncomputable def r1conv (ws us : ℝ) : ℝ :=
  1 - 1 / kappa * (if us ≠ 0 ∧ ws / us < 1 then ws / us else 1)

/-- `Ione`, sediment_model.py:36-37. -/
noncomputable def ione (A r : ℝ) : ℝ :=
  if r > 1e-8 then (1 - A ^ r) / r else if r < -1e-8 then (1 - A ^ r) / r else log A

/-- `Itwo`, sediment_model.py:39-41. -/
noncomputable def itwo (A r : ℝ) : ℝ :=
  if r > 1e-8 then -(ione A r + log A * A ^ r) / r
  else if r < -1e-8 then -(ione A r + log A * A ^ r) / r
  else -0.5 * log A ^ 2

/-- `alpha`, sediment_model.py:43. -/
noncomputable def alphaCorr (A r : ℝ) : ℝ :=
  -(itwo A r - (log A - log 30) * ione A r) / (ione A r * ((log A - log 30) + 1))

/-- `velocity_correction_factor_expr`, sediment_model.py:47. -/
noncomputable def corrFactor (depth ksp ws us a : ℝ) : ℝ :=
  max (min (alphaCorr (amax depth ksp a) (r1conv ws us)) 1) 0

/-! ### The stored fields and their update -/

/-- The `Function` objects of a `SedimentModel` that depend on the flow.  Expressions built from
them (`qfc`, `mu`, `integrated_rouse`, ...) are evaluated when used, from `cur`. -/
structure Stored where
  cur : Flow
  bedStress : ℝ
  erosion : ℝ
  equilibrium : ℝ
  calfa : Option ℝ
  salfa : Option ℝ
  stress : ℝ
  corr : Option ℝ

/-- Components of the flow direction, sediment_model.py:215-216 and 409-410; `none` is the NaN of 0/0
at zero speed. -/
noncomputable def direction (x : ℝ) (q : Flow) : Option ℝ :=
  if unorm q = 0 then none else some (x / sqrt (unorm q))

/-- `SedimentModel.__init__`, sediment_model.py:157-220.  Functions that are not created get the value
0 or `none` (they are not read then); `corr` is `none` if the correction model is not created. -/
noncomputable def init (o : Opts) (q : Flow) : Stored where
  cur := q
  bedStress := bedStressOf o q
  erosion := if o.suspended then erosionConc o q else 0
  equilibrium := if o.suspended then erosionConc o q / integratedRouse o q else 0
  calfa := if o.bedload then direction q.u q else none
  salfa := if o.bedload then direction q.v q else none
  stress := if o.bedload ∧ o.angleCorr then rhow * 0.5 * qfc o q * unorm q else 0
  corr := if o.suspended ∧ o.advCorr then
      some (corrFactor q.depth o.ksp o.ws (ustar o q) o.a) else none

/-- `SedimentModel.update`, sediment_model.py:387-417, as a sequence of assignments; `none` is the
AttributeError of line 417 when there is no correction model. -/
noncomputable def Stored.update (o : Opts) (q : Flow) (s : Stored) : Option Stored :=
  let s := { s with cur := q }
  let s := { s with bedStress := bedStressOf o s.cur }
  let s := if o.suspended then
      let s := { s with erosion := erosionConc o s.cur }
      { s with equilibrium := s.erosion / integratedRouse o s.cur }
    else s
  let s := if o.bedload then
      let s := { s with calfa := direction s.cur.u s.cur }
      let s := { s with salfa := direction s.cur.v s.cur }
      if o.angleCorr then { s with stress := rhow * 0.5 * qfc o s.cur * unorm s.cur } else s
    else s
  if o.advCorr then
    match s.corr with
    | none => none
    | some _ => some { s with corr := some (corrFactor s.cur.depth o.ksp o.ws (ustar o s.cur) o.a) }
  else some s

/-- `get_deposition_coefficient`, sediment_model.py:210 and 356-364. -/
noncomputable def Stored.deposition (o : Opts) (s : Stored) : ℝ := o.ws * integratedRouse o s.cur
/-- `get_erosion_term`, sediment_model.py:211 and 366-368. -/
noncomputable def Stored.erosionTerm (o : Opts) (s : Stored) : ℝ := o.ws * s.erosion

/-! ### Exchange terms -/

/-- `SedimentErosionTerm.residual`, sediment_eq_2d.py:87-93 (coefficient of the test function). -/
noncomputable def erosionResidual (o : Opts) (s : Stored) (d : Forcing.Depth) (cons : Bool)
    (elev : ℝ) : ℝ :=
  if cons then s.erosionTerm o else s.erosionTerm o / d.total elev

/-- `SedimentDepositionTerm.residual`, sediment_eq_2d.py:99-104. -/
noncomputable def depositionResidual (o : Opts) (s : Stored) (d : Forcing.Depth)
    (elev sediment : ℝ) : ℝ :=
  -(s.deposition o / d.total elev * sediment)

/-- `ExnerSourceTerm.residual`, exner_eq.py:68-84.  The depth is taken from the old fields. -/
noncomputable def exnerSource (o : Opts) (s : Stored) (d : Forcing.Depth) (depthIntegrated : Bool)
    (morfac porosity elevOld sediment : ℝ) : ℝ :=
  let fac := morfac / (1 - porosity)
  let dep := s.deposition o * sediment
  let dep := if depthIntegrated then dep / d.total elevOld else dep
  fac * (s.erosionTerm o - dep)

/-- The external concentration of an `equilibrium` boundary, sediment_eq_2d.py:45-54: `eq` and `value`
tell which keys are given; `none` is the ValueError.  `cIn` is the interior value. -/
noncomputable def bndConcentration (s : Stored) (d : Forcing.Depth) (cons eq : Bool)
    (value : Option ℝ) (cIn elevExt : ℝ) : Option ℝ :=
  if eq then
    if value.isSome then none
    else some (if cons then s.equilibrium * d.total elevExt else s.equilibrium)
  else some (value.getD cIn)

/-! ### Bedload, sediment_model.py:222-310 -/

/-- `slopecoef`, sediment_model.py:235-240; `bx`, `by'` is the gradient of the unknown bathymetry,
`c`, `sn` the flow direction. -/
noncomputable def slopecoef (o : Opts) (c sn bx by' : ℝ) : ℝ :=
  if o.slopeMag then 1 + o.beta * (bx * c + by' * sn) else 1

/-- `tt1`, sediment_model.py:244-245. -/
noncomputable def tt1 (o : Opts) (stress : ℝ) : ℝ :=
  let cparam := (o.rhos - rhow) * g * o.size * o.surbeta2 ^ 2
  if stress > 1e-10 then sqrt (cparam / stress) else sqrt (cparam / 1e-10)

/-- `calfamod`, `salfamod`, sediment_model.py:242-256, or the flow direction if the correction is off. -/
noncomputable def modAngle (o : Opts) (s : Stored) (c sn bx by' : ℝ) : ℝ × ℝ :=
  if o.angleCorr then
    let aa := sn + tt1 o s.stress * s.cur.dbdy
    let bb := c + tt1 o s.stress * s.cur.dbdx
    let comb := sqrt (aa ^ 2 + bb ^ 2)
    let angleNorm := if comb > 1e-10 then comb else 1e-10
    ((c + tt1 o s.stress * bx) / angleNorm, (sn + tt1 o s.stress * by') / angleNorm)
  else (c, sn)

/-- `t_1`, `t_2`, sediment_model.py:258-276. -/
noncomputable def secondary (o : Opts) (s : Stored) (c sn bx by' : ℝ) : ℝ × ℝ :=
  let q := s.cur
  let fsx := q.dddx - bx
  let fsy := q.dddy - by'
  let slide := q.u * fsy - q.v * fsx
  let tand := 7 * g * rhow * q.depth * qfc o q / (2 * o.alphaSecc * (q.u ^ 2 + q.v ^ 2))
  let m := modAngle o s c sn bx by'
  let k := slopecoef o c sn bx by'
  (s.bedStress * k * m.1 + q.v * tand * slide, s.bedStress * k * m.2 - q.u * tand * slide)

/-- `phi * sqrt(g R d^3)` of the Meyer-Peter-Mueller formula, sediment_model.py:288-297. -/
noncomputable def mpm (o : Opts) (q : Flow) : ℝ :=
  let thetaprime := mu o q * (rhow * 0.5 * qfc o q * unorm q) / ((o.rhos - rhow) * g * o.size)
  let phi := if thetaprime < o.thetacr then 0 else 8 * (thetaprime - o.thetacr) ^ (1.5 : ℝ)
  phi * sqrt (g * o.R * o.size ^ 3)

/-- `get_bedload_term`, sediment_model.py:222-310; `none` is NaN (every summand contains the flow
direction).  Divisions by the bed stress and by `t4` (secondary current) are those of the code. -/
noncomputable def bedload (o : Opts) (s : Stored) (bx by' : ℝ) : Option (ℝ × ℝ) :=
  match s.calfa, s.salfa with
  | some c, some sn =>
    if o.secondary then
      let t := secondary o s c sn bx by'
      let t4 := sqrt (t.1 ^ 2 + t.2 ^ 2)
      let total := t4 / s.bedStress * mpm o s.cur
      some (total * (t.1 / t4), total * (t.2 / t4))
    else
      let m := modAngle o s c sn bx by'
      let total := slopecoef o c sn bx by' * mpm o s.cur
      some (total * m.1, total * m.2)
  | _, _ => none

/-! ### Sediment slide, sediment_model.py:312-354 -/

/-- The diagonal entry of `diff_tensor`.  `bx`, `by'` is the bed gradient (times the slide region),
`tanphi` the tangent of the maximum angle, `L` the length scale. -/
noncomputable def slideCoef (bx by' tanphi L porosity dt morfac : ℝ) : ℝ :=
  let nz := 1 / sqrt (1 + (bx ^ 2 + by' ^ 2))
  let betaangle := arcsin (sqrt (1 - nz ^ 2))
  let tanbeta := sqrt (1 - nz ^ 2) / nz
  let qaval := if tanbeta - tanphi > 0 then
      (1 - porosity) * 0.5 * L ^ 2 * (tanbeta - tanphi) / cos (betaangle * dt * morfac) else 0
  if sqrt (1 - nz ^ 2) > 0 then -qaval * nz ^ 2 / sqrt (1 - nz ^ 2) else 0

/-- `ExnerSedimentSlideTerm.residual`, exner_eq.py:136-149: cell integrand for test function gradient
`t` and bed gradient `b`. -/
def slideCell (K : ℝ) (t b : ℝ × ℝ) : ℝ :=
  -(t.1 * (K * -b.1) + t.2 * (K * -b.2))

/-- UFL `dot`/`inner` of vectors. -/
def dot (x y : ℝ × ℝ) : ℝ := x.1 * y.1 + x.2 * y.2

/-- The facet integrand of the same residual: `jt`, `jb` jumps of the test function and of the bed,
`avgK` the mean coefficient, `sigma` the penalty, `fluxT`, `fluxB` the averages of `K grad`. -/
def slideFacet (sigma avgK : ℝ) (jt jb fluxT fluxB : ℝ × ℝ) : ℝ :=
  -(-sigma * dot jt (avgK * jb.1, avgK * jb.2) - dot fluxT jb - dot jt fluxB)

/-! ### Bedload residual, exner_eq.py:100-129 -/

/-- A boundary condition value: a scalar or a vector of components. -/
inductive BndVal
  | scalar (x : ℝ)
  | vector (l : List ℝ)

open Classical in
/-- The loop over the keys of a boundary, exner_eq.py:114-123: `true` if the boundary contributes
nothing.  The value under `elev` is never read; `none` is the TypeError of `float` applied to a
vector valued function under another key. -/
noncomputable def noContr : List (String × BndVal) → Option Bool
  | [] => some false
  | (k, v) :: l =>
    if k = "elev" then noContr l
    else if k = "uv" then
      match v with
      | .vector c => (noContr l).map fun r => (decide (∀ x ∈ c, x = 0)) || r
      | .scalar _ => none
    else
      match v with
      | .scalar x => (noContr l).map fun r => decide (x = 0) || r
      | .vector _ => none

/-- `ExnerBedloadTerm.residual`, exner_eq.py:100-129, integrated against a test function: `cell` are
the values `(w, grad test, q)` at the quadrature points of the cells with weights `w`, and `bnds` are
the specified boundaries, each with the points `(w, test, n, q)` of its facets. -/
noncomputable def bedloadResidual (fac : ℝ) (cell : List (ℝ × (ℝ × ℝ) × (ℝ × ℝ)))
    (bnds : List (List (String × BndVal) × List (ℝ × ℝ × (ℝ × ℝ) × (ℝ × ℝ)))) : Option ℝ := do
  let bs ← bnds.mapM fun b => do
    let nc ← noContr b.1
    pure (if nc then 0 else
      (b.2.map fun p => p.1 * (-p.2.1 * (fac * p.2.2.2.1 * p.2.2.1.1 + fac * p.2.2.2.2 * p.2.2.1.2))).sum)
  let f := bs.sum +
    (cell.map fun p => p.1 * (fac * p.2.2.1 * p.2.1.1 + fac * p.2.2.2 * p.2.1.2)).sum
  pure (-f)

end Verif.Sediment
