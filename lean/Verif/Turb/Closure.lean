import Verif.Turb.Stability

/-!
Model of the closures in `thetis/turbulence.py`: frequency solvers after the weak gradient,
`GenericLengthScaleModel.preprocess`/`postprocess`, the source terms of the two equations in one
backward Euler step, and `PacanowskiPhilanderModel`.  Turbulence fields are piecewise constant
(`turb_space = P0`, solver.py:443), so nodal statements are cell statements.
-/

namespace Verif.Turb

/-- `set_func_min_val`, turbulence.py:152-156, at one node. -/
noncomputable def setMin (x m : ℝ) : ℝ := if x < m then m else x

/-- `ShearFrequencySolver.solve`, turbulence.py:249-266, at one node: `gu`, `gv` the newly computed
gradients, `mu`, `mv` the stored components.  Returns the new `(mu, mv, m2)`. -/
noncomputable def shearSolve (relaxation minval : ℝ) (init : Bool) (gu gv mu mv : ℝ) : ℝ × ℝ × ℝ :=
  let gamma := if init then 1 else relaxation
  let mu' := gamma * gu + (1 - gamma) * mu
  let mv' := gamma * gv + (1 - gamma) * mv
  (mu', mv', setMin (0 + mu' * mu' + mv' * mv') minval)

/-- Splitting of the buoyancy frequency, turbulence.py:502-507: `(n2_pos, n2_neg)`. -/
noncomputable def splitN2 (n2 : ℝ) : ℝ × ℝ :=
  (if n2 ≥ 0 then n2 else 1e-12, if n2 ≥ 0 then 0 else n2)

/-- Options of the closure (options.py:293-367). -/
structure GlsOpts where
  p : ℝ
  m : ℝ
  n : ℝ
  cmu0 : ℝ
  kMin : ℝ
  psiMin : ℝ
  epsMin : ℝ
  lenMin : ℝ
  viscMin : ℝ
  diffMin : ℝ
  galperin : ℝ
  limitLen : Bool
  limitPsi : Bool
  limitEps : Bool
  limitLenMin : Bool

/-- Turbulence state at a node. -/
structure GlsState where
  k : ℝ
  psi : ℝ
  eps : ℝ
  len : ℝ
  visc : ℝ
  diff : ℝ
  m2 : ℝ
  n2 : ℝ
  n2pos : ℝ

/-- Limit of psi, turbulence.py:534. -/
noncomputable def psiLimit (o : GlsOpts) (k n2pos : ℝ) : ℝ :=
  (Real.sqrt 2 * o.galperin * o.cmu0 ^ (o.p / o.n) * k ^ (o.m / o.n + 0.5)
    * (n2pos + 1e-12) ^ (-0.5 : ℝ)) ^ o.n

/-- Dissipation from `k` and `psi`, turbulence.py:544. -/
noncomputable def epsOf (o : GlsOpts) (k psi : ℝ) : ℝ :=
  o.cmu0 ^ (3.0 + o.p / o.n) * k ^ ((3.0 / 2.0 : ℝ) + o.m / o.n) * psi ^ (-1.0 / o.n)

/-- `postprocess`, turbulence.py:509-577 (`relaxation = 1`, turbulence.py:411); `stab` is
`stability_func.evaluate`. -/
noncomputable def postprocess (o : GlsOpts) (stab : ℝ → ℝ → ℝ → ℝ → ℝ × ℝ) (s : GlsState) :
    GlsState :=
  let k := setMin s.k o.kMin
  let psi := if o.limitPsi then
      (if o.n > 0 then min s.psi (psiLimit o k s.n2pos) else max s.psi (psiLimit o k s.n2pos))
    else s.psi
  let psi := setMin psi o.psiMin
  let eps := epsOf o k psi
  let eps := if o.limitEps then
      max eps (o.cmu0 ^ (3.0 : ℝ) / (Real.sqrt 2 * o.galperin) * Real.sqrt s.n2pos * k)
    else eps
  let eps := setMin eps o.epsMin
  let len := o.cmu0 ^ (3.0 : ℝ) * k ^ (3.0 / 2.0 : ℝ) / eps
  let len := if o.limitLenMin then setMin len o.lenMin else len
  let len := if o.limitLen then min len (o.galperin * Real.sqrt (2 * k / (s.n2pos + 1e-12)))
    else len
  let sf := stab s.m2 s.n2 k eps
  let b := Real.sqrt k * len
  { s with
    k := k
    psi := psi
    eps := eps
    len := len
    visc := setMin (1.0 * (b * sf.1 / o.cmu0 ^ 3) + (1.0 - 1.0) * s.visc) o.viscMin
    diff := setMin (1.0 * (b * sf.2 / o.cmu0 ^ 3) + (1.0 - 1.0) * s.diff) o.diffMin }

/-- Initial values, turbulence.py:473-478: dissipation and psi for a length scale. -/
noncomputable def epsInit (o : GlsOpts) (lInit : ℝ) : ℝ :=
  o.cmu0 ^ (3.0 : ℝ) * o.kMin ^ (3.0 / 2.0 : ℝ) / lInit

/-- psi belonging to `k_min` and a dissipation, turbulence.py:446 and 475. -/
noncomputable def psiFor (o : GlsOpts) (eps : ℝ) : ℝ :=
  (o.cmu0 ^ (3.0 + o.p / o.n) * o.kMin ^ ((3.0 / 2.0 : ℝ) + o.m / o.n) * eps ^ (-1.0 : ℝ)) ^ o.n

/-! ### Source terms in a backward Euler step -/

/-- Fields entering the sources at a cell. -/
structure SrcFields where
  visc : ℝ
  diff : ℝ
  eps : ℝ
  m2 : ℝ
  n2pos : ℝ
  n2neg : ℝ

/-- Integrand of `TKESourceTerm.residual`, turbulence.py:631-651. -/
noncomputable def tkeSource (f : SrcFields) (sol old : ℝ) : ℝ :=
  let p := f.visc * f.m2
  let bSource := -f.diff * f.n2neg
  let bSink := -f.diff * f.n2pos
  p + bSource + (bSink - f.eps) / old * sol

/-- Constants of `PsiSourceTerm` (turbulence.py:713-727). -/
structure PsiConsts where
  c1 : ℝ
  c2 : ℝ
  c3minus : ℝ
  c3plus : ℝ
  fWall : ℝ

/-- Integrand of `PsiSourceTerm.residual`, turbulence.py:696-729; `k` is the kinetic energy of the
previous step (psi is solved first, coupled_timeintegrator.py:86-90). -/
noncomputable def psiSource (c : PsiConsts) (f : SrcFields) (k sol old : ℝ) : ℝ :=
  let p := f.visc * f.m2
  let bShear := c.c3plus * -f.diff * f.n2neg
  let bBuoy := c.c3minus * -f.diff * f.n2pos
  let bSource := if c.c3minus > 0 then bShear else bShear + bBuoy
  let bSink := if c.c3minus > 0 then bBuoy else 0
  old / k * (c.c1 * p + bSource) + sol / k * (bSink - c.c2 * c.fWall * f.eps)

/-- Boundary flux coefficient of psi, turbulence.py:731-758, times the vertical component of the
outward normal: bottom (`nz < 0`) and surface (`nz > 0`). -/
noncomputable def psiFlux (n visc schmidt cmu0 p m k kappa zdist : ℝ) (surface : Bool) (nz : ℝ) : ℝ :=
  let d := n * (visc / schmidt) * cmu0 ^ p * k ^ m * kappa ^ n * zdist ^ (n - 1.0)
  (if surface then -d else d) * nz

/-- One backward Euler step of a piecewise constant field `x0 ↦ x1` on the cells `ι` with volumes
`vol`, source integrand `src i x1 x0`, explicit boundary fluxes `flux` and two-point diffusion
(`GLSVerticalDiffusionTerm` on P0: only the interior penalty survives, tracer_eq.py:349-352) with
facet conductances `w i j = sigma_max * avg(diffusivity) * area` (zero if `i`, `j` share no facet).
rungekutta.py:495-502: `x1 = x0 + dt*K` and `K` solves `-K + residual = 0`; `u_nl` is the solution
before the step (rungekutta.py:482-490). -/
def IsStep {ι : Type} [Fintype ι] (dt : ℝ) (vol : ι → ℝ) (src : ι → ℝ → ℝ → ℝ) (flux : ι → ℝ)
    (w : ι → ι → ℝ) (x0 x1 : ι → ℝ) : Prop :=
  ∀ i, vol i * (x1 i - x0 i) =
    dt * (vol i * src i (x1 i) (x0 i) + flux i + ∑ j, w i j * (x1 j - x1 i))

/-! ### Pacanowski-Philander -/

/-- Options (options.py:285-290). -/
structure PPOpts where
  maxVisc : ℝ
  alpha : ℝ
  exponent : ℝ

/-- `preprocess`/`postprocess`, turbulence.py:932-961, at a node: viscosity and diffusivity from the
buoyancy and shear frequencies (`m2 ≥ 1e-12` after `ShearFrequencySolver`). -/
noncomputable def ppClosure (o : PPOpts) (n2 m2 : ℝ) : ℝ × ℝ :=
  let ri := (splitN2 n2).1 / m2
  let denom := 1.0 + o.alpha * ri
  let visc := o.maxVisc / denom ^ o.exponent
  (visc, visc / denom)

end Verif.Turb
