import Mathlib.Analysis.SpecialFunctions.Pow.Real

/-!
Model of the equations of state and the density solvers of thetis/utility3d.py.  Numbers are real; `none` stands for
NaN or infinity.
-/

namespace Verif.Eos

/-- The parameters of `LinearEquationOfState`, utility3d.py:1103-1115. -/
structure Linear where
  rhoRef : ℝ
  alpha : ℝ
  beta : ℝ
  thRef : ℝ
  sRef : ℝ

/-- `LinearEquationOfState.compute_rho` and `eval`, utility3d.py:1134-1141; the pressure is ignored. -/
def Linear.rho (l : Linear) (s th rho0 : ℝ) : ℝ :=
  l.rhoRef - rho0 - l.alpha * (th - l.thRef) + l.beta * (s - l.sRef)

/-- `JackettEquationOfState.a`, utility3d.py:1051-1054. -/
noncomputable def a : Fin 12 → ℝ :=
  ![9.9984085444849347e2, 7.3471625860981584e0, -5.3211231792841769e-2,
    3.6492439109814549e-4, 2.5880571023991390e0, -6.7168282786692355e-3,
    1.9203202055760151e-3, 1.1798263740430364e-2, 9.8920219266399117e-8,
    4.6996642771754730e-6, -2.5862187075154352e-8, -3.2921414007960662e-12]

/-- `JackettEquationOfState.b`, utility3d.py:1055-1058. -/
noncomputable def b : Fin 13 → ℝ :=
  ![1.0, 7.2815210113327091e-3, -4.4787265461983921e-5, 3.3851002965802430e-7,
    1.3651202389758572e-10, 1.7632126669040377e-3, -8.8066583251206474e-6,
    -1.8832689434804897e-10, 5.7463776745432097e-6, 1.4716275472242334e-9,
    6.7103246285651894e-6, -2.4461698007024582e-17, -9.1534417604289062e-18]

/-- The numerator, utility3d.py:1085-1087. -/
noncomputable def pn (s th p : ℝ) : ℝ :=
  a 0 + th * a 1 + th * th * a 2 + th * th * th * a 3 + s * a 4 + th * s * a 5 + s * s * a 6 + p * a 7 +
    p * th * th * a 8 + p * s * a 9 + p * p * a 10 + p * p * th * th * a 11

/-- The denominator, utility3d.py:1088-1091. -/
noncomputable def pd (s th p : ℝ) : ℝ :=
  b 0 + th * b 1 + th * th * b 2 + th * th * th * b 3 + th * th * th * th * b 4 + s * b 5 + s * th * b 6 +
    s * th * th * th * b 7 + s ^ (1.5 : ℝ) * b 8 + s ^ (1.5 : ℝ) * th * th * b 9 + p * b 10 +
    p * p * th * th * th * b 11 + p * p * p * th * b 12

/-- `JackettEquationOfState.eval`, utility3d.py:1082-1093; `pow(s, 1.5)` is NaN for negative `s`, and
the quotient is not a number if the denominator is zero. -/
noncomputable def eval (s th p rho0 : ℝ) : Option ℝ :=
  if 0 ≤ s ∧ pd s th p ≠ 0 then some (pn s th p / pd s th p - rho0) else none

/-- `JackettEquationOfState.compute_rho`, utility3d.py:1079-1080. -/
noncomputable def computeRho (s th p rho0 : ℝ) : Option ℝ := eval (max s 0) th p rho0

/-- `DensitySolver.solve`, utility3d.py:262-268, at one node of the common space. -/
noncomputable def densityAt (eos : ℝ → ℝ → ℝ → ℝ → Option ℝ) (s th rho0 : ℝ) : Option ℝ := eos s th 0 rho0

/-- `DensitySolverWeak.ensure_positive_salinity`, utility3d.py:312-321: the salinity field after the call, by nodes. -/
noncomputable def ensurePositive {n : ℕ} (s : Fin n → ℝ) : Fin n → ℝ := fun i => if s i < 0 then 0 else s i

end Verif.Eos
