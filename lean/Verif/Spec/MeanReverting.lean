/-
Independent specification of the models documented in doubly_mean_reverting_vasicek.py, trebly_mean_reverting_vasicek.py and
stochastic_market_price_of_risk.py, written rate by rate.
-/
import Mathlib.Probability.Distributions.Gaussian.Real
import Mathlib.MeasureTheory.Integral.IntervalIntegral.FundThmCalculus
import Mathlib.Data.Matrix.Mul
import Mathlib.LinearAlgebra.Matrix.Notation

namespace Verif.Spec.MeanReverting
open MeasureTheory Matrix

/-- Expected long-term and short rate of the doubly mean-reverting model, `dr = κ(R - r)dt + …`, `dR = α(β - R)dt + …`. -/
structure DoublyMean (κ α β R0 r0 : ℝ) (R r : ℝ → ℝ) : Prop where
  long0 : R 0 = R0
  short0 : r 0 = r0
  long : ∀ s, HasDerivAt R (α * (β - R s)) s
  short : ∀ s, HasDerivAt r (κ * (R s - r s)) s

/-- What is left after a time `u` of a unit shock: `a` of a long-term shock in the long-term rate, `b` of it in the short rate, `c` of a
short-rate shock in the short rate. -/
structure DoublyResponse (κ α : ℝ) (a b c : ℝ → ℝ) : Prop where
  a0 : a 0 = 1
  b0 : b 0 = 0
  c0 : c 0 = 1
  da : ∀ u, HasDerivAt a (-α * a u) u
  db : ∀ u, HasDerivAt b (κ * (a u - b u)) u
  dc : ∀ u, HasDerivAt c (-κ * c u) u

/-- The variance of the short rate's integral over a period of length `T`: at each time both shocks, with volatilities `σL` and `σr` and
correlation `ρ`, move the integral by their accumulated response. -/
noncomputable def doublyVariance (σL σr ρ : ℝ) (b c : ℝ → ℝ) (T : ℝ) : ℝ :=
  ∫ s in (0 : ℝ)..T, (σL * ∫ u in (0 : ℝ)..(T - s), b u) ^ 2 +
    2 * ρ * (σL * ∫ u in (0 : ℝ)..(T - s), b u) * (σr * ∫ u in (0 : ℝ)..(T - s), c u) + (σr * ∫ u in (0 : ℝ)..(T - s), c u) ^ 2

/-- The price of one unit paid after time `T`. -/
noncomputable def doublyDiscount (σL σr ρ : ℝ) (r b c : ℝ → ℝ) (T : ℝ) : ℝ :=
  ∫ y, Real.exp (-y) ∂ProbabilityTheory.gaussianReal (∫ s in (0 : ℝ)..T, r s) (doublyVariance σL σr ρ b c T).toNNReal

/-- Variances and covariance of the long-term and short rate a time `s` ahead. -/
structure DoublyCovariance (κ α σL σr ρ : ℝ) (vL vLr vr : ℝ → ℝ) : Prop where
  vL0 : vL 0 = 0
  vLr0 : vLr 0 = 0
  vr0 : vr 0 = 0
  dL : ∀ s, HasDerivAt vL (σL ^ 2 - 2 * α * vL s) s
  dLr : ∀ s, HasDerivAt vLr (σL * σr * ρ + κ * vL s - (α + κ) * vLr s) s
  dr : ∀ s, HasDerivAt vr (σr ^ 2 + 2 * κ * vLr s - 2 * κ * vr s) s

/-- Expected long-term, medium and short rate of the trebly mean-reverting model: `dL = α(L∞ - L)dt + …`, `dR = β(L - R)dt + …`,
`dr = κ(R - r)dt + …`. -/
structure TreblyMean (κ β α mean L0 R0 r0 : ℝ) (L R r : ℝ → ℝ) : Prop where
  long0 : L 0 = L0
  medium0 : R 0 = R0
  short0 : r 0 = r0
  long : ∀ s, HasDerivAt L (α * (mean - L s)) s
  medium : ∀ s, HasDerivAt R (β * (L s - R s)) s
  short : ∀ s, HasDerivAt r (κ * (R s - r s)) s

/-- Expected market price of risk, medium-term and short rate of the model with a stochastic market price of risk:
`dλ = α(λ∞ - λ)dt + …`, `dθ = β(Θ∞ - θ)dt + λσ dt + …`, `dr = κ(θ - r)dt + …`. -/
structure RiskPriceMean (κ β σ mediumMean α riskMean l0 θ0 r0 : ℝ) (l θ r : ℝ → ℝ) : Prop where
  risk0 : l 0 = l0
  medium0 : θ 0 = θ0
  short0 : r 0 = r0
  risk : ∀ s, HasDerivAt l (α * (riskMean - l s)) s
  medium : ∀ s, HasDerivAt θ (β * (mediumMean - θ s) + l s * σ) s
  short : ∀ s, HasDerivAt r (κ * (θ s - r s)) s

/-- What is left after a time `u` of a unit shock in a chain of three factors, the first of which (speed `α`) drives the second (speed
`β`) with strength `n`, and the second of which drives the short rate (speed `κ`): `a`, `b`, `d` of a shock to the first in the first,
second and third; `c`, `e` of a shock to the second in the second and third; `f` of a shock to the third in the third. -/
structure ChainResponse (κ β n α : ℝ) (a b c d e f : ℝ → ℝ) : Prop where
  a0 : a 0 = 1
  b0 : b 0 = 0
  c0 : c 0 = 1
  d0 : d 0 = 0
  e0 : e 0 = 0
  f0 : f 0 = 1
  da : ∀ u, HasDerivAt a (-α * a u) u
  db : ∀ u, HasDerivAt b (n * a u - β * b u) u
  dc : ∀ u, HasDerivAt c (-β * c u) u
  dd : ∀ u, HasDerivAt d (κ * (b u - d u)) u
  de : ∀ u, HasDerivAt e (κ * (c u - e u)) u
  df : ∀ u, HasDerivAt f (-κ * f u) u

/-- The variance of the short rate's integral over a period of length `T`: at each time the three shocks, with volatilities `σ₁ σ₂ σ₃` and
correlations `ρ₁₂ ρ₁₃ ρ₂₃`, move the integral by their accumulated responses in the short rate. -/
noncomputable def chainVariance (σ₁ σ₂ σ₃ ρ₁₂ ρ₁₃ ρ₂₃ : ℝ) (d e f : ℝ → ℝ) (T : ℝ) : ℝ :=
  ∫ s in (0 : ℝ)..T, (σ₁ * ∫ u in (0 : ℝ)..(T - s), d u) ^ 2 + (σ₂ * ∫ u in (0 : ℝ)..(T - s), e u) ^ 2 +
    (σ₃ * ∫ u in (0 : ℝ)..(T - s), f u) ^ 2 +
    2 * ρ₁₂ * (σ₁ * ∫ u in (0 : ℝ)..(T - s), d u) * (σ₂ * ∫ u in (0 : ℝ)..(T - s), e u) +
    2 * ρ₁₃ * (σ₁ * ∫ u in (0 : ℝ)..(T - s), d u) * (σ₃ * ∫ u in (0 : ℝ)..(T - s), f u) +
    2 * ρ₂₃ * (σ₂ * ∫ u in (0 : ℝ)..(T - s), e u) * (σ₃ * ∫ u in (0 : ℝ)..(T - s), f u)

/-- The price of one unit paid after time `T`. -/
noncomputable def chainDiscount (σ₁ σ₂ σ₃ ρ₁₂ ρ₁₃ ρ₂₃ : ℝ) (r d e f : ℝ → ℝ) (T : ℝ) : ℝ :=
  ∫ y, Real.exp (-y) ∂ProbabilityTheory.gaussianReal (∫ s in (0 : ℝ)..T, r s) (chainVariance σ₁ σ₂ σ₃ ρ₁₂ ρ₁₃ ρ₂₃ d e f T).toNNReal

/-- `R` turns independent shocks into shocks with correlation matrix `c`. -/
def Correlates {p : Nat} (c R : Matrix (Fin p) (Fin p) ℝ) : Prop := R * Rᵀ = c

end Verif.Spec.MeanReverting
