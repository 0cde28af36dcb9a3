/-
Independent specification of the one-factor Vasicek model dr = k(θ - r)dt + σ dW.
-/
import Mathlib.Probability.Distributions.Gaussian.Real
import Mathlib.MeasureTheory.Integral.IntervalIntegral.FundThmCalculus

namespace Verif.Spec
open MeasureTheory

/-- `m s` is the expected short rate a time `s` ahead: taking expectations in the equation, `m' = k(θ - m)` and `m 0 = r`. -/
def IsExpectedRate (k θ r : ℝ) (m : ℝ → ℝ) : Prop := m 0 = r ∧ ∀ s, HasDerivAt m (k * (θ - m s)) s

/-- `w s` is the variance of the short rate a time `s` ahead: `w' = σ² - 2 k w` and `w 0 = 0`. -/
def IsRateVariance (k σ : ℝ) (w : ℝ → ℝ) : Prop := w 0 = 0 ∧ ∀ s, HasDerivAt w (σ ^ 2 - 2 * k * w s) s

/-- The variance of the short rate's integral over a period of length `T`: a shock at time `s` moves it by `σ (1 - e^{-k(T-s)})/k`. -/
noncomputable def integralVariance (k σ T : ℝ) : ℝ := ∫ s in (0 : ℝ)..T, (σ * ((1 - Real.exp (-k * (T - s))) / k)) ^ 2

/-- The price of one unit paid after time `T`: the expectation of `exp(-∫ r)`, the integral of the short rate being normal with mean
the integral of the expected rate. -/
noncomputable def expectedDiscount (k σ : ℝ) (m : ℝ → ℝ) (T : ℝ) : ℝ :=
  ∫ x, Real.exp (-x) ∂ProbabilityTheory.gaussianReal (∫ s in (0 : ℝ)..T, m s) (integralVariance k σ T).toNNReal

/-- The pricing equation of the Vasicek model for a price `P T r`: `∂P/∂T = σ²/2 ∂²P/∂r² + k(θ - r) ∂P/∂r - r P`. -/
def SolvesPricing (k θ σ : ℝ) (P : ℝ → ℝ → ℝ) : Prop :=
  (∀ r, P 0 r = 1) ∧ ∀ T r, HasDerivAt (fun T => P T r)
    (σ ^ 2 / 2 * deriv (deriv (P T)) r + k * (θ - r) * deriv (P T) r - r * P T r) T

end Verif.Spec
