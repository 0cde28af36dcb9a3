/-
Independent specification of the multivariate Vasicek model dX = K(θ - X)dt + S dW with short rate r = μ + ⟨g, X⟩.
-/
import Mathlib.Probability.Distributions.Gaussian.Real
import Mathlib.MeasureTheory.Integral.IntervalIntegral.FundThmCalculus
import Mathlib.Data.Matrix.Mul

namespace Verif.Spec.Multi
open MeasureTheory Matrix

variable {p : Nat}

/-- `m s` is the expected state a time `s` ahead of a time when the state is `x`: `m' = K(θ - m)` and `m 0 = x`. -/
def IsMean (K : Matrix (Fin p) (Fin p) ℝ) (θ x : Fin p → ℝ) (m : ℝ → Fin p → ℝ) : Prop :=
  m 0 = x ∧ ∀ s i, HasDerivAt (fun s => m s i) ((K *ᵥ (θ - m s)) i) s

/-- `Φ u` says how much of a shock to the state is left after a time `u`: column `j` is what a unit shock to coordinate `j` has become;
`Φ' = -KΦ` and `Φ 0 = 1`. -/
def IsResponse (K : Matrix (Fin p) (Fin p) ℝ) (Φ : ℝ → Matrix (Fin p) (Fin p) ℝ) : Prop :=
  Φ 0 = 1 ∧ ∀ u i j, HasDerivAt (fun u => Φ u i j) (-(K * Φ u) i j) u

/-- `V s` is the covariance matrix of the state a time `s` ahead: `V' = SSᵀ - KV - VKᵀ` and `V 0 = 0`. -/
def IsCovariance (K S : Matrix (Fin p) (Fin p) ℝ) (V : ℝ → Matrix (Fin p) (Fin p) ℝ) : Prop :=
  V 0 = 0 ∧ ∀ s i j, HasDerivAt (fun s => V s i j) ((S * Sᵀ - K * V s - V s * Kᵀ) i j) s

/-- The variance of the short rate's integral over a period of length `T`: the `j`-th Brownian motion's shock at time `s` moves the
integral by the accumulated response of the short rate. -/
noncomputable def integralVariance (g : Fin p → ℝ) (S : Matrix (Fin p) (Fin p) ℝ) (Φ : ℝ → Matrix (Fin p) (Fin p) ℝ) (T : ℝ) : ℝ :=
  ∫ s in (0 : ℝ)..T, ∑ j, (∫ u in (0 : ℝ)..(T - s), g ⬝ᵥ ((Φ u * S) *ᵥ Pi.single j 1)) ^ 2

/-- The price of one unit paid after time `T`: the expectation of `exp(-∫ r)`, the integral of the short rate being normal with mean
the integral of the expected rate. -/
noncomputable def expectedDiscount (μ : ℝ) (g : Fin p → ℝ) (S : Matrix (Fin p) (Fin p) ℝ) (m : ℝ → Fin p → ℝ)
    (Φ : ℝ → Matrix (Fin p) (Fin p) ℝ) (T : ℝ) : ℝ :=
  ∫ y, Real.exp (-y) ∂ProbabilityTheory.gaussianReal (∫ s in (0 : ℝ)..T, μ + g ⬝ᵥ m s) (integralVariance g S Φ T).toNNReal

/-- The partial derivative of `f` in coordinate `i` at `x`. -/
noncomputable def partialDeriv (f : (Fin p → ℝ) → ℝ) (i : Fin p) (x : Fin p → ℝ) : ℝ :=
  deriv (fun h => f (Function.update x i h)) (x i)

/-- The gradient of `f`. -/
noncomputable def grad (f : (Fin p → ℝ) → ℝ) (x : Fin p → ℝ) : Fin p → ℝ := fun i => partialDeriv f i x

/-- Half the diffusion's second-order operator: `½ ∑ᵢⱼ (SSᵀ)ᵢⱼ ∂²f/∂xᵢ∂xⱼ`. -/
noncomputable def halfTrace (S : Matrix (Fin p) (Fin p) ℝ) (f : (Fin p → ℝ) → ℝ) (x : Fin p → ℝ) : ℝ :=
  1 / 2 * ∑ i, ∑ j, (S * Sᵀ) i j * partialDeriv (partialDeriv f i) j x

/-- The pricing equation for a price `P T x`: `∂P/∂T = ½ tr(SSᵀ ∂²P) + ⟨K(θ - x), ∂P⟩ - r P`, with one unit paid at maturity. -/
def SolvesPricing (μ : ℝ) (g θ : Fin p → ℝ) (K S : Matrix (Fin p) (Fin p) ℝ) (P : ℝ → (Fin p → ℝ) → ℝ) : Prop :=
  (∀ x, P 0 x = 1) ∧ ∀ T x, HasDerivAt (fun T => P T x)
    (halfTrace S (P T) x + (K *ᵥ (θ - x)) ⬝ᵥ grad (P T) x - (μ + g ⬝ᵥ x) * P T x) T

/-- `P T x` is the price of one unit paid after time `T ≥ 0` when the state is `x`. -/
def IsPrice (μ : ℝ) (g θ : Fin p → ℝ) (K S : Matrix (Fin p) (Fin p) ℝ) (P : ℝ → (Fin p → ℝ) → ℝ) : Prop :=
  ∀ T x m Φ, 0 ≤ T → IsMean K θ x m → IsResponse K Φ → P T x = expectedDiscount μ g S m Φ T

end Verif.Spec.Multi
