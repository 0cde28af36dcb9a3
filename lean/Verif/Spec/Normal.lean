/- Specification notion for jointly normal simulated values. -/
import Mathlib.Probability.Distributions.Gaussian.Real

namespace Verif.Spec
open Finset MeasureTheory ProbabilityTheory

/-- The values `X a`, `a ∈ s`, are jointly normal with means `m a` and covariances `c a b`: every linear combination of them is
normally distributed, with the mean and the variance that `m` and `c` give it. -/
def JointlyNormal {Ω ι : Type} [MeasurableSpace Ω] (μ : Measure Ω) (s : Finset ι) (X : ι → Ω → ℝ) (m : ι → ℝ) (c : ι → ι → ℝ) : Prop :=
  ∀ w : ι → ℝ, 0 ≤ ∑ a ∈ s, ∑ b ∈ s, w a * w b * c a b ∧
    μ.map (fun ω => ∑ a ∈ s, w a * X a ω) =
      gaussianReal (∑ a ∈ s, w a * m a) (∑ a ∈ s, ∑ b ∈ s, w a * w b * c a b).toNNReal

end Verif.Spec
