/- Specification of a floating-point power function, independent of the code. -/
import Mathlib.Analysis.SpecialFunctions.Pow.Real

namespace Verif.Spec

/-- A power function of floats: for a positive base, and unless the power underflows, the result has a relative error of at most
`4 u`, that is two units in the last place (libm's `pow` is within one). -/
structure PowerFn (pow : ℚ → ℚ → ℚ) (u tiny : ℚ) : Prop where
  err : ∀ x y : ℚ, 0 < x → (tiny : ℝ) ≤ (x : ℝ) ^ (y : ℝ) →
    |((pow x y : ℚ) : ℝ) - (x : ℝ) ^ (y : ℝ)| ≤ 4 * (u : ℝ) * (x : ℝ) ^ (y : ℝ)

end Verif.Spec
