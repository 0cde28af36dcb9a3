/- Specification of floating-point rounding, independent of the code. -/
import Mathlib.Data.Int.Log
import Mathlib.Algebra.Order.Field.Rat
import Mathlib.Algebra.Order.Round
import Mathlib.Data.Rat.Floor
import Mathlib.Tactic.Linarith
import Mathlib.Tactic.Positivity
import Mathlib.Tactic.NormNum
import Mathlib.Tactic.Ring

namespace Verif.Spec

/-- A rounding function as IEEE 754 arithmetic uses it: monotone, symmetric, exact on 0, 1, `tiny` and its own results, with relative error at most `u`
for numbers of at least the size `tiny`.  For binary64, `u = 2^-53` and `tiny = 2^-1022`; overflow to infinity is left out. -/
structure Rounding (rnd : ℚ → ℚ) (u tiny : ℚ) : Prop where
  mono : Monotone rnd
  neg : ∀ x, rnd (-x) = -rnd x
  zero : rnd 0 = 0
  one : rnd 1 = 1
  rep : rnd tiny = tiny
  idem : ∀ x, rnd (rnd x) = rnd x
  err : ∀ x, tiny ≤ |x| → |rnd x - x| ≤ u * |x|
  u_nonneg : 0 ≤ u
  u_small : u ≤ 1 / 2 ^ 40
  tiny_pos : 0 < tiny
  tiny_small : tiny ≤ 1 / 2 ^ 100

/-- `x` and `y` agree up to a factor `(1 - u) ^ k`, as after `k` roundings with relative error `u`. -/
def Near (u : ℚ) (k : Nat) (x y : ℚ) : Prop := (1 - u) ^ k * x ≤ y ∧ (1 - u) ^ k * y ≤ x

/-- Rounding to the nearest number with a 53-bit significand (ties away from zero, unbounded exponents). -/
noncomputable def nearest53 (x : ℚ) : ℚ :=
  if x = 0 then 0
  else if 0 < x then round (x * 2 ^ (52 - Int.log 2 x)) * (2 : ℚ) ^ (Int.log 2 x - 52)
  else -(round (-x * 2 ^ (52 - Int.log 2 (-x))) * (2 : ℚ) ^ (Int.log 2 (-x) - 52))

end Verif.Spec
