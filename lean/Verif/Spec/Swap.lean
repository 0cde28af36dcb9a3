/- Independent specification for swaps. -/
import Verif.Model.Swap

namespace Verif.Spec

/-- The operations a user can apply to a swap. -/
inductive SwapOp
  | generateFixed (set : Bool)
  | generateFloat (rate : RateFn) (set : Bool)
  | impliedRate (curve : DiscountFn) (rate : RateFn) (set : Bool)

/-- The swap after an operation, whether it raised or not. -/
def SwapOp.apply (s : Swap) : SwapOp → Swap
  | .generateFixed set => (s.generateFixedLeg set).2
  | .generateFloat rate set => (s.generateFloatLeg rate set).2
  | .impliedRate curve rate set => (s.impliedRate curve rate set).2

/-- The fixed leg a user expects to be stored: that of the last successful fixed-leg generation with `set_cashflow=True`. -/
def storedFixed (s : Swap) : List SwapOp → Option (List Payment)
  | [] => none
  | op :: ops => match storedFixed s ops with
    | some cf => some cf
    | none => match op with
      | .generateFixed true => s.fixedCashflow.toOption
      | _ => none

/-- The floating leg a user expects to be stored: that of the last successful floating-leg generation (by itself or inside
`implied_rate`) with `set_cashflow=True`. -/
def storedFloat (s : Swap) : List SwapOp → Option (List Payment)
  | [] => none
  | op :: ops => match storedFloat s ops with
    | some cf => some cf
    | none => match op with
      | .generateFloat rate true => (s.floatCashflow rate).toOption
      | .impliedRate _ rate true => (s.floatCashflow rate).toOption
      | _ => none

/-- The value expected of a swap with these legs: fixed minus floating leg for the receiver of the fixed rate, the negation for
its payer, ValueError if a leg is missing. -/
def swapValue (direction : SwapDirection) (fixed float : Option (List Payment)) (curve : DiscountFn) : Except PyErr ℚ :=
  match fixed, float with
  | some fx, some fl => do
    let floatPv ← Cashflow.presentValue fl curve
    let fixedPv ← Cashflow.presentValue fx curve
    .ok (if direction = .receiverFixed then fixedPv - floatPv else floatPv - fixedPv)
  | _, _ => .error .valueError

/-- Sum of `f x y` over consecutive elements of a list. -/
def sumPairs (f : PyDate → PyDate → ℚ) : List PyDate → ℚ
  | x :: y :: rest => f x y + sumPairs f (y :: rest)
  | _ => 0

/-- Product of `f x y` over consecutive elements of a list. -/
def prodPairs (f : PyDate → PyDate → ℚ) : List PyDate → ℚ
  | x :: y :: rest => f x y * prodPairs f (y :: rest)
  | _ => 1

/-- Actual/360 accrual. -/
def act360 (x y : PyDate) : ℚ := ((y.ord - x.ord : Int) : ℚ) / 360

end Verif.Spec
