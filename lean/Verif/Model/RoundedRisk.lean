/-
Pricing and key-rate risk on a curve of yields or discount factors in floating point: every float operation is followed by `rnd`,
and `exp` is numpy's exponential function on floats.
-/
import Verif.Model.Rounded

namespace Verif.Rounded

/-- base_curve.py:92-127: interpolation with an adjustment.  Simplified: dates after the last knot raise (yield_curve.py:102-104 stops
there, and the discount curve's end behaviour is ERROR). -/
def interpolate (rnd : ℚ → ℚ) (values : List Knot) (dcc : DayCountConvention) (ref : PyDate) (linear : Bool) (left : EndBehavior)
    (adj : PyDate → Except PyErr ℚ) (d : PyDate) : Except PyErr ℚ :=
  match (pySorted Knot.date values).head?, (pySorted Knot.date values).getLast? with
  | some first, some last =>
    if d < first.date then
      match left with
      | .constant => do
        let a ← adj d
        .ok (rnd (first.value + a))
      | .error => .error .valueError
    else if last.date < d then .error .valueError
    else do
      let grid ← makeGrid rnd ref dcc (pySorted Knot.date values)
      let x ← accrual rnd ref d dcc
      let y ← if linear then interpLinear rnd grid x else interpPrevious grid x
      let a ← adj d
      .ok (rnd (y + a))
  | _, _ => .error .indexError

/-- yield_curve.py:100-110: the daily knots of the discount curve; the negation is exact. -/
def yieldKnots (rnd exp : ℚ → ℚ) (values : List Knot) (dcc : DayCountConvention) (ref : PyDate) (linear : Bool) (left : EndBehavior)
    (adj : PyDate → Except PyErr ℚ) : Except PyErr (List Knot) :=
  match (pySorted Knot.date values).getLast? with
  | none => .error .indexError
  | some last => do
    let dates ← YieldCurve.dateRange ref last.date
    let accruals ← collect (fun d => accrual rnd ref d dcc) dates
    let yields ← collect (interpolate rnd values dcc ref linear left adj) dates
    .ok (List.zipWith (fun d (ya : ℚ × ℚ) => ⟨d, exp (rnd (-ya.1 * ya.2))⟩) dates (yields.zip accruals))

/-- yield_curve.py:63-71 and 100-128, base_cashflow.py:70-77: the value of a schedule on the yield curve. -/
def yieldPresentValue (rnd exp : ℚ → ℚ) (values : List Knot) (dcc : DayCountConvention) (ref : PyDate) (linear : Bool)
    (left : EndBehavior) (schedule : List Payment) (adj : PyDate → Except PyErr ℚ) : Except PyErr ℚ := do
  let knots ← yieldKnots rnd exp values dcc ref linear left adj
  presentValue rnd schedule ⟨ref, interpolate rnd knots dcc ref true .error (fun _ => .ok 0)⟩

/-- yield_curve.py:82-83: the knots of the discount curve in DISCOUNT_FACTOR space: the curve's own knots, with the adjustment. -/
def discountFactorKnots (rnd : ℚ → ℚ) (values : List Knot) (dcc : DayCountConvention) (ref : PyDate) (linear : Bool) (left : EndBehavior)
    (adj : PyDate → Except PyErr ℚ) : Except PyErr (List Knot) :=
  collect (fun k => do
    let v ← interpolate rnd values dcc ref linear left adj k.date
    .ok ⟨k.date, v⟩) (pySorted Knot.date values)

/-- yield_curve.py:63-71 and 80-98, base_cashflow.py:70-77: the value of a schedule on a curve of discount factors. -/
def discountPresentValue (rnd : ℚ → ℚ) (values : List Knot) (dcc : DayCountConvention) (ref : PyDate) (linear : Bool)
    (left : EndBehavior) (schedule : List Payment) (adj : PyDate → Except PyErr ℚ) : Except PyErr ℚ := do
  let knots ← discountFactorKnots rnd values dcc ref linear left adj
  presentValue rnd schedule ⟨ref, interpolate rnd knots dcc ref linear .error (fun _ => .ok 0)⟩

/-- yield_curve.py:130-165: the central difference over one basis point (the float nearest to 0.0001), times one basis point, of a value
as a function of the adjustment. -/
def pv01Of (rnd : ℚ → ℚ) (value : (PyDate → Except PyErr ℚ) → Except PyErr ℚ) (k : KeyRate) : Except PyErr ℚ := do
  let bp := rnd oneBasisPoint
  let down ← value (keyRateCall rnd (k.setBumpVal (rnd (-bp / 2))))
  let up ← value (keyRateCall rnd (k.setBumpVal (rnd (bp / 2))))
  let deriv ← div rnd (rnd (up - down)) bp
  .ok (rnd (deriv * bp))

/-- yield_curve.py:130-165 on a curve of yields. -/
def pv01 (rnd exp : ℚ → ℚ) (values : List Knot) (dcc : DayCountConvention) (ref : PyDate) (linear : Bool)
    (left : EndBehavior) (schedule : List Payment) (k : KeyRate) : Except PyErr ℚ :=
  pv01Of rnd (yieldPresentValue rnd exp values dcc ref linear left schedule) k

/-- yield_curve.py:130-165 on a curve of discount factors. -/
def discountPv01 (rnd : ℚ → ℚ) (values : List Knot) (dcc : DayCountConvention) (ref : PyDate) (linear : Bool)
    (left : EndBehavior) (schedule : List Payment) (k : KeyRate) : Except PyErr ℚ :=
  pv01Of rnd (discountPresentValue rnd values dcc ref linear left schedule) k

/-- yield_curve.py:167-174 on a curve of discount factors: the risks, in the order of the collection.  Simplified: `calculate_pv01_risk`
leaves another bump in each key rate, which the next call overwrites. -/
def discountLadder (rnd : ℚ → ℚ) (values : List Knot) (dcc : DayCountConvention) (ref : PyDate) (linear : Bool)
    (left : EndBehavior) (schedule : List Payment) (heap : KRHeap) (c : KeyRateCollection) : Except PyErr (List ℚ) :=
  collect (fun i => discountPv01 rnd values dcc ref linear left schedule (heap i)) c.keyRates

end Verif.Rounded
