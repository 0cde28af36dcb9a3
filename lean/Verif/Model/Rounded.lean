/-
The numerical kernels of the model with floating-point rounding: every float operation of the code is followed by a rounding
function `rnd`.  The exact functions of Model/DayCount, Model/KeyRate, Model/Cashflow and Model/Curve are the case `rnd = id`.
-/
import Verif.Model.Curve

namespace Verif.Rounded

/-- Python's `/` on floats: ZeroDivisionError when the divisor is zero. -/
def div (rnd : ℚ → ℚ) (a b : ℚ) : Except PyErr ℚ := if b = 0 then .error .zeroDivisionError else .ok (rnd (a / b))

/-- day_count_calculator.py:99-105, 107-113, 115-121: `(end_date - start_date).days / q`, one division. -/
def actOver (rnd : ℚ → ℚ) (q : ℚ) (s e : PyDate) : Except PyErr ℚ := .ok (rnd (((e.ord - s.ord : Int) : ℚ) / q))

/-- day_count_calculator.py:171-197: two divisions of integers and two additions, in the order of line 197. -/
def actAct (rnd : ℚ → ℚ) (s e : PyDate) : Except PyErr ℚ := do
  let startEndThis ← PyDate.mk? s.year 12 31
  let startEndLast ← PyDate.mk? (s.year - 1) 12 31
  let endEndThis ← PyDate.mk? e.year 12 31
  let endEndLast ← PyDate.mk? (e.year - 1) 12 31
  if s.year = e.year then
    div rnd ((e.ord - s.ord : Int) : ℚ) ((endEndThis.ord - endEndLast.ord : Int) : ℚ)
  else do
    let wholeYears : Int := e.year - s.year
    let startResidual ← div rnd ((startEndThis.ord - s.ord : Int) : ℚ) ((startEndThis.ord - startEndLast.ord : Int) : ℚ)
    let endResidual ← div rnd ((e.ord - endEndLast.ord : Int) : ℚ) ((endEndThis.ord - endEndLast.ord : Int) : ℚ)
    .ok (rnd (rnd (((wholeYears - 1 : Int) : ℚ) + startResidual) + endResidual))

/-- day_count_calculator.py:59-94, 124-169, 201-205 on two dates. -/
def accrual (rnd : ℚ → ℚ) (s e : PyDate) (dcc : DayCountConvention) : Except PyErr ℚ :=
  if s ≤ e then
    match dcc with
    | .act360 => actOver rnd 360 s e
    | .act365 => actOver rnd 365 s e
    | .act36525 => actOver rnd (36525 / 100) s e
    | .thirty360 => .ok (rnd ((DayCount.thirty360Days s e : ℚ) / 360))
    | .actAct => actAct rnd s e
    | .unknown => .error .typeError
  else .error .valueError

/-- key_rate.py:90-99 and 169-256, as `KeyRate.call`: two accruals, a division and a multiplication. -/
def keyRateCall (rnd : ℚ → ℚ) (k : KeyRate) (d : PyDate) : Except PyErr ℚ :=
  match k.prior, k.next with
  | none, following =>
    if d ≤ k.keyDate then .ok k.bump
    else match following with
      | none => .error .typeError
      | some f =>
        if f ≤ d then .ok 0
        else do
          let timeToNext ← accrual rnd d f k.dcc
          let totalLength ← accrual rnd k.keyDate f k.dcc
          let q ← div rnd timeToNext totalLength
          .ok (rnd (k.bump * q))
  | some p, none =>
    if k.keyDate ≤ d then .ok k.bump
    else if d ≤ p then .ok 0
    else do
      let timeToPrevious ← accrual rnd p d k.dcc
      let totalLength ← accrual rnd p k.keyDate k.dcc
      let q ← div rnd timeToPrevious totalLength
      .ok (rnd (q * k.bump))
  | some p, some f =>
    if f ≤ d ∨ d ≤ p then .ok 0
    else if d ≤ k.keyDate then do
      let timeSincePrior ← accrual rnd p d k.dcc
      let totalTime ← accrual rnd p k.keyDate k.dcc
      let q ← div rnd timeSincePrior totalTime
      .ok (rnd (q * k.bump))
    else do
      let timeToNext ← accrual rnd d f k.dcc
      let totalTime ← accrual rnd k.keyDate f k.dcc
      let q ← div rnd timeToNext totalTime
      .ok (rnd (q * k.bump))

/-- The builtin `sum` over floats, from 0, left to right (CPython up to 3.11; later versions use compensated summation). -/
def sum (rnd : ℚ → ℚ) (l : List ℚ) : ℚ := l.foldl (fun acc x => rnd (acc + x)) 0

/-- key_rate.py:279-285 and 496-504, the combined adjustment of a collection: `sum` of the key rates' values. -/
def combined (rnd : ℚ → ℚ) (h : KRHeap) (c : KeyRateCollection) (d : PyDate) : Except PyErr ℚ := do
  let xs ← collect (fun i => keyRateCall rnd (h i) d) c.keyRates
  .ok (sum rnd xs)

/-- base_cashflow.py:70-77, `Cashflow.present_value`: a product for every payment, and `sum`. -/
def presentValue (rnd : ℚ → ℚ) (schedule : List Payment) (curve : DiscountFn) : Except PyErr ℚ := do
  let xs ← collect (fun (pa : PyDate × ℚ) => do
      let df ← curve.call pa.1
      .ok (rnd (df * pa.2)))
    (schedule.filterMap (fun p => match p.amount with
      | some a => if curve.referenceDate ≤ p.date then some (p.date, a) else none
      | none => none))
  .ok (sum rnd xs)

/-- scipy.interpolate.interp1d(kind='linear') on a sorted grid (base_curve.py:85-88), evaluated as numpy does it:
`slope * (x - x0) + y0` with `slope = (y1 - y0) / (x1 - x0)`. -/
def interpLinear (rnd : ℚ → ℚ) : List (ℚ × ℚ) → ℚ → Except PyErr ℚ
  | [], _ => .error .valueError
  | [(x0, y0)], x => if x = x0 then .ok y0 else .error .valueError
  | (x0, y0) :: (x1, y1) :: rest, x =>
    if x < x0 then .error .valueError
    else if x < x1 then .ok (rnd (rnd (rnd (rnd (y1 - y0) / rnd (x1 - x0)) * rnd (x - x0)) + y0))
    else interpLinear rnd ((x1, y1) :: rest) x

/-- base_curve.py:77-89: the grid with rounded axis values. -/
def makeGrid (rnd : ℚ → ℚ) (ref : PyDate) (dcc : DayCountConvention) (knots : List Knot) : Except PyErr (List (ℚ × ℚ)) :=
  collect (fun k : Knot => do
    let x ← accrual rnd ref k.date dcc
    .ok (x, k.value)) knots

/-- base_curve.py:31-50, 59-127: constructing a curve from knots and evaluating it at a date between the first and the last knot,
without adjustment (line 96 adds the integer 0). -/
def curveValue (rnd : ℚ → ℚ) (values : List Knot) (dcc : DayCountConvention) (ref : PyDate) (linear : Bool) (d : PyDate) :
    Except PyErr ℚ := do
  let grid ← makeGrid rnd ref dcc (pySorted Knot.date values)
  let x ← accrual rnd ref d dcc
  let y ← if linear then interpLinear rnd grid x else interpPrevious grid x
  .ok (rnd (y + 0))

end Verif.Rounded
