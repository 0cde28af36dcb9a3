/-
Model of fixedIncome/src/curves/base_curve.py on datetime knots, of the two curves which a short-rate model builds from its
simulated path (fixedIncome/src/stochastics/short_rate_models/base_short_rate_model.py:124-186) and of
fixedIncome/src/assets/base_cashflow.py:70-77 on them.
-/
import Verif.Model.Stochastic
import Verif.Model.Curve

namespace Verif

/-- base_curve.py:18-20 with a datetime knot. -/
structure DtKnot where
  knot : PyDatetime
  value : ℝ

/-- scipy.interpolate.interp1d(kind='linear') on a sorted grid with real values (base_curve.py:85-88); ValueError outside the
grid. -/
noncomputable def interpLinearReal : List (ℚ × ℝ) → ℚ → Except PyErr ℝ
  | [], _ => .error .valueError
  | [(x0, y0)], x => if x = x0 then .ok y0 else .error .valueError
  | (x0, y0) :: (x1, y1) :: rest, x =>
    if x < x0 then .error .valueError
    else if x < x1 then .ok (y0 + ((x - x0 : ℚ) : ℝ) * ((y1 - y0) / ((x1 - x0 : ℚ) : ℝ)))
    else interpLinearReal ((x1, y1) :: rest) x

/-- base_curve.py:23-50: the attributes of a linearly interpolated `Curve` with datetime knots and a datetime reference; `grid` is
the data of its interpolator. -/
structure DtCurve where
  knots : List DtKnot
  dcc : DayCountConvention
  reference : PyDatetime
  left : EndBehavior
  right : EndBehavior
  grid : List (ℚ × ℝ)

namespace DtCurve

/-- base_curve.py:77-89: the interpolation grid. -/
def makeGrid (ref : PyDatetime) (dcc : DayCountConvention) (knots : List DtKnot) : Except PyErr (List (ℚ × ℝ)) :=
  collect (fun k => do
    let x ← dtAccrual ref k.knot dcc
    .ok (x, k.value)) knots

/-- base_curve.py:31-50 with the LINEAR method and a reference datetime. -/
def create (values : List DtKnot) (dcc : DayCountConvention) (ref : PyDatetime) (left right : EndBehavior) :
    Except PyErr DtCurve := do
  let knots := pySorted DtKnot.knot values
  let grid ← makeGrid ref dcc knots
  .ok ⟨knots, dcc, ref, left, right, grid⟩

/-- base_curve.py:59-61, 92-127 without an adjustment.  Comparing a `date` with a datetime knot (line 100) raises TypeError. -/
noncomputable def call (c : DtCurve) (q : DateLike) : Except PyErr ℝ :=
  match c.knots.head?, c.knots.getLast? with
  | some first, some last =>
    match q with
    | .date _ => .error .typeError
    | .datetime d micros h =>
      let t : PyDatetime := ⟨d, micros, h⟩
      if t < first.knot then
        match c.left with
        | .constant => .ok first.value
        | .error => .error .valueError
      else if last.knot < t then
        match c.right with
        | .constant => .ok last.value
        | .error => .error .valueError
      else do
        let x ← dtAccrual c.reference t c.dcc
        interpLinearReal c.grid x
  | _, _ => .error .indexError

/-- base_cashflow.py:18-21 with a date or a datetime as payment date and a real amount. -/
structure RealPayment where
  date : DateLike
  amount : Option ℝ

/-- base_cashflow.py:70-77 (and base_curve.py:170-176) on a curve with a datetime reference.  A payment that is None is skipped
before its date is looked at; comparing a `date` with the reference datetime raises TypeError. -/
noncomputable def presentValue (c : DtCurve) : List RealPayment → Except PyErr ℝ
  | [] => .ok 0
  | p :: ps =>
    match p.amount with
    | none => presentValue c ps
    | some a =>
      match p.date with
      | .date _ => .error .typeError
      | .datetime d micros h =>
        if c.reference ≤ (⟨d, micros, h⟩ : PyDatetime) then do
          let df ← c.call (.datetime d micros h)
          let rest ← presentValue c ps
          .ok (df * a + rest)
        else presentValue c ps

end DtCurve

namespace ShortRateModel
variable {p : Nat}

/-- base_short_rate_model.py:156-186: the discount curve of the simulated path. -/
noncomputable def createDiscountCurve (m : ShortRateModel p) (datetimes : Option (List PyDatetime)) :
    Except PyErr DtCurve × ShortRateModel p :=
  match m.discountKnots datetimes with
  | (.error e, m') => (.error e, m')
  | (.ok kvs, m') => (DtCurve.create (kvs.map fun kv => ⟨kv.1, kv.2⟩) m'.bm.dcc m'.bm.start .error .error, m')

/-- base_short_rate_model.py:124-154: the accrual curve of the simulated path. -/
noncomputable def accrualCurve (m : ShortRateModel p) (datetimes : Option (List PyDatetime)) : Except PyErr DtCurve := do
  let kvs ← m.accrualKnots datetimes
  DtCurve.create (kvs.map fun kv => ⟨kv.1, kv.2⟩) m.bm.dcc m.bm.start .error .error

end ShortRateModel
end Verif
