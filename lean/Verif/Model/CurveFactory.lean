/-
Model of YieldCurveFactory, fixedIncome/src/curves/yield_curves/yield_curve.py:240-357.  `scipy.optimize.root` is represented by the points
at which it evaluates the function, which it may choose in any way (the first is the start), and by the solution it returns.
-/
import Verif.Model.Curve

namespace Verif

/-- What the factory uses of an instrument (yield_curve.py:42, 277, 292, 295, 318, 341): its price, `to_knot_value_pair()` and
`present_value`. -/
structure FactoryInstrument where
  price : ℚ
  knotValue : Except PyErr Knot
  value : PresentValueable

namespace CurveFactory

/-- yield_curve.py:280-289, 321-330 with 42: the curve the factory starts from; its knot values are the instruments' knot values, i.e.
their prices. -/
def initialCurve (instruments : List FactoryInstrument) (method : InterpolationMethod) (ref : PyDate) : Except PyErr YieldCurve := do
  let knots ← collect FactoryInstrument.knotValue instruments
  YieldCurve.create knots [] method .actAct .continuouslyCompoundedYield ref .constant .constant

/-- yield_curve.py:332-341: the function whose root is searched when the instrument number `index` is fitted, and the curve it leaves
behind. -/
def bootstrapDiff (exp : ℚ → ℚ) (index : Nat) (a : FactoryInstrument) (yc : YieldCurve) (x : ℚ) : Except PyErr ℚ × YieldCurve :=
  match yc.base.knots[index]? with
  | none => (.error .indexError, yc)
  | some k =>
    match yc.base.resetValue ⟨k.date, x⟩ index with
    | (.error e, base) => (.error e, ⟨base, yc.space, yc.discountCurve⟩)
    | (.ok _, base) =>
      match YieldCurve.presentValue exp ⟨base, yc.space, yc.discountCurve⟩ a.value noAdjustment with
      | (.error e, yc') => (.error e, yc')
      | (.ok v, yc') => (.ok (v - a.price), yc')

/-- The evaluations of `scipy.optimize.root`, one after the other (yield_curve.py:346-348): the values of the function.  An exception ends
them. -/
def evaluate (f : YieldCurve → ℚ → Except PyErr ℚ × YieldCurve) : List ℚ → YieldCurve → Except PyErr (List ℚ) × YieldCurve
  | [], yc => (.ok [], yc)
  | x :: xs, yc =>
    match f yc x with
    | (.error e, yc') => (.error e, yc')
    | (.ok v, yc') =>
      match evaluate f xs yc' with
      | (.error e, yc'') => (.error e, yc'')
      | (.ok vs, yc'') => (.ok (v :: vs), yc'')

/-- yield_curve.py:353-354. -/
def extraPresentValue (exp : ℚ → ℚ) (index : Nat) (a : FactoryInstrument) (yc : YieldCurve) : Except PyErr Unit × YieldCurve :=
  if index = 4 then
    match yc.presentValue exp a.value noAdjustment with
    | (.error e, yc') => (.error e, yc')
    | (.ok _, yc') => (.ok (), yc')
  else (.ok (), yc)

/-- yield_curve.py:344-354: the loop over the instruments, from number `index` on.  `points i` are the points at which the search number `i`
evaluates its function after the start `0.0`.  The solution is put into a knot which is not used (lines 350-351).  The result lists the
values of the functions. -/
def bootstrapLoop (exp : ℚ → ℚ) (points : Nat → List ℚ) : Nat → List FactoryInstrument → YieldCurve → Except PyErr (List (List ℚ)) × YieldCurve
  | _, [], yc => (.ok [], yc)
  | index, a :: as, yc =>
    match evaluate (bootstrapDiff exp index a) (0 :: points index) yc with
    | (.error e, yc1) => (.error e, yc1)
    | (.ok vs, yc1) =>
      match extraPresentValue exp index a yc1 with
      | (.error e, yc2) => (.error e, yc2)
      | (.ok _, yc2) =>
        match bootstrapLoop exp points (index + 1) as yc2 with
        | (.error e, yc3) => (.error e, yc3)
        | (.ok vss, yc3) => (.ok (vs :: vss), yc3)

/-- yield_curve.py:308-356: the curve, and the values of the functions given to `scipy.optimize.root`. -/
def bootstrapYieldCurve (exp : ℚ → ℚ) (instruments : List FactoryInstrument) (method : InterpolationMethod) (ref : PyDate)
    (points : Nat → List ℚ) : Except PyErr (YieldCurve × List (List ℚ)) := do
  let yc ← initialCurve instruments method ref
  match bootstrapLoop exp points 0 instruments yc with
  | (.error e, _) => .error e
  | (.ok vss, yc') => .ok (yc', vss)

/-- yield_curve.py:292-294, 303-305: the knots holding the given values. -/
def knotsWith (instruments : List FactoryInstrument) (xs : List ℚ) : Except PyErr (List Knot) :=
  collect (fun ax : FactoryInstrument × ℚ => do
    let k ← ax.1.knotValue
    .ok ⟨k.date, ax.2⟩) (instruments.zip xs)

/-- yield_curve.py:292-294, 303-305: set the knots. -/
def setKnots (instruments : List FactoryInstrument) (yc : YieldCurve) (xs : List ℚ) : Except PyErr Unit × YieldCurve :=
  match knotsWith instruments xs with
  | .error e => (.error e, yc)
  | .ok knots =>
    let r := yc.base.resetValues knots
    (r.1, ⟨r.2, yc.space, yc.discountCurve⟩)

/-- yield_curve.py:295: the present values, one after the other. -/
def presentValues (exp : ℚ → ℚ) : List FactoryInstrument → YieldCurve → Except PyErr (List ℚ) × YieldCurve
  | [], yc => (.ok [], yc)
  | a :: as, yc =>
    match yc.presentValue exp a.value noAdjustment with
    | (.error e, yc1) => (.error e, yc1)
    | (.ok v, yc1) =>
      match presentValues exp as yc1 with
      | (.error e, yc2) => (.error e, yc2)
      | (.ok vs, yc2) => (.ok (v :: vs), yc2)

/-- yield_curve.py:291-296: the function whose root is searched, and the curve it leaves behind. -/
def constructDiffs (exp : ℚ → ℚ) (instruments : List FactoryInstrument) (yc : YieldCurve) (xs : List ℚ) :
    Except PyErr (List ℚ) × YieldCurve :=
  match setKnots instruments yc xs with
  | (.error e, yc1) => (.error e, yc1)
  | (.ok _, yc1) =>
    match presentValues exp instruments yc1 with
    | (.error e, yc2) => (.error e, yc2)
    | (.ok pvs, yc2) => (.ok (List.zipWith (fun v (a : FactoryInstrument) => v - a.price) pvs instruments), yc2)

/-- The evaluations of `scipy.optimize.root` on a function of several numbers (yield_curve.py:298-300): the values of the function. -/
def evaluateMany (f : YieldCurve → List ℚ → Except PyErr (List ℚ) × YieldCurve) :
    List (List ℚ) → YieldCurve → Except PyErr (List (List ℚ)) × YieldCurve
  | [], yc => (.ok [], yc)
  | xs :: xss, yc =>
    match f yc xs with
    | (.error e, yc') => (.error e, yc')
    | (.ok vs, yc') =>
      match evaluateMany f xss yc' with
      | (.error e, yc'') => (.error e, yc'')
      | (.ok vss, yc'') => (.ok (vs :: vss), yc'')

/-- yield_curve.py:271-306; `points` are the points evaluated after the start (all zeros), `solution` is the solver's result.  The
instruments are a list: an iterator would be empty after line 275.  Line 275 reads the attribute `maturity_date` without using it.  The
result is the curve and the values of the function given to `scipy.optimize.root`. -/
def constructYieldCurve (exp : ℚ → ℚ) (instruments : List FactoryInstrument) (method : InterpolationMethod) (ref : PyDate)
    (points : List (List ℚ)) (solution : List ℚ) : Except PyErr (YieldCurve × List (List ℚ)) := do
  let yc ← initialCurve instruments method ref
  match evaluateMany (constructDiffs exp instruments) (instruments.map (fun _ => 0) :: points) yc with
  | (.error e, _) => .error e
  | (.ok vss, yc1) =>
    match setKnots instruments yc1 solution with
    | (.error e, _) => .error e
    | (.ok _, yc2) => .ok (yc2, vss)

/-- yield_curve.py:248-269: the space YIELD_TO_MATURITY is one in which no discount curve exists. -/
def constructCurveFromYields (instruments : List FactoryInstrument) (method : InterpolationMethod) (ref : PyDate) :
    Except PyErr YieldCurve := do
  let knots ← collect FactoryInstrument.knotValue instruments
  YieldCurve.create knots [] method .actAct .other ref .constant .constant

end CurveFactory
end Verif
