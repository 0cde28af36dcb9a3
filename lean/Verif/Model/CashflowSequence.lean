/-
Model of the sequence and set protocols of fixedIncome/src/assets/base_cashflow.py, with python's slices and the mixin methods
that `CashflowCollection` inherits from `collections.abc.Set`.
-/
import Verif.Model.Cashflow

namespace Verif

/-- A python `slice(start, stop, step)` of integers (base_cashflow.py:41-43, key_rate.py:290-292). -/
structure PySlice where
  start : Option Int
  stop : Option Int
  step : Option Int

/-- CPython `range(start, stop, step)` for a step other than 0. -/
def pyRange (start stop step : Int) : List Int :=
  if 0 < step then (List.range ((stop - start + step - 1) / step).toNat).map fun k : Nat => start + k * step
  else (List.range ((start - stop - step - 1) / (-step)).toNat).map fun k : Nat => start + k * step

namespace PySlice

/-- One bound in CPython `PySlice_AdjustIndices`: negative bounds count from the end, then the bound is brought into range. -/
def adjust (n lower upper i : Int) : Int := if i < 0 then max (i + n) lower else min i upper

/-- CPython `slice.indices(n)`, the first bound. -/
def first (s : PySlice) (step : Int) (n : Nat) : Int :=
  match s.start with
  | none => if step < 0 then n - 1 else 0
  | some i => if step < 0 then adjust n (-1) (n - 1) i else adjust n 0 n i

/-- CPython `slice.indices(n)`, the second bound. -/
def last (s : PySlice) (step : Int) (n : Nat) : Int :=
  match s.stop with
  | none => if step < 0 then -1 else n
  | some i => if step < 0 then adjust n (-1) (n - 1) i else adjust n 0 n i

/-- CPython `slice.indices(n)`: the positions selected, in order; a step of 0 is a ValueError. -/
def indices (s : PySlice) (n : Nat) : Except PyErr (List Int) :=
  let step := s.step.getD 1
  if step = 0 then .error .valueError else .ok (pyRange (s.first step n) (s.last step n) step)

/-- `l[s]` for a list `l` and a slice `s`.  Every position of `indices` is in the list (`indices_bounds`). -/
def apply {α : Type} (s : PySlice) (l : List α) : Except PyErr (List α) := do
  let idx ← s.indices l.length
  .ok (idx.filterMap fun i => l[i.toNat]?)

end PySlice

/-- `l[i]` for a list and an integer: negative indices count from the end. -/
def pyGetItem {α : Type} (l : List α) (i : Int) : Except PyErr α :=
  let j := if i < 0 then i + l.length else i
  if j < 0 then .error .indexError
  else match l[j.toNat]? with
    | some a => .ok a
    | none => .error .indexError

namespace Cashflow

/-- base_cashflow.py:45-46, `cashflow[i]`. -/
def getItem (schedule : List Payment) (i : Int) : Except PyErr Payment := pyGetItem schedule i

/-- base_cashflow.py:41-43, `cashflow[slice]`: a new cashflow, whose constructor sorts. -/
def getSlice (schedule : List Payment) (s : PySlice) : Except PyErr (List Payment) := do
  let l ← s.apply schedule
  .ok (create l)

/-- base_cashflow.py:36-37. -/
def len (schedule : List Payment) : Nat := schedule.length

/-- base_cashflow.py:48-50. -/
def getPaymentAmounts (schedule : List Payment) : List (Option ℚ) := schedule.map Payment.amount

/-- base_cashflow.py:52-54. -/
def getPaymentDates (schedule : List Payment) : List PyDate := schedule.map Payment.date

end Cashflow

namespace CashflowCollection
variable {ν : Type}

/-- base_cashflow.py:122-124: `__iter__` returns a `dict_items` view, which is not an iterator, so `iter(c)` and `for x in c` raise
TypeError ("iter() returned non-iterator"). -/
def iterate (_c : CashflowCollection ν) : Except PyErr (List (CashflowKey × ν)) := .error .typeError

/-- `collections.abc.Set.__le__` (base_cashflow.py:101 inherits it): False for a larger collection, otherwise a loop over `self`;
`member` is the test `elem not in other`. -/
def le (c d : CashflowCollection ν) (member : CashflowKey × ν → Bool) : Except PyErr Bool :=
  if d.len < c.len then .ok false
  else do
    let elems ← c.iterate
    .ok (elems.all member)

/-- `collections.abc.Set.__lt__`. -/
def lt (c d : CashflowCollection ν) (member : CashflowKey × ν → Bool) : Except PyErr Bool :=
  if c.len < d.len then c.le d member else .ok false

/-- `collections.abc.Set.__ge__`: False for a smaller collection, otherwise a loop over `other`. -/
def ge (c d : CashflowCollection ν) (member : CashflowKey × ν → Bool) : Except PyErr Bool :=
  if c.len < d.len then .ok false
  else do
    let elems ← d.iterate
    .ok (elems.all member)

/-- `collections.abc.Set.__eq__`. -/
def eq (c d : CashflowCollection ν) (member : CashflowKey × ν → Bool) : Except PyErr Bool :=
  if c.len = d.len then c.le d member else .ok false

/-- `x in l` for a python list of instruments: `y is x or y == x` for each element in turn.  Instruments are addresses, `heap` gives
their attributes (a list of assets, e.g. base_portfolio.py:17-24). -/
def inList (heap : Nat → CashflowCollection ν) (member : CashflowKey × ν → Bool) (x : Nat) : List Nat → Except PyErr Bool
  | [] => .ok false
  | y :: ys =>
    if y = x then .ok true
    else do
      let b ← (heap y).eq (heap x) member
      if b then .ok true else inList heap member x ys

end CashflowCollection
end Verif
