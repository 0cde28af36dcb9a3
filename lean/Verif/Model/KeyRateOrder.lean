/-
Model of the comparison operators of `KeyRate` and of the private adding methods of `KeyRateCollection`
(fixedIncome/src/risk/key_rate.py).
-/
import Verif.Model.KeyRateSequence

namespace Verif

namespace KeyRate

/-- key_rate.py:67-71, `__le__`. -/
def le (a b : KeyRate) : Bool := decide (a.keyDate ≤ b.keyDate)

/-- key_rate.py:73-76, `__lt__`. -/
def lt (a b : KeyRate) : Bool := decide (a.keyDate < b.keyDate)

/-- key_rate.py:78-82, `__gt__`. -/
def gt (a b : KeyRate) : Bool := decide (b.keyDate < a.keyDate)

/-- key_rate.py:84-88, `__ge__`. -/
def ge (a b : KeyRate) : Bool := decide (b.keyDate ≤ a.keyDate)

/-- `a != b`: python derives `__ne__` from `__eq__` (key_rate.py:55-65). -/
def ne (a b : KeyRate) : Bool := !a.eq b

/-- key_rate.py:101-109, `__hash__`: `hash` of the tuple of convention and key date; python's tuple hash is the parameter `hash`. -/
def hashValue (hash : DayCountConvention × PyDate → Int) (k : KeyRate) : Int := hash (k.dcc, k.keyDate)

end KeyRate

namespace KeyRateCollection

/-- key_rate.py:357-359, `__bool__`. -/
def truthy (c : KeyRateCollection) : Bool := !c.keyRates.isEmpty

/-- key_rate.py:111-115, `KeyRate.__iter__`: the key rate at address `i` as an iterable. -/
def iterOne (i : Nat) : List Nat := [i]

/-- key_rate.py:423-439, `_add_key_rate_collection`: `out` is a possible outcome (the set union is enumerated in an unspecified
order).  A ValueError of the constructor is caught and `self` is returned; the dates set before it was raised stay. -/
def AddsPrivate (h : KRHeap) (c d : KeyRateCollection) (out : KROutcome KeyRateCollection) : Prop :=
  ∃ order : List Nat, order.Perm (union h c.keyRates d.keyRates) ∧
    out = match create h order with
      | (.error .valueError, h') => (.ok c, h')
      | r => r

/-- key_rate.py:441-454, `_add_key_rate`: outcome, `self` afterwards, heap afterwards.  `bisect_right` compares with `KeyRate.__lt__`
(key_rate.py:73-76); `self[insert_index]` raises IndexError past the end. -/
def addPrivate (h : KRHeap) (c : KeyRateCollection) (x : Nat) : Except PyErr KeyRateCollection × KeyRateCollection × KRHeap :=
  let i := bisectRight (fun j => (h j).keyDate) c.keyRates (h x).keyDate
  match c.getItem i with
  | .error e => (.error e, c, h)
  | .ok y =>
    let c' : KeyRateCollection := if (h y).ne (h x) then { c with keyRates := c.keyRates.insertIdx i x } else c
    let r := create h c'.keyRates
    (r.1, c', r.2)

end KeyRateCollection
end Verif
