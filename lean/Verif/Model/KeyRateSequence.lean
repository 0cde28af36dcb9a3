/-
Model of `KeyRateCollection` (fixedIncome/src/risk/key_rate.py:259) as a `collections.abc.MutableSequence`: slices, the mixin
methods it inherits, and its own `insert`.
-/
import Verif.Model.KeyRate
import Verif.Model.CashflowSequence

namespace Verif.KeyRateCollection

/-- `v is value or v == value` (CPython Lib/_collections_abc.py, Sequence), with key_rate.py:55-65 for `==`. -/
def same (h : KRHeap) (v value : Nat) : Bool := v == value || (h v).eq (h value)

/-- `Sequence.__contains__`, over `__iter__` (key_rate.py:375-377). -/
def contains (h : KRHeap) (c : KeyRateCollection) (value : Nat) : Bool := c.keyRates.any fun v => same h v value

/-- `Sequence.count`, over `__iter__` (key_rate.py:375-377). -/
def count (h : KRHeap) (c : KeyRateCollection) (value : Nat) : Nat := (c.keyRates.filter fun v => same h v value).length

/-- `Sequence.__reversed__`: `self[i]` for `i` from the last position down to 0 (key_rate.py:287-294, 353-355). -/
def reversedItems (c : KeyRateCollection) : Except PyErr (List Nat) :=
  ((List.range c.keyRates.length).reverse).mapM fun i : Nat => c.getItem (i : Int)

/-- `stop is None or i < stop` in `Sequence.index`. -/
def before (stop : Option Int) (i : Int) : Bool :=
  match stop with
  | none => true
  | some s => decide (i < s)

/-- `Sequence.index`, the loop from position `i` on: `rest` are the key rates from there on, so that `self[i]` raises
IndexError, which ends the loop, exactly when `rest` is empty. -/
def indexLoop (h : KRHeap) (value : Nat) (stop : Option Int) : List Nat → Int → Except PyErr Int
  | [], _ => .error .valueError
  | v :: rest, i =>
    if before stop i then
      if same h v value then .ok i else indexLoop h value stop rest (i + 1)
    else .error .valueError

/-- `Sequence.index(value, start=0, stop=None)`: negative bounds count from the end. -/
def index (h : KRHeap) (c : KeyRateCollection) (value : Nat) (start : Int := 0) (stop : Option Int := none) : Except PyErr Int :=
  let s : Int := if start < 0 then max (c.keyRates.length + start) 0 else start
  let e : Option Int := stop.map fun x : Int => if x < 0 then x + c.keyRates.length else x
  indexLoop h value e (c.keyRates.drop s.toNat) s

/-- `MutableSequence.pop(index=-1)`: `v = self[index]; del self[index]; return v` (key_rate.py:287-294, 340-346). -/
def pop (h : KRHeap) (c : KeyRateCollection) (i : Int := -1) : Except PyErr Nat × KeyRateCollection × KRHeap :=
  match c.getItem i with
  | .error e => (.error e, c, h)
  | .ok v =>
    match c.delItem h i with
    | (.ok _, c', h') => (.ok v, c', h')
    | (.error e, c', h') => (.error e, c', h')

/-- `MutableSequence.remove`: `del self[self.index(value)]`. -/
def remove (h : KRHeap) (c : KeyRateCollection) (value : Nat) : Except PyErr Unit × KeyRateCollection × KRHeap :=
  match c.index h value with
  | .error e => (.error e, c, h)
  | .ok i => c.delItem h i

/-- `MutableSequence.clear`: `while True: self.pop()` until IndexError.  Every call of `pop` that does not raise shortens the
collection, so `n` = length + 1 rounds suffice (`clear_ne_fuel`). -/
def clearLoop : Nat → KRHeap → KeyRateCollection → Except PyErr Unit × KeyRateCollection × KRHeap
  | 0, h, c => (.error .fuel, c, h)
  | n + 1, h, c =>
    match c.pop h with
    | (.ok _, c', h') => clearLoop n h' c'
    | (.error .indexError, c', h') => (.ok (), c', h')
    | (.error e, c', h') => (.error e, c', h')

/-- `MutableSequence.clear`. -/
def clear (h : KRHeap) (c : KeyRateCollection) : Except PyErr Unit × KeyRateCollection × KRHeap :=
  clearLoop (c.keyRates.length + 1) h c

/-- `MutableSequence.append`: `self.insert(len(self), value)`, but key_rate.py:348-351 takes a single argument: TypeError. -/
def append (_h : KRHeap) (_c : KeyRateCollection) (_value : Nat) : Except PyErr KeyRateCollection := .error .typeError

/-- `MutableSequence.extend`: `append` for every element. -/
def extend (h : KRHeap) (c : KeyRateCollection) : List Nat → Except PyErr KeyRateCollection
  | [] => .ok c
  | v :: rest => do
    let c' ← c.append h v
    extend h c' rest

/-- `c.insert(i, value)` as MutableSequence documents it; key_rate.py:348 takes a single argument: TypeError. -/
def insertAt (_c : KeyRateCollection) (_i : Int) (_value : Nat) : Except PyErr KeyRateCollection := .error .typeError

/-- `MutableSequence.reverse`, the first exchange `self[0], self[n-1] = self[n-1], self[0]` (key_rate.py:296-338); `reverse` goes on
with the other pairs, `n // 2` in all, if this one succeeds. -/
def exchange (h : KRHeap) (c : KeyRateCollection) (i j : Int) : Except PyErr Unit × KeyRateCollection × KRHeap :=
  match c.getItem j, c.getItem i with
  | .ok vj, .ok vi =>
    match c.setItem h i vj with
    | (.ok _, c', h') => c'.setItem h' j vi
    | (.error e, c', h') => (.error e, c', h')
  | .error e, _ => (.error e, c, h)
  | _, .error e => (.error e, c, h)

/-- `MutableSequence.reverse` from pair `i` on, `m` pairs left. -/
def reverseLoop (n : Nat) : Nat → Nat → KRHeap → KeyRateCollection → Except PyErr Unit × KeyRateCollection × KRHeap
  | 0, _, h, c => (.ok (), c, h)
  | m + 1, i, h, c =>
    match c.exchange h i ((n : Int) - i - 1) with
    | (.ok _, c', h') => reverseLoop n m (i + 1) h' c'
    | (.error e, c', h') => (.error e, c', h')

/-- `MutableSequence.reverse`. -/
def reverse (h : KRHeap) (c : KeyRateCollection) : Except PyErr Unit × KeyRateCollection × KRHeap :=
  reverseLoop c.keyRates.length (c.keyRates.length / 2) 0 h c

/-- key_rate.py:289-291 for any slice: a new collection of the selected objects. -/
def getPySlice (h : KRHeap) (c : KeyRateCollection) (s : PySlice) : KROutcome KeyRateCollection :=
  match s.apply c.keyRates with
  | .ok l => create h l
  | .error e => (.error e, h)

/-- key_rate.py:296-302 for a slice, `c[s] = value`: `self[key]` builds a new collection of the selected objects, which has no
`prior_date`: AttributeError. -/
def setSlice (h : KRHeap) (c : KeyRateCollection) (s : PySlice) (_value : Nat) : Except PyErr Unit × KeyRateCollection × KRHeap :=
  match c.getPySlice h s with
  | (.ok _, h') => (.error .attributeError, c, h')
  | (.error e, h') => (.error e, c, h')

/-- key_rate.py:340-346 for a slice: the selected positions are removed. -/
def delSlice (h : KRHeap) (c : KeyRateCollection) (s : PySlice) : Except PyErr Unit × KeyRateCollection × KRHeap :=
  match s.indices c.keyRates.length with
  | .error e => (.error e, c, h)
  | .ok idx =>
    let ids := (c.keyRates.zipIdx.filter fun p => !idx.contains (p.2 : Int)).map Prod.fst
    let r := setDates h ids
    (r.1, { c with keyRates := ids }, r.2)

end Verif.KeyRateCollection
