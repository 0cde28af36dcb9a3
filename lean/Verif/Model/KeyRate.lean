/-
Model of fixedIncome/src/risk/key_rate.py.  Key rates are mutable objects shared between collections, so the model has
a heap of key rates; a collection is a list of addresses.
-/
import Verif.Model.PyList
import Verif.Model.DayCount
import Verif.Model.Cashflow
import Verif.Lemmas.Except

namespace Verif

/-- key_rate.py:10-53: the attributes of a `KeyRate`.  The adjustment function is not stored: every setter rebuilds it
from the other attributes (key_rate.py:31, 127, 147, 167), so it is always the one of the current attributes. -/
structure KeyRate where
  dcc : DayCountConvention
  keyDate : PyDate
  prior : Option PyDate
  next : Option PyDate
  bump : ℚ
deriving DecidableEq

/-- risk/risk_metrics.py: `ONE_BASIS_POINT = 0.0001` (key_rate.py:14). -/
def oneBasisPoint : ℚ := 1 / 10000

namespace KeyRate

/-- key_rate.py:20-31. -/
def create (dcc : DayCountConvention) (keyDate : PyDate) (prior next : Option PyDate) : KeyRate :=
  ⟨dcc, keyDate, prior, next, oneBasisPoint⟩

/-- key_rate.py:55-65, `__eq__`. -/
def eq (a b : KeyRate) : Bool := a.dcc == b.dcc && a.keyDate == b.keyDate

/-- key_rate.py:90-99 and 169-256: calling the key rate.  The branches are the `match` cases in their order; the first
case also catches a missing next date, where comparing a date with None raises TypeError. -/
def call (k : KeyRate) (d : PyDate) : Except PyErr ℚ :=
  match k.prior, k.next with
  | none, following =>
    if d ≤ k.keyDate then .ok k.bump
    else match following with
      | none => .error .typeError
      | some f =>
        if f ≤ d then .ok 0
        else do
          let timeToNext ← DayCount.accrual d f k.dcc
          let totalLength ← DayCount.accrual k.keyDate f k.dcc
          let q ← pyDiv timeToNext totalLength
          .ok (k.bump * q)
  | some p, none =>
    if k.keyDate ≤ d then .ok k.bump
    else if d ≤ p then .ok 0
    else do
      let timeToPrevious ← DayCount.accrual p d k.dcc
      let totalLength ← DayCount.accrual p k.keyDate k.dcc
      let q ← pyDiv timeToPrevious totalLength
      .ok (q * k.bump)
  | some p, some f =>
    if f ≤ d ∨ d ≤ p then .ok 0
    else if d ≤ k.keyDate then do
      let timeSincePrior ← DayCount.accrual p d k.dcc
      let totalTime ← DayCount.accrual p k.keyDate k.dcc
      let q ← pyDiv timeSincePrior totalTime
      .ok (q * k.bump)
    else do
      let timeToNext ← DayCount.accrual d f k.dcc
      let totalTime ← DayCount.accrual k.keyDate f k.dcc
      let q ← pyDiv timeToNext totalTime
      .ok (q * k.bump)

/-- key_rate.py:121-127. -/
def setBumpVal (k : KeyRate) (b : ℚ) : KeyRate := { k with bump := b }

/-- key_rate.py:129-147. -/
def setPriorDate (k : KeyRate) (p : Option PyDate) : Except PyErr KeyRate :=
  match p with
  | none => .ok { k with prior := none }
  | some x => if k.keyDate ≤ x then .error .valueError else .ok { k with prior := some x }

/-- key_rate.py:149-167. -/
def setNextDate (k : KeyRate) (n : Option PyDate) : Except PyErr KeyRate :=
  match n with
  | none => .ok { k with next := none }
  | some x => if x ≤ k.keyDate then .error .valueError else .ok { k with next := some x }

end KeyRate

/-- The heap of key-rate objects. -/
abbrev KRHeap := Nat → KeyRate

/-- Outcome of a method that may raise after mutating key rates. -/
abbrev KROutcome (α : Type) := Except PyErr α × KRHeap

/-- Sequencing: stop at the first exception, keeping the mutations made so far. -/
def KROutcome.andThen {α β : Type} (x : KROutcome α) (f : α → KRHeap → KROutcome β) : KROutcome β :=
  match x with
  | (.ok a, h) => f a h
  | (.error e, h) => (.error e, h)

/-- Method call `obj.f(...)` on the object at address `i`. -/
def KRHeap.modify (h : KRHeap) (i : Nat) (f : KeyRate → Except PyErr KeyRate) : KROutcome Unit :=
  match f (h i) with
  | .ok k => (.ok (), Function.update h i k)
  | .error e => (.error e, h)

/-- key_rate.py:259-273: the attributes of a `KeyRateCollection` (addresses of its key rates, iteration index).  The
combined adjustment function reads `self` when called (key_rate.py:501-502), so it is not stored. -/
structure KeyRateCollection where
  keyRates : List Nat
  iterIndex : Nat := 0
deriving DecidableEq

namespace KeyRateCollection

/-- Python list indexing `l[i]` with negative indices. -/
def pyIndex (n : Nat) (i : Int) : Option Nat :=
  if 0 ≤ i ∧ i < n then some i.toNat
  else if i < 0 ∧ -(n : Int) ≤ i then some (n + i).toNat
  else none

/-- `self[k].key_rate_date`, key_rate.py:287-294, in `_set_dates_in_collection`. -/
def dateAt (h : KRHeap) (ids : List Nat) (k : Nat) : Except PyErr PyDate :=
  match ids[k]? with
  | some i => .ok (h i).keyDate
  | none => .error .indexError

/-- `key_rate.set_prior_date(self[k].key_rate_date)` for the object at address `i`. -/
def setPriorTo (h : KRHeap) (ids : List Nat) (i k : Nat) : KROutcome Unit :=
  match dateAt h ids k with
  | .ok d => h.modify i (fun r => r.setPriorDate (some d))
  | .error e => (.error e, h)

/-- `key_rate.set_next_date(self[k].key_rate_date)` for the object at address `i`. -/
def setNextTo (h : KRHeap) (ids : List Nat) (i k : Nat) : KROutcome Unit :=
  match dateAt h ids k with
  | .ok d => h.modify i (fun r => r.setNextDate (some d))
  | .error e => (.error e, h)

/-- key_rate.py:473-483, the loop body for the key rate at index `k` and address `i`. -/
def wireAt (h : KRHeap) (ids : List Nat) (k i : Nat) : KROutcome Unit :=
  if k = 0 then
    (h.modify i (fun r => r.setPriorDate none)).andThen fun _ h => setNextTo h ids i (k + 1)
  else if k = ids.length - 1 then
    (h.modify i (fun r => r.setNextDate none)).andThen fun _ h => setPriorTo h ids i (k - 1)
  else
    (setPriorTo h ids i (k - 1)).andThen fun _ h => setNextTo h ids i (k + 1)

/-- key_rate.py:470-485, `for key, key_rate in enumerate(self.key_rates)` from index `k` on. -/
def wireLoop (ids : List Nat) : List Nat → Nat → KRHeap → KROutcome Unit
  | [], _, h => (.ok (), h)
  | i :: rest, k, h => (wireAt h ids k i).andThen fun _ h => wireLoop ids rest (k + 1) h

/-- key_rate.py:459-494, `_set_dates_in_collection`. -/
def setDates (h : KRHeap) (ids : List Nat) : KROutcome Unit :=
  if 1 < ids.length then wireLoop ids ids 0 h
  else match ids with
    | [i] => (h.modify i (fun r => r.setPriorDate none)).andThen fun _ h => h.modify i (fun r => r.setNextDate none)
    | _ => (.error .valueError, h)

/-- key_rate.py:268-273, the constructor; `ids` are the addresses in the iterable. -/
def create (h : KRHeap) (ids : List Nat) : KROutcome KeyRateCollection :=
  let sorted := pySorted (fun i => (h i).keyDate) ids
  (setDates h sorted).andThen fun _ h => (setDates h sorted).andThen fun _ h => (.ok ⟨sorted, 0⟩, h)

/-- key_rate.py:279-285 and 501-502: the combined adjustment. -/
def call (h : KRHeap) (c : KeyRateCollection) (d : PyDate) : Except PyErr ℚ :=
  pySum (fun i => (h i).call d) c.keyRates

/-- key_rate.py:287-294 for an integer index. -/
def getItem (c : KeyRateCollection) (i : Int) : Except PyErr Nat :=
  match pyIndex c.keyRates.length i with
  | some k => match c.keyRates[k]? with
    | some a => .ok a
    | none => .error .indexError
  | none => .error .indexError

/-- key_rate.py:290-292 for a slice denoting the positions `start, …, stop - 1`: a new collection of the same objects. -/
def getSlice (h : KRHeap) (c : KeyRateCollection) (start stop : Nat) : KROutcome KeyRateCollection :=
  create h ((c.keyRates.take stop).drop start)

/-- key_rate.py:296-338.  The first `case` matches every pair; a None date in the chained comparison raises
TypeError (after short-circuiting). -/
def setItem (h : KRHeap) (c : KeyRateCollection) (key : Int) (new : Nat) : Except PyErr Unit × KeyRateCollection × KRHeap :=
  match pyIndex c.keyRates.length key with
  | none => (.error .indexError, c, h)
  | some k =>
    match c.keyRates[k]? with
    | none => (.error .indexError, c, h)
    | some old =>
      match (h old).prior with
      | none => (.error .typeError, c, h)
      | some p =>
        if p < (h new).keyDate then
          match (h old).next with
          | none => (.error .typeError, c, h)
          | some n =>
            if (h new).keyDate < n then
              let ids := c.keyRates.set k new
              let r := setDates h ids
              (r.1, { c with keyRates := ids }, r.2)
            else (.error .valueError, c, h)
        else (.error .valueError, c, h)

/-- key_rate.py:340-346. -/
def delItem (h : KRHeap) (c : KeyRateCollection) (key : Int) : Except PyErr Unit × KeyRateCollection × KRHeap :=
  match pyIndex c.keyRates.length key with
  | none => (.error .indexError, c, h)
  | some k =>
    let ids := c.keyRates.eraseIdx k
    let r := setDates h ids
    (r.1, { c with keyRates := ids }, r.2)

/-- key_rate.py:361-373, `__next__`. -/
def next (c : KeyRateCollection) : Except PyErr Nat × KeyRateCollection :=
  match c.keyRates[c.iterIndex]? with
  | some a => (.ok a, { c with iterIndex := c.iterIndex + 1 })
  | none => (.error .stopIteration, { c with iterIndex := 0 })

/-- key_rate.py:379-384, `__eq__`: the lists are compared elementwise with `KeyRate.__eq__`. -/
def eq (h : KRHeap) (c d : KeyRateCollection) : Bool :=
  c.keyRates.length == d.keyRates.length &&
    (c.keyRates.zip d.keyRates).all (fun p => (h p.1).eq (h p.2))

/-- Insertion of an object into a python set of key rates: kept only if no equal (hash and `__eq__`,
key_rate.py:55-65, 101-109) element is present. -/
def setInsert (h : KRHeap) (s : List Nat) (i : Nat) : List Nat :=
  if s.any (fun j => (h j).eq (h i)) then s else s ++ [i]

/-- `set(self) | set(other)` as a list of representatives, key_rate.py:393-394 and 406-407; python iterates over it in
an unspecified order. -/
def union (h : KRHeap) (a b : List Nat) : List Nat := (a ++ b).foldl (setInsert h) []

/-- key_rate.py:386-397: `out` is a possible outcome of `c + d`.  Python enumerates the set union in an unspecified
order, any rearrangement of its elements. -/
def Adds (h : KRHeap) (c d : KeyRateCollection) (out : KROutcome KeyRateCollection) : Prop :=
  ∃ order : List Nat, order.Perm (union h c.keyRates d.keyRates) ∧ out = create h order

/-- key_rate.py:399-414, the body of `c += other` once the set union has been enumerated as `order`. -/
def iaddBody (h : KRHeap) (c : KeyRateCollection) (order : List Nat) : Except PyErr Unit × KeyRateCollection × KRHeap :=
  let r := setDates h order
  (r.1, { c with keyRates := order }, r.2)

/-- key_rate.py:399-414: `out` is a possible outcome of `c += other`, where `other` is an iterable of key rates. -/
def IAdds (h : KRHeap) (c : KeyRateCollection) (other : List Nat)
    (out : Except PyErr Unit × KeyRateCollection × KRHeap) : Prop :=
  ∃ order : List Nat, order.Perm (union h c.keyRates other) ∧ out = iaddBody h c order

/-- key_rate.py:386-397, 348-351, 418-420: adding a single KeyRate: `__add__` returns NotImplemented for anything but a
collection and KeyRate has no `__radd__`, so `c + k`, `k + c` and `c.insert(k)` raise TypeError. -/
def addKeyRate (_c : KeyRateCollection) (_k : Nat) : Except PyErr KeyRateCollection := .error .typeError

/-- key_rate.py:506-510, the loop setting the bump of every key rate. -/
def setBumpLoop (h : KRHeap) (b : ℚ) (ids : List Nat) : KRHeap :=
  ids.foldl (fun h i => Function.update h i ((h i).setBumpVal b)) h

/-- key_rate.py:506-510. -/
def setBumpVal (h : KRHeap) (c : KeyRateCollection) (b : ℚ) : KROutcome Unit :=
  setDates (setBumpLoop h b c.keyRates) c.keyRates

end KeyRateCollection
end Verif
