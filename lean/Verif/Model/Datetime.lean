/-
Python's naive `datetime.datetime` (CPython Lib/datetime.py) and `Scheduler.generate_dates_by_increments` on datetimes, as used by
fixedIncome/src/stochastics.  No file of /repo defines datetimes; see the citations.
-/
import Verif.Model.DayCount
import Verif.Lemmas.Except

namespace Verif

/-- Microseconds in a day. -/
def dayMicros : Int := 86400000000

/-- A naive python `datetime`: its date and the microseconds since midnight. -/
structure PyDatetime where
  day : PyDate
  micros : Int
  bounds : 0 ≤ micros ∧ micros < 86400000000
deriving DecidableEq

namespace PyDatetime

/-- As an argument of the day-count functions (day_count_calculator.py:18-56). -/
def like (d : PyDatetime) : DateLike := .datetime d.day d.micros d.bounds

/-- Position on the time line in microseconds. -/
def instant (d : PyDatetime) : Int := d.day.ord * 86400000000 + d.micros

theorem instant_injective {a b : PyDatetime} (h : a.instant = b.instant) : a = b := by
  have ha := a.bounds
  have hb := b.bounds
  unfold instant at h
  have h1 : a.day.ord = b.day.ord := by omega
  have h2 : a.micros = b.micros := by omega
  have h3 : a.day = b.day := PyDate.ord_injective h1
  cases a; cases b; simp_all

/-- Datetimes are compared as positions on the time line (brownian_motion.py:37, 43, 45). -/
instance : LinearOrder PyDatetime where
  le a b := a.instant ≤ b.instant
  lt a b := a.instant < b.instant
  le_refl a := Int.le_refl _
  le_trans _ _ _ h1 h2 := Int.le_trans h1 h2
  lt_iff_le_not_ge a b := by show a.instant < b.instant ↔ a.instant ≤ b.instant ∧ ¬ b.instant ≤ a.instant; omega
  le_antisymm _ _ h1 h2 := instant_injective (Int.le_antisymm h1 h2)
  le_total a b := Int.le_total _ _
  toDecidableLE a b := inferInstanceAs (Decidable (a.instant ≤ b.instant))
  toDecidableLT a b := inferInstanceAs (Decidable (a.instant < b.instant))
  toDecidableEq := instDecidableEqPyDatetime

theorem le_iff {a b : PyDatetime} : a ≤ b ↔ a.instant ≤ b.instant := Iff.rfl
theorem lt_iff {a b : PyDatetime} : a < b ↔ a.instant < b.instant := Iff.rfl

/-- The datetime at a position on the time line; `none` is CPython's out-of-range error. -/
def ofInstant? (n : Int) : Option PyDatetime :=
  match PyDate.ofOrd? (n / 86400000000) with
  | some d => some ⟨d, n % 86400000000, by omega⟩
  | none => none

/-- `datetime + timedelta`: OverflowError outside years 1..9999 (scheduler.py:150, 156). -/
def addMicros (d : PyDatetime) (k : Int) : Except PyErr PyDatetime :=
  match ofInstant? (d.instant + k) with
  | some e => .ok e
  | none => .error .overflowError

/-- `datetime + relativedelta(months=k)`: the date moves as in `PyDate.addMonths`, the time of day stays. -/
def addMonths (d : PyDatetime) (k : Int) : Except PyErr PyDatetime := do
  let e ← d.day.addMonths k
  .ok ⟨e, d.micros, d.bounds⟩

end PyDatetime

/-- The `increment` argument on datetimes (scheduler.py:124): a `timedelta`, or a `relativedelta` with net months and a remaining
time in microseconds. -/
inductive DtIncrement
  | timedelta (micros : Int)
  | relativedelta (months micros : Int)
deriving DecidableEq, Repr

namespace DtGrid

/-- `datetime + increment`; relativedelta moves months (clipping the day) and then the rest. -/
def addIncrement (d : PyDatetime) : DtIncrement → Except PyErr PyDatetime
  | .timedelta k => d.addMicros k
  | .relativedelta m k => do
    let e ← d.addMonths m
    e.addMicros k

/-- scheduler.py:137-145 and 190-197. -/
def isPositive (d : PyDatetime) : DtIncrement → Except PyErr Bool
  | .timedelta k => .ok (decide (0 ≤ k))
  | .relativedelta m k => do
    let e ← addIncrement d (.relativedelta m k)
    .ok (decide (d ≤ e))

/-- The loops of scheduler.py:147-156; the fuel is the number of iterations left before `count <= max_dates` fails. -/
def incrementLoop (inc : DtIncrement) (positive : Bool) (stop : PyDatetime) : Nat → PyDatetime → Except PyErr (List PyDatetime)
  | 0, _ => .ok []
  | n + 1, d =>
    if (if positive then d ≤ stop else stop ≤ d) then do
      let d' ← addIncrement d inc
      let rest ← incrementLoop inc positive stop n d'
      .ok (d :: rest)
    else .ok []

/-- scheduler.py:122-158 on datetimes. -/
def generate (start stop : PyDatetime) (inc : DtIncrement) (maxDates : Nat) : Except PyErr (List PyDatetime) := do
  let pos ← isPositive start inc
  incrementLoop inc pos stop (maxDates + 1) start

end DtGrid

/-- `compute_accrual_length` on two datetimes (day_count_calculator.py:59-94). -/
def dtAccrual (s e : PyDatetime) (dcc : DayCountConvention) : Except PyErr ℚ :=
  DayCount.computeAccrualLength s.like e.like dcc

end Verif
