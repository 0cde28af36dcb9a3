/-
Independent description of the Gregorian calendar: the table of month lengths, the leap-year rule in words, and "the next
day".  Nothing here refers to ordinals.
-/
import Verif.Model.Date

namespace Verif.Spec

/-- Every fourth year is a leap year, except the centuries not divisible by 400. -/
def LeapYear (y : Int) : Prop := (4 ∣ y ∧ ¬ 100 ∣ y) ∨ 400 ∣ y

/-- The traditional table: thirty days hath September, April, June and November … -/
inductive MonthLength (y : Int) : Int → Int → Prop
  | jan : MonthLength y 1 31
  | febLeap : LeapYear y → MonthLength y 2 29
  | febCommon : ¬ LeapYear y → MonthLength y 2 28
  | mar : MonthLength y 3 31
  | apr : MonthLength y 4 30
  | may : MonthLength y 5 31
  | jun : MonthLength y 6 30
  | jul : MonthLength y 7 31
  | aug : MonthLength y 8 31
  | sep : MonthLength y 9 30
  | oct : MonthLength y 10 31
  | nov : MonthLength y 11 30
  | dec : MonthLength y 12 31

/-- `e` is the calendar day after `d`: the next day of the same month, or the first of the next month, or 1 January. -/
def NextDay (d e : PyDate) : Prop :=
  (e.year = d.year ∧ e.month = d.month ∧ e.day = d.day + 1) ∨
  (MonthLength d.year d.month d.day ∧ e.year = d.year ∧ e.month = d.month + 1 ∧ e.day = 1) ∨
  (d.month = 12 ∧ d.day = 31 ∧ e.year = d.year + 1 ∧ e.month = 1 ∧ e.day = 1)

/-- `e` is `n` calendar days after `d`. -/
inductive DaysAfter : Nat → PyDate → PyDate → Prop
  | zero (d : PyDate) : DaysAfter 0 d d
  | succ {n : Nat} {d e f : PyDate} : DaysAfter n d e → NextDay e f → DaysAfter (n + 1) d f

end Verif.Spec
