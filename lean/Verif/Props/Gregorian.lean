/-
Property theorems C96: the dates on which every schedule rests are the Gregorian calendar: successor day, month lengths,
weekday cycle, adding days and months.  Specification: `Verif/Spec/Gregorian.lean`.
-/
import Verif.Spec.Gregorian
import Verif.Props.Scheduling
import Verif.Lemmas.Months
import Verif.Lemmas.Date

namespace Verif.Props
open Verif Verif.Spec

theorem leap_iff (y : Int) : isLeap y = true ↔ LeapYear y := by
  rw [isLeap_iff]; unfold LeapYear; omega

theorem monthLength_iff (y m n : Int) : MonthLength y m n ↔ (1 ≤ m ∧ m ≤ 12 ∧ n = daysInMonth y m) := by
  constructor
  · intro h
    cases h with
    | febLeap hl => have := (leap_iff y).2 hl; simp [daysInMonth, this]
    | febCommon hl =>
      have : ¬ isLeap y = true := fun h => hl ((leap_iff y).1 h)
      simp [daysInMonth, this]
    | _ => simp [daysInMonth]
  · rintro ⟨h1, h2, rfl⟩
    have : m = 1 ∨ m = 2 ∨ m = 3 ∨ m = 4 ∨ m = 5 ∨ m = 6 ∨ m = 7 ∨ m = 8 ∨ m = 9 ∨ m = 10 ∨ m = 11 ∨ m = 12 := by omega
    rcases this with h | h | h | h | h | h | h | h | h | h | h | h <;> subst h
    · exact .jan
    · by_cases hl : LeapYear y
      · have := (leap_iff y).2 hl
        have e : daysInMonth y 2 = 29 := by simp [daysInMonth, this]
        rw [e]; exact .febLeap hl
      · have : ¬ isLeap y = true := fun h => hl ((leap_iff y).1 h)
        have e : daysInMonth y 2 = 28 := by simp [daysInMonth, this]
        rw [e]; exact .febCommon hl
    · exact .mar
    · exact .apr
    · exact .may
    · exact .jun
    · exact .jul
    · exact .aug
    · exact .sep
    · exact .oct
    · exact .nov
    · exact .dec

/-- C96. `date(y, m, d)` succeeds exactly for the days of the Gregorian calendar in the years 1 … 9999, and raises ValueError
otherwise. -/
theorem C96_constructor (y m d : Int) :
    ((∃ x : PyDate, PyDate.mk? y m d = .ok x ∧ x.year = y ∧ x.month = m ∧ x.day = d) ↔
      (1 ≤ y ∧ y ≤ 9999 ∧ 1 ≤ d ∧ ∃ n, MonthLength y m n ∧ d ≤ n)) ∧
    ((¬ ∃ x : PyDate, PyDate.mk? y m d = .ok x) → PyDate.mk? y m d = .error .valueError) := by
  constructor
  · constructor
    · rintro ⟨x, hx, rfl, rfl, rfl⟩
      have b := x.bounds
      exact ⟨by omega, by omega, by omega, daysInMonth x.year x.month, (monthLength_iff _ _ _).2 ⟨by omega, by omega, rfl⟩, by omega⟩
    · rintro ⟨h1, h2, h3, n, hn, h4⟩
      obtain ⟨h5, h6, rfl⟩ := (monthLength_iff _ _ _).1 hn
      have hv : validYMD y m d = true := (PyDate.valid_iff y m d).2 (by omega)
      exact ⟨⟨y, m, d, hv⟩, PyDate.mk?_ok_of_valid hv, rfl, rfl, rfl⟩
  · intro h
    by_cases hv : validYMD y m d = true
    · exact absurd ⟨_, PyDate.mk?_ok_of_valid hv⟩ h
    · exact PyDate.mk?_error.2 ⟨rfl, by simpa using hv⟩

/-- The successor day has the next ordinal. -/
theorem nextDay_iff (d e : PyDate) : NextDay d e ↔ e.ord = d.ord + 1 := by
  have key : ∀ d e : PyDate, NextDay d e → e.ord = d.ord + 1 := by
    rintro d e (⟨h1, h2, h3⟩ | ⟨hl, h1, h2, h3⟩ | ⟨hm, hd, h1, h2, h3⟩)
    · unfold PyDate.ord; rw [h1, h2, h3]; omega
    · obtain ⟨a1, a2, a3⟩ := (monthLength_iff _ _ _).1 hl
      have be := e.bounds
      have ms := month_step d.year d.month a1 (by omega)
      unfold PyDate.ord; rw [h1, h2, h3, ms]; omega
    · have t := dec_end d.year
      have t12 := month_table d.year 12 (by omega) (by omega)
      have t1 := month_table (d.year + 1) 1 (by omega) (by omega)
      have hs := daysBeforeYear_succ d.year
      unfold PyDate.ord; rw [h1, h2, h3, hm, hd]
      have hl := leapDay_eq_zero_or_one d.year
      omega
  constructor
  · exact key d e
  · intro h
    have bd := d.bounds
    have be := e.bounds
    by_cases h1 : d.day < daysInMonth d.year d.month
    · have hv : validYMD d.year d.month (d.day + 1) = true := (PyDate.valid_iff _ _ _).2 (by omega)
      have hn : NextDay d ⟨d.year, d.month, d.day + 1, hv⟩ := Or.inl ⟨rfl, rfl, rfl⟩
      have := PyDate.ord_injective ((key d _ hn).trans h.symm)
      subst this; exact hn
    · by_cases h2 : d.month < 12
      · have hdim := daysInMonth_bounds d.year (d.month + 1)
        have hv : validYMD d.year (d.month + 1) 1 = true := (PyDate.valid_iff _ _ _).2 (by omega)
        have hn : NextDay d ⟨d.year, d.month + 1, 1, hv⟩ :=
          Or.inr (Or.inl ⟨(monthLength_iff _ _ _).2 ⟨by omega, by omega, by omega⟩, rfl, rfl, rfl⟩)
        have := PyDate.ord_injective ((key d _ hn).trans h.symm)
        subst this; exact hn
      · have hm : d.month = 12 := by omega
        have h31 : daysInMonth d.year 12 = 31 := by simp [daysInMonth]
        have hd : d.day = 31 := by rw [hm] at h1 bd; omega
        have hy : d.year + 1 ≤ 9999 := by
          by_contra hc
          have : d.year = 9999 := by omega
          have hmax := e.ord_bounds
          have : d.ord = 3652059 := by unfold PyDate.ord; rw [this, hm, hd]; decide
          unfold PyDate.maxOrd at hmax; omega
        have hdim : daysInMonth (d.year + 1) 1 = 31 := by simp [daysInMonth]
        have hv : validYMD (d.year + 1) 1 1 = true := (PyDate.valid_iff _ _ _).2 (by omega)
        have hn : NextDay d ⟨d.year + 1, 1, 1, hv⟩ := Or.inr (Or.inr ⟨hm, hd, rfl, rfl, rfl⟩)
        have := PyDate.ord_injective ((key d _ hn).trans h.symm)
        subst this; exact hn

theorem daysAfter_iff (n : Nat) (d e : PyDate) : DaysAfter n d e ↔ e.ord = d.ord + n := by
  induction n generalizing e with
  | zero =>
    constructor
    · intro h; cases h; simp
    · intro h
      have : e = d := PyDate.ord_injective (by simpa using h)
      subst this; exact .zero _
  | succ n ih =>
    constructor
    · intro h
      cases h with
      | succ h1 h2 => rw [ih] at h1; rw [nextDay_iff] at h2; push_cast; omega
    · intro h
      have b1 := d.ord_bounds
      have b2 := e.ord_bounds
      obtain ⟨f, _, hf⟩ := PyDate.ofOrd?_some (d.ord + n) (by omega) (by omega)
      exact .succ ((ih f).2 hf) ((nextDay_iff f e).2 (by push_cast at h; omega))

/-- C96. `date + timedelta(days=k)` is the date reached by `k` successor days (predecessor days for negative `k`), and an
OverflowError exactly when there is no such date. -/
theorem C96_add_days (d : PyDate) (k : Int) :
    (∀ e, d.addDays k = .ok e ↔ (0 ≤ k ∧ DaysAfter k.toNat d e) ∨ (k < 0 ∧ DaysAfter (-k).toNat e d)) ∧
    ((¬ ∃ e, d.addDays k = .ok e) → d.addDays k = .error .overflowError) := by
  constructor
  · intro e
    rw [PyDate.addDays_ok, daysAfter_iff, daysAfter_iff]
    omega
  · intro h
    unfold PyDate.addDays at *
    cases ho : PyDate.ofOrd? (d.ord + k) with
    | some e => exact absurd ⟨e, by simp [ho]⟩ h
    | none => rfl

/-- C96. Every day but the last has exactly one successor. -/
theorem C96_next_day (d : PyDate) : (∃! e, NextDay d e) ↔ ¬ (d.year = 9999 ∧ d.month = 12 ∧ d.day = 31) := by
  constructor
  · rintro ⟨e, he, _⟩ ⟨h1, h2, h3⟩
    rw [nextDay_iff] at he
    have hmax := e.ord_bounds
    have : d.ord = 3652059 := by unfold PyDate.ord; rw [h1, h2, h3]; decide
    unfold PyDate.maxOrd at hmax; omega
  · intro h
    have hlt : d.ord < PyDate.maxOrd := by
      have := d.ord_bounds
      rcases lt_or_eq_of_le this.2 with h' | h'
      · exact h'
      · exfalso
        apply h
        have hx : (D 9999 12 31).ord = PyDate.maxOrd := by decide
        have := PyDate.ord_injective (h'.trans hx.symm)
        subst this; exact ⟨rfl, rfl, rfl⟩
    obtain ⟨e, _, he⟩ := PyDate.ofOrd?_some (d.ord + 1) (by have := d.ord_bounds; omega) (by omega)
    exact ⟨e, (nextDay_iff d e).2 he, fun f hf => PyDate.ord_injective (((nextDay_iff d f).1 hf).trans he.symm)⟩

/-- C96. Weekdays: 1 January 2000 was a Saturday (5), and each day has the weekday after the previous day's. -/
theorem C96_weekday :
    (∀ d : PyDate, d.year = 2000 ∧ d.month = 1 ∧ d.day = 1 → d.weekday = 5) ∧
    (∀ d e : PyDate, NextDay d e → e.weekday = if d.weekday = 6 then 0 else d.weekday + 1) ∧
    (∀ d : PyDate, 0 ≤ d.weekday ∧ d.weekday ≤ 6) := by
  refine ⟨?_, ?_, PyDate.weekday_bounds⟩
  · rintro d ⟨h1, h2, h3⟩
    have : d = D 2000 1 1 := PyDate.ext' h1 h2 h3
    subst this; decide
  · intro d e h
    rw [nextDay_iff] at h
    unfold PyDate.weekday; rw [h]; split_ifs <;> omega

/-- C96. The order of dates is the order of the calendar: `d < e` iff `e` is some positive number of days after `d`, iff
(year, month, day) is lexicographically smaller. -/
theorem C96_order (d e : PyDate) :
    (d < e ↔ ∃ n, 0 < n ∧ DaysAfter n d e) ∧
    (d < e ↔ d.year < e.year ∨ (d.year = e.year ∧ (d.month < e.month ∨ (d.month = e.month ∧ d.day < e.day)))) := by
  refine ⟨?_, PyDate.lt_iff_lex⟩
  rw [PyDate.lt_iff]
  constructor
  · intro h; exact ⟨(e.ord - d.ord).toNat, by omega, (daysAfter_iff _ _ _).2 (by omega)⟩
  · rintro ⟨n, hn, h⟩; rw [daysAfter_iff] at h; omega

/-- C96. `date + relativedelta(months=k)`: `k` months later in the count of months, on the same day of the month, or on the
last day when the month is too short; ValueError exactly when the month is not in the years 1 … 9999. -/
theorem C96_add_months (d : PyDate) (k : Int) :
    (∀ e, d.addMonths k = .ok e ↔
      (12 * e.year + e.month = 12 * d.year + d.month + k ∧
        ((e.day = d.day) ∨ (e.day < d.day ∧ MonthLength e.year e.month e.day)))) ∧
    ((∃ e, d.addMonths k = .ok e) ↔ 13 ≤ 12 * d.year + d.month + k ∧ 12 * d.year + d.month + k ≤ 12 * 9999 + 12) ∧
    ((¬ ∃ e, d.addMonths k = .ok e) → d.addMonths k = .error .valueError) := by
  have bd := d.bounds
  have h1 : ∀ e, d.addMonths k = .ok e ↔
      (12 * e.year + e.month = 12 * d.year + d.month + k ∧
        ((e.day = d.day) ∨ (e.day < d.day ∧ MonthLength e.year e.month e.day))) := by
    intro e
    have be := e.bounds
    unfold PyDate.addMonths
    rw [PyDate.mk?_ok]
    constructor
    · rintro ⟨h1, h2, h3⟩
      rw [← h1, ← h2] at h3
      refine ⟨by omega, ?_⟩
      rw [monthLength_iff]; omega
    · rintro ⟨h1, h2⟩
      have e1 : e.year = (d.year * 12 + (d.month - 1) + k) / 12 := by omega
      have e2 : e.month = (d.year * 12 + (d.month - 1) + k) % 12 + 1 := by omega
      refine ⟨e1, e2, ?_⟩
      rw [← e1, ← e2]
      rw [monthLength_iff] at h2; omega
  refine ⟨h1, ?_, ?_⟩
  · constructor
    · rintro ⟨e, he⟩
      have be := e.bounds
      have := (h1 e).1 he
      omega
    · rintro ⟨ha, hb⟩
      have hdim := daysInMonth_bounds ((d.year * 12 + (d.month - 1) + k) / 12) ((d.year * 12 + (d.month - 1) + k) % 12 + 1)
      exact ⟨_, PyDate.mk?_ok_of_valid ((PyDate.valid_iff _ _ _).2 (by omega))⟩
  · intro h
    by_cases hv : validYMD ((d.year * 12 + (d.month - 1) + k) / 12) ((d.year * 12 + (d.month - 1) + k) % 12 + 1)
        (min d.day (daysInMonth ((d.year * 12 + (d.month - 1) + k) / 12) ((d.year * 12 + (d.month - 1) + k) % 12 + 1))) = true
    · exact absurd ⟨_, PyDate.mk?_ok_of_valid hv⟩ h
    · exact PyDate.mk?_error.2 ⟨rfl, by simpa using hv⟩

/-- Month ends, leap days, a century, the ends of the range. -/
example : NextDay (D 2024 2 28) (D 2024 2 29) ∧ NextDay (D 1900 2 28) (D 1900 3 1) ∧ NextDay (D 1999 12 31) (D 2000 1 1) := by
  simp only [nextDay_iff]; decide
example : (D 9999 12 31).addDays 1 = .error .overflowError ∧ (D 2024 1 31).addMonths 1 = .ok (D 2024 2 29) ∧
    (D 9999 12 31).addMonths 1 = .error .valueError := by decide +kernel

end Verif.Props
