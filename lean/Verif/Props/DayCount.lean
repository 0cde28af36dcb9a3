/-
Property theorems C13–C17: day count conventions (day_count_calculator.py).
Specifications: `Verif/Spec/DayCount.lean`.
-/
import Verif.Lemmas.DayCount
import Verif.Lemmas.Months
import Verif.Props.Scheduling

namespace Verif.Props
open Verif Verif.Spec Verif.DayCount

/-! ### C13 -/

/-- C13. ACT/360, ACT/365 and ACT/365.25 on dates `s ≤ e` return the number of days from `s` to `e` over the
denominator. -/
theorem C13_act_fixed (dcc : DayCountConvention) (q : ℚ) (hq : FixedDenominator dcc = some q) (s e : PyDate)
    (h : s ≤ e) : accrual s e dcc = .ok (((e.ord - s.ord : Int) : ℚ) / q) := by
  rw [accrual_eq h]
  cases dcc <;> simp [FixedDenominator] at hq <;> subst hq <;> simp [actOver]
  norm_num

/-- C13. Under these conventions the accrual is nonnegative, zero only for equal dates, strictly increasing in the end
date, and additive over adjacent periods. -/
theorem C13_act_fixed_laws (dcc : DayCountConvention) (q : ℚ) (hq : FixedDenominator dcc = some q) (a b c : PyDate)
    (hab : a ≤ b) (hbc : b ≤ c) (x y z : ℚ) (hx : accrual a b dcc = .ok x) (hy : accrual b c dcc = .ok y)
    (hz : accrual a c dcc = .ok z) :
    z = x + y ∧ 0 ≤ x ∧ (x = 0 ↔ a = b) ∧ (b < c → x < z) := by
  rw [C13_act_fixed dcc q hq a b hab] at hx
  rw [C13_act_fixed dcc q hq b c hbc] at hy
  rw [C13_act_fixed dcc q hq a c (le_trans hab hbc)] at hz
  cases hx; cases hy; cases hz
  have hq0 : 0 < q := by
    cases dcc <;> simp [FixedDenominator] at hq <;> subst hq <;> norm_num
  have hab' := hab
  rw [PyDate.le_iff] at hab'
  have h1 : (0 : ℚ) ≤ ((b.ord - a.ord : Int) : ℚ) := by exact_mod_cast (by omega : 0 ≤ b.ord - a.ord)
  refine ⟨?_, by positivity, ?_, ?_⟩
  · field_simp; push_cast; ring
  · rw [div_eq_zero_iff]
    constructor
    · rintro (h | h)
      · have : b.ord - a.ord = 0 := by exact_mod_cast h
        exact PyDate.ord_inj.1 (by omega)
      · linarith
    · rintro rfl; left; simp
  · intro hlt
    rw [PyDate.lt_iff] at hlt
    apply div_lt_div_of_pos_right _ hq0
    exact_mod_cast (by omega : b.ord - a.ord < c.ord - a.ord)

/-- C13. `time_fraction_in_years` measures elapsed time in units of 365.25 days: it is the ACT/365.25 accrual of the
elapsed days, and is additive and monotone in the elapsed time. -/
theorem C13_time_fraction (s e : PyDate) (h : s ≤ e) (x y : ℚ) :
    accrual s e .act36525 = .ok (timeFractionInYears (((e.ord - s.ord : Int) : ℚ) * 86400)) ∧
    timeFractionInYears (x + y) = timeFractionInYears x + timeFractionInYears y ∧
    (x < y → timeFractionInYears x < timeFractionInYears y) := by
  refine ⟨?_, ?_, ?_⟩
  · rw [C13_act_fixed .act36525 _ rfl s e h]
    unfold timeFractionInYears
    congr 1; ring
  · unfold timeFractionInYears; ring
  · intro hxy; unfold timeFractionInYears; linarith

example : accrual (D 2023 1 1) (D 2024 1 1) .act360 = .ok (365 / 360) := by
  rw [C13_act_fixed .act360 360 rfl _ _ (by decide +kernel)]
  norm_num [show (D 2024 1 1).ord - (D 2023 1 1).ord = 365 by decide +kernel]

/-! ### C14 -/

/-- C14. ACT/ACT on dates `s ≤ e` of years ≥ 2 is the difference of the two dates' coordinates on the calendar-year
axis. -/
theorem C14_act_act (s e : PyDate) (h : s ≤ e) (hy : 2 ≤ s.year) :
    accrual s e .actAct = .ok (yearCoord e - yearCoord s) := by
  rw [accrual_eq h]
  have : s.year ≤ e.year := by
    rw [← not_lt, PyDate.lt_iff_lex] at h; omega
  exact actAct_eq hy (by omega)

/-- C14. ACT/ACT is additive, nonnegative and strictly increasing in the end date. -/
theorem C14_act_act_laws (a b c : PyDate) (hab : a ≤ b) (hbc : b ≤ c) (hy : 2 ≤ a.year) :
    ∃ x y z, accrual a b .actAct = .ok x ∧ accrual b c .actAct = .ok y ∧ accrual a c .actAct = .ok z ∧
      z = x + y ∧ 0 ≤ x ∧ (x = 0 ↔ a = b) ∧ (b < c → x < z) := by
  have hb2 : 2 ≤ b.year := by
    have := hab; rw [← not_lt, PyDate.lt_iff_lex] at this; omega
  refine ⟨_, _, _, C14_act_act a b hab hy, C14_act_act b c hbc hb2, C14_act_act a c (le_trans hab hbc) hy, by ring, ?_,
    ?_, ?_⟩
  · have := yearCoord_mono hab; linarith
  · constructor
    · intro h
      rcases lt_or_eq_of_le hab with hlt | heq
      · have := yearCoord_strictMono hlt; linarith
      · exact heq
    · rintro rfl; ring
  · intro h; have := yearCoord_strictMono h; linarith

/-- C14. Between the same day of the year (counted from 1 January) of two years of equal length, and between any two
31 Decembers, ACT/ACT is the whole number of years. -/
theorem C14_whole_years (s e : PyDate) (h : s ≤ e) (hy : 2 ≤ s.year)
    (hsame : (s.month = e.month ∧ s.day = e.day ∧ yearLength s.year = yearLength e.year) ∨
      (s.month = 12 ∧ s.day = 31 ∧ e.month = 12 ∧ e.day = 31)) :
    accrual s e .actAct = .ok ((e.year - s.year : Int) : ℚ) := by
  rw [C14_act_act s e h hy]
  congr 1
  unfold yearCoord
  have ps := yearLength_pos s.year
  have pe := yearLength_pos e.year
  rcases hsame with ⟨h1, h2, h3⟩ | ⟨h1, h2, h3, h4⟩
  · have hl : isLeap s.year = isLeap e.year := by
      unfold yearLength at h3
      cases hs : isLeap s.year <;> cases he : isLeap e.year <;> simp [hs, he] at h3 <;> rfl
    have : s.ord - daysBeforeYear s.year = e.ord - daysBeforeYear e.year := by
      unfold PyDate.ord daysBeforeMonth; rw [h1, h2, hl]; omega
    rw [this, h3]; push_cast; ring
  · have l1 := dec_end s.year
    have l2 := dec_end e.year
    have m1 : daysInMonth s.year 12 = 31 := rfl
    have m2 : daysInMonth e.year 12 = 31 := rfl
    have e1 : s.ord - daysBeforeYear s.year = yearLength s.year := by
      rw [yearLength_eq, daysBeforeYear_succ]; unfold PyDate.ord; rw [h1, h2]; omega
    have e2 : e.ord - daysBeforeYear e.year = yearLength e.year := by
      rw [yearLength_eq, daysBeforeYear_succ]; unfold PyDate.ord; rw [h3, h4]; omega
    rw [e1, e2, div_self (ne_of_gt ps), div_self (ne_of_gt pe)]
    push_cast; ring

/-- C14. In year 1 ACT/ACT raises ValueError (it asks for 31 December of year 0). -/
theorem C14_year_one (s e : PyDate) (h : s ≤ e) (hy : s.year = 1) : accrual s e .actAct = .error .valueError := by
  rw [accrual_eq h]
  exact actAct_year_one (Or.inl hy)

example : D 2023 3 31 ≤ D 2025 3 31 ∧ (2 : Int) ≤ (D 2023 3 31).year ∧ yearLength 2023 = yearLength 2025 ∧
    D 2023 1 1 ≤ D 2023 6 1 ∧ D 2023 6 1 ≤ D 2024 6 1 := by decide +kernel
/-- Without equal year lengths the accrual is not whole: 1 June 2023 to 1 June 2024. -/
example : accrual (D 2023 6 1) (D 2024 6 1) .actAct = .ok (1 + 153 / 366 - 152 / 365) := by
  rw [C14_act_act _ _ (by decide +kernel) (by decide +kernel)]
  congr 1
  unfold yearCoord
  rw [show (D 2023 6 1).ord - daysBeforeYear (D 2023 6 1).year = 152 by decide +kernel,
    show (D 2024 6 1).ord - daysBeforeYear (D 2024 6 1).year = 153 by decide +kernel,
    show yearLength (D 2023 6 1).year = 365 by decide +kernel,
    show yearLength (D 2024 6 1).year = 366 by decide +kernel,
    show (D 2023 6 1).year = 2023 by rfl, show (D 2024 6 1).year = 2024 by rfl]
  norm_num

/-! ### C15 -/

/-- `d` is one of the two dates on which the code's notion of "last day of February" is wrong: 28 or 29 February of a
leap year. -/
def LeapFebruaryEnd (d : PyDate) : Prop := isLeap d.year = true ∧ d.month = 2 ∧ (d.day = 28 ∨ d.day = 29)

theorem lastFeb_iff {d : PyDate} (h : ¬ LeapFebruaryEnd d) : (d.month = 2 ∧ d.day = 28) ↔ IsLastOfFebruary d := by
  unfold LeapFebruaryEnd at h
  unfold IsLastOfFebruary
  have hb := d.bounds
  constructor
  · rintro ⟨h1, h2⟩
    refine ⟨h1, ?_⟩
    rw [h2, daysInMonth]
    by_cases hl : isLeap d.year = true
    · exact absurd ⟨hl, h1, Or.inl h2⟩ h
    · simp [hl]
  · rintro ⟨h1, h2⟩
    refine ⟨h1, ?_⟩
    rw [daysInMonth] at h2
    by_cases hl : isLeap d.year = true
    · simp [hl] at h2; exact absurd ⟨hl, h1, Or.inr h2⟩ h
    · simpa [hl] using h2

/-- C15 (partial). Unless a date is 28 or 29 February of a leap year, the 30/360 accrual is the published 30/360 US
count with the end-of-month rule.  Missing: those dates, for which the code takes 28 February for the end of the month
(`C15_leap_february`). -/
theorem C15_thirty360_partial (s e : PyDate) (h : s ≤ e) (hs : ¬ LeapFebruaryEnd s) (he : ¬ LeapFebruaryEnd e) :
    accrual s e .thirty360 = .ok (us30360 s e) := by
  rw [accrual_eq h]
  simp only [thirty360, us30360]
  congr 3
  have h1 := lastFeb_iff hs
  have h2 := lastFeb_iff he
  have bs := s.bounds
  have be := e.bounds
  unfold thirty360Days us30360Day1 us30360Day2
  simp only [← h1, ← h2, Bool.and_eq_true, beq_iff_eq]
  have g1 : (s.month = 2 ∧ s.day = 28) ∨ ¬ (s.month = 2 ∧ s.day = 28) := Classical.em _
  have g2 : (e.month = 2 ∧ e.day = 28) ∨ ¬ (e.month = 2 ∧ e.day = 28) := Classical.em _
  rcases g1 with g1 | g1 <;> rcases g2 with g2 | g2 <;> simp only [g1, g2, and_self, true_and, and_true, and_false,
    false_and, if_true, if_false, or_true, true_or, or_false, false_or] <;> split_ifs <;> omega

/-- The four adjustments of the code, case by case on 28 February. -/
theorem thirty360Days_cases (s e : PyDate) :
    ∃ d1 d2 : Int, thirty360Days s e = 360 * (e.year - s.year) + 30 * (e.month - s.month) + (d2 - d1) ∧
      1 ≤ d1 ∧ d1 ≤ 30 ∧ 1 ≤ d2 ∧ d2 ≤ 31 ∧
      ((s.month = 2 ∧ s.day = 28) → d1 = 30 ∧ ((e.month = 2 ∧ e.day = 28) → d2 = 30) ∧
        (¬ (e.month = 2 ∧ e.day = 28) → d2 = min e.day 30)) ∧
      (¬ (s.month = 2 ∧ s.day = 28) → d1 = min s.day 30 ∧
        (30 ≤ s.day → d2 = min e.day 30) ∧ (s.day < 30 → d2 = e.day)) := by
  have bs := s.bounds
  have be := e.bounds
  have ms := daysInMonth_bounds s.year s.month
  have me := daysInMonth_bounds e.year e.month
  unfold thirty360Days
  simp only [Bool.and_eq_true, beq_iff_eq]
  refine ⟨_, _, rfl, ?_, ?_, ?_, ?_, ?_, ?_⟩
  all_goals
    rcases (Classical.em (s.month = 2 ∧ s.day = 28)) with g1 | g1 <;>
    rcases (Classical.em (e.month = 2 ∧ e.day = 28)) with g2 | g2 <;>
    simp only [g1, g2, and_self, true_and, and_true, and_false, false_and, if_true, if_false, or_true, true_or,
      or_false, false_or, not_true_eq_false, not_false_eq_true, forall_const, IsEmpty.forall_iff] <;> split_ifs <;> omega

/-- C15 (partial). The 30/360 accrual of `s ≤ e` is nonnegative except from 28 to 29 February of one leap year.
Missing: that case, where it is `-1/360` (`C15_leap_february`). -/
theorem C15_nonneg_partial (s e : PyDate) (h : s ≤ e)
    (hx : ¬ (s.month = 2 ∧ s.day = 28 ∧ e.year = s.year ∧ e.month = 2 ∧ e.day = 29)) :
    ∃ x, accrual s e .thirty360 = .ok x ∧ 0 ≤ x := by
  rw [accrual_eq h]
  refine ⟨_, rfl, ?_⟩
  obtain ⟨d1, d2, he, h1, h2, h3, h4, h5, h6⟩ := thirty360Days_cases s e
  have hlex := h
  rw [← not_lt, PyDate.lt_iff_lex] at hlex
  have bs := s.bounds
  have be := e.bounds
  have me := daysInMonth_bounds e.year e.month
  have m2 : e.month = 2 → daysInMonth e.year e.month ≤ 29 := by
    intro hm; rw [hm, daysInMonth]; simp only [if_true]; split_ifs <;> omega
  have : 0 ≤ thirty360Days s e := by
    rw [he]
    by_cases hf : s.month = 2 ∧ s.day = 28
    · have := h5 hf
      by_cases hf2 : e.month = 2 ∧ e.day = 28
      · have := this.2.1 hf2; omega
      · have := this.2.2 hf2; omega
    · have := h6 hf
      by_cases h30 : 30 ≤ s.day
      · have := this.2.1 h30; omega
      · have := this.2.2 (by omega); omega
  have : (0 : ℚ) ≤ (thirty360Days s e : ℚ) := by exact_mod_cast this
  positivity

/-- C15 (partial). The 30/360 accrual is monotone in the end date, except from a 28 February start between the 28th and
29th of February of a leap year.  Missing: that case, where it is false (`C15_leap_february`). -/
theorem C15_monotone_partial (s e f : PyDate) (h : s ≤ e) (hef : e ≤ f)
    (hx : ¬ (s.month = 2 ∧ s.day = 28 ∧ e.month = 2 ∧ e.day = 28 ∧ f.year = e.year ∧ f.month = 2 ∧ f.day = 29)) :
    ∃ x y, accrual s e .thirty360 = .ok x ∧ accrual s f .thirty360 = .ok y ∧ x ≤ y := by
  rw [accrual_eq h, accrual_eq (le_trans h hef)]
  refine ⟨_, _, rfl, rfl, ?_⟩
  obtain ⟨d1, d2, he, h1, h2, h3, h4, h5, h6⟩ := thirty360Days_cases s e
  obtain ⟨c1, c2, ge, g1, g2, g3, g4, g5, g6⟩ := thirty360Days_cases s f
  have hlex := PyDate.le_iff_month.1 hef
  have be := e.bounds
  have bf := f.bounds
  have mf : f.month = 2 → f.day ≤ 29 := by
    intro hm
    have h29 : daysInMonth f.year f.month ≤ 29 := by
      rw [hm, daysInMonth]; simp only [if_true]; split_ifs <;> omega
    omega
  have hcd : c1 = d1 := by
    by_cases hf : s.month = 2 ∧ s.day = 28
    · rw [(h5 hf).1, (g5 hf).1]
    · rw [(h6 hf).1, (g6 hf).1]
  have : thirty360Days s e ≤ thirty360Days s f := by
    rw [he, ge]
    rcases hlex with hm | ⟨hm, hd⟩
    · unfold PyDate.monthIndex at hm
      clear h5 h6 g5 g6 hx mf
      omega
    · obtain ⟨fy, fm⟩ := PyDate.monthIndex_fields hm
      suffices d2 ≤ c2 by rw [fy, fm]; omega
      by_cases hf : s.month = 2 ∧ s.day = 28
      · have a1 := (h5 hf).2
        have a2 := (g5 hf).2
        clear h5 h6 g5 g6 he ge
        by_cases hf1 : e.month = 2 ∧ e.day = 28
        · have e1 := a1.1 hf1
          by_cases hf2 : f.month = 2 ∧ f.day = 28
          · have := a2.1 hf2; omega
          · have := mf (fm ▸ hf1.1); exfalso; apply hx; simp only [hf.1, hf.2, hf1.1, hf1.2, true_and]; omega
        · have e1 := a1.2 hf1
          by_cases hf2 : f.month = 2 ∧ f.day = 28
          · have := a2.1 hf2; omega
          · have := a2.2 hf2; omega
      · have a1 := (h6 hf).2
        have a2 := (g6 hf).2
        clear h5 h6 g5 g6 he ge hx mf
        by_cases h30 : 30 ≤ s.day
        · rw [a1.1 h30, a2.1 h30]; omega
        · rw [a1.2 (by omega), a2.2 (by omega)]; exact hd
  have : (thirty360Days s e : ℚ) ≤ (thirty360Days s f : ℚ) := by exact_mod_cast this
  linarith

/-- C15. Between the same month and day `k` years apart the 30/360 accrual is exactly `k` (in particular `0` for equal
dates), 28 February and the 31st included. -/
theorem C15_whole_years (s e : PyDate) (h : s ≤ e) (hm : s.month = e.month) (hd : s.day = e.day) :
    accrual s e .thirty360 = .ok ((e.year - s.year : Int) : ℚ) := by
  rw [accrual_eq h]
  have : thirty360Days s e = 360 * (e.year - s.year) := by
    obtain ⟨d1, d2, he, h1, h2, h3, h4, h5, h6⟩ := thirty360Days_cases s e
    rw [he]
    by_cases hf : s.month = 2 ∧ s.day = 28
    · have := h5 hf; have := this.2.1 (by omega); omega
    · have := h6 hf
      by_cases h30 : 30 ≤ s.day
      · have := this.2.1 h30; omega
      · have := this.2.2 (by omega); omega
  simp only [thirty360]
  rw [this]
  push_cast
  congr 1; ring

/-- C15 fails in full: from 28 to 29 February 2024 the code returns `-1/360`, whereas the published count gives `1/360`
for consecutive days that are not both the end of February. -/
theorem C15_leap_february :
    accrual (D 2024 2 28) (D 2024 2 29) .thirty360 = .ok (-1 / 360) ∧
    us30360 (D 2024 2 28) (D 2024 2 29) = 1 / 360 := by
  constructor
  · rw [accrual_eq (by decide +kernel)]
    simp only [thirty360, show thirty360Days (D 2024 2 28) (D 2024 2 29) = -1 by decide +kernel]
    norm_num
  · unfold us30360
    rw [show 360 * ((D 2024 2 29).year - (D 2024 2 28).year) + 30 * ((D 2024 2 29).month - (D 2024 2 28).month) +
      (us30360Day2 (D 2024 2 28) (D 2024 2 29) - us30360Day1 (D 2024 2 28)) = 1 by decide +kernel]
    norm_num

example : ¬ LeapFebruaryEnd (D 2023 2 28) ∧ IsLastOfFebruary (D 2023 2 28) ∧ D 2023 2 28 ≤ D 2023 8 31 ∧
    thirty360Days (D 2023 2 28) (D 2023 8 31) = 180 := by
  refine ⟨?_, by decide +kernel, by decide +kernel, by decide +kernel⟩
  rintro ⟨h, _⟩; revert h; decide +kernel

/-! ### C16 -/

theorem pyDiv_width {a b : ℚ} (h : b ≠ 0) : pyDiv a b = .ok (a / b) := pyDiv_of_ne h

theorem includeDatetimes_actOver (q : ℚ) (hq : q ≠ 0) (s e : DateLike)
    (hs : s.isDatetime = true → s.day.ord < PyDate.maxOrd) (he : e.isDatetime = true → e.day.ord < PyDate.maxOrd) :
    includeDatetimes (actOver q) s e = .ok (((e.instant - s.instant : Int) : ℚ) / (q * 86400000000)) := by
  have add1 : ∀ d : PyDate, d.ord < PyDate.maxOrd → ∃ d', d.addDays 1 = .ok d' ∧ d'.ord = d.ord + 1 := by
    intro d hd
    obtain ⟨d', _, ho⟩ := PyDate.ofOrd?_some (d.ord + 1) (by have := d.ord_bounds; omega) (by omega)
    exact ⟨d', PyDate.addDays_ok.2 ho, ho⟩
  cases s with
  | date s =>
    cases e with
    | date e =>
      simp only [includeDatetimes, DateLike.isDatetime, DateLike.day, DateLike.instant, DateLike.micros, and_self,
        if_true, actOver]
      congr 1; field_simp; push_cast; ring
    | datetime e m hm =>
      obtain ⟨e', he', ho⟩ := add1 e (he rfl)
      simp only [includeDatetimes, DateLike.isDatetime, DateLike.day, DateLike.instant, DateLike.micros, actOver,
        Bool.false_eq_true, if_false, if_true, he', ok_bind, ho]
      rw [pyDiv_of_ne (by simp), ok_bind]
      simp only [Bool.true_eq_false, and_false, if_false]
      congr 1; push_cast; field_simp; ring
  | datetime s m hm =>
    obtain ⟨s', hs', hos⟩ := add1 s (hs rfl)
    cases e with
    | date e =>
      simp only [includeDatetimes, DateLike.isDatetime, DateLike.day, DateLike.instant, DateLike.micros, actOver,
        Bool.false_eq_true, if_false, if_true, hs', ok_bind, hos]
      rw [pyDiv_of_ne (by simp), ok_bind]
      simp only [Bool.true_eq_false, false_and, if_false]
      congr 1; push_cast; field_simp; ring
    | datetime e k hk =>
      obtain ⟨e', he', ho⟩ := add1 e (he rfl)
      simp only [includeDatetimes, DateLike.isDatetime, DateLike.day, DateLike.instant, DateLike.micros, actOver,
        if_true, he', hs', ok_bind, ho, hos]
      rw [pyDiv_of_ne (by push_cast; ring_nf; norm_num), ok_bind]
      simp only [Bool.true_eq_false, false_and, if_false]
      congr 1; push_cast; field_simp; ring

/-- C16. Under the actual/fixed conventions the accrual between any dates or datetimes `s ≤ e` is the elapsed time over
the denominator, exactly; hence it is additive.  (A datetime on 9999-12-31 is excluded: the code asks for the next day.)
-/
theorem C16_act_fixed_datetimes (dcc : DayCountConvention) (q : ℚ) (hq : FixedDenominator dcc = some q)
    (s e : DateLike) (h : s.instant ≤ e.instant)
    (hs : s.isDatetime = true → s.day.ord < PyDate.maxOrd) (he : e.isDatetime = true → e.day.ord < PyDate.maxOrd) :
    computeAccrualLength s e dcc = .ok (((e.instant - s.instant : Int) : ℚ) / (q * 86400000000)) := by
  unfold computeAccrualLength
  rw [if_pos (checkDates_iff.2 h)]
  cases dcc <;> simp [FixedDenominator] at hq <;> subst hq
  · exact includeDatetimes_actOver 360 (by norm_num) s e hs he
  · exact includeDatetimes_actOver 365 (by norm_num) s e hs he
  · rw [show (36525 / 100 : ℚ) = 1461 / 4 by norm_num]
    exact includeDatetimes_actOver (1461 / 4) (by norm_num) s e hs he

/-- C16. Mixing a date with a midnight datetime, under any convention, gives the accrual of the dates. -/
theorem C16_mixed_midnight (dcc : DayCountConvention) (s e : PyDate) (h0 : (0 : Int) ≤ 0 ∧ (0 : Int) < 86400000000)
    (x : ℚ) (hx : accrual s e dcc = .ok x) (y : ℚ) :
    (computeAccrualLength (.date s) (.datetime e 0 h0) dcc = .ok y → y = x) ∧
    (computeAccrualLength (.datetime s 0 h0) (.date e) dcc = .ok y → y = x) := by
  have hse : s ≤ e := by
    by_contra hc; rw [accrual_gt (not_le.1 hc)] at hx; cases hx
  rw [accrual_eq hse] at hx
  have hi : (DateLike.date s).instant ≤ (DateLike.datetime e 0 h0).instant := by
    rw [PyDate.le_iff] at hse
    simp only [DateLike.instant, DateLike.day, DateLike.micros]; omega
  have hi' : (DateLike.datetime s 0 h0).instant ≤ (DateLike.date e).instant := by
    rw [PyDate.le_iff] at hse
    simp only [DateLike.instant, DateLike.day, DateLike.micros]; omega
  have key1 : ∀ f, f s e = .ok x → includeDatetimes f (.date s) (.datetime e 0 h0) = .ok y → y = x := by
    intro f hf hy
    simp only [includeDatetimes, DateLike.isDatetime, DateLike.day, DateLike.instant, DateLike.micros,
      Bool.true_eq_false, and_false, if_false, Bool.false_eq_true, if_true, bind_ok, ok_bind] at hy
    obtain ⟨e', _, i, hi, o, _, sc, hsc, hy⟩ := hy
    rw [hf] at hi; cases hi
    rw [pyDiv_ok] at hsc
    cases hy
    rw [hsc.2]; simp
  have key2 : ∀ f, f s e = .ok x → includeDatetimes f (.datetime s 0 h0) (.date e) = .ok y → y = x := by
    intro f hf hy
    simp only [includeDatetimes, DateLike.isDatetime, DateLike.day, DateLike.instant, DateLike.micros,
      Bool.true_eq_false, false_and, if_false, Bool.false_eq_true, if_true, bind_ok, ok_bind] at hy
    obtain ⟨s', hs', i, _, o, ho, sc, hsc, hy⟩ := hy
    rw [hf] at ho; cases ho
    rw [PyDate.addDays_ok] at hs'
    rw [pyDiv_ok] at hsc
    cases hy
    rw [hsc.2, hs']; push_cast; ring_nf
  unfold computeAccrualLength
  rw [if_pos (checkDates_iff.2 hi), if_pos (checkDates_iff.2 hi')]
  cases dcc
  · exact ⟨key1 _ hx, key2 _ hx⟩
  · exact ⟨key1 _ hx, key2 _ hx⟩
  · exact ⟨key1 _ hx, key2 _ hx⟩
  · exact ⟨key1 _ hx, key2 _ hx⟩
  · exact ⟨key1 _ hx, key2 _ hx⟩
  · cases hx

/-- C16 (two midnight datetimes). Under any convention the result is the average of the accrual of the dates widened
by a day at the end and shortened by a day at the start. -/
theorem C16_midnight_average (f : PyDate → PyDate → Except PyErr ℚ) (s e s' e' : PyDate)
    (h0 : (0 : Int) ≤ 0 ∧ (0 : Int) < 86400000000) (hs : s'.ord = s.ord + 1) (he : e'.ord = e.ord + 1) (i o : ℚ)
    (hi : f s' e = .ok i) (ho : f s e' = .ok o) :
    includeDatetimes f (.datetime s 0 h0) (.datetime e 0 h0) = .ok ((i + o) / 2) := by
  have h1 : s.addDays 1 = .ok s' := PyDate.addDays_ok.2 hs
  have h2 : e.addDays 1 = .ok e' := PyDate.addDays_ok.2 he
  simp only [includeDatetimes, DateLike.isDatetime, DateLike.day, DateLike.instant, DateLike.micros,
    Bool.true_eq_false, false_and, if_false, if_true, h1, h2, ok_bind, hi, ho, hs, he]
  rw [pyDiv_of_ne (by push_cast; ring_nf; norm_num), ok_bind]
  congr 1; push_cast; ring_nf

/-- C16 (partial, ACT/ACT). Two midnight datetimes give the accrual of their dates iff the days following the two dates
lie in years of equal length.  Missing: the other dates, where it is false, and 30/360, see
`C16_thirty360_midnight_differs`. -/
theorem C16_act_act_midnight_partial (s e s' e' : PyDate) (h : s ≤ e) (hy : 2 ≤ s.year)
    (h0 : (0 : Int) ≤ 0 ∧ (0 : Int) < 86400000000) (hs : s'.ord = s.ord + 1) (he : e'.ord = e.ord + 1) :
    computeAccrualLength (.datetime s 0 h0) (.datetime e 0 h0) .actAct = accrual s e .actAct ↔
      yearLength s'.year = yearLength e'.year := by
  have hi : (DateLike.datetime s 0 h0).instant ≤ (DateLike.datetime e 0 h0).instant := by
    have := h; rw [PyDate.le_iff] at this
    simp only [DateLike.instant, DateLike.day, DateLike.micros]; omega
  unfold computeAccrualLength
  rw [if_pos (checkDates_iff.2 hi)]
  have ye : s.year ≤ e.year := by have := h; rw [← not_lt, PyDate.lt_iff_lex] at this; omega
  have ys' : s.year ≤ s'.year := by
    have : s < s' := by rw [PyDate.lt_iff]; omega
    rw [PyDate.lt_iff_lex] at this; omega
  have ye' : e.year ≤ e'.year := by
    have : e < e' := by rw [PyDate.lt_iff]; omega
    rw [PyDate.lt_iff_lex] at this; omega
  simp only
  rw [C16_midnight_average actAct s e s' e' h0 hs he _ _ (actAct_eq (by omega) (by omega))
    (actAct_eq (by omega) (by omega)), C14_act_act s e h hy]
  -- one day later adds 1 / (length of the later day's year)
  have step : ∀ d d' : PyDate, d'.ord = d.ord + 1 → yearCoord d' = yearCoord d + 1 / (yearLength d'.year : ℚ) := by
    intro d d' hd
    have b1 := d.ord_year_bounds
    have b2 := d'.ord_year_bounds
    have pl := yearLength_pos d.year
    have pl' := yearLength_pos d'.year
    have hlt : d.year ≤ d'.year := by
      have : d < d' := by rw [PyDate.lt_iff]; omega
      rw [PyDate.lt_iff_lex] at this; omega
    unfold yearCoord
    rcases lt_or_eq_of_le hlt with hl | heq
    · have m := daysBeforeYear_mono (y := d.year + 1) (z := d'.year) (by omega)
      have hy1 : d'.year = d.year + 1 := by
        by_contra hne
        have := daysBeforeYear_mono (y := d.year + 1) (z := d'.year) (by omega); omega
      have e1 : d.ord - daysBeforeYear d.year = yearLength d.year := by
        rw [yearLength_eq]; rw [hy1] at m b2; omega
      have e2 : d'.ord - daysBeforeYear d'.year = 1 := by rw [hy1]; rw [hy1] at b2; omega
      rw [e1, e2, div_self (ne_of_gt pl), hy1]; push_cast; ring
    · rw [heq, hd]; push_cast; field_simp; ring
  rw [step s s' hs, step e e' he]
  have p1 := yearLength_pos s'.year
  have p2 := yearLength_pos e'.year
  rw [Except.ok.injEq]
  constructor
  · intro heq
    have : 1 / (yearLength s'.year : ℚ) = 1 / (yearLength e'.year : ℚ) := by linarith
    have h3 : (yearLength s'.year : ℚ) = (yearLength e'.year : ℚ) := by
      field_simp at this; linarith
    exact_mod_cast h3
  · intro heq; rw [heq]; ring

/-- C16 fails for 30/360: 30 to 31 January 2023 accrues 0 as dates and half a day as midnight datetimes. -/
theorem C16_thirty360_midnight_differs :
    accrual (D 2023 1 30) (D 2023 1 31) .thirty360 = .ok 0 ∧
    computeAccrualLength (.datetime (D 2023 1 30) 0 (by decide)) (.datetime (D 2023 1 31) 0 (by decide)) .thirty360 =
      .ok (1 / 720) := by
  constructor
  · rw [accrual_eq (by decide +kernel)]
    simp only [thirty360, show thirty360Days (D 2023 1 30) (D 2023 1 31) = 0 by decide +kernel]
    norm_num
  · unfold computeAccrualLength
    rw [if_pos (by decide +kernel)]
    simp only
    rw [C16_midnight_average thirty360 (D 2023 1 30) (D 2023 1 31) (D 2023 1 31) (D 2023 2 1) _ (by decide +kernel)
      (by decide +kernel) 0 (1 / 360) ?_ ?_]
    · norm_num
    · simp only [thirty360, show thirty360Days (D 2023 1 31) (D 2023 1 31) = 0 by decide +kernel]; norm_num
    · simp only [thirty360, show thirty360Days (D 2023 1 30) (D 2023 2 1) = 1 by decide +kernel]; norm_num

example : (DateLike.datetime (D 2023 1 1) 43200000000 (by decide)).instant ≤ (DateLike.date (D 2023 1 2)).instant ∧
    (D 2023 1 1).ord < PyDate.maxOrd := by decide +kernel

/-! ### C17 -/

/-- C17. Every convention rejects a reversed interval with ValueError, dates and datetimes alike. -/
theorem C17_reversed_rejected (s e : DateLike) (dcc : DayCountConvention) (h : e.instant < s.instant) :
    computeAccrualLength s e dcc = .error .valueError := by
  unfold computeAccrualLength
  rw [if_neg]
  rw [checkDates_iff]; omega

/-- C17. On dates, ValueError is raised only for reversed intervals, or by ACT/ACT in year 1; an object outside the
enumeration gives TypeError; everything else returns a number. -/
theorem C17_only_reversed_rejected (s e : PyDate) (dcc : DayCountConvention) (h : s ≤ e) :
    (dcc = .unknown → accrual s e dcc = .error .typeError) ∧
    (dcc ≠ .unknown → ¬ (dcc = .actAct ∧ s.year = 1) → ∃ x, accrual s e dcc = .ok x) := by
  constructor
  · rintro rfl; rw [accrual_eq h]
  · intro h1 h2
    cases dcc
    · exact ⟨_, C13_act_fixed .act360 _ rfl s e h⟩
    · exact ⟨_, C13_act_fixed .act365 _ rfl s e h⟩
    · exact ⟨_, C13_act_fixed .act36525 _ rfl s e h⟩
    · have := s.bounds
      exact ⟨_, C14_act_act s e h (by have : s.year ≠ 1 := fun hc => h2 ⟨rfl, hc⟩; omega)⟩
    · rw [accrual_eq h]; exact ⟨_, rfl⟩
    · exact absurd rfl h1

example : (DateLike.date (D 2023 1 1)).instant < (DateLike.datetime (D 2023 1 1) 1 (by decide)).instant := by
  decide +kernel

end Verif.Props
