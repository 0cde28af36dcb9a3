/-
Property theorems C09–C12: the US federal calendar of holidays.py, for every year 1..9999.
-/
import Verif.Lemmas.Holidays
import Verif.Props.Scheduling

namespace Verif.Props
open Verif Verif.Spec Verif.Scheduler

/-! ### Helpers -/

theorem fields_of_ord {r : PyDate} {y m k : Int} (hy : 1 ≤ y ∧ y ≤ 9999) (hm : 1 ≤ m ∧ m ≤ 12)
    (hk : 1 ≤ k ∧ k ≤ daysInMonth y m) (h : r.ord = daysBeforeYear y + daysBeforeMonth y m + k) :
    r.year = y ∧ r.month = m ∧ r.day = k := by
  have hv : validYMD y m k = true := by rw [PyDate.valid_iff]; omega
  have : r = ⟨y, m, k, hv⟩ := PyDate.ord_inj.1 (by rw [h]; rfl)
  subst this; exact ⟨rfl, rfl, rfl⟩

/-- A business day on or after `d` yields a first one. -/
theorem exists_first {cal : HolidayCalendar} (n : Nat) (d r : PyDate) (hn : (r.ord - d.ord).toNat ≤ n) (hdr : d ≤ r)
    (hr : BusinessDay cal r) : ∃ f, FirstOnOrAfter cal d f ∧ f ≤ r := by
  induction n generalizing d with
  | zero =>
    have : d = r := by rw [PyDate.le_iff] at hdr; exact PyDate.ord_inj.1 (by omega)
    subst this
    exact ⟨d, ⟨le_refl _, hr, fun e h1 h2 => absurd h1 (not_le.2 h2)⟩, le_refl _⟩
  | succ n ih =>
    by_cases hd : BusinessDay cal d
    · exact ⟨d, ⟨le_refl _, hd, fun e h1 h2 => absurd h1 (not_le.2 h2)⟩, hdr⟩
    · have hne : d ≠ r := fun h => hd (h ▸ hr)
      have hlt := lt_of_le_of_ne hdr hne
      rw [PyDate.lt_iff] at hlt
      have hb := d.ord_bounds; have hb' := r.ord_bounds
      obtain ⟨d', _, ho⟩ := PyDate.ofOrd?_some (d.ord + 1) (by omega) (by omega)
      obtain ⟨f, ⟨f1, f2, f3⟩, f4⟩ := ih d' (by omega) (by rw [PyDate.le_iff]; omega)
      rw [PyDate.le_iff] at f1
      refine ⟨f, ⟨by rw [PyDate.le_iff]; omega, f2, ?_⟩, f4⟩
      intro e h1 h2
      by_cases hed : e = d
      · subst hed; exact hd
      · apply f3 e _ h2
        have := lt_of_le_of_ne h1 (Ne.symm hed)
        rw [PyDate.lt_iff] at this; rw [PyDate.le_iff]; omega

theorem us_evaluable' (d : PyDate) : Evaluable usFederalHolidays d.year :=
  us_evaluable d.year d.bounds.1 d.bounds.2.1

/-- No federal holiday is observed on one of the last three days of its own year. -/
theorem us_not_year_end {y : Int} {d : PyDate} (h : ObservedIn usFederalHolidays y d) :
    d.ord ≤ daysBeforeYear (y + 1) - 4 := by
  obtain ⟨hy, _, i, o, ho, w⟩ := us_windows y d h
  have := daysBeforeYear_succ y
  have := leapDay_eq_zero_or_one y
  split_ifs at ho with hi <;> omega

/-! ### C09 -/

/-- C09. With the US federal calendar `is_business_day` never raises, for any date of the python range. -/
theorem C09_is_business_day_total (d : PyDate) : ∃ b, isBusinessDay usFederalHolidays d = .ok b :=
  (isBusinessDay_total_iff _ _).2 (us_evaluable' d)

theorem us_business_day_near (d : PyDate) :
    ∃ r, d ≤ r ∧ r.ord ≤ d.ord + 3 ∧ BusinessDay usFederalHolidays r := by
  have hb := d.ord_bounds
  unfold PyDate.maxOrd at hb
  -- first weekday on or after d
  obtain ⟨k, hk0, hk2, hkw⟩ : ∃ k : Int, 0 ≤ k ∧ (k = 0 ∨ (d.ord + 6) % 7 + k = 7) ∧ (d.ord + k + 6) % 7 ≤ 4 ∧ k ≤ 2 := by
    by_cases h5 : (d.ord + 6) % 7 = 5
    · exact ⟨2, by omega, by omega, by omega, by omega⟩
    by_cases h6 : (d.ord + 6) % 7 = 6
    · exact ⟨1, by omega, by omega, by omega, by omega⟩
    · exact ⟨0, by omega, by omega, by omega, by omega⟩
  obtain ⟨e, _, he⟩ := PyDate.ofOrd?_some (d.ord + k) (by omega) (by unfold PyDate.maxOrd; omega)
  have hew : e.weekday ≤ 4 := by unfold PyDate.weekday; omega
  by_cases hh : ObservedIn usFederalHolidays e.year e
  · -- e is a holiday: the next weekday is not one
    have hend := us_not_year_end hh
    have hb9 := e.bounds
    have hm := daysBeforeYear_mono (y := e.year + 1) (z := 10000) (by omega)
    have h10 : daysBeforeYear 10000 = 3652059 := by decide
    obtain ⟨j, hj, hjw⟩ : ∃ j : Int, (j = 1 ∨ ((e.ord + 6) % 7 = 4 ∧ j = 3)) ∧ (e.ord + j + 6) % 7 ≤ 4 := by
      by_cases h4 : (e.ord + 6) % 7 = 4
      · exact ⟨3, Or.inr ⟨h4, rfl⟩, by omega⟩
      · refine ⟨1, Or.inl rfl, ?_⟩
        unfold PyDate.weekday at hew; omega
    obtain ⟨r, _, hr⟩ := PyDate.ofOrd?_some (e.ord + j) (by omega) (by unfold PyDate.maxOrd; omega)
    refine ⟨r, by rw [PyDate.le_iff]; omega, by omega, ?_, ?_⟩
    · intro hw; unfold IsWeekend PyDate.weekday at hw; omega
    · intro ho
      have := us_sparse hh ho (by omega)
      omega
  · refine ⟨e, by rw [PyDate.le_iff]; omega, by omega, ?_, hh⟩
    intro hw; unfold IsWeekend at hw; omega

/-- C09. With the US federal calendar, rolling forward never raises and moves at most three days, for every date
including 9999-12-31. -/
theorem C09_following_total (d : PyDate) :
    ∃ r, followingDateAdjustment usFederalHolidays d = .ok r ∧ d.ord ≤ r.ord ∧ r.ord ≤ d.ord + 3 := by
  obtain ⟨s, h1, h2, h3⟩ := us_business_day_near d
  obtain ⟨f, hf, hfs⟩ := exists_first _ d s (Nat.le_refl _) h1 h3
  refine ⟨f, (C02_following_iff _ _ _).2 ⟨hf, fun e _ _ => us_evaluable' e⟩, hf.1, ?_⟩
  rw [PyDate.le_iff] at hfs; omega

/-- C09. Adding `n` business days on the US calendar raises only OverflowError, and never when the date is more than
`3 + 4 n` days before 9999-12-31; the result is then at most `3 + 4 n` days later. -/
theorem C09_add_business_days_total (d : PyDate) (n : Nat) (h : d.ord + 3 + 4 * n ≤ PyDate.maxOrd) :
    ∃ r, addBusinessDays usFederalHolidays d (n : Int) = .ok r ∧ d.ord + n ≤ r.ord ∧ r.ord ≤ d.ord + 3 + 4 * n := by
  induction n with
  | zero =>
    obtain ⟨r, h1, h2, h3⟩ := C09_following_total d
    exact ⟨r, h1, by push_cast; omega, by push_cast; omega⟩
  | succ n ih =>
    push_cast at h
    obtain ⟨r, h1, h2, h3⟩ := ih (by omega)
    obtain ⟨x, _, hx⟩ := PyDate.ofOrd?_some (r.ord + 1) (by have := r.ord_bounds; omega) (by omega)
    obtain ⟨s, s1, s2, s3⟩ := us_business_day_near x
    obtain ⟨f, hf, hfs⟩ := exists_first _ x s (Nat.le_refl _) s1 s3
    have hbd : BusinessDay usFederalHolidays r := by
      obtain ⟨r0, L, _, _, hb, _⟩ := (C03_add_business_days_iff _ _ _ _).1 h1; exact hb
    have hone : addSingleBusinessDay usFederalHolidays r = .ok f := by
      refine addSingle_iff.2 ⟨hbd, ⟨?_, hf.2.1, ?_⟩, fun e _ _ => us_evaluable' e⟩
      · have := hf.1; rw [PyDate.le_iff] at this; rw [PyDate.lt_iff]; omega
      · intro e h4 h5
        apply hf.2.2 e _ h5
        rw [PyDate.lt_iff] at h4; rw [PyDate.le_iff]; omega
    have hr1 : addBusinessDays usFederalHolidays r ((1 : Nat) : Int) = .ok f := by
      rw [addBusinessDays_nonneg_eq, roll_of_bd (isBusinessDay_true (us_evaluable' r) hbd), ok_bind]
      simp only [iterSteps, hone, ok_bind]
    have hc := C03_add_compose usFederalHolidays d n 1
    rw [h1, ok_bind, hr1] at hc
    have hff := hf.1
    rw [PyDate.le_iff] at hff hfs
    refine ⟨f, ?_, by push_cast; omega, by push_cast; omega⟩
    rw [hc]; push_cast; rfl

/-- The three-day bound is attained: Christmas 2021 was a Saturday, observed on Friday the 24th. -/
example : followingDateAdjustment usFederalHolidays (D 2021 12 24) = .ok (D 2021 12 27) ∧
    (D 2021 12 27).ord = (D 2021 12 24).ord + 3 := by decide +kernel
example : (D 2021 12 24).ord + 3 + 4 * (250 : Nat) ≤ PyDate.maxOrd := by decide +kernel
example : followingDateAdjustment usFederalHolidays (D 9999 12 31) = .ok (D 9999 12 31) := by decide +kernel

/-! ### C10 -/

/-- C10. The federal adjustment never raises; it leaves weekdays alone, moves Saturdays to the Friday before and Sundays
to the Monday after. -/
theorem C10_federal_adjustment (d : PyDate) :
    ∃ r, usFederalHolidayAdjustment d = .ok r ∧ ¬ IsWeekend r ∧
      (¬ IsWeekend d → r = d) ∧
      (d.weekday = 5 → r.ord = d.ord - 1 ∧ r.weekday = 4) ∧
      (d.weekday = 6 → r.ord = d.ord + 1 ∧ r.weekday = 0) := by
  obtain ⟨r, hr⟩ := usAdj_total d
  have ho := usAdj_ok.1 hr
  refine ⟨r, hr, ?_, ?_, ?_, ?_⟩
  · intro hw; have := adjOrd_weekday d.ord
    unfold IsWeekend PyDate.weekday at hw; omega
  · intro hw
    apply PyDate.ord_inj.1
    rw [ho]; unfold adjOrd
    unfold IsWeekend PyDate.weekday at hw
    split_ifs <;> omega
  · unfold PyDate.weekday; unfold adjOrd at ho; split_ifs at ho <;> omega
  · unfold PyDate.weekday; unfold adjOrd at ho; split_ifs at ho <;> omega

/-- C10. `get_next_weekday(d, w)` returns `r` iff `r` is the least date on or after `d` falling on weekday `w`; when there
is none before 9999-12-31 it raises OverflowError. -/
theorem C10_next_weekday (d : PyDate) (wd : Int) (h0 : 0 ≤ wd) (h6 : wd ≤ 6) :
    (∀ r, getNextWeekday d wd = .ok r ↔
      (d ≤ r ∧ r.weekday = wd ∧ ∀ e : PyDate, d ≤ e → e.weekday = wd → r ≤ e)) ∧
    ((∀ r : PyDate, d ≤ r → r.weekday ≠ wd) → getNextWeekday d wd = .error .overflowError) := by
  have hb := nextOrd_bounds d.ord wd
  have hw := nextOrd_weekday d.ord wd h0 h6
  have least : ∀ e : PyDate, d ≤ e → e.weekday = wd → nextOrd d.ord wd ≤ e.ord := by
    intro e h1 h2
    rw [PyDate.le_iff] at h1
    unfold PyDate.weekday at h2
    unfold nextOrd; omega
  constructor
  · intro r
    rw [nextWd_ok h0 h6]
    constructor
    · intro h
      refine ⟨by rw [PyDate.le_iff]; omega, by unfold PyDate.weekday; omega, ?_⟩
      intro e h1 h2
      have := least e h1 h2
      rw [PyDate.le_iff]; omega
    · rintro ⟨h1, h2, h3⟩
      have h4 := least r h1 h2
      have := r.ord_bounds; have := d.ord_bounds
      obtain ⟨s, _, hs⟩ := PyDate.ofOrd?_some (nextOrd d.ord wd) (by omega) (by omega)
      have := h3 s (by rw [PyDate.le_iff]; omega) (by unfold PyDate.weekday; omega)
      rw [PyDate.le_iff] at this; omega
  · intro hno
    unfold getNextWeekday
    have hne : d.weekday ≠ wd := hno d (le_refl _)
    simp only [hne, if_false]
    rw [PyDate.addDays_error]
    refine ⟨rfl, ?_⟩
    by_contra hc
    obtain ⟨s, _, hs⟩ := PyDate.ofOrd?_some (d.ord + (wd - d.weekday) % 7) (by omega) (by omega)
    unfold PyDate.weekday at hs hne
    exact hno s (by rw [PyDate.le_iff]; omega) (by unfold PyDate.weekday; omega)

example : usFederalHolidayAdjustment (D 2021 7 4) = .ok (D 2021 7 5) ∧ (D 2021 7 4).weekday = 6 := by decide +kernel
example : getNextWeekday (D 2023 11 22) 3 = .ok (D 2023 11 23) := by decide +kernel
example : getNextWeekday (D 9999 12 31) 0 = .error .overflowError := by decide +kernel

/-! ### C11 -/

/-- The date generated for one named US federal holiday and year. -/
theorem us_generate {name : String} {m k : Int} {adj : PyDate → Except PyErr PyDate} {y : Int} {n r : PyDate}
    (hl : usFederalHolidays.lookup name = some ⟨m, k, adj⟩) (hn : n.year = y ∧ n.month = m ∧ n.day = k)
    (hr : adj n = .ok r) : generateHolidayDates name y y usFederalHolidays = .ok [r] := by
  rw [generateHolidayDates_single hl]
  have : PyDate.mk? y m k = .ok n := PyDate.mk?_ok.2 hn
  simp [collect, this, hr]

/-- Floating Monday/Thursday holidays given by "first `wd` on or after day `7 (n-1) + 1`". -/
theorem us_floating {name : String} {m wd : Int} (n : Int)
    (hl : usFederalHolidays.lookup name = some ⟨m, 7 * (n - 1) + 1, fun d => getNextWeekday d wd⟩)
    (hw : 0 ≤ wd ∧ wd ≤ 6) (hm : 1 ≤ m ∧ m ≤ 12) (hn : 1 ≤ n ∧ n ≤ 4) (y : Int) (hy : 1 ≤ y ∧ y ≤ 9999) :
    ∃ r, generateHolidayDates name y y usFederalHolidays = .ok [r] ∧ NthWeekday n wd y m r := by
  have hdm := daysInMonth_bounds y m
  obtain ⟨b, b1, b2, b3⟩ := nominal_exists (valid_us (m := m) (d := 7 * (n - 1) + 1) hy hm (by omega))
  have ho := ord_of_fields b1 b2 b3
  have hb := nextOrd_bounds b.ord wd
  have hwd := nextOrd_weekday b.ord wd hw.1 hw.2
  obtain ⟨k, hk⟩ : ∃ k, nextOrd b.ord wd = daysBeforeYear y + daysBeforeMonth y m + k :=
    ⟨nextOrd b.ord wd - daysBeforeYear y - daysBeforeMonth y m, by omega⟩
  have hv : validYMD y m k = true := by rw [PyDate.valid_iff]; omega
  refine ⟨⟨y, m, k, hv⟩, us_generate hl ⟨b1, b2, b3⟩ ((nextWd_ok hw.1 hw.2).2 (by rw [hk]; rfl)), ?_⟩
  refine ⟨rfl, rfl, ?_, ?_, ?_⟩
  · unfold PyDate.weekday
    rw [show (⟨y, m, k, hv⟩ : PyDate).ord = nextOrd b.ord wd by rw [hk]; rfl]; exact hwd
  · show 7 * (n - 1) < k; omega
  · show k ≤ 7 * n; omega

/-- C11 (the floating holidays). For every year: Presidents' Day is the third Monday of February, Labor Day the first
Monday of September, Columbus Day the second Monday of October, Thanksgiving the fourth Thursday of November. -/
theorem C11_floating_holidays (y : Int) (h1 : 1 ≤ y) (h2 : y ≤ 9999) :
    (∃ r, generateHolidayDates "Presidents" y y usFederalHolidays = .ok [r] ∧ NthWeekday 3 0 y 2 r) ∧
    (∃ r, generateHolidayDates "Labor" y y usFederalHolidays = .ok [r] ∧ NthWeekday 1 0 y 9 r) ∧
    (∃ r, generateHolidayDates "Columbus" y y usFederalHolidays = .ok [r] ∧ NthWeekday 2 0 y 10 r) ∧
    (∃ r, generateHolidayDates "Thanksgiving" y y usFederalHolidays = .ok [r] ∧ NthWeekday 4 3 y 11 r) :=
  ⟨us_floating 3 rfl (by decide) (by decide) (by decide) y ⟨h1, h2⟩,
   us_floating 1 rfl (by decide) (by decide) (by decide) y ⟨h1, h2⟩,
   us_floating 2 rfl (by decide) (by decide) (by decide) y ⟨h1, h2⟩,
   us_floating 4 rfl (by decide) (by decide) (by decide) y ⟨h1, h2⟩⟩

/-- `r` is the in-lieu-of date of the nominal date `n`: the Friday before a Saturday, the Monday after a Sunday, `n`
itself otherwise. -/
def InLieuOf (n r : PyDate) : Prop :=
  (n.weekday = 5 → r.ord = n.ord - 1) ∧ (n.weekday = 6 → r.ord = n.ord + 1) ∧ (¬ IsWeekend n → r = n)

theorem us_fixed {name : String} {m k : Int}
    (hl : usFederalHolidays.lookup name = some ⟨m, k, usFederalHolidayAdjustment⟩)
    (hm : 1 ≤ m ∧ m ≤ 12) (hk : (1 ≤ k ∧ k ≤ 28) ∨ (1 ≤ k ∧ k ≤ 30 ∧ m ≠ 2)) (y : Int) (hy : 1 ≤ y ∧ y ≤ 9999) :
    ∃ n r : PyDate, n.year = y ∧ n.month = m ∧ n.day = k ∧
      generateHolidayDates name y y usFederalHolidays = .ok [r] ∧ InLieuOf n r := by
  obtain ⟨b, b1, b2, b3⟩ := nominal_exists (valid_us (m := m) (d := k) hy hm hk)
  obtain ⟨r, hr, _, h1, h2, h3⟩ := C10_federal_adjustment b
  exact ⟨b, r, b1, b2, b3, us_generate hl ⟨b1, b2, b3⟩ hr, fun h => (h2 h).1, fun h => (h3 h).1, h1⟩

/-- C11 (the fixed-date holidays). For every year: New Year's Day 1 January, Juneteenth 19 June, Independence Day 4 July,
Veterans Day 11 November, Christmas 25 December, each moved off weekends to its in-lieu-of date. -/
theorem C11_fixed_holidays (y : Int) (h1 : 1 ≤ y) (h2 : y ≤ 9999) (name : String) (m k : Int)
    (h : (name, m, k) ∈ [("NewYears", 1, 1), ("Juneteenth", 6, 19), ("Independence", 7, 4), ("Veterans", 11, 11),
      ("Christmas", 12, 25)]) :
    ∃ n r : PyDate, n.year = y ∧ n.month = m ∧ n.day = k ∧
      generateHolidayDates name y y usFederalHolidays = .ok [r] ∧ InLieuOf n r := by
  simp only [List.mem_cons, Prod.mk.injEq, List.not_mem_nil, or_false] at h
  rcases h with ⟨rfl, rfl, rfl⟩ | ⟨rfl, rfl, rfl⟩ | ⟨rfl, rfl, rfl⟩ | ⟨rfl, rfl, rfl⟩ | ⟨rfl, rfl, rfl⟩
  · exact us_fixed rfl (by decide) (by decide) y ⟨h1, h2⟩
  · exact us_fixed rfl (by decide) (by decide) y ⟨h1, h2⟩
  · exact us_fixed rfl (by decide) (by decide) y ⟨h1, h2⟩
  · exact us_fixed rfl (by decide) (by decide) y ⟨h1, h2⟩
  · exact us_fixed rfl (by decide) (by decide) y ⟨h1, h2⟩

/-- C11 (Martin Luther King Day, partial). The generated date is the third Monday of January exactly in the years in
which 17 January is a Sunday or a Monday.  Missing: the other years, where it is false (`C11_not_legal_dates`). -/
theorem C11_mlk_partial (y : Int) (h1 : 1 ≤ y) (h2 : y ≤ 9999) (n : PyDate)
    (hn : n.year = y ∧ n.month = 1 ∧ n.day = 17) :
    ∃ r, generateHolidayDates "MLK" y y usFederalHolidays = .ok [r] ∧
      (NthWeekday 3 0 y 1 r ↔ n.weekday = 6 ∨ n.weekday = 0) := by
  obtain ⟨r, hr⟩ := usAdj_total n
  refine ⟨r, us_generate rfl hn hr, ?_⟩
  have ho := usAdj_ok.1 hr
  have hno := ord_of_fields hn.1 hn.2.1 hn.2.2
  have hm := (months_us y).1
  constructor
  · rintro ⟨-, -, hw, -, -⟩
    unfold PyDate.weekday at *
    unfold adjOrd at ho
    split_ifs at ho <;> omega
  · intro hw
    have hdm : daysInMonth y 1 = 31 := by rfl
    obtain ⟨k, hk, hk2, hk3⟩ : ∃ k, r.ord = daysBeforeYear y + daysBeforeMonth y 1 + k ∧ (k = 17 ∨ k = 18) ∧
        (r.ord + 6) % 7 = 0 := by
      unfold PyDate.weekday at hw
      unfold adjOrd at ho
      rcases hw with hw | hw
      · exact ⟨18, by split_ifs at ho <;> omega, by omega, by split_ifs at ho <;> omega⟩
      · exact ⟨17, by split_ifs at ho <;> omega, by omega, by split_ifs at ho <;> omega⟩
    obtain ⟨f1, f2, f3⟩ := fields_of_ord ⟨h1, h2⟩ ⟨by omega, by omega⟩ (by omega) hk
    exact ⟨f1, f2, hk3, by omega, by omega⟩

/-- C11 (Memorial Day, partial). The generated date is the last Monday of May exactly in the years in which 30 May is a
Sunday or a Monday.  Missing: the other years, where it is false (`C11_not_legal_dates`). -/
theorem C11_memorial_partial (y : Int) (h1 : 1 ≤ y) (h2 : y ≤ 9999) (n : PyDate)
    (hn : n.year = y ∧ n.month = 5 ∧ n.day = 30) :
    ∃ r, generateHolidayDates "Memorial" y y usFederalHolidays = .ok [r] ∧
      (LastWeekday 0 y 5 r ↔ n.weekday = 6 ∨ n.weekday = 0) := by
  obtain ⟨r, hr⟩ := usAdj_total n
  refine ⟨r, us_generate rfl hn hr, ?_⟩
  have ho := usAdj_ok.1 hr
  have hno := ord_of_fields hn.1 hn.2.1 hn.2.2
  have hdm : daysInMonth y 5 = 31 := by rfl
  constructor
  · rintro ⟨-, -, hw, -⟩
    unfold PyDate.weekday at *
    unfold adjOrd at ho
    split_ifs at ho <;> omega
  · intro hw
    obtain ⟨k, hk, hk2, hk3⟩ : ∃ k, r.ord = daysBeforeYear y + daysBeforeMonth y 5 + k ∧ (k = 30 ∨ k = 31) ∧
        (r.ord + 6) % 7 = 0 := by
      unfold PyDate.weekday at hw
      unfold adjOrd at ho
      rcases hw with hw | hw
      · exact ⟨31, by split_ifs at ho <;> omega, by omega, by split_ifs at ho <;> omega⟩
      · exact ⟨30, by split_ifs at ho <;> omega, by omega, by split_ifs at ho <;> omega⟩
    obtain ⟨f1, f2, f3⟩ := fields_of_ord ⟨h1, h2⟩ ⟨by omega, by omega⟩ (by omega) hk
    refine ⟨f1, f2, hk3, ?_⟩
    rw [hdm, f3]; omega

instance (n wd y m : Int) (d : PyDate) : Decidable (NthWeekday n wd y m d) := by unfold NthWeekday; infer_instance
instance (wd y m : Int) (d : PyDate) : Decidable (LastWeekday wd y m d) := by unfold LastWeekday; infer_instance

/-- C11 fails in full: in 2023 the code observes MLK Day on Tuesday 17 January and Memorial Day on Tuesday 30 May,
the legal dates being Monday 16 January and Monday 29 May (which the code takes for business days). -/
theorem C11_not_legal_dates :
    generateHolidayDates "MLK" 2023 2023 usFederalHolidays = .ok [D 2023 1 17] ∧
    ¬ NthWeekday 3 0 2023 1 (D 2023 1 17) ∧ NthWeekday 3 0 2023 1 (D 2023 1 16) ∧
    isBusinessDay usFederalHolidays (D 2023 1 16) = .ok true ∧
    generateHolidayDates "Memorial" 2023 2023 usFederalHolidays = .ok [D 2023 5 30] ∧
    ¬ LastWeekday 0 2023 5 (D 2023 5 30) ∧ LastWeekday 0 2023 5 (D 2023 5 29) ∧
    isBusinessDay usFederalHolidays (D 2023 5 29) = .ok true := by decide +kernel

/-- C11 (any calendar, any range of years). The set of dates generated for a name consists of exactly one observed date
per year of the range, and an unknown name raises KeyError. -/
theorem C11_generate_range (cal : HolidayCalendar) (name : String) (a b : Int) :
    (cal.lookup name = none → generateHolidayDates name a b cal = .error .keyError) ∧
    ∀ L, generateHolidayDates name a b cal = .ok L → ∃ h, cal.lookup name = some h ∧
      ∀ d, d ∈ L ↔ ∃ n : PyDate, a ≤ n.year ∧ n.year ≤ b ∧ n.month = h.month ∧ n.day = h.day ∧ h.adjust n = .ok d := by
  constructor
  · intro h; unfold generateHolidayDates; rw [h]
  · intro L hL
    unfold generateHolidayDates at hL
    split at hL
    · cases hL
    · rename_i h hh
      refine ⟨h, hh, fun d => ?_⟩
      rw [collect_mem hL]
      constructor
      · rintro ⟨y, hy, hd⟩
        rw [bind_ok] at hd
        obtain ⟨n, hn, hd⟩ := hd
        rw [PyDate.mk?_ok] at hn
        rw [yearRange_mem] at hy
        exact ⟨n, by omega, by omega, hn.2.1, hn.2.2, hd⟩
      · rintro ⟨n, h1, h2, h3, h4, h5⟩
        refine ⟨n.year, (yearRange_mem _ _ _).2 ⟨h1, h2⟩, ?_⟩
        rw [bind_ok]
        exact ⟨n, PyDate.mk?_ok.2 ⟨rfl, h3, h4⟩, h5⟩

/-- C11. `generate_all_holidays` over a range of years is the union of the observed dates of those years. -/
theorem C11_generate_all (cal : HolidayCalendar) (a b : Int) (L : List PyDate)
    (h : generateAllHolidays a b cal = .ok L) (d : PyDate) :
    d ∈ L ↔ ∃ y, a ≤ y ∧ y ≤ b ∧ ObservedIn cal y d := by
  unfold generateAllHolidays at h
  rw [bind_ok] at h
  obtain ⟨sets, hs, hL⟩ := h
  cases hL
  rw [List.mem_flatten]
  constructor
  · rintro ⟨S, hS, hd⟩
    obtain ⟨kv, hkv, hgen⟩ := (collect_mem hs S).1 hS
    obtain ⟨h, hl, hm⟩ := (C11_generate_range cal kv.1 a b).2 S hgen
    obtain ⟨n, h1, h2, h3, h4, h5⟩ := (hm d).1 hd
    exact ⟨n.year, h1, h2, kv.1, h, n, hl, rfl, h3, h4, h5⟩
  · rintro ⟨y, hy1, hy2, name, h, n, hl, rfl, h3, h4, h5⟩
    have hmem := mem_of_lookup hl
    obtain ⟨S, hS⟩ := collect_ok_of_mem hs _ hmem
    refine ⟨S, (collect_mem hs S).2 ⟨_, hmem, hS⟩, ?_⟩
    obtain ⟨h', hl', hm⟩ := (C11_generate_range cal name a b).2 S hS
    rw [hl] at hl'; cases hl'
    exact (hm d).2 ⟨n, hy1, hy2, h3, h4, h5⟩

example : generateHolidayDates "Thanksgiving" 2022 2024 usFederalHolidays =
    .ok [D 2022 11 24, D 2023 11 23, D 2024 11 28] := by decide +kernel
example : ∃ L, generateAllHolidays 2020 2023 usFederalHolidays = .ok L ∧ L.length = 44 := by
  refine ⟨_, rfl, ?_⟩; decide +kernel
example : ∃ n : PyDate, (n.year = 2022 ∧ n.month = 1 ∧ n.day = 17) ∧ n.weekday = 0 := ⟨D 2022 1 17, by decide +kernel⟩

/-! ### C12 -/

/-- C12 (partial). Every date which the US templates of year `y` generate is refused as a business day, with exactly one
exception: 31 December of the year before.  Missing: that exception, which is real (`C12_new_year_friday_missed`). -/
theorem C12_observed_partial (y : Int) (d : PyDate) (h : ObservedIn usFederalHolidays y d) :
    isBusinessDay usFederalHolidays d =
      .ok (decide (d.year = y - 1 ∧ d.month = 12 ∧ d.day = 31)) := by
  have hev := us_evaluable' d
  obtain ⟨hy, hw, i, o, ho, w⟩ := us_windows y d h
  have hb := d.ord_year_bounds
  have hl := leapDay_eq_zero_or_one y
  have hs := daysBeforeYear_succ y
  by_cases hyr : d.year = y
  · have hnb : ¬ BusinessDay usFederalHolidays d := by
      rintro ⟨_, h2⟩; rw [hyr] at h2; exact h2 h
    rw [isBusinessDay_false hev hnb]
    have : ¬ (d.year = y - 1 ∧ d.month = 12 ∧ d.day = 31) := by omega
    simp [this]
  · -- then d is 31 December of year y - 1
    have hend := us_not_year_end h
    have hdo : d.ord = daysBeforeYear y := by
      rcases lt_or_gt_of_ne hyr with hlt | hgt
      · have := daysBeforeYear_mono (y := d.year + 1) (z := y) (by omega)
        split_ifs at ho with hi <;> omega
      · have := daysBeforeYear_mono (y := y + 1) (z := d.year) (by omega)
        omega
    have hy1 : d.year = y - 1 := by
      have h3 := daysBeforeYear_mono (y := d.year + 1) (z := y)
      have h4 := daysBeforeYear_mono (y := y) (z := d.year)
      omega
    have hde := dec_end (y - 1)
    have hs1 := daysBeforeYear_succ (y - 1)
    have hd12 : daysInMonth (y - 1) 12 = 31 := rfl
    have hyb := d.bounds
    obtain ⟨f1, f2, f3⟩ := fields_of_ord (r := d) (y := y - 1) (m := 12) (k := 31) (by omega) (by omega) (by omega)
      (by rw [hdo]; rw [show y - 1 + 1 = y by omega] at hs1; omega)
    have hbd : BusinessDay usFederalHolidays d := by
      refine ⟨fun hc => by unfold IsWeekend at hc; omega, fun hc => ?_⟩
      have := us_not_year_end hc
      rw [hy1, show y - 1 + 1 = y by omega] at this
      omega
    rw [isBusinessDay_true hev hbd]
    simp [f1, f2, f3]

/-- C12 fails in full: 31 December 2021 is the observed New Year's Day of 2022, yet it is taken for a business day. -/
theorem C12_new_year_friday_missed :
    ObservedIn usFederalHolidays 2022 (D 2021 12 31) ∧
    isBusinessDay usFederalHolidays (D 2021 12 31) = .ok true :=
  ⟨⟨"NewYears", _, D 2022 1 1, rfl, rfl, rfl, rfl, by decide +kernel⟩, by decide +kernel⟩

example : ObservedIn usFederalHolidays 2022 (D 2022 12 26) :=
  ⟨"Christmas", _, D 2022 12 25, rfl, rfl, rfl, rfl, by decide +kernel⟩

end Verif.Props
