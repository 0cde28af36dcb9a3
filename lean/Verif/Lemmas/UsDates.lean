/- The US federal calendar: totality and displacement of the business-day functions; lengths of months. -/
import Verif.Props.BusinessDayShift
import Verif.Props.BusinessDayCount
import Verif.Lemmas.Months

namespace Verif.Props
open Verif Verif.Spec Verif.Scheduler

/-! ### Months as blocks of days -/

/-- The number of days before the month with the given index (year times twelve plus month minus one). -/
def monthStart (i : Int) : Int := daysBeforeYear (i / 12) + daysBeforeMonth (i / 12) (i % 12 + 1)

theorem monthStart_succ (i : Int) : monthStart (i + 1) = monthStart i + daysInMonth (i / 12) (i % 12 + 1) := by
  unfold monthStart
  by_cases h : i % 12 ≤ 10
  · rw [show (i + 1) / 12 = i / 12 by omega, show (i + 1) % 12 + 1 = i % 12 + 1 + 1 by omega,
      month_step _ _ (by omega) (by omega)]
    omega
  · have h1 := dec_end (i / 12)
    have h2 := daysBeforeYear_succ (i / 12)
    have h3 := month_table (i / 12 + 1) 1 (by omega) (by omega)
    rw [show (i + 1) / 12 = i / 12 + 1 by omega, show (i + 1) % 12 + 1 = 1 by omega, show i % 12 + 1 = 12 by omega]
    omega

theorem monthStart_bounds (i : Int) (n : Nat) :
    monthStart i + 28 * n ≤ monthStart (i + n) ∧ monthStart (i + n) ≤ monthStart i + 31 * n := by
  induction n with
  | zero => simp
  | succ n ih =>
    have h1 := monthStart_succ (i + n)
    have h2 := daysInMonth_bounds ((i + n) / 12) ((i + n) % 12 + 1)
    have e : i + ((n + 1 : Nat) : Int) = i + n + 1 := by push_cast; omega
    rw [e]
    push_cast
    omega

theorem ord_monthStart (d : PyDate) : d.ord = monthStart d.monthIndex + d.day := by
  have hb := d.bounds
  have e1 : d.monthIndex / 12 = d.year := by unfold PyDate.monthIndex; omega
  have e2 : d.monthIndex % 12 + 1 = d.month := by unfold PyDate.monthIndex; omega
  unfold monthStart
  rw [e1, e2]
  rfl

/-- Going back `k` months is going back between `28 k` and `31 k + 3` days. -/
theorem months_back {x y : PyDate} {k : Int} (hk : 0 ≤ k) (h : y.addMonths (-k) = .ok x) :
    x.ord + 28 * k ≤ y.ord ∧ y.ord ≤ x.ord + 31 * k + 3 := by
  obtain ⟨h1, h2⟩ := PyDate.addMonths_ok.1 h
  obtain ⟨n, rfl⟩ := Int.eq_ofNat_of_zero_le hk
  have hb := monthStart_bounds x.monthIndex n
  rw [show x.monthIndex + (n : Int) = y.monthIndex by omega] at hb
  have ox := ord_monthStart x
  have oy := ord_monthStart y
  have hd := daysInMonth_bounds x.year x.month
  have := y.bounds
  have := daysInMonth_bounds y.year y.month
  omega

/-- Two dates more than 61 days apart lie in months at least two apart. -/
theorem months_apart {x y : PyDate} (h : x.ord + 61 < y.ord) : x.monthIndex + 2 ≤ y.monthIndex := by
  by_contra hc
  have ox := ord_monthStart x
  have oy := ord_monthStart y
  have bx := x.bounds
  have bY := y.bounds
  have := daysInMonth_bounds y.year y.month
  have hle : x ≤ y := PyDate.le_iff.2 (by omega)
  rw [PyDate.le_iff_month] at hle
  have s1 := monthStart_bounds x.monthIndex 1
  have : y.monthIndex = x.monthIndex ∨ y.monthIndex = x.monthIndex + 1 := by omega
  push_cast at s1
  rcases this with e | e <;> rw [e] at oy <;> omega

/-! ### The US calendar -/

/-- On the US calendar there is a business day among any four consecutive days before a date. -/
theorem us_business_day_before (d : PyDate) (h : 5 ≤ d.ord) :
    ∃ r, LastBefore usFederalHolidays d r ∧ d.ord ≤ r.ord + 4 := by
  have key : ∀ (n : Nat) (x : PyDate), x < d → BusinessDay usFederalHolidays x → (d.ord - x.ord).toNat ≤ n →
      ∃ r, LastBefore usFederalHolidays d r ∧ x ≤ r := by
    intro n
    induction n with
    | zero => intro x hx _ hn; rw [PyDate.lt_iff] at hx; omega
    | succ n ih =>
      intro x hx hb hn
      by_cases hex : ∃ y, x < y ∧ y < d ∧ BusinessDay usFederalHolidays y
      · obtain ⟨y, h1, h2, h3⟩ := hex
        obtain ⟨r, hr, hyr⟩ := ih y h2 h3 (by rw [PyDate.lt_iff] at h1 h2; omega)
        exact ⟨r, hr, le_trans h1.le hyr⟩
      · refine ⟨x, ⟨hx, hb, ?_⟩, le_rfl⟩
        intro e h1 h2 h3
        exact hex ⟨e, h1, h2, h3⟩
  obtain ⟨x, -, hx⟩ := PyDate.ofOrd?_some (d.ord - 4) (by omega) (by have := d.ord_bounds; omega)
  obtain ⟨y, h1, h2, h3⟩ := us_business_day_near x
  rw [PyDate.le_iff] at h1
  obtain ⟨r, hr, hyr⟩ := key _ y (PyDate.lt_iff.2 (by omega)) h3 (Nat.le_refl _)
  rw [PyDate.le_iff] at hyr
  exact ⟨r, hr, by omega⟩

theorem us_subtract_total (d : PyDate) (n : Nat) (h : 4 * (n : Int) < d.ord) :
    ∃ r, addBusinessDays usFederalHolidays d (-(n : Int)) = .ok r ∧ d.ord ≤ r.ord + 4 * n ∧ r.ord ≤ d.ord + 3 := by
  induction n with
  | zero =>
    obtain ⟨r, h1, h2, h3⟩ := C09_following_total d
    exact ⟨r, h1, by push_cast; omega, by omega⟩
  | succ n ih =>
    push_cast at h
    obtain ⟨r, h1, h2, h3⟩ := ih (by omega)
    have hbd := shift_business h1
    obtain ⟨s, hs, hs4⟩ := us_business_day_before r (by omega)
    have hone : subtractSingleBusinessDay usFederalHolidays r = .ok s :=
      (subSingle_bd_iff hbd).2 ⟨hs, fun e _ _ => us_evaluable' e⟩
    have hr1 : addBusinessDays usFederalHolidays r (-((1 : Nat) : Int)) = .ok s := by
      rw [addBusinessDays_neg_eq _ _ _ (by omega), roll_of_bd hbd, ok_bind]
      simp only [iterSteps, hone, ok_bind]
    have hc := C108_compose usFederalHolidays d r (-(n : Int)) (-((1 : Nat) : Int)) h1
    rw [hr1] at hc
    have hlt := hs.1
    rw [PyDate.lt_iff] at hlt
    refine ⟨s, ?_, by push_cast; omega, by omega⟩
    rw [hc]; congr 1; push_cast; omega

/-- The conventions counted in business days. -/
def BusinessConvention (c : SettlementConvention) : Prop :=
  c ≠ .tPlusZeroCalendar ∧ c ≠ .tPlusOneCalendar ∧ c ≠ .tPlusTwoCalendar ∧ c ≠ .tPlusThreeCalendar

theorem us_settle (d : PyDate) (c : SettlementConvention) (hc : BusinessConvention c) (h1 : 8 < d.ord)
    (h2 : d.ord + 15 ≤ PyDate.maxOrd) :
    ∃ r, calculateSettlementDate usFederalHolidays d c = .ok r ∧ d.ord ≤ r.ord + 8 ∧ r.ord ≤ d.ord + 15 := by
  obtain ⟨c1, c2, c3, c4⟩ := hc
  have add : ∀ n : Nat, n ≤ 3 → ∃ r, addBusinessDays usFederalHolidays d (n : Int) = .ok r ∧ d.ord ≤ r.ord + 8 ∧ r.ord ≤ d.ord + 15 := by
    intro n hn
    obtain ⟨r, a, b, c⟩ := C09_add_business_days_total d n (by omega)
    exact ⟨r, a, by omega, by omega⟩
  have sub : ∀ n : Nat, n ≤ 2 → ∃ r, addBusinessDays usFederalHolidays d (-(n : Int)) = .ok r ∧ d.ord ≤ r.ord + 8 ∧ r.ord ≤ d.ord + 15 := by
    intro n hn
    obtain ⟨r, a, b, c⟩ := us_subtract_total d n (by omega)
    exact ⟨r, a, by omega, by omega⟩
  cases c with
  | tMinusTwoBusiness => exact sub 2 (by omega)
  | tMinusOneBusiness => exact sub 1 (by omega)
  | tMinusZeroBusiness =>
    obtain ⟨b, hb⟩ := C09_is_business_day_total d
    cases b with
    | true => exact ⟨d, by simp only [calculateSettlementDate, hb, ok_bind, if_true], by omega, by omega⟩
    | false =>
      obtain ⟨r, h3, h4⟩ := sub 1 (by omega)
      exact ⟨r, by simp only [calculateSettlementDate, hb, ok_bind, Bool.false_eq_true, if_false]; exact h3, h4⟩
  | tPlusZeroBusiness => exact add 0 (by omega)
  | tPlusOneBusiness => exact add 1 (by omega)
  | tPlusTwoBusiness => exact add 2 (by omega)
  | tPlusThreeBusiness => exact add 3 (by omega)
  | tPlusZeroCalendar => exact absurd rfl c1
  | tPlusOneCalendar => exact absurd rfl c2
  | tPlusTwoCalendar => exact absurd rfl c3
  | tPlusThreeCalendar => exact absurd rfl c4

theorem us_modified_total (d : PyDate) (h : 4 < d.ord) :
    ∃ r, modifiedFollowingDateAdjustment usFederalHolidays d = .ok r ∧ d.ord ≤ r.ord + 4 ∧ r.ord ≤ d.ord + 3 := by
  obtain ⟨c, hc, h2, h3⟩ := C09_following_total d
  unfold modifiedFollowingDateAdjustment
  rw [show addBusinessDays usFederalHolidays d 0 = .ok c from hc, ok_bind]
  by_cases hm : c.month = d.month
  · rw [if_pos hm]; exact ⟨c, rfl, by omega, by omega⟩
  · rw [if_neg hm]
    obtain ⟨r, a, b, e⟩ := us_subtract_total d 1 (by push_cast; omega)
    exact ⟨r, a, by push_cast at b; omega, e⟩

end Verif.Props
