/- Helper lemmas for day counts. -/
import Verif.Spec.DayCount
import Verif.Lemmas.Except
import Mathlib.Tactic.FieldSimp
import Mathlib.Tactic.Linarith
import Mathlib.Tactic.Ring
import Mathlib.Tactic.NormNum
import Mathlib.Tactic.Positivity

namespace Verif.DayCount
open Verif Verif.Spec

theorem pyDiv_ok {a b q : ℚ} : pyDiv a b = .ok q ↔ b ≠ 0 ∧ q = a / b := by
  unfold pyDiv
  split_ifs with h
  · simp [h]
  · simp [h, eq_comm]

theorem pyDiv_of_ne {a b : ℚ} (h : b ≠ 0) : pyDiv a b = .ok (a / b) := by
  unfold pyDiv; rw [if_neg h]

theorem checkDates_iff {s e : DateLike} : checkDates s e = true ↔ s.instant ≤ e.instant := by
  unfold checkDates; exact decide_eq_true_iff

theorem accrual_eq {s e : PyDate} (h : s ≤ e) (dcc : DayCountConvention) :
    accrual s e dcc = match dcc with
      | .act360 => actOver 360 s e
      | .act365 => actOver 365 s e
      | .act36525 => actOver (36525 / 100) s e
      | .thirty360 => thirty360 s e
      | .actAct => actAct s e
      | .unknown => .error .typeError := by
  have : checkDates (.date s) (.date e) = true := by
    rw [PyDate.le_iff] at h
    rw [checkDates_iff]
    simp only [DateLike.instant, DateLike.day, DateLike.micros]; omega
  unfold accrual computeAccrualLength
  rw [if_pos this]
  cases dcc <;> simp [includeDatetimes, DateLike.isDatetime, DateLike.day]

theorem accrual_gt {s e : PyDate} (h : e < s) (dcc : DayCountConvention) : accrual s e dcc = .error .valueError := by
  have : ¬ checkDates (.date s) (.date e) = true := by
    rw [PyDate.lt_iff] at h
    rw [checkDates_iff]
    simp only [DateLike.instant, DateLike.day, DateLike.micros]; omega
  unfold accrual computeAccrualLength
  rw [if_neg this]

theorem dec31_ord {y : Int} {r : PyDate} (h : PyDate.mk? y 12 31 = .ok r) : r.ord = daysBeforeYear (y + 1) := by
  rw [PyDate.mk?_ok] at h
  unfold PyDate.ord
  rw [h.1, h.2.1, h.2.2, daysBeforeYear_succ]
  have := dec_end y
  have h31 : daysInMonth y 12 = 31 := rfl
  omega

theorem dec31_ok {y : Int} (h1 : 1 ≤ y) (h2 : y ≤ 9999) : ∃ r, PyDate.mk? y 12 31 = .ok r :=
  ⟨_, PyDate.mk?_ok_of_valid (by rw [PyDate.valid_iff]; have h31 : daysInMonth y 12 = 31 := rfl; omega)⟩

theorem yearLength_eq (y : Int) : yearLength y = daysBeforeYear (y + 1) - daysBeforeYear y := by
  rw [daysBeforeYear_succ]; unfold yearLength PyDate.leapDay; split_ifs <;> omega

theorem yearLength_pos (y : Int) : (0 : ℚ) < yearLength y := by
  unfold yearLength; split_ifs <;> norm_num

/-- ACT/ACT on dates (in any order) is the difference of the year coordinates. -/
theorem actAct_eq {s e : PyDate} (hs : 2 ≤ s.year) (he : 2 ≤ e.year) :
    actAct s e = .ok (yearCoord e - yearCoord s) := by
  have bs := s.bounds
  have be := e.bounds
  obtain ⟨a, ha⟩ := dec31_ok (y := s.year) (by omega) (by omega)
  obtain ⟨b, hb⟩ := dec31_ok (y := s.year - 1) (by omega) (by omega)
  obtain ⟨c, hc⟩ := dec31_ok (y := e.year) (by omega) (by omega)
  obtain ⟨d, hd⟩ := dec31_ok (y := e.year - 1) (by omega) (by omega)
  have oa := dec31_ord ha
  have ob := dec31_ord hb
  have oc := dec31_ord hc
  have od := dec31_ord hd
  rw [show s.year - 1 + 1 = s.year by omega] at ob
  rw [show e.year - 1 + 1 = e.year by omega] at od
  have ls := yearLength_eq s.year
  have le := yearLength_eq e.year
  have ps := yearLength_pos s.year
  have pe := yearLength_pos e.year
  unfold actAct
  simp only [ha, hb, hc, hd, ok_bind]
  have e1 : (((c.ord - d.ord : Int)) : ℚ) = yearLength e.year := by rw [oc, od, le]
  have e2 : (((a.ord - b.ord : Int)) : ℚ) = yearLength s.year := by rw [oa, ob, ls]
  split_ifs with hy
  · rw [e1, pyDiv_of_ne (by linarith)]
    congr 1
    unfold yearCoord
    rw [hy]
    field_simp
    push_cast
    ring
  · rw [e1, e2, pyDiv_of_ne (by linarith), ok_bind, pyDiv_of_ne (by linarith), ok_bind]
    congr 1
    unfold yearCoord
    rw [oa, od]
    have : daysBeforeYear (s.year + 1) = daysBeforeYear s.year + yearLength s.year := by omega
    rw [this]
    field_simp
    push_cast
    ring

theorem actAct_year_one {s e : PyDate} (h : s.year = 1 ∨ e.year = 1) : actAct s e = .error .valueError := by
  have bs := s.bounds
  have be := e.bounds
  obtain ⟨a, ha⟩ := dec31_ok (y := s.year) (by omega) (by omega)
  obtain ⟨c, hc⟩ := dec31_ok (y := e.year) (by omega) (by omega)
  have hbad : PyDate.mk? (1 - 1) 12 31 = .error .valueError := by rfl
  unfold actAct
  rw [ha, ok_bind]
  by_cases h1 : s.year = 1
  · rw [h1, hbad]; rfl
  · have h2 : e.year = 1 := by omega
    obtain ⟨b, hb⟩ := dec31_ok (y := s.year - 1) (by omega) (by omega)
    rw [hb, ok_bind, hc, ok_bind, h2, hbad]; rfl

/-- The year coordinate lies in `(year, year + 1]`. -/
theorem yearCoord_bounds (d : PyDate) : (d.year : ℚ) < yearCoord d ∧ yearCoord d ≤ d.year + 1 := by
  have hb := d.ord_year_bounds
  have hl := yearLength_eq d.year
  have hp := yearLength_pos d.year
  have h1 : (0 : ℚ) < ((d.ord - daysBeforeYear d.year : Int) : ℚ) := by
    have : 0 < d.ord - daysBeforeYear d.year := by omega
    exact_mod_cast this
  have h2 : ((d.ord - daysBeforeYear d.year : Int) : ℚ) ≤ yearLength d.year := by
    have : d.ord - daysBeforeYear d.year ≤ yearLength d.year := by omega
    exact_mod_cast this
  unfold yearCoord
  constructor
  · have := div_pos h1 hp; linarith
  · have := (div_le_one hp).2 h2; linarith

theorem yearCoord_strictMono {a b : PyDate} (h : a < b) : yearCoord a < yearCoord b := by
  have ha := yearCoord_bounds a
  have hb := yearCoord_bounds b
  have hy : a.year ≤ b.year := by rw [PyDate.lt_iff_lex] at h; omega
  rcases lt_or_eq_of_le hy with hlt | heq
  · have : (a.year : ℚ) + 1 ≤ b.year := by exact_mod_cast hlt
    linarith
  · unfold yearCoord
    rw [heq]
    have hp := yearLength_pos b.year
    rw [PyDate.lt_iff] at h
    have : ((a.ord - daysBeforeYear b.year : Int) : ℚ) < ((b.ord - daysBeforeYear b.year : Int) : ℚ) := by
      exact_mod_cast (by omega : a.ord - daysBeforeYear b.year < b.ord - daysBeforeYear b.year)
    have := div_lt_div_of_pos_right this hp
    linarith

theorem yearCoord_mono {a b : PyDate} (h : a ≤ b) : yearCoord a ≤ yearCoord b := by
  rcases lt_or_eq_of_le h with h | h
  · exact le_of_lt (yearCoord_strictMono h)
  · rw [h]

theorem axis_strictMono {dcc : DayCountConvention} {τ : PyDate → ℚ} (h : timeAxis dcc = some τ) {a b : PyDate}
    (hab : a < b) : τ a < τ b := by
  have h0 : (a.ord : ℚ) < b.ord := by exact_mod_cast PyDate.lt_iff.1 hab
  cases dcc <;> simp [timeAxis] at h <;> subst h
  · exact div_lt_div_of_pos_right h0 (by norm_num)
  · exact div_lt_div_of_pos_right h0 (by norm_num)
  · exact div_lt_div_of_pos_right h0 (by norm_num)
  · exact yearCoord_strictMono hab

theorem axis_mono {dcc : DayCountConvention} {τ : PyDate → ℚ} (h : timeAxis dcc = some τ) {a b : PyDate}
    (hab : a ≤ b) : τ a ≤ τ b := by
  rcases lt_or_eq_of_le hab with hab | rfl
  · exact le_of_lt (axis_strictMono h hab)
  · exact le_refl _

theorem year_mono {a b : PyDate} (h : a ≤ b) : a.year ≤ b.year := by
  rw [← not_lt, PyDate.lt_iff_lex] at h; omega

theorem AxisOk_mono {dcc : DayCountConvention} {a b : PyDate} (h : a ≤ b) (ha : AxisOk dcc a) : AxisOk dcc b :=
  fun e => le_trans (ha e) (year_mono h)

/-- Under every convention but 30/360, the accrual is the difference of positions on the time axis. -/
theorem accrual_axis {dcc : DayCountConvention} {τ : PyDate → ℚ} (h : timeAxis dcc = some τ) {s e : PyDate}
    (hse : s ≤ e) (hs : AxisOk dcc s) : accrual s e dcc = .ok (τ e - τ s) := by
  rw [accrual_eq hse]
  cases dcc <;> simp [timeAxis] at h <;> subst h
  · simp [actOver]; ring
  · simp [actOver]; ring
  · simp [actOver]; ring
  · exact actAct_eq (hs rfl) (AxisOk_mono hse hs rfl)

end Verif.DayCount
