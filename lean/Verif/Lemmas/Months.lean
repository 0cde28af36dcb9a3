/- Helper lemmas: month arithmetic (`relativedelta(months=k)`). -/
import Verif.Lemmas.Date
import Mathlib.Tactic.SplitIfs

namespace Verif.PyDate

/-- Months since year 0. -/
def monthIndex (d : PyDate) : Int := d.year * 12 + (d.month - 1)

theorem addMonths_ok {d r : PyDate} {k : Int} :
    d.addMonths k = .ok r ↔ r.monthIndex = d.monthIndex + k ∧ r.day = min d.day (daysInMonth r.year r.month) := by
  unfold addMonths monthIndex
  simp only
  rw [mk?_ok]
  have hr := r.bounds
  constructor
  · rintro ⟨h1, h2, h3⟩
    refine ⟨by omega, ?_⟩
    rw [h3, h1, h2]
  · rintro ⟨h1, h2⟩
    have e1 : r.year = (d.year * 12 + (d.month - 1) + k) / 12 := by omega
    have e2 : r.month = (d.year * 12 + (d.month - 1) + k) % 12 + 1 := by omega
    refine ⟨e1, e2, ?_⟩
    rw [h2, e1, e2]

/-- Month arithmetic fails only with ValueError, exactly when the target year leaves 1..9999. -/
theorem addMonths_error {d : PyDate} {k : Int} {x : PyErr} :
    d.addMonths k = .error x ↔ x = .valueError ∧ (d.monthIndex + k < 12 ∨ 12 * 9999 + 11 < d.monthIndex + k) := by
  unfold addMonths monthIndex
  simp only
  rw [mk?_error]
  have hb := d.bounds
  have hm := daysInMonth_bounds ((d.year * 12 + (d.month - 1) + k) / 12) ((d.year * 12 + (d.month - 1) + k) % 12 + 1)
  constructor
  · rintro ⟨h1, h2⟩
    refine ⟨h1, ?_⟩
    by_contra hc
    have : validYMD ((d.year * 12 + (d.month - 1) + k) / 12) ((d.year * 12 + (d.month - 1) + k) % 12 + 1)
      (min d.day (daysInMonth ((d.year * 12 + (d.month - 1) + k) / 12) ((d.year * 12 + (d.month - 1) + k) % 12 + 1))) = true := by
      rw [valid_iff]; omega
    rw [this] at h2; cases h2
  · rintro ⟨h1, h2⟩
    refine ⟨h1, ?_⟩
    by_contra hc
    have := (valid_iff _ _ _).1 (by simpa using hc :
      validYMD ((d.year * 12 + (d.month - 1) + k) / 12) ((d.year * 12 + (d.month - 1) + k) % 12 + 1)
      (min d.day (daysInMonth ((d.year * 12 + (d.month - 1) + k) / 12) ((d.year * 12 + (d.month - 1) + k) % 12 + 1))) = true)
    omega

theorem addMonths_total {d : PyDate} {k : Int} (h1 : 12 ≤ d.monthIndex + k) (h2 : d.monthIndex + k ≤ 12 * 9999 + 11) :
    ∃ r, d.addMonths k = .ok r := by
  cases h : d.addMonths k with
  | ok r => exact ⟨r, rfl⟩
  | error x => have := (addMonths_error.1 h).2; omega

theorem monthIndex_bounds (d : PyDate) : 12 ≤ d.monthIndex ∧ d.monthIndex ≤ 12 * 9999 + 11 := by
  have := d.bounds; unfold monthIndex; omega

theorem lt_iff_month {a b : PyDate} :
    a < b ↔ a.monthIndex < b.monthIndex ∨ (a.monthIndex = b.monthIndex ∧ a.day < b.day) := by
  rw [lt_iff_lex]
  have := a.bounds; have := b.bounds
  unfold monthIndex; omega

theorem le_iff_month {a b : PyDate} :
    a ≤ b ↔ a.monthIndex < b.monthIndex ∨ (a.monthIndex = b.monthIndex ∧ a.day ≤ b.day) := by
  rw [← not_lt, lt_iff_month]; omega

theorem monthIndex_fields {a b : PyDate} (h : a.monthIndex = b.monthIndex) : a.year = b.year ∧ a.month = b.month := by
  have := a.bounds; have := b.bounds
  unfold monthIndex at h; omega

theorem eq_of_month {a b : PyDate} (h : a.monthIndex = b.monthIndex) (hd : a.day = b.day) : a = b :=
  ext' (monthIndex_fields h).1 (monthIndex_fields h).2 hd

theorem addMonths_pos_lt {d r : PyDate} {k : Int} (h : d.addMonths k = .ok r) (hk : 0 < k) : d < r := by
  rw [lt_iff_month]; have := (addMonths_ok.1 h).1; omega

theorem addMonths_neg_lt {d r : PyDate} {k : Int} (h : d.addMonths k = .ok r) (hk : k < 0) : r < d := by
  rw [lt_iff_month]; have := (addMonths_ok.1 h).1; omega

theorem addMonths_zero (d : PyDate) : d.addMonths 0 = .ok d := by
  rw [addMonths_ok]; have := d.bounds; omega

/-- Month arithmetic is monotone in the date. -/
theorem addMonths_mono {a b r s : PyDate} {k : Int} (hab : a ≤ b) (hr : a.addMonths k = .ok r)
    (hs : b.addMonths k = .ok s) : r ≤ s := by
  obtain ⟨r1, r2⟩ := addMonths_ok.1 hr
  obtain ⟨s1, s2⟩ := addMonths_ok.1 hs
  rw [le_iff_month] at *
  rcases hab with h | ⟨h, hd⟩
  · left; omega
  · right
    have hf := monthIndex_fields (a := r) (b := s) (by omega)
    rw [hf.1, hf.2] at r2
    omega

/-- The day of month survives when it is at most 28. -/
theorem addMonths_day {d r : PyDate} {k : Int} (h : d.addMonths k = .ok r) (hd : d.day ≤ 28) : r.day = d.day := by
  obtain ⟨_, h2⟩ := addMonths_ok.1 h
  have := daysInMonth_bounds r.year r.month
  omega

theorem addMonths_day_le {d r : PyDate} {k : Int} (h : d.addMonths k = .ok r) : r.day ≤ d.day := by
  obtain ⟨_, h2⟩ := addMonths_ok.1 h
  omega

end Verif.PyDate
