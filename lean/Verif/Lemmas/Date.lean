/- Helper lemmas: the date ↔ ordinal correspondence. -/
import Verif.Model.Date
import Mathlib.Tactic.SplitIfs
import Mathlib.Tactic.Common

namespace Verif

theorem isLeap_iff (y : Int) : isLeap y = true ↔ y % 4 = 0 ∧ (y % 100 ≠ 0 ∨ y % 400 = 0) := by
  simp [isLeap]

theorem leapDay_eq_zero_or_one (y : Int) : PyDate.leapDay y = 0 ∨ PyDate.leapDay y = 1 := by
  unfold PyDate.leapDay; split_ifs <;> simp

theorem leapDay_spec (y : Int) :
    (PyDate.leapDay y = 1 ∧ y % 4 = 0 ∧ (y % 100 ≠ 0 ∨ y % 400 = 0)) ∨
    (PyDate.leapDay y = 0 ∧ (y % 4 ≠ 0 ∨ (y % 100 = 0 ∧ y % 400 ≠ 0))) := by
  unfold PyDate.leapDay
  by_cases h : isLeap y = true
  · left; rw [if_pos h]; exact ⟨rfl, (isLeap_iff y).1 h⟩
  · right; rw [if_neg h]; refine ⟨rfl, ?_⟩
    rw [isLeap_iff] at h; omega

/-- A year has 365 or 366 days. -/
theorem daysBeforeYear_succ (y : Int) :
    daysBeforeYear (y + 1) = daysBeforeYear y + 365 + PyDate.leapDay y := by
  have := leapDay_spec y
  unfold daysBeforeYear; omega

theorem daysBeforeYear_mono {y z : Int} (h : y ≤ z) : daysBeforeYear y + 365 * (z - y) ≤ daysBeforeYear z := by
  unfold daysBeforeYear; omega

theorem yearOfOrd_spec (n : Int) :
    daysBeforeYear (PyDate.yearOfOrd n) < n ∧ n ≤ daysBeforeYear (PyDate.yearOfOrd n + 1) := by
  unfold PyDate.yearOfOrd daysBeforeYear
  simp only
  obtain ⟨a, ha⟩ : ∃ a, a = (n - 1) / 146097 := ⟨_, rfl⟩
  obtain ⟨r, hr⟩ : ∃ r, r = (n - 1) % 146097 := ⟨_, rfl⟩
  obtain ⟨b, hb⟩ : ∃ b, b = r / 36524 := ⟨_, rfl⟩
  obtain ⟨s, hs⟩ : ∃ s, s = r % 36524 := ⟨_, rfl⟩
  obtain ⟨c, hc⟩ : ∃ c, c = s / 1461 := ⟨_, rfl⟩
  obtain ⟨t, ht⟩ : ∃ t, t = s % 1461 := ⟨_, rfl⟩
  obtain ⟨d, hd⟩ : ∃ d, d = t / 365 := ⟨_, rfl⟩
  rw [← ha, ← hr, ← hb, ← hs, ← hc, ← ht, ← hd]
  have hn : n = 146097 * a + 36524 * b + 1461 * c + t + 1 := by omega
  have h1 : 0 ≤ b ∧ b ≤ 4 := by omega
  have h2 : 0 ≤ c ∧ c ≤ 24 := by omega
  have h3 : 0 ≤ d ∧ d ≤ 4 := by omega
  have h4 : 365 * d ≤ t ∧ t < 365 * d + 365 ∧ t ≤ 1460 := by omega
  have h5 : b = 4 → c = 0 ∧ d = 0 ∧ t = 0 := by omega
  have h6 : c = 24 → d ≤ 3 := by omega
  clear ha hr hb hs hc ht hd
  obtain ⟨P, hP⟩ : ∃ P, P = a * 400 + b * 100 + c * 4 + d := ⟨_, rfl⟩
  split_ifs with h
  · have e1 : a * 400 + b * 100 + c * 4 + d + 1 - 1 - 1 = P - 1 := by omega
    have e2 : a * 400 + b * 100 + c * 4 + d + 1 - 1 + 1 - 1 = P := by omega
    rw [e1, e2]
    rcases h with h | h
    · have : P / 4 = 100 * a + 25 * b + c + 1 := by omega
      have : P / 100 = 4 * a + b := by omega
      have : P / 400 = a := by omega
      have : (P - 1) / 4 = 100 * a + 25 * b + c := by omega
      have : (P - 1) / 100 = 4 * a + b := by omega
      have : (P - 1) / 400 = a := by omega
      omega
    · obtain ⟨hc0, hd0, ht0⟩ := h5 h
      have : P / 4 = 100 * a + 100 := by omega
      have : P / 100 = 4 * a + 4 := by omega
      have : P / 400 = a + 1 := by omega
      have : (P - 1) / 4 = 100 * a + 99 := by omega
      have : (P - 1) / 100 = 4 * a + 3 := by omega
      have : (P - 1) / 400 = a := by omega
      omega
  · have e1 : a * 400 + b * 100 + c * 4 + d + 1 - 1 = P := by omega
    have e2 : a * 400 + b * 100 + c * 4 + d + 1 + 1 - 1 = P + 1 := by omega
    rw [e1, e2]
    have : P / 4 = 100 * a + 25 * b + c := by omega
    have : P / 100 = 4 * a + b := by omega
    have : P / 400 = a := by omega
    have h8 : 400 * a + 100 * b + 4 * c + d = P := by omega
    obtain ⟨x, hx⟩ : ∃ x, x = (P + 1) / 4 - (P + 1) / 100 + (P + 1) / 400 := ⟨_, rfl⟩
    have : 100 * a + 25 * b + c ≤ (P + 1) / 4 := by omega
    have : (P + 1) / 100 - (P + 1) / 400 ≤ 3 * a + b + 1 := by omega
    constructor
    · omega
    · by_cases hd3 : d = 3
      · have : (P + 1) / 4 = 100 * a + 25 * b + c + 1 := by omega
        by_cases hc24 : c = 24
        · have : (P + 1) / 100 = 4 * a + b + 1 := by omega
          by_cases hb3 : b = 3
          · have : (P + 1) / 400 = a + 1 := by omega
            omega
          · have : (P + 1) / 400 = a := by omega
            omega
        · have : (P + 1) / 100 = 4 * a + b := by omega
          have : (P + 1) / 400 = a := by omega
          omega
      · have : (P + 1) / 4 = 100 * a + 25 * b + c := by omega
        have : (P + 1) / 100 = 4 * a + b := by omega
        have : (P + 1) / 400 = a := by omega
        omega

theorem year_unique {n y : Int} (h1 : daysBeforeYear y < n) (h2 : n ≤ daysBeforeYear (y + 1)) :
    PyDate.yearOfOrd n = y := by
  have h := yearOfOrd_spec n
  rcases lt_trichotomy (PyDate.yearOfOrd n) y with hlt | heq | hgt
  · have := daysBeforeYear_mono (y := PyDate.yearOfOrd n + 1) (z := y) (by omega); omega
  · exact heq
  · have := daysBeforeYear_mono (y := y + 1) (z := PyDate.yearOfOrd n) (by omega); omega

theorem daysBeforeMonth_eq (y m : Int) :
    daysBeforeMonth y m = cumDays m + (if m > 2 then PyDate.leapDay y else 0) := by
  unfold daysBeforeMonth PyDate.leapDay
  by_cases h1 : m > 2 <;> by_cases h2 : isLeap y = true <;> simp [h1, h2]

theorem daysInMonth_eq (y m : Int) :
    daysInMonth y m = if m = 2 then 28 + PyDate.leapDay y
      else if m = 4 ∨ m = 6 ∨ m = 9 ∨ m = 11 then 30 else 31 := by
  unfold daysInMonth PyDate.leapDay
  by_cases h2 : isLeap y = true <;> simp [h2]

theorem daysInMonth_bounds (y m : Int) : 28 ≤ daysInMonth y m ∧ daysInMonth y m ≤ 31 := by
  rw [daysInMonth_eq]; have := leapDay_eq_zero_or_one y; split_ifs <;> omega

/-- The twelve months: number, days before, length. -/
theorem month_table (y m : Int) (h1 : 1 ≤ m) (h2 : m ≤ 12) :
    (m = 1 ∧ daysBeforeMonth y m = 0 ∧ daysInMonth y m = 31) ∨
    (m = 2 ∧ daysBeforeMonth y m = 31 ∧ daysInMonth y m = 28 + PyDate.leapDay y) ∨
    (m = 3 ∧ daysBeforeMonth y m = 59 + PyDate.leapDay y ∧ daysInMonth y m = 31) ∨
    (m = 4 ∧ daysBeforeMonth y m = 90 + PyDate.leapDay y ∧ daysInMonth y m = 30) ∨
    (m = 5 ∧ daysBeforeMonth y m = 120 + PyDate.leapDay y ∧ daysInMonth y m = 31) ∨
    (m = 6 ∧ daysBeforeMonth y m = 151 + PyDate.leapDay y ∧ daysInMonth y m = 30) ∨
    (m = 7 ∧ daysBeforeMonth y m = 181 + PyDate.leapDay y ∧ daysInMonth y m = 31) ∨
    (m = 8 ∧ daysBeforeMonth y m = 212 + PyDate.leapDay y ∧ daysInMonth y m = 31) ∨
    (m = 9 ∧ daysBeforeMonth y m = 243 + PyDate.leapDay y ∧ daysInMonth y m = 30) ∨
    (m = 10 ∧ daysBeforeMonth y m = 273 + PyDate.leapDay y ∧ daysInMonth y m = 31) ∨
    (m = 11 ∧ daysBeforeMonth y m = 304 + PyDate.leapDay y ∧ daysInMonth y m = 30) ∨
    (m = 12 ∧ daysBeforeMonth y m = 334 + PyDate.leapDay y ∧ daysInMonth y m = 31) := by
  rw [daysBeforeMonth_eq, daysInMonth_eq]
  have : m = 1 ∨ m = 2 ∨ m = 3 ∨ m = 4 ∨ m = 5 ∨ m = 6 ∨ m = 7 ∨ m = 8 ∨ m = 9 ∨ m = 10 ∨ m = 11 ∨ m = 12 := by
    omega
  rcases this with h | h | h | h | h | h | h | h | h | h | h | h <;> subst h
  · exact Or.inl (⟨rfl, rfl, rfl⟩)
  · exact Or.inr (Or.inl (⟨rfl, rfl, rfl⟩))
  · exact Or.inr (Or.inr (Or.inl (⟨rfl, rfl, rfl⟩)))
  · exact Or.inr (Or.inr (Or.inr (Or.inl (⟨rfl, rfl, rfl⟩))))
  · exact Or.inr (Or.inr (Or.inr (Or.inr (Or.inl (⟨rfl, rfl, rfl⟩)))))
  · exact Or.inr (Or.inr (Or.inr (Or.inr (Or.inr (Or.inl (⟨rfl, rfl, rfl⟩))))))
  · exact Or.inr (Or.inr (Or.inr (Or.inr (Or.inr (Or.inr (Or.inl (⟨rfl, rfl, rfl⟩)))))))
  · exact Or.inr (Or.inr (Or.inr (Or.inr (Or.inr (Or.inr (Or.inr (Or.inl (⟨rfl, rfl, rfl⟩))))))))
  · exact Or.inr (Or.inr (Or.inr (Or.inr (Or.inr (Or.inr (Or.inr (Or.inr (Or.inl (⟨rfl, rfl, rfl⟩)))))))))
  · exact Or.inr (Or.inr (Or.inr (Or.inr (Or.inr (Or.inr (Or.inr (Or.inr (Or.inr (Or.inl (⟨rfl, rfl, rfl⟩))))))))))
  · exact Or.inr (Or.inr (Or.inr (Or.inr (Or.inr (Or.inr (Or.inr (Or.inr (Or.inr (Or.inr (Or.inl (⟨rfl, rfl, rfl⟩)))))))))))
  · exact Or.inr (Or.inr (Or.inr (Or.inr (Or.inr (Or.inr (Or.inr (Or.inr (Or.inr (Or.inr (Or.inr (⟨rfl, rfl, rfl⟩)))))))))))

/-- The days of the year are covered by the months without gaps. -/
theorem month_step (y m : Int) (h1 : 1 ≤ m) (h2 : m ≤ 11) :
    daysBeforeMonth y (m + 1) = daysBeforeMonth y m + daysInMonth y m := by
  have t1 := month_table y m (by omega) (by omega)
  have t2 := month_table y (m + 1) (by omega) (by omega)
  omega

theorem dec_end (y : Int) : daysBeforeMonth y 12 + daysInMonth y 12 = 365 + PyDate.leapDay y := by
  have t1 := month_table y 12 (by omega) (by omega)
  omega

/-- The twelve ranges of days of the year. -/
theorem monthOfDay_table (k l : Int) :
    (k ≤ 31 ∧ PyDate.monthOfDay k l = 1) ∨
    (31 < k ∧ k ≤ 59 + l ∧ PyDate.monthOfDay k l = 2) ∨
    (31 < k ∧ 59 + l < k ∧ k ≤ 90 + l ∧ PyDate.monthOfDay k l = 3) ∨
    (31 < k ∧ 90 + l < k ∧ k ≤ 120 + l ∧ PyDate.monthOfDay k l = 4) ∨
    (31 < k ∧ 120 + l < k ∧ k ≤ 151 + l ∧ PyDate.monthOfDay k l = 5) ∨
    (31 < k ∧ 151 + l < k ∧ k ≤ 181 + l ∧ PyDate.monthOfDay k l = 6) ∨
    (31 < k ∧ 181 + l < k ∧ k ≤ 212 + l ∧ PyDate.monthOfDay k l = 7) ∨
    (31 < k ∧ 212 + l < k ∧ k ≤ 243 + l ∧ PyDate.monthOfDay k l = 8) ∨
    (31 < k ∧ 243 + l < k ∧ k ≤ 273 + l ∧ PyDate.monthOfDay k l = 9) ∨
    (31 < k ∧ 273 + l < k ∧ k ≤ 304 + l ∧ PyDate.monthOfDay k l = 10) ∨
    (31 < k ∧ 304 + l < k ∧ k ≤ 334 + l ∧ PyDate.monthOfDay k l = 11) ∨
    (31 < k ∧ 334 + l < k ∧ PyDate.monthOfDay k l = 12) := by
  unfold PyDate.monthOfDay
  by_cases h0 : k ≤ 31
  · simp only [if_pos h0]; exact Or.inl (⟨by omega, trivial⟩)
  simp only [if_neg h0]
  by_cases h1 : k ≤ 59 + l
  · simp only [if_pos h1]; exact Or.inr (Or.inl (⟨by omega, by omega, trivial⟩))
  simp only [if_neg h1]
  by_cases h2 : k ≤ 90 + l
  · simp only [if_pos h2]; exact Or.inr (Or.inr (Or.inl (⟨by omega, by omega, by omega, trivial⟩)))
  simp only [if_neg h2]
  by_cases h3 : k ≤ 120 + l
  · simp only [if_pos h3]; exact Or.inr (Or.inr (Or.inr (Or.inl (⟨by omega, by omega, by omega, trivial⟩))))
  simp only [if_neg h3]
  by_cases h4 : k ≤ 151 + l
  · simp only [if_pos h4]; exact Or.inr (Or.inr (Or.inr (Or.inr (Or.inl (⟨by omega, by omega, by omega, trivial⟩)))))
  simp only [if_neg h4]
  by_cases h5 : k ≤ 181 + l
  · simp only [if_pos h5]; exact Or.inr (Or.inr (Or.inr (Or.inr (Or.inr (Or.inl (⟨by omega, by omega, by omega, trivial⟩))))))
  simp only [if_neg h5]
  by_cases h6 : k ≤ 212 + l
  · simp only [if_pos h6]; exact Or.inr (Or.inr (Or.inr (Or.inr (Or.inr (Or.inr (Or.inl (⟨by omega, by omega, by omega, trivial⟩)))))))
  simp only [if_neg h6]
  by_cases h7 : k ≤ 243 + l
  · simp only [if_pos h7]; exact Or.inr (Or.inr (Or.inr (Or.inr (Or.inr (Or.inr (Or.inr (Or.inl (⟨by omega, by omega, by omega, trivial⟩))))))))
  simp only [if_neg h7]
  by_cases h8 : k ≤ 273 + l
  · simp only [if_pos h8]; exact Or.inr (Or.inr (Or.inr (Or.inr (Or.inr (Or.inr (Or.inr (Or.inr (Or.inl (⟨by omega, by omega, by omega, trivial⟩)))))))))
  simp only [if_neg h8]
  by_cases h9 : k ≤ 304 + l
  · simp only [if_pos h9]; exact Or.inr (Or.inr (Or.inr (Or.inr (Or.inr (Or.inr (Or.inr (Or.inr (Or.inr (Or.inl (⟨by omega, by omega, by omega, trivial⟩))))))))))
  simp only [if_neg h9]
  by_cases h10 : k ≤ 334 + l
  · simp only [if_pos h10]; exact Or.inr (Or.inr (Or.inr (Or.inr (Or.inr (Or.inr (Or.inr (Or.inr (Or.inr (Or.inr (Or.inl (⟨by omega, by omega, by omega, trivial⟩)))))))))))
  simp only [if_neg h10]
  exact Or.inr (Or.inr (Or.inr (Or.inr (Or.inr (Or.inr (Or.inr (Or.inr (Or.inr (Or.inr (Or.inr (⟨by omega, by omega, trivial⟩)))))))))))

namespace PyDate

theorem valid_iff (y m d : Int) :
    validYMD y m d = true ↔ 1 ≤ y ∧ y ≤ 9999 ∧ 1 ≤ m ∧ m ≤ 12 ∧ 1 ≤ d ∧ d ≤ daysInMonth y m := by
  simp [validYMD]

theorem bounds (d : PyDate) :
    1 ≤ d.year ∧ d.year ≤ 9999 ∧ 1 ≤ d.month ∧ d.month ≤ 12 ∧ 1 ≤ d.day ∧ d.day ≤ daysInMonth d.year d.month :=
  (valid_iff _ _ _).1 d.valid

theorem ext' {a b : PyDate} (h1 : a.year = b.year) (h2 : a.month = b.month) (h3 : a.day = b.day) : a = b := by
  cases a; cases b; simp at h1 h2 h3; subst h1; subst h2; subst h3; rfl

/-- Day of the year lies in the month's range. -/
theorem day_of_year_bounds (y m d : Int) (hm : 1 ≤ m) (hm' : m ≤ 12) (hd : 1 ≤ d) (hd' : d ≤ daysInMonth y m) :
    1 ≤ daysBeforeMonth y m + d ∧ daysBeforeMonth y m + d ≤ 365 + leapDay y := by
  have hl := leapDay_eq_zero_or_one y
  have t := month_table y m hm hm'
  omega

theorem monthOfDay_of (y m d : Int) (hm : 1 ≤ m) (hm' : m ≤ 12) (hd : 1 ≤ d) (hd' : d ≤ daysInMonth y m) :
    monthOfDay (daysBeforeMonth y m + d) (leapDay y) = m := by
  have hl := leapDay_eq_zero_or_one y
  have t := monthOfDay_table (daysBeforeMonth y m + d) (leapDay y)
  rcases month_table y m hm hm' with h | h | h | h | h | h | h | h | h | h | h | h <;>
    obtain ⟨h1, h2, h3⟩ := h <;> rw [h2] at t ⊢ <;> rw [h3] at hd' <;> omega

theorem monthOfDay_valid (y k : Int) (h1 : 1 ≤ k) (h2 : k ≤ 365 + leapDay y) :
    1 ≤ monthOfDay k (leapDay y) ∧ monthOfDay k (leapDay y) ≤ 12 ∧
    1 ≤ k - daysBeforeMonth y (monthOfDay k (leapDay y)) ∧
    k - daysBeforeMonth y (monthOfDay k (leapDay y)) ≤ daysInMonth y (monthOfDay k (leapDay y)) := by
  have hl := leapDay_eq_zero_or_one y
  have hb : 1 ≤ monthOfDay k (leapDay y) ∧ monthOfDay k (leapDay y) ≤ 12 := by
    have t := monthOfDay_table k (leapDay y)
    omega
  refine ⟨hb.1, hb.2, ?_⟩
  have t2 := month_table y _ hb.1 hb.2
  rcases monthOfDay_table k (leapDay y) with h | h | h | h | h | h | h | h | h | h | h | h <;> omega

theorem ord_year_bounds (d : PyDate) :
    daysBeforeYear d.year < d.ord ∧ d.ord ≤ daysBeforeYear (d.year + 1) := by
  have hb := d.bounds
  have := day_of_year_bounds d.year d.month d.day (by omega) (by omega) (by omega) (by omega)
  rw [daysBeforeYear_succ]; unfold ord; omega

theorem ord_bounds (d : PyDate) : 1 ≤ d.ord ∧ d.ord ≤ maxOrd := by
  have hb := d.bounds
  have h := d.ord_year_bounds
  have h1 := daysBeforeYear_mono (y := 1) (z := d.year) (by omega)
  have h2 := daysBeforeYear_mono (y := d.year + 1) (z := 10000) (by omega)
  have h3 : daysBeforeYear 1 = 0 := by decide
  have h4 : daysBeforeYear 10000 = 3652059 := by decide
  unfold maxOrd; omega

theorem year_eq (d : PyDate) : yearOfOrd d.ord = d.year :=
  year_unique d.ord_year_bounds.1 d.ord_year_bounds.2

theorem ofOrd?_ord (d : PyDate) : ofOrd? d.ord = some d := by
  have hb := d.bounds
  have ho := d.ord_bounds
  have hk : d.ord - daysBeforeYear d.year = daysBeforeMonth d.year d.month + d.day := by unfold ord; omega
  have hm := monthOfDay_of d.year d.month d.day (by omega) (by omega) (by omega) (by omega)
  unfold ofOrd?
  rw [if_pos ho]
  simp only [year_eq, hk, hm]
  have hd : daysBeforeMonth d.year d.month + d.day - daysBeforeMonth d.year d.month = d.day := by omega
  simp only [hd]
  rw [dif_pos d.valid]

theorem ord_injective : Function.Injective ord := by
  intro a b h
  have h1 := ofOrd?_ord a
  rw [h, ofOrd?_ord b] at h1
  exact (Option.some.inj h1).symm

theorem ord_inj {a b : PyDate} : a.ord = b.ord ↔ a = b := ord_injective.eq_iff

theorem ofOrd?_some (n : Int) (h1 : 1 ≤ n) (h2 : n ≤ maxOrd) : ∃ d : PyDate, ofOrd? n = some d ∧ d.ord = n := by
  have hy := yearOfOrd_spec n
  have hsucc := daysBeforeYear_succ (yearOfOrd n)
  have hk := monthOfDay_valid (yearOfOrd n) (n - daysBeforeYear (yearOfOrd n)) (by omega) (by omega)
  have hyr1 : 1 ≤ yearOfOrd n := by
    by_contra hc
    have := daysBeforeYear_mono (y := yearOfOrd n + 1) (z := 1) (by omega)
    have h3 : daysBeforeYear 1 = 0 := by decide
    omega
  have hyr2 : yearOfOrd n ≤ 9999 := by
    by_contra hc
    have := daysBeforeYear_mono (y := 10000) (z := yearOfOrd n) (by omega)
    have h4 : daysBeforeYear 10000 = 3652059 := by decide
    unfold maxOrd at h2; omega
  have hv : validYMD (yearOfOrd n)
      (monthOfDay (n - daysBeforeYear (yearOfOrd n)) (leapDay (yearOfOrd n)))
      (n - daysBeforeYear (yearOfOrd n) - daysBeforeMonth (yearOfOrd n)
        (monthOfDay (n - daysBeforeYear (yearOfOrd n)) (leapDay (yearOfOrd n)))) = true := by
    rw [valid_iff]; omega
  refine ⟨⟨_, _, _, hv⟩, ?_, ?_⟩
  · unfold ofOrd?
    rw [if_pos ⟨h1, h2⟩]
    simp only
    rw [dif_pos hv]
  · unfold ord; simp only; omega

theorem ofOrd?_eq_some {n : Int} {d : PyDate} : ofOrd? n = some d ↔ d.ord = n := by
  constructor
  · intro h
    by_cases hn : 1 ≤ n ∧ n ≤ maxOrd
    · obtain ⟨e, he, ho⟩ := ofOrd?_some n hn.1 hn.2
      rw [h] at he; cases he; exact ho
    · unfold ofOrd? at h; rw [if_neg hn] at h; cases h
  · rintro rfl; exact ofOrd?_ord d

theorem ofOrd?_eq_none {n : Int} : ofOrd? n = none ↔ n < 1 ∨ maxOrd < n := by
  constructor
  · intro h
    by_contra hc
    obtain ⟨e, he, _⟩ := ofOrd?_some n (by omega) (by omega)
    rw [h] at he; cases he
  · intro h; unfold ofOrd?; rw [if_neg (by omega)]

theorem addDays_ok {d e : PyDate} {k : Int} : d.addDays k = .ok e ↔ e.ord = d.ord + k := by
  unfold addDays
  constructor
  · intro h
    split at h
    · next x hx => cases h; exact ofOrd?_eq_some.1 hx
    · cases h
  · intro h
    rw [← h, ofOrd?_ord]

theorem addDays_error {d : PyDate} {k : Int} {x : PyErr} :
    d.addDays k = .error x ↔ x = .overflowError ∧ (d.ord + k < 1 ∨ maxOrd < d.ord + k) := by
  unfold addDays
  constructor
  · intro h
    split at h
    · cases h
    · next hx => cases h; exact ⟨rfl, ofOrd?_eq_none.1 hx⟩
  · rintro ⟨rfl, h⟩
    rw [ofOrd?_eq_none.2 h]

theorem mk?_ok {y m d : Int} {e : PyDate} : mk? y m d = .ok e ↔ e.year = y ∧ e.month = m ∧ e.day = d := by
  unfold mk?
  constructor
  · intro h
    split at h
    · cases h; exact ⟨rfl, rfl, rfl⟩
    · cases h
  · rintro ⟨rfl, rfl, rfl⟩
    rw [dif_pos e.valid]

theorem mk?_ok_of_valid {y m d : Int} (h : validYMD y m d = true) : mk? y m d = .ok ⟨y, m, d, h⟩ := by
  unfold mk?; rw [dif_pos h]

theorem mk?_error {y m d : Int} {x : PyErr} : mk? y m d = .error x ↔ x = .valueError ∧ validYMD y m d = false := by
  unfold mk?
  constructor
  · intro h
    split at h
    · cases h
    · next hv => cases h; exact ⟨rfl, by simpa using hv⟩
  · rintro ⟨rfl, h⟩
    rw [dif_neg (by rw [h]; decide)]

/-- Dates are ordered by their ordinal (python compares year, month, day lexicographically: see `lt_iff_lex`). -/
instance : LinearOrder PyDate where
  le a b := a.ord ≤ b.ord
  lt a b := a.ord < b.ord
  le_refl a := Int.le_refl _
  le_trans _ _ _ h1 h2 := Int.le_trans h1 h2
  lt_iff_le_not_ge a b := by show a.ord < b.ord ↔ a.ord ≤ b.ord ∧ ¬ b.ord ≤ a.ord; omega
  le_antisymm _ _ h1 h2 := ord_injective (Int.le_antisymm h1 h2)
  le_total a b := Int.le_total _ _
  toDecidableLE a b := inferInstanceAs (Decidable (a.ord ≤ b.ord))
  toDecidableLT a b := inferInstanceAs (Decidable (a.ord < b.ord))
  toDecidableEq := instDecidableEqPyDate

theorem le_iff {a b : PyDate} : a ≤ b ↔ a.ord ≤ b.ord := Iff.rfl
theorem lt_iff {a b : PyDate} : a < b ↔ a.ord < b.ord := Iff.rfl

/-- The ordinal order is python's lexicographic order on (year, month, day). -/
theorem lt_iff_lex {a b : PyDate} :
    a < b ↔ a.year < b.year ∨ (a.year = b.year ∧ (a.month < b.month ∨ (a.month = b.month ∧ a.day < b.day))) := by
  have key : ∀ a b : PyDate,
      (a.year < b.year ∨ (a.year = b.year ∧ (a.month < b.month ∨ (a.month = b.month ∧ a.day < b.day)))) →
      a.ord < b.ord := by
    intro a b h
    rcases h with h | ⟨hy, h | ⟨hm, hd⟩⟩
    · have h1 := a.ord_year_bounds; have h2 := b.ord_year_bounds
      have := daysBeforeYear_mono (y := a.year + 1) (z := b.year) (by omega); omega
    · have ha := a.bounds; have hb := b.bounds
      have hmono : ∀ m n : Int, 1 ≤ m → m < n → n ≤ 12 →
          daysBeforeMonth b.year m + daysInMonth b.year m ≤ daysBeforeMonth b.year n := by
        intro m n h1 h2 h3
        have hl := leapDay_eq_zero_or_one b.year
        have t2 := month_table b.year n (by omega) (by omega)
        rcases month_table b.year m (by omega) (by omega) with h | h | h | h | h | h | h | h | h | h | h | h <;> omega
      have := hmono a.month b.month (by omega) h (by omega)
      unfold ord; rw [hy] at *; omega
    · unfold ord; rw [hy, hm]; omega
  constructor
  · intro h
    by_contra hc
    have : b.ord ≤ a.ord := by
      by_cases he : a = b
      · rw [he]
      · have hne : ¬ (a.year = b.year ∧ a.month = b.month ∧ a.day = b.day) := fun ⟨h1, h2, h3⟩ => he (ext' h1 h2 h3)
        exact le_of_lt (key b a (by omega))
    rw [lt_iff] at h; omega
  · intro h; exact lt_iff.2 (key a b h)

theorem weekday_bounds (d : PyDate) : 0 ≤ d.weekday ∧ d.weekday ≤ 6 := by unfold weekday; omega

end PyDate
end Verif
