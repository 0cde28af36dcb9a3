/- C109: how far the day count conventions can differ from each other. -/
import Verif.Props.DayCount
import Mathlib.Tactic.IntervalCases

namespace Verif.Props
open Verif Verif.Spec Verif.DayCount

theorem yearLength_eq (y : Int) : yearLength y = 365 + PyDate.leapDay y := by
  unfold yearLength PyDate.leapDay; split_ifs <;> rfl

/-- C109. Over the same dates, ACT/365.25 is at most ACT/365, which is at most ACT/360, and the three are equal only when no day passes;
their ratios are the ratios of the denominators. -/
theorem C109_fixed_order (s e : PyDate) (h : s ≤ e) :
    ∃ x y z, accrual s e .act36525 = .ok x ∧ accrual s e .act365 = .ok y ∧ accrual s e .act360 = .ok z ∧
      x ≤ y ∧ y ≤ z ∧ (s < e → x < y ∧ y < z) ∧ 1461 / 4 * x = 365 * y ∧ 365 * y = 360 * z := by
  refine ⟨_, _, _, C13_act_fixed _ _ rfl s e h, C13_act_fixed _ _ rfl s e h, C13_act_fixed _ _ rfl s e h, ?_⟩
  have hn : (0 : ℚ) ≤ ((e.ord - s.ord : Int) : ℚ) := by
    have := PyDate.le_iff.1 h
    exact_mod_cast (by omega : (0 : Int) ≤ e.ord - s.ord)
  refine ⟨by linarith, by linarith, fun hlt => ?_, by ring, by ring⟩
  have hp : (0 : ℚ) < ((e.ord - s.ord : Int) : ℚ) := by
    have := PyDate.lt_iff.1 hlt
    exact_mod_cast (by omega : (0 : Int) < e.ord - s.ord)
  constructor <;> linarith

/-- The day of the year. -/
theorem dayOfYear_bounds (d : PyDate) : 1 ≤ d.ord - daysBeforeYear d.year ∧ d.ord - daysBeforeYear d.year ≤ yearLength d.year := by
  have b := d.bounds
  have := PyDate.day_of_year_bounds d.year d.month d.day b.2.2.1 b.2.2.2.1 b.2.2.2.2.1 b.2.2.2.2.2
  rw [yearLength_eq]
  unfold PyDate.ord
  omega

theorem daysBeforeYear_upper {y z : Int} (h : y ≤ z) : daysBeforeYear z ≤ daysBeforeYear y + 366 * (z - y) := by
  unfold daysBeforeYear; omega

/-- C109. An ACT/ACT year fraction lies between the days over 366 and the days over 365: it is at most ACT/365, and at least 365/366 of
it. -/
theorem C109_act_act_range (s e : PyDate) (h : s ≤ e) (hy : 2 ≤ s.year) :
    ∃ x, accrual s e .actAct = .ok x ∧ ((e.ord - s.ord : Int) : ℚ) / 366 ≤ x ∧ x ≤ ((e.ord - s.ord : Int) : ℚ) / 365 := by
  refine ⟨_, C14_act_act s e h hy, ?_⟩
  have hle : s.ord ≤ e.ord := PyDate.le_iff.1 h
  have bs := dayOfYear_bounds s
  have be := dayOfYear_bounds e
  have hys : s.year ≤ e.year := by
    have := h; rw [← not_lt, PyDate.lt_iff_lex] at this; omega
  unfold yearCoord
  set k := s.ord - daysBeforeYear s.year with hk
  set l := e.ord - daysBeforeYear e.year with hl
  have hs : s.ord = daysBeforeYear s.year + k := by omega
  have he : e.ord = daysBeforeYear e.year + l := by omega
  have Ls := yearLength_eq s.year
  have Le := yearLength_eq e.year
  have lsz := leapDay_eq_zero_or_one s.year
  have lez := leapDay_eq_zero_or_one e.year
  rcases lt_or_eq_of_le hys with hlt | heq
  · -- whole years in between
    have h1 := daysBeforeYear_succ s.year
    have h2 := daysBeforeYear_mono (y := s.year + 1) (z := e.year) (by omega)
    have h3 := daysBeforeYear_upper (y := s.year + 1) (z := e.year) (by omega)
    have c2 : (daysBeforeYear (s.year + 1) : ℚ) + 365 * ((e.year : ℚ) - (s.year + 1)) ≤ daysBeforeYear e.year := by exact_mod_cast h2
    have c3 : (daysBeforeYear e.year : ℚ) ≤ daysBeforeYear (s.year + 1) + 366 * ((e.year : ℚ) - (s.year + 1)) := by exact_mod_cast h3
    have ck1 : (1 : ℚ) ≤ k := by exact_mod_cast bs.1
    have cl1 : (1 : ℚ) ≤ l := by exact_mod_cast be.1
    have ck2 : (k : ℚ) ≤ yearLength s.year := by exact_mod_cast bs.2
    have cl2 : (l : ℚ) ≤ yearLength e.year := by exact_mod_cast be.2
    rw [hs, he]
    push_cast
    have c1 : (daysBeforeYear (s.year + 1) : ℚ) = daysBeforeYear s.year + 365 + PyDate.leapDay s.year := by rw [h1]; push_cast; rfl
    rw [c1] at c2 c3
    rcases lsz with z1 | z1 <;> rcases lez with z2 | z2 <;> rw [z1] at Ls c2 c3 <;> rw [z2] at Le <;> rw [Ls] at ck2 ⊢ <;>
      rw [Le] at cl2 ⊢ <;> push_cast at ck2 cl2 c2 c3 ⊢ <;> constructor <;> linarith
  · have hL : yearLength s.year = yearLength e.year := by rw [heq]
    rw [hs, he, ← heq]
    have hkl : k ≤ l := by rw [heq] at hs; omega
    have ckl : (0 : ℚ) ≤ (l : ℚ) - k := by
      have : (k : ℚ) ≤ l := by exact_mod_cast hkl
      linarith
    push_cast
    rcases lsz with z1 | z1 <;> rw [z1] at Ls <;> rw [Ls] <;> push_cast <;> constructor <;> linarith

/-- The 30/360 day number of a date, read with any of the day numbers the rules allow, is close to 360 times the elapsed part of the
year. -/
theorem thirty_near (d : PyDate) (k : Int) (hk : k = d.day ∨ k = min d.day 30 ∨ (d.month = 2 ∧ d.day = 28 ∧ k = 30)) :
    -6 * yearLength d.year ≤ 10 * (yearLength d.year * (30 * (d.month - 1) + k)) - 3600 * (d.ord - daysBeforeYear d.year) ∧
    10 * (yearLength d.year * (30 * (d.month - 1) + k)) - 3600 * (d.ord - daysBeforeYear d.year) ≤ 23 * yearLength d.year := by
  obtain ⟨b1, b2, b3, b4, b5, b6⟩ := d.bounds
  have hord : d.ord - daysBeforeYear d.year = cumDays d.month + (if d.month > 2 then PyDate.leapDay d.year else 0) + d.day := by
    unfold PyDate.ord; rw [daysBeforeMonth_eq]; omega
  rw [hord, yearLength_eq]
  rw [daysInMonth_eq] at b6
  have lz := leapDay_eq_zero_or_one d.year
  generalize PyDate.leapDay d.year = z at *
  generalize d.month = m at *
  generalize d.day = j at *
  clear hord
  rcases lz with rfl | rfl <;> interval_cases m <;> simp [cumDays] at b6 ⊢ <;> omega

/-- C109. 30/360 and ACT/ACT differ by less than three 30/360 days over any interval, however long. -/
theorem C109_thirty360_near (s e : PyDate) (h : s ≤ e) (hy : 2 ≤ s.year) :
    ∃ x y, accrual s e .thirty360 = .ok x ∧ accrual s e .actAct = .ok y ∧ |x - y| < 3 / 360 := by
  refine ⟨_, _, accrual_eq h .thirty360, C14_act_act s e h hy, ?_⟩
  obtain ⟨d1, d2, hd, -, -, -, -, h5, h6⟩ := thirty360Days_cases s e
  have hd1 : d1 = s.day ∨ d1 = min s.day 30 ∨ (s.month = 2 ∧ s.day = 28 ∧ d1 = 30) := by
    by_cases hf : s.month = 2 ∧ s.day = 28
    · exact .inr (.inr ⟨hf.1, hf.2, (h5 hf).1⟩)
    · exact .inr (.inl (h6 hf).1)
  have hd2 : d2 = e.day ∨ d2 = min e.day 30 ∨ (e.month = 2 ∧ e.day = 28 ∧ d2 = 30) := by
    by_cases hf : s.month = 2 ∧ s.day = 28
    · by_cases hf2 : e.month = 2 ∧ e.day = 28
      · exact .inr (.inr ⟨hf2.1, hf2.2, (h5 hf).2.1 hf2⟩)
      · exact .inr (.inl ((h5 hf).2.2 hf2))
    · by_cases h30 : 30 ≤ s.day
      · exact .inr (.inl ((h6 hf).2.1 h30))
      · exact .inl ((h6 hf).2.2 (by omega))
  obtain ⟨a1, a2⟩ := thirty_near s d1 hd1
  obtain ⟨b1, b2⟩ := thirty_near e d2 hd2
  have key : ∀ (L k n : Int), 0 < L → -6 * L ≤ 10 * (L * n) - 3600 * k → 10 * (L * n) - 3600 * k ≤ 23 * L →
      -(6 / 3600 : ℚ) ≤ (n : ℚ) / 360 - (k : ℚ) / L ∧ (n : ℚ) / 360 - (k : ℚ) / L ≤ 23 / 3600 := by
    intro L k n hL g1 g2
    have hL' : (0 : ℚ) < L := by exact_mod_cast hL
    have c1 : (-6 : ℚ) * L ≤ 10 * (L * n) - 3600 * k := by exact_mod_cast g1
    have c2 : 10 * ((L : ℚ) * n) - 3600 * k ≤ 23 * L := by exact_mod_cast g2
    have hkL : (k : ℚ) / L * L = k := by field_simp
    generalize (k : ℚ) / L = q at *
    constructor
    · by_contra hc
      have := mul_lt_mul_of_pos_right (not_le.1 hc) hL'
      nlinarith
    · by_contra hc
      have := mul_lt_mul_of_pos_right (not_le.1 hc) hL'
      nlinarith
  have pos : ∀ y, 0 < yearLength y := fun y => by
    rw [yearLength_eq]; have := leapDay_eq_zero_or_one y; omega
  obtain ⟨k1, k2⟩ := key _ _ _ (pos _) a1 a2
  obtain ⟨l1, l2⟩ := key _ _ _ (pos _) b1 b2
  unfold yearCoord
  rw [hd]
  push_cast at *
  rw [abs_lt]
  constructor <;> linarith

/-- C109. Hence every convention agrees with the number of days passed to within a few days a year: with `n` days from `s` to `e`, 30/360
lies within three 360ths of the range from `n/366` to `n/365`. -/
theorem C109_thirty360_range (s e : PyDate) (h : s ≤ e) (hy : 2 ≤ s.year) :
    ∃ x, accrual s e .thirty360 = .ok x ∧ ((e.ord - s.ord : Int) : ℚ) / 366 - 3 / 360 < x ∧
      x < ((e.ord - s.ord : Int) : ℚ) / 365 + 3 / 360 := by
  obtain ⟨x, y, hx, hy', hxy⟩ := C109_thirty360_near s e h hy
  obtain ⟨y', h1, h2, h3⟩ := C109_act_act_range s e h hy
  rw [hy'] at h1
  injection h1 with h1
  subst h1
  rw [abs_lt] at hxy
  exact ⟨x, hx, by linarith [hxy.1], by linarith [hxy.2]⟩

/-- Concrete case for C109: 31 January to 30 March 2022 is 60 of 360 days but 58 of 365, almost three days apart. -/
example : accrual (D 2022 1 31) (D 2022 3 30) .thirty360 = .ok (60 / 360) ∧ accrual (D 2022 1 31) (D 2022 3 30) .actAct = .ok (58 / 365) ∧
    (2 : Int) ≤ (D 2022 1 31).year ∧ D 2022 1 31 ≤ D 2022 3 30 ∧ (11 / 4 : ℚ) / 360 < 60 / 360 - 58 / 365 := by
  refine ⟨by decide +kernel, by decide +kernel, by decide +kernel, by decide +kernel, by norm_num⟩

end Verif.Props
