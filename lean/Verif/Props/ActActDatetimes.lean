/- Property C104: actual/actual accruals between datetimes. -/
import Verif.Props.Stochastic

namespace Verif.Props
open Verif Verif.Spec Verif.DayCount

/-! ## C104 -/

/-- The fraction of the day that has passed. -/
def dayFraction (t : PyDatetime) : ℚ := (t.micros : ℚ) / 86400000000

/-- A datetime on the time axis of calendar years: the coordinate of its date, and the passed fraction of one day of the year of the
following day `next`. -/
def yearTime (t : PyDatetime) (next : PyDate) : ℚ := yearCoord t.day + dayFraction t / yearLength next.year

theorem dayFraction_bounds (t : PyDatetime) : 0 ≤ dayFraction t ∧ dayFraction t < 1 := by
  unfold dayFraction
  have h1 : (0 : ℚ) ≤ t.micros := by exact_mod_cast t.bounds.1
  have h2 : (t.micros : ℚ) < 86400000000 := by exact_mod_cast t.bounds.2
  exact ⟨by positivity, by rw [div_lt_one (by norm_num)]; exact h2⟩

theorem yearCoord_next {d d' : PyDate} (hd : d'.ord = d.ord + 1) : yearCoord d' = yearCoord d + 1 / (yearLength d'.year : ℚ) := by
  have b1 := d.ord_year_bounds
  have b2 := d'.ord_year_bounds
  have pl := yearLength_pos d.year
  have pl' := yearLength_pos d'.year
  have hlt : d.year ≤ d'.year := by
    have : d < d' := by rw [PyDate.lt_iff]; omega
    rw [PyDate.lt_iff_lex] at this; omega
  unfold yearCoord
  rcases lt_or_eq_of_le hlt with hl | heq
  · have m := daysBeforeYear_mono (y := d.year + 1) (z := d'.year) (by omega)
    have hy1 : d'.year = d.year + 1 := by
      by_contra hne
      have := daysBeforeYear_mono (y := d.year + 1) (z := d'.year) (by omega); omega
    have e1 : d.ord - daysBeforeYear d.year = yearLength d.year := by
      rw [yearLength_eq]; rw [hy1] at m b2; omega
    have e2 : d'.ord - daysBeforeYear d'.year = 1 := by rw [hy1]; rw [hy1] at b2; omega
    rw [e1, e2, div_self (ne_of_gt pl), hy1]; push_cast; ring
  · rw [heq, hd]; push_cast; field_simp; ring

theorem yearLength_unit (y : Int) : (1 : ℚ) / 366 ≤ 1 / (yearLength y : ℚ) ∧ 1 / (yearLength y : ℚ) ≤ 1 / 365 := by
  unfold yearLength
  split <;> norm_num

/-- C104. The accrual: the distance on the axis of calendar years, plus half the difference of the two day lengths times one minus
both day fractions. -/
theorem C104_value (s e : PyDatetime) (s' e' : PyDate) (h : s ≤ e) (hy : 2 ≤ s.day.year) (hs : s'.ord = s.day.ord + 1)
    (he : e'.ord = e.day.ord + 1) :
    dtAccrual s e .actAct = .ok (yearTime e e' - yearTime s s' +
      (1 / (yearLength e'.year : ℚ) - 1 / (yearLength s'.year : ℚ)) / 2 * (1 - dayFraction s - dayFraction e)) := by
  have hd : s.day ≤ e.day := by
    rw [PyDatetime.le_iff] at h
    unfold PyDatetime.instant at h
    have := s.bounds
    have := e.bounds
    rw [PyDate.le_iff]
    omega
  have yearle : ∀ {a b : PyDate}, a ≤ b → a.year ≤ b.year := by
    intro a b hab
    rw [← not_lt, PyDate.lt_iff_lex] at hab
    omega
  have y1 := yearle hd
  have y2 : s.day.year ≤ s'.year := yearle (by rw [PyDate.le_iff]; omega)
  have y3 : e.day.year ≤ e'.year := yearle (by rw [PyDate.le_iff]; omega)
  have h1 : s.day.addDays 1 = .ok s' := PyDate.addDays_ok.2 hs
  have h2 : e.day.addDays 1 = .ok e' := PyDate.addDays_ok.2 he
  unfold dtAccrual computeAccrualLength
  rw [if_pos (checkDates_iff.2 (by exact h))]
  simp only
  have hok : ∃ x, includeDatetimes actAct s.like e.like = .ok x := by
    simp only [includeDatetimes, PyDatetime.like, DateLike.isDatetime, DateLike.day, DateLike.instant, DateLike.micros,
      Bool.true_eq_false, and_self, if_false, if_true]
    rw [h1, h2]
    simp only [ok_bind]
    rw [actAct_eq (by omega) (by omega), ok_bind, actAct_eq (by omega) (by omega), ok_bind, hs, he,
      pyDiv_of_ne (by push_cast; ring_nf; norm_num)]
    exact ⟨_, rfl⟩
  obtain ⟨x, hx⟩ := hok
  rw [hx]
  obtain ⟨s2, e2, i, o, hs2, he2, hi, ho, hxe⟩ := includeDatetimes_datetimes hx
  have es : s2 = s' := PyDate.ord_injective (by omega)
  have ee : e2 = e' := PyDate.ord_injective (by omega)
  subst es ee
  rw [actAct_diff hi, actAct_diff ho, yearCoord_next hs, yearCoord_next he] at hxe
  rw [hxe]
  congr 1
  unfold yearTime dayFraction
  have p1 := yearLength_pos s2.year
  have p2 := yearLength_pos e2.year
  push_cast
  field_simp
  ring

/-- C104. Between two datetimes whose following days lie in years of equal length the accrual is the distance on the axis. -/
theorem C104_equal_years (s e : PyDatetime) (s' e' : PyDate) (h : s ≤ e) (hy : 2 ≤ s.day.year) (hs : s'.ord = s.day.ord + 1)
    (he : e'.ord = e.day.ord + 1) (hl : yearLength s'.year = yearLength e'.year) :
    dtAccrual s e .actAct = .ok (yearTime e e' - yearTime s s') := by
  rw [C104_value s e s' e' h hy hs he, hl]
  simp

/-- C104. In every case it differs from that distance by at most half the difference of the two possible day lengths. -/
theorem C104_error (s e : PyDatetime) (s' e' : PyDate) (h : s ≤ e) (hy : 2 ≤ s.day.year) (hs : s'.ord = s.day.ord + 1)
    (he : e'.ord = e.day.ord + 1) :
    ∃ x, dtAccrual s e .actAct = .ok x ∧ |x - (yearTime e e' - yearTime s s')| ≤ (1 / 365 - 1 / 366) / 2 := by
  refine ⟨_, C104_value s e s' e' h hy hs he, ?_⟩
  have a := dayFraction_bounds s
  have b := dayFraction_bounds e
  have u := yearLength_unit s'.year
  have v := yearLength_unit e'.year
  rw [add_sub_cancel_left, abs_mul]
  have h1 : |(1 / (yearLength e'.year : ℚ) - 1 / (yearLength s'.year : ℚ)) / 2| ≤ (1 / 365 - 1 / 366) / 2 := by
    rw [abs_le]; constructor <;> linarith [u.1, u.2, v.1, v.2]
  have h2 : |1 - dayFraction s - dayFraction e| ≤ 1 := by
    rw [abs_le]; constructor <;> linarith [a.1, a.2, b.1, b.2]
  calc _ ≤ (1 / 365 - 1 / 366) / 2 * 1 := mul_le_mul h1 h2 (abs_nonneg _) (by norm_num)
    _ = _ := by ring

theorem yearTime_strictMono {s e : PyDatetime} {s' e' : PyDate} (h : s < e) (hs : s'.ord = s.day.ord + 1) (he : e'.ord = e.day.ord + 1) :
    yearTime s s' < yearTime e e' := by
  have a := dayFraction_bounds s
  have b := dayFraction_bounds e
  have p1 := yearLength_pos s'.year
  have p2 := yearLength_pos e'.year
  rw [PyDatetime.lt_iff] at h
  unfold PyDatetime.instant at h
  have bs := s.bounds
  have be := e.bounds
  unfold yearTime
  by_cases hd : s.day = e.day
  · have : s' = e' := PyDate.ord_injective (by rw [hs, he, hd])
    subst this
    rw [hd] at h ⊢
    have hm : (s.micros : ℚ) < e.micros := by exact_mod_cast (by omega : s.micros < e.micros)
    have : dayFraction s < dayFraction e := by
      unfold dayFraction
      exact div_lt_div_of_pos_right hm (by norm_num)
    have := div_lt_div_of_pos_right this p1
    linarith
  · have hne : s.day.ord ≠ e.day.ord := fun hc => hd (PyDate.ord_injective hc)
    have hle : s' ≤ e.day := by rw [PyDate.le_iff]; omega
    have := yearCoord_mono hle
    rw [yearCoord_next hs] at this
    have h1 : dayFraction s / (yearLength s'.year : ℚ) < 1 / (yearLength s'.year : ℚ) := div_lt_div_of_pos_right a.2 p1
    have h2 : 0 ≤ dayFraction e / (yearLength e'.year : ℚ) := div_nonneg b.1 p2.le
    linarith

/-- C104 (partial). The accrual is zero from a datetime to itself and positive between different ones; among datetimes whose
following days lie in years of equal length it is additive and strictly increasing in its end.  Missing: datetimes of years of
different length, see `C104_not_monotone` and `C104_not_additive`. -/
theorem C104_laws_partial (s e f : PyDatetime) (s' e' f' : PyDate) (h : s ≤ e) (hef : e ≤ f) (hy : 2 ≤ s.day.year)
    (hs : s'.ord = s.day.ord + 1) (he : e'.ord = e.day.ord + 1) (hf : f'.ord = f.day.ord + 1) :
    dtAccrual s s .actAct = .ok 0 ∧
    (s < e → ∃ x, dtAccrual s e .actAct = .ok x ∧ 0 < x) ∧
    (yearLength s'.year = yearLength e'.year → yearLength e'.year = yearLength f'.year →
      ∃ x y z, dtAccrual s e .actAct = .ok x ∧ dtAccrual e f .actAct = .ok y ∧ dtAccrual s f .actAct = .ok z ∧
        z = x + y ∧ (e < f → x < z)) := by
  refine ⟨?_, ?_, ?_⟩
  · rw [C104_equal_years s s s' s' (le_refl _) hy hs hs rfl]; simp
  · intro hlt
    have := C104_value s e s' e' h hy hs he
    exact ⟨_, this, dtAccrual_pos (by decide) hlt this⟩
  · intro h1 h2
    have hd : s.day ≤ e.day := by
      rw [PyDatetime.le_iff] at h
      unfold PyDatetime.instant at h
      have := s.bounds
      have := e.bounds
      rw [PyDate.le_iff]
      omega
    have hye : 2 ≤ e.day.year := by
      rw [← not_lt, PyDate.lt_iff_lex] at hd
      omega
    refine ⟨_, _, _, C104_equal_years s e s' e' h hy hs he h1, C104_equal_years e f e' f' hef hye he hf h2,
      C104_equal_years s f s' f' (le_trans h hef) hy hs hf (h1.trans h2), by ring, ?_⟩
    intro hlt
    have := yearTime_strictMono hlt he hf
    linarith

/-- C104. Counted from a datetime whose following day lies in a leap year, the accrual is strictly increasing in its end. -/
theorem C104_leap_start (s e f : PyDatetime) (s' : PyDate) (h : s ≤ e) (hef : e < f) (hy : 2 ≤ s.day.year)
    (hs : s'.ord = s.day.ord + 1) (hmax : f.day.ord < PyDate.maxOrd) (hleap : yearLength s'.year = 366) :
    ∃ x y, dtAccrual s e .actAct = .ok x ∧ dtAccrual s f .actAct = .ok y ∧ x < y := by
  have hdef : e.day.ord ≤ f.day.ord := by
    rw [PyDatetime.lt_iff] at hef
    unfold PyDatetime.instant at hef
    have := e.bounds
    have := f.bounds
    omega
  have next : ∀ d : PyDate, d.ord < PyDate.maxOrd → ∃ d' : PyDate, d'.ord = d.ord + 1 := by
    intro d hd
    have hb := d.ord_bounds
    obtain ⟨d', -, hd'⟩ := PyDate.ofOrd?_some (d.ord + 1) (by omega) (by omega)
    exact ⟨d', hd'⟩
  obtain ⟨e', he⟩ := next e.day (by omega)
  obtain ⟨f', hf⟩ := next f.day hmax
  refine ⟨_, _, C104_value s e s' e' h hy hs he, C104_value s f s' f' (le_trans h hef.le) hy hs hf, ?_⟩
  have a := dayFraction_bounds s
  have be := dayFraction_bounds e
  have bf := dayFraction_bounds f
  have ue := yearLength_unit e'.year
  have uf := yearLength_unit f'.year
  have us : (1 : ℚ) / (yearLength s'.year : ℚ) = 1 / 366 := by rw [hleap]; norm_num
  unfold yearTime
  rw [us, div_eq_mul_one_div (dayFraction e), div_eq_mul_one_div (dayFraction f)]
  by_cases hd : e.day = f.day
  · have hff : f' = e' := PyDate.ord_injective (by rw [he, hf, hd])
    subst hff
    rw [hd]
    have hm : dayFraction e < dayFraction f := by
      rw [PyDatetime.lt_iff] at hef
      unfold PyDatetime.instant at hef
      rw [hd] at hef
      have : (e.micros : ℚ) < f.micros := by exact_mod_cast (by omega : e.micros < f.micros)
      unfold dayFraction
      exact div_lt_div_of_pos_right this (by norm_num)
    have : 0 < (dayFraction f - dayFraction e) * (1 / (yearLength f'.year : ℚ) + 1 / 366) :=
      mul_pos (by linarith) (by linarith [uf.1])
    nlinarith
  · have hne : e.day.ord ≠ f.day.ord := fun hc => hd (PyDate.ord_injective hc)
    have hle : e' ≤ f.day := by rw [PyDate.le_iff]; omega
    have hY := yearCoord_mono hle
    rw [yearCoord_next he] at hY
    generalize (1 : ℚ) / (yearLength e'.year : ℚ) = u at *
    generalize (1 : ℚ) / (yearLength f'.year : ℚ) = v at *
    have k1 : 0 ≤ dayFraction f * (v + 1 / 366) := mul_nonneg bf.1 (by linarith [uf.1])
    have k2 : 0 ≤ (v - 1 / 366) * (1 - dayFraction s) := mul_nonneg (by linarith [uf.1]) (by linarith [a.2])
    have k3 : 0 < (1 - dayFraction e) * (u + 1 / 366) := mul_pos (by linarith [be.2]) (by linarith [ue.1])
    have k4 : 0 ≤ (u - 1 / 366) * dayFraction s := mul_nonneg (by linarith [ue.1]) a.1
    nlinarith

/-- C104. Among datetimes with the same time of day (in particular among midnights) the accrual is additive and strictly increasing
in its end, whatever the years. -/
theorem C104_same_time (s e f : PyDatetime) (s' e' f' : PyDate) (h : s ≤ e) (hef : e ≤ f) (hy : 2 ≤ s.day.year)
    (hs : s'.ord = s.day.ord + 1) (he : e'.ord = e.day.ord + 1) (hf : f'.ord = f.day.ord + 1) (h1 : s.micros = e.micros)
    (h2 : e.micros = f.micros) :
    ∃ x y z, dtAccrual s e .actAct = .ok x ∧ dtAccrual e f .actAct = .ok y ∧ dtAccrual s f .actAct = .ok z ∧
      z = x + y ∧ (e < f → x < z) := by
  have hd : s.day ≤ e.day := by
    rw [PyDatetime.le_iff] at h
    unfold PyDatetime.instant at h
    have := s.bounds
    have := e.bounds
    rw [PyDate.le_iff]
    omega
  have hye : 2 ≤ e.day.year := by
    rw [← not_lt, PyDate.lt_iff_lex] at hd
    omega
  have a1 : dayFraction e = dayFraction s := by unfold dayFraction; rw [h1]
  have a2 : dayFraction f = dayFraction s := by unfold dayFraction; rw [h1, h2]
  have q3 := C104_value e f e' f' hef hye he hf
  refine ⟨_, _, _, C104_value s e s' e' h hy hs he, q3, C104_value s f s' f' (le_trans h hef) hy hs hf, ?_, ?_⟩
  · rw [a1, a2]; ring
  · intro hlt
    have := dtAccrual_pos (by decide) hlt q3
    rw [a1, a2] at *
    linarith

/-- C104 fails: counted from noon of 1 January 2023, one minute before midnight of 1 June 2024 is later than that midnight. -/
theorem C104_not_monotone :
    ∃ x y, dtAccrual (T 2023 1 1 (micros := 43200000000)) (T 2024 6 1 (micros := 86340000000)) .actAct = .ok x ∧
      dtAccrual (T 2023 1 1 (micros := 43200000000)) (T 2024 6 2) .actAct = .ok y ∧ y < x := by
  refine ⟨yearTime (T 2024 6 1 (micros := 86340000000)) (D 2024 6 2) - yearTime (T 2023 1 1 (micros := 43200000000)) (D 2023 1 2) +
      (1 / (yearLength 2024 : ℚ) - 1 / (yearLength 2023 : ℚ)) / 2 *
        (1 - dayFraction (T 2023 1 1 (micros := 43200000000)) - dayFraction (T 2024 6 1 (micros := 86340000000))),
    yearTime (T 2024 6 2) (D 2024 6 3) - yearTime (T 2023 1 1 (micros := 43200000000)) (D 2023 1 2) +
      (1 / (yearLength 2024 : ℚ) - 1 / (yearLength 2023 : ℚ)) / 2 *
        (1 - dayFraction (T 2023 1 1 (micros := 43200000000)) - dayFraction (T 2024 6 2)), ?_, ?_, ?_⟩
  · exact C104_value _ _ (D 2023 1 2) (D 2024 6 2) (by decide +kernel) (by decide +kernel) (by decide +kernel) (by decide +kernel)
  · exact C104_value _ _ (D 2023 1 2) (D 2024 6 3) (by decide +kernel) (by decide +kernel) (by decide +kernel) (by decide +kernel)
  · decide +kernel

/-- C104 fails: the accruals from 1 June 2023 to 1 June 2024 (midnight) and from there to noon of 1 June 2025 do not add up to the
accrual from the first to the last. -/
theorem C104_not_additive :
    ∃ x y z, dtAccrual (T 2023 6 1) (T 2024 6 1) .actAct = .ok x ∧
      dtAccrual (T 2024 6 1) (T 2025 6 1 (micros := 43200000000)) .actAct = .ok y ∧
      dtAccrual (T 2023 6 1) (T 2025 6 1 (micros := 43200000000)) .actAct = .ok z ∧ z ≠ x + y := by
  refine ⟨_, _, _, C104_value _ _ (D 2023 6 2) (D 2024 6 2) (by decide +kernel) (by decide +kernel) (by decide +kernel) (by decide +kernel),
    C104_value _ _ (D 2024 6 2) (D 2025 6 2) (by decide +kernel) (by decide +kernel) (by decide +kernel) (by decide +kernel),
    C104_value _ _ (D 2023 6 2) (D 2025 6 2) (by decide +kernel) (by decide +kernel) (by decide +kernel) (by decide +kernel), ?_⟩
  decide +kernel

/-- Concrete cases for C104: hypotheses of the laws, of the leap-year start, and of equal times of day. -/
example : (T 2023 6 1 ≤ T 2025 6 1 (micros := 43200000000)) ∧ yearLength (D 2023 6 2).year = yearLength (D 2025 6 2).year ∧
    yearLength (D 2024 6 2).year = 366 ∧ (T 2024 6 1 < T 2025 6 1) ∧ (T 2024 6 1).micros = (T 2025 6 1).micros ∧
    (T 2025 6 1).day.ord < PyDate.maxOrd := by decide +kernel

end Verif.Props
