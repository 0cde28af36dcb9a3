/- Helper lemmas: the US federal calendar in terms of ordinals. -/
import Verif.Lemmas.Scheduler

namespace Verif.Scheduler
open Verif Verif.Spec

/-- Ordinal of the observed date of a fixed-date federal holiday with nominal ordinal `n`. -/
def adjOrd (n : Int) : Int := if (n + 6) % 7 = 5 then n - 1 else if (n + 6) % 7 = 6 then n + 1 else n

/-- Ordinal of the first weekday `wd` on or after ordinal `n`. -/
def nextOrd (n wd : Int) : Int := n + (wd - (n + 6) % 7) % 7

theorem usAdj_ok {d r : PyDate} : usFederalHolidayAdjustment d = .ok r ↔ r.ord = adjOrd d.ord := by
  unfold usFederalHolidayAdjustment adjOrd PyDate.weekday
  split_ifs with h1 h2
  · rw [PyDate.addDays_ok]; constructor <;> intro h <;> omega
  · rw [PyDate.addDays_ok]
  · constructor
    · intro h; cases h; rfl
    · intro h; rw [PyDate.ord_inj.1 h]

theorem usAdj_total (d : PyDate) : ∃ r, usFederalHolidayAdjustment d = .ok r := by
  have hb := d.ord_bounds
  unfold PyDate.maxOrd at hb
  have : 1 ≤ adjOrd d.ord ∧ adjOrd d.ord ≤ PyDate.maxOrd := by
    unfold adjOrd PyDate.maxOrd; split_ifs <;> omega
  obtain ⟨r, _, hr⟩ := PyDate.ofOrd?_some _ this.1 this.2
  exact ⟨r, usAdj_ok.2 hr⟩

theorem nextWd_ok {d r : PyDate} {wd : Int} (_h0 : 0 ≤ wd) (_h6 : wd ≤ 6) :
    getNextWeekday d wd = .ok r ↔ r.ord = nextOrd d.ord wd := by
  unfold getNextWeekday nextOrd PyDate.weekday
  split_ifs with h1
  · constructor
    · intro h; cases h; omega
    · intro h
      have h' : r = d := PyDate.ord_inj.1 (by omega)
      rw [h']
  · rw [PyDate.addDays_ok]

theorem daysBeforeYear_bounds {y : Int} (h1 : 1 ≤ y) (h2 : y ≤ 9999) :
    0 ≤ daysBeforeYear y ∧ daysBeforeYear y + 365 + PyDate.leapDay y ≤ PyDate.maxOrd := by
  have a := daysBeforeYear_mono (y := 1) (z := y) h1
  have b := daysBeforeYear_mono (y := y + 1) (z := 10000) (by omega)
  have h3 : daysBeforeYear 1 = 0 := by decide
  have h4 : daysBeforeYear 10000 = 3652059 := by decide
  have h5 := daysBeforeYear_succ y
  unfold PyDate.maxOrd; omega

/-- Month table at the months used by the US calendar. -/
theorem months_us (y : Int) :
    daysBeforeMonth y 1 = 0 ∧ daysBeforeMonth y 2 = 31 ∧ daysBeforeMonth y 5 = 120 + PyDate.leapDay y ∧
    daysBeforeMonth y 6 = 151 + PyDate.leapDay y ∧ daysBeforeMonth y 7 = 181 + PyDate.leapDay y ∧
    daysBeforeMonth y 9 = 243 + PyDate.leapDay y ∧ daysBeforeMonth y 10 = 273 + PyDate.leapDay y ∧
    daysBeforeMonth y 11 = 304 + PyDate.leapDay y ∧ daysBeforeMonth y 12 = 334 + PyDate.leapDay y := by
  simp only [daysBeforeMonth_eq]
  exact ⟨rfl, rfl, rfl, rfl, rfl, rfl, rfl, rfl, rfl⟩

theorem nominal_exists {y m d : Int} (h : validYMD y m d = true) :
    ∃ n : PyDate, n.year = y ∧ n.month = m ∧ n.day = d := ⟨⟨y, m, d, h⟩, rfl, rfl, rfl⟩

theorem valid_us {y m d : Int} (hy : 1 ≤ y ∧ y ≤ 9999) (hm : 1 ≤ m ∧ m ≤ 12) (hd : 1 ≤ d ∧ d ≤ 28 ∨ (1 ≤ d ∧ d ≤ 30 ∧ m ≠ 2)) :
    validYMD y m d = true := by
  rw [PyDate.valid_iff]
  have := month_table y m hm.1 hm.2
  have := leapDay_eq_zero_or_one y
  omega

theorem ord_of_fields {n : PyDate} {y m d : Int} (h1 : n.year = y) (h2 : n.month = m) (h3 : n.day = d) :
    n.ord = daysBeforeYear y + daysBeforeMonth y m + d := by
  unfold PyDate.ord; rw [h1, h2, h3]

/-- The US federal observed holidays of year `y`, by ordinal. -/
theorem us_observed_iff (y : Int) (d : PyDate) :
    ObservedIn usFederalHolidays y d ↔ (1 ≤ y ∧ y ≤ 9999) ∧
      (d.ord = adjOrd (daysBeforeYear y + 1) ∨
       d.ord = adjOrd (daysBeforeYear y + 17) ∨
       d.ord = nextOrd (daysBeforeYear y + 46) 0 ∨
       d.ord = adjOrd (daysBeforeYear y + (150 + PyDate.leapDay y)) ∨
       d.ord = adjOrd (daysBeforeYear y + (170 + PyDate.leapDay y)) ∨
       d.ord = adjOrd (daysBeforeYear y + (185 + PyDate.leapDay y)) ∨
       d.ord = nextOrd (daysBeforeYear y + (244 + PyDate.leapDay y)) 0 ∨
       d.ord = nextOrd (daysBeforeYear y + (281 + PyDate.leapDay y)) 0 ∨
       d.ord = adjOrd (daysBeforeYear y + (315 + PyDate.leapDay y)) ∨
       d.ord = nextOrd (daysBeforeYear y + (326 + PyDate.leapDay y)) 3 ∨
       d.ord = adjOrd (daysBeforeYear y + (359 + PyDate.leapDay y))) := by
  obtain ⟨m1, m2, m5, m6, m7, m9, m10, m11, m12⟩ := months_us y
  constructor
  · rintro ⟨name, h, n, hl, hy, hm, hd, hadj⟩
    have hb := n.bounds
    refine ⟨by omega, ?_⟩
    have hmem := mem_of_lookup hl
    simp only [usFederalHolidays, List.mem_cons, Prod.mk.injEq, List.not_mem_nil, or_false] at hmem
    rcases hmem with ⟨-, rfl⟩ | ⟨-, rfl⟩ | ⟨-, rfl⟩ | ⟨-, rfl⟩ | ⟨-, rfl⟩ | ⟨-, rfl⟩ | ⟨-, rfl⟩ | ⟨-, rfl⟩ |
      ⟨-, rfl⟩ | ⟨-, rfl⟩ | ⟨-, rfl⟩ <;> simp only at hm hd hadj <;> have ho := ord_of_fields hy hm hd
    · left; rw [usAdj_ok.1 hadj, ho]; congr 1; omega
    · right; left; rw [usAdj_ok.1 hadj, ho]; congr 1; omega
    · iterate 2 right
      left; rw [(nextWd_ok (by decide) (by decide)).1 hadj, ho]; congr 1; omega
    · iterate 3 right
      left; rw [usAdj_ok.1 hadj, ho]; congr 1; omega
    · iterate 4 right
      left; rw [usAdj_ok.1 hadj, ho]; congr 1; omega
    · iterate 5 right
      left; rw [usAdj_ok.1 hadj, ho]; congr 1; omega
    · iterate 6 right
      left; rw [(nextWd_ok (by decide) (by decide)).1 hadj, ho]; congr 1; omega
    · iterate 7 right
      left; rw [(nextWd_ok (by decide) (by decide)).1 hadj, ho]; congr 1; omega
    · iterate 8 right
      left; rw [usAdj_ok.1 hadj, ho]; congr 1; omega
    · iterate 9 right
      left; rw [(nextWd_ok (by decide) (by decide)).1 hadj, ho]; congr 1; omega
    · iterate 10 right
      rw [usAdj_ok.1 hadj, ho]; congr 1; omega
  · rintro ⟨hy, h⟩
    rcases h with h | h | h | h | h | h | h | h | h | h | h
    · obtain ⟨n, n1, n2, n3⟩ := nominal_exists (valid_us (m := 1) (d := 1) hy (by omega) (by omega))
      refine ⟨"NewYears", _, n, rfl, n1, n2, n3, usAdj_ok.2 ?_⟩
      rw [h, ord_of_fields n1 n2 n3]; congr 1; omega
    · obtain ⟨n, n1, n2, n3⟩ := nominal_exists (valid_us (m := 1) (d := 17) hy (by omega) (by omega))
      refine ⟨"MLK", _, n, rfl, n1, n2, n3, usAdj_ok.2 ?_⟩
      rw [h, ord_of_fields n1 n2 n3]; congr 1; omega
    · obtain ⟨n, n1, n2, n3⟩ := nominal_exists (valid_us (m := 2) (d := 15) hy (by omega) (by omega))
      refine ⟨"Presidents", _, n, rfl, n1, n2, n3, (nextWd_ok (by decide) (by decide)).2 ?_⟩
      rw [h, ord_of_fields n1 n2 n3]; congr 1; omega
    · obtain ⟨n, n1, n2, n3⟩ := nominal_exists (valid_us (m := 5) (d := 30) hy (by omega) (by omega))
      refine ⟨"Memorial", _, n, rfl, n1, n2, n3, usAdj_ok.2 ?_⟩
      rw [h, ord_of_fields n1 n2 n3]; congr 1; omega
    · obtain ⟨n, n1, n2, n3⟩ := nominal_exists (valid_us (m := 6) (d := 19) hy (by omega) (by omega))
      refine ⟨"Juneteenth", _, n, rfl, n1, n2, n3, usAdj_ok.2 ?_⟩
      rw [h, ord_of_fields n1 n2 n3]; congr 1; omega
    · obtain ⟨n, n1, n2, n3⟩ := nominal_exists (valid_us (m := 7) (d := 4) hy (by omega) (by omega))
      refine ⟨"Independence", _, n, rfl, n1, n2, n3, usAdj_ok.2 ?_⟩
      rw [h, ord_of_fields n1 n2 n3]; congr 1; omega
    · obtain ⟨n, n1, n2, n3⟩ := nominal_exists (valid_us (m := 9) (d := 1) hy (by omega) (by omega))
      refine ⟨"Labor", _, n, rfl, n1, n2, n3, (nextWd_ok (by decide) (by decide)).2 ?_⟩
      rw [h, ord_of_fields n1 n2 n3]; congr 1; omega
    · obtain ⟨n, n1, n2, n3⟩ := nominal_exists (valid_us (m := 10) (d := 8) hy (by omega) (by omega))
      refine ⟨"Columbus", _, n, rfl, n1, n2, n3, (nextWd_ok (by decide) (by decide)).2 ?_⟩
      rw [h, ord_of_fields n1 n2 n3]; congr 1; omega
    · obtain ⟨n, n1, n2, n3⟩ := nominal_exists (valid_us (m := 11) (d := 11) hy (by omega) (by omega))
      refine ⟨"Veterans", _, n, rfl, n1, n2, n3, usAdj_ok.2 ?_⟩
      rw [h, ord_of_fields n1 n2 n3]; congr 1; omega
    · obtain ⟨n, n1, n2, n3⟩ := nominal_exists (valid_us (m := 11) (d := 22) hy (by omega) (by omega))
      refine ⟨"Thanksgiving", _, n, rfl, n1, n2, n3, (nextWd_ok (by decide) (by decide)).2 ?_⟩
      rw [h, ord_of_fields n1 n2 n3]; congr 1; omega
    · obtain ⟨n, n1, n2, n3⟩ := nominal_exists (valid_us (m := 12) (d := 25) hy (by omega) (by omega))
      refine ⟨"Christmas", _, n, rfl, n1, n2, n3, usAdj_ok.2 ?_⟩
      rw [h, ord_of_fields n1 n2 n3]; congr 1; omega

theorem adjOrd_bounds (n : Int) : n - 1 ≤ adjOrd n ∧ adjOrd n ≤ n + 1 := by unfold adjOrd; split_ifs <;> omega
theorem adjOrd_weekday (n : Int) : (adjOrd n + 6) % 7 ≤ 4 := by unfold adjOrd; split_ifs <;> omega
theorem nextOrd_bounds (n wd : Int) : n ≤ nextOrd n wd ∧ nextOrd n wd ≤ n + 6 := by unfold nextOrd; omega
theorem nextOrd_weekday (n wd : Int) (h0 : 0 ≤ wd) (h6 : wd ≤ 6) : (nextOrd n wd + 6) % 7 = wd := by
  unfold nextOrd; omega

/-- Observed holidays fall into eleven separated windows of the year; dates of the same window are equal. -/
theorem us_windows (y : Int) (d : PyDate) (h : ObservedIn usFederalHolidays y d) :
    (1 ≤ y ∧ y ≤ 9999) ∧ d.weekday ≤ 4 ∧ ∃ i : Int, ∃ o : Int,
      o = d.ord - daysBeforeYear y - (if i ≥ 4 then PyDate.leapDay y else 0) ∧
      ((i = 1 ∧ 0 ≤ o ∧ o ≤ 2 ∧ d.ord = adjOrd (daysBeforeYear y + 1)) ∨
       (i = 2 ∧ 16 ≤ o ∧ o ≤ 18 ∧ d.ord = adjOrd (daysBeforeYear y + 17)) ∨
       (i = 3 ∧ 46 ≤ o ∧ o ≤ 52 ∧ d.ord = nextOrd (daysBeforeYear y + 46) 0) ∨
       (i = 4 ∧ 149 ≤ o ∧ o ≤ 151 ∧ d.ord = adjOrd (daysBeforeYear y + (150 + PyDate.leapDay y))) ∨
       (i = 5 ∧ 169 ≤ o ∧ o ≤ 171 ∧ d.ord = adjOrd (daysBeforeYear y + (170 + PyDate.leapDay y))) ∨
       (i = 6 ∧ 184 ≤ o ∧ o ≤ 186 ∧ d.ord = adjOrd (daysBeforeYear y + (185 + PyDate.leapDay y))) ∨
       (i = 7 ∧ 244 ≤ o ∧ o ≤ 250 ∧ d.ord = nextOrd (daysBeforeYear y + (244 + PyDate.leapDay y)) 0) ∨
       (i = 8 ∧ 281 ≤ o ∧ o ≤ 287 ∧ d.ord = nextOrd (daysBeforeYear y + (281 + PyDate.leapDay y)) 0) ∨
       (i = 9 ∧ 314 ≤ o ∧ o ≤ 316 ∧ d.ord = adjOrd (daysBeforeYear y + (315 + PyDate.leapDay y))) ∨
       (i = 10 ∧ 326 ≤ o ∧ o ≤ 332 ∧ d.ord = nextOrd (daysBeforeYear y + (326 + PyDate.leapDay y)) 3) ∨
       (i = 11 ∧ 358 ≤ o ∧ o ≤ 360 ∧ d.ord = adjOrd (daysBeforeYear y + (359 + PyDate.leapDay y)))) := by
  obtain ⟨hy, h⟩ := (us_observed_iff y d).1 h
  have hw : d.weekday = (d.ord + 6) % 7 := rfl
  rw [hw]
  rcases h with h | h | h | h | h | h | h | h | h | h | h
  · have b := adjOrd_bounds (daysBeforeYear y + 1)
    refine ⟨hy, by rw [h]; exact adjOrd_weekday _, 1, _, rfl, Or.inl ⟨rfl, ?_, ?_, h⟩⟩ <;> simp <;> omega
  · have b := adjOrd_bounds (daysBeforeYear y + 17)
    refine ⟨hy, by rw [h]; exact adjOrd_weekday _, 2, _, rfl, Or.inr (Or.inl ⟨rfl, ?_, ?_, h⟩)⟩ <;> simp <;> omega
  · have b := nextOrd_bounds (daysBeforeYear y + 46) 0
    have w := nextOrd_weekday (daysBeforeYear y + 46) 0 (by omega) (by omega)
    refine ⟨hy, by omega, 3, _, rfl, Or.inr (Or.inr (Or.inl ⟨rfl, ?_, ?_, h⟩))⟩ <;> simp <;> omega
  · have b := adjOrd_bounds (daysBeforeYear y + (150 + PyDate.leapDay y))
    refine ⟨hy, by rw [h]; exact adjOrd_weekday _, 4, _, rfl, Or.inr (Or.inr (Or.inr (Or.inl ⟨rfl, ?_, ?_, h⟩)))⟩ <;>
      simp <;> omega
  · have b := adjOrd_bounds (daysBeforeYear y + (170 + PyDate.leapDay y))
    refine ⟨hy, by rw [h]; exact adjOrd_weekday _, 5, _, rfl,
      Or.inr (Or.inr (Or.inr (Or.inr (Or.inl ⟨rfl, ?_, ?_, h⟩))))⟩ <;> simp <;> omega
  · have b := adjOrd_bounds (daysBeforeYear y + (185 + PyDate.leapDay y))
    refine ⟨hy, by rw [h]; exact adjOrd_weekday _, 6, _, rfl,
      Or.inr (Or.inr (Or.inr (Or.inr (Or.inr (Or.inl ⟨rfl, ?_, ?_, h⟩)))))⟩ <;> simp <;> omega
  · have b := nextOrd_bounds (daysBeforeYear y + (244 + PyDate.leapDay y)) 0
    have w := nextOrd_weekday (daysBeforeYear y + (244 + PyDate.leapDay y)) 0 (by omega) (by omega)
    refine ⟨hy, by omega, 7, _, rfl,
      Or.inr (Or.inr (Or.inr (Or.inr (Or.inr (Or.inr (Or.inl ⟨rfl, ?_, ?_, h⟩))))))⟩ <;> simp <;> omega
  · have b := nextOrd_bounds (daysBeforeYear y + (281 + PyDate.leapDay y)) 0
    have w := nextOrd_weekday (daysBeforeYear y + (281 + PyDate.leapDay y)) 0 (by omega) (by omega)
    refine ⟨hy, by omega, 8, _, rfl,
      Or.inr (Or.inr (Or.inr (Or.inr (Or.inr (Or.inr (Or.inr (Or.inl ⟨rfl, ?_, ?_, h⟩)))))))⟩ <;> simp <;> omega
  · have b := adjOrd_bounds (daysBeforeYear y + (315 + PyDate.leapDay y))
    refine ⟨hy, by rw [h]; exact adjOrd_weekday _, 9, _, rfl,
      Or.inr (Or.inr (Or.inr (Or.inr (Or.inr (Or.inr (Or.inr (Or.inr (Or.inl ⟨rfl, ?_, ?_, h⟩))))))))⟩ <;> simp <;> omega
  · have b := nextOrd_bounds (daysBeforeYear y + (326 + PyDate.leapDay y)) 3
    have w := nextOrd_weekday (daysBeforeYear y + (326 + PyDate.leapDay y)) 3 (by omega) (by omega)
    refine ⟨hy, by omega, 10, _, rfl,
      Or.inr (Or.inr (Or.inr (Or.inr (Or.inr (Or.inr (Or.inr (Or.inr (Or.inr (Or.inl ⟨rfl, ?_, ?_, h⟩)))))))))⟩ <;>
      simp <;> omega
  · have b := adjOrd_bounds (daysBeforeYear y + (359 + PyDate.leapDay y))
    refine ⟨hy, by rw [h]; exact adjOrd_weekday _, 11, _, rfl,
      Or.inr (Or.inr (Or.inr (Or.inr (Or.inr (Or.inr (Or.inr (Or.inr (Or.inr (Or.inr ⟨rfl, ?_, ?_, h⟩)))))))))⟩ <;>
      simp <;> omega

/-- Two different observed US holidays of their own years are at least four days apart. -/
theorem us_sparse {a b : PyDate} (ha : ObservedIn usFederalHolidays a.year a)
    (hb : ObservedIn usFederalHolidays b.year b) (hab : a.ord < b.ord) : a.ord + 3 < b.ord := by
  obtain ⟨ya, _, i, o, ho, wa⟩ := us_windows _ _ ha
  obtain ⟨yb, _, j, p, hp, wb⟩ := us_windows _ _ hb
  have oa := a.ord_year_bounds
  have ob := b.ord_year_bounds
  have sa := daysBeforeYear_succ a.year
  have la := leapDay_eq_zero_or_one a.year
  have lb := leapDay_eq_zero_or_one b.year
  rcases lt_trichotomy a.year b.year with hlt | heq | hgt
  · have := daysBeforeYear_mono (y := a.year + 1) (z := b.year) (by omega)
    have ho360 : o ≤ 360 := by omega
    split_ifs at ho with hi
    · omega
    · have : o ≤ 52 := by omega
      omega
  · rw [← heq] at hp wb lb
    have hij : i ≤ j := by
      by_contra hc
      split_ifs at ho hp <;>
      rcases wa with h | h | h | h | h | h | h | h | h | h | h <;> omega
    by_cases he : i = j
    · subst he
      exfalso
      rcases wa with h | h | h | h | h | h | h | h | h | h | h <;> obtain ⟨hi, h1, h2, h3⟩ := h <;> subst hi <;>
        simp at wb <;> omega
    · split_ifs at ho hp <;>
      rcases wa with h | h | h | h | h | h | h | h | h | h | h <;> omega
  · have := daysBeforeYear_mono (y := b.year + 1) (z := a.year) (by omega)
    omega

/-- The US calendar can be evaluated for every year. -/
theorem us_evaluable (y : Int) (h1 : 1 ≤ y) (h2 : y ≤ 9999) : Evaluable usFederalHolidays y := by
  intro name h hl
  have hmem := mem_of_lookup hl
  have hbd := daysBeforeYear_bounds h1 h2
  have hl := leapDay_eq_zero_or_one y
  obtain ⟨m1, m2, m5, m6, m7, m9, m10, m11, m12⟩ := months_us y
  have next : ∀ (n : PyDate) (wd : Int), 0 ≤ wd → wd ≤ 6 → n.ord + 6 ≤ PyDate.maxOrd →
      ∃ r, getNextWeekday n wd = .ok r := by
    intro n wd h0 h6 hn
    have hb := n.ord_bounds
    have := nextOrd_bounds n.ord wd
    obtain ⟨r, _, hr⟩ := PyDate.ofOrd?_some (nextOrd n.ord wd) (by omega) (by omega)
    exact ⟨r, (nextWd_ok h0 h6).2 hr⟩
  simp only [usFederalHolidays, List.mem_cons, Prod.mk.injEq, List.not_mem_nil, or_false] at hmem
  rcases hmem with ⟨-, rfl⟩ | ⟨-, rfl⟩ | ⟨-, rfl⟩ | ⟨-, rfl⟩ | ⟨-, rfl⟩ | ⟨-, rfl⟩ | ⟨-, rfl⟩ | ⟨-, rfl⟩ |
    ⟨-, rfl⟩ | ⟨-, rfl⟩ | ⟨-, rfl⟩ <;> simp only
  · obtain ⟨n, n1, n2, n3⟩ := nominal_exists (valid_us (m := 1) (d := 1) ⟨h1, h2⟩ (by omega) (by omega))
    obtain ⟨r, hr⟩ := usAdj_total n; exact ⟨n, r, n1, n2, n3, hr⟩
  · obtain ⟨n, n1, n2, n3⟩ := nominal_exists (valid_us (m := 1) (d := 17) ⟨h1, h2⟩ (by omega) (by omega))
    obtain ⟨r, hr⟩ := usAdj_total n; exact ⟨n, r, n1, n2, n3, hr⟩
  · obtain ⟨n, n1, n2, n3⟩ := nominal_exists (valid_us (m := 2) (d := 15) ⟨h1, h2⟩ (by omega) (by omega))
    have ho := ord_of_fields n1 n2 n3
    obtain ⟨r, hr⟩ := next n 0 (by omega) (by omega) (by omega); exact ⟨n, r, n1, n2, n3, hr⟩
  · obtain ⟨n, n1, n2, n3⟩ := nominal_exists (valid_us (m := 5) (d := 30) ⟨h1, h2⟩ (by omega) (by omega))
    obtain ⟨r, hr⟩ := usAdj_total n; exact ⟨n, r, n1, n2, n3, hr⟩
  · obtain ⟨n, n1, n2, n3⟩ := nominal_exists (valid_us (m := 6) (d := 19) ⟨h1, h2⟩ (by omega) (by omega))
    obtain ⟨r, hr⟩ := usAdj_total n; exact ⟨n, r, n1, n2, n3, hr⟩
  · obtain ⟨n, n1, n2, n3⟩ := nominal_exists (valid_us (m := 7) (d := 4) ⟨h1, h2⟩ (by omega) (by omega))
    obtain ⟨r, hr⟩ := usAdj_total n; exact ⟨n, r, n1, n2, n3, hr⟩
  · obtain ⟨n, n1, n2, n3⟩ := nominal_exists (valid_us (m := 9) (d := 1) ⟨h1, h2⟩ (by omega) (by omega))
    have ho := ord_of_fields n1 n2 n3
    obtain ⟨r, hr⟩ := next n 0 (by omega) (by omega) (by omega); exact ⟨n, r, n1, n2, n3, hr⟩
  · obtain ⟨n, n1, n2, n3⟩ := nominal_exists (valid_us (m := 10) (d := 8) ⟨h1, h2⟩ (by omega) (by omega))
    have ho := ord_of_fields n1 n2 n3
    obtain ⟨r, hr⟩ := next n 0 (by omega) (by omega) (by omega); exact ⟨n, r, n1, n2, n3, hr⟩
  · obtain ⟨n, n1, n2, n3⟩ := nominal_exists (valid_us (m := 11) (d := 11) ⟨h1, h2⟩ (by omega) (by omega))
    obtain ⟨r, hr⟩ := usAdj_total n; exact ⟨n, r, n1, n2, n3, hr⟩
  · obtain ⟨n, n1, n2, n3⟩ := nominal_exists (valid_us (m := 11) (d := 22) ⟨h1, h2⟩ (by omega) (by omega))
    have ho := ord_of_fields n1 n2 n3
    obtain ⟨r, hr⟩ := next n 3 (by omega) (by omega) (by omega); exact ⟨n, r, n1, n2, n3, hr⟩
  · obtain ⟨n, n1, n2, n3⟩ := nominal_exists (valid_us (m := 12) (d := 25) ⟨h1, h2⟩ (by omega) (by omega))
    obtain ⟨r, hr⟩ := usAdj_total n; exact ⟨n, r, n1, n2, n3, hr⟩

end Verif.Scheduler
