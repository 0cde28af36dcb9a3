/-
Property theorems C83: the business day functions on datetimes.
Specification: `Verif/Spec/Calendar.lean` and the definitions below.
-/
import Verif.Lemmas.SchedulerDatetime
import Verif.Props.Scheduling

namespace Verif.Props
open Verif Verif.Spec

/-- `L` lists, in strictly increasing order, exactly the days Monday to Friday of `[a, b)`. -/
def WeekdaysIn (a b : PyDate) (L : List PyDate) : Prop :=
  L.Pairwise (· < ·) ∧ ∀ e, e ∈ L ↔ a ≤ e ∧ e < b ∧ ¬ IsWeekend e

/-- `r` is the first day Monday to Friday on or after `d`. -/
def FirstWeekday (d r : PyDate) : Prop := d ≤ r ∧ ¬ IsWeekend r ∧ ∀ e, d ≤ e → e < r → IsWeekend e

/-- A holiday of the calendar observed on a day Monday to Friday. -/
def WeekdayHoliday (cal : HolidayCalendar) (d : PyDate) : Prop := ¬ IsWeekend d ∧ ObservedIn cal d.year d

theorem firstWeekday_iff (cal : HolidayCalendar) (d r : PyDate) :
    FirstOnOrAfter (DtScheduler.blind cal) d r ↔ FirstWeekday d r := by
  unfold FirstOnOrAfter FirstWeekday
  simp only [DtScheduler.blind_business, not_not]

theorem weekdaysIn_iff (cal : HolidayCalendar) (a b : PyDate) (L : List PyDate) :
    BusinessDaysIn (DtScheduler.blind cal) a b L ↔ WeekdaysIn a b L := by
  unfold BusinessDaysIn WeekdaysIn
  simp only [DtScheduler.blind_business]

theorem at_eq_iff (d r : PyDatetime) (e : PyDate) : DtScheduler.atTimeOf d e = r ↔ r.micros = d.micros ∧ r.day = e := by
  constructor
  · rintro rfl; exact ⟨rfl, rfl⟩
  · rintro ⟨h1, h2⟩; subst h2; unfold DtScheduler.atTimeOf; cases r; simp only at h1; subst h1; rfl

theorem map_at_iff {x : Except PyErr PyDate} {d r : PyDatetime} :
    x.map (DtScheduler.atTimeOf d) = .ok r ↔ r.micros = d.micros ∧ x = .ok r.day := by
  rw [DtScheduler.map_ok]
  constructor
  · rintro ⟨a, h, h'⟩
    obtain ⟨h1, h2⟩ := (at_eq_iff d r a).1 h'
    exact ⟨h1, by rw [h2]; exact h⟩
  · rintro ⟨h1, h2⟩; exact ⟨r.day, h2, (at_eq_iff d r _).2 ⟨h1, rfl⟩⟩

/-! ### C83 -/

/-- C83. On datetimes `is_business_day` answers `True` exactly from Monday to Friday — holidays are not noticed — and it
answers exactly when the calendar can be evaluated for the year. -/
theorem C83_is_business_day (cal : HolidayCalendar) (d : PyDatetime) :
    (∀ b, DtScheduler.isBusinessDay cal d = .ok b → (b = true ↔ ¬ IsWeekend d.day)) ∧
    ((∃ b, DtScheduler.isBusinessDay cal d = .ok b) ↔ Evaluable cal d.day.year) := by
  rw [DtScheduler.isBusinessDay_eq, ← DtScheduler.blind_evaluable]
  have := C01_is_business_day (DtScheduler.blind cal) d.day
  simp only [DtScheduler.blind_business] at this
  exact this

/-- C83 (the intended claim fails). A datetime and its date get different answers exactly on weekday holidays. -/
theorem C83_is_business_day_false (cal : HolidayCalendar) (d : PyDatetime) (he : Evaluable cal d.day.year) :
    DtScheduler.isBusinessDay cal d ≠ Scheduler.isBusinessDay cal d.day ↔ WeekdayHoliday cal d.day := by
  obtain ⟨b, hb⟩ := (C83_is_business_day cal d).2.2 he
  obtain ⟨c, hc⟩ := (C01_is_business_day cal d.day).2.2 he
  have h1 := (C83_is_business_day cal d).1 b hb
  have h2 := (C01_is_business_day cal d.day).1 c hc
  rw [hb, hc]
  unfold WeekdayHoliday
  unfold BusinessDay at h2
  have : (Except.ok b : Except PyErr Bool) ≠ .ok c ↔ ¬ (b = c) := by simp
  rw [this]
  cases b <;> cases c <;> simp at h1 h2 ⊢ <;> tauto

/-- C83. `add_business_days(d, n)` for a datetime and `n ≥ 0` keeps the time of day and counts days Monday to Friday. -/
theorem C83_add_iff (cal : HolidayCalendar) (d r : PyDatetime) (n : Nat) :
    DtScheduler.addBusinessDays cal d (n : Int) = .ok r ↔
      r.micros = d.micros ∧ ∃ r0 L, FirstWeekday d.day r0 ∧ r0 ≤ r.day ∧ ¬ IsWeekend r.day ∧ WeekdaysIn r0 r.day L ∧
        L.length = n ∧ (∀ e, d.day ≤ e → e ≤ r.day → Evaluable cal e.year) := by
  rw [DtScheduler.addBusinessDays_eq, map_at_iff, C03_add_business_days_iff]
  simp only [firstWeekday_iff, weekdaysIn_iff, DtScheduler.blind_business, DtScheduler.blind_evaluable]

/-- C83. The same for `n ≥ 0` days back. -/
theorem C83_subtract_iff (cal : HolidayCalendar) (d r : PyDatetime) (n : Nat) :
    DtScheduler.addBusinessDays cal d (-(n : Int)) = .ok r ↔
      r.micros = d.micros ∧ ∃ r0 L, FirstWeekday d.day r0 ∧ r.day ≤ r0 ∧ ¬ IsWeekend r.day ∧ WeekdaysIn r.day r0 L ∧
        L.length = n ∧ (∀ e, (d.day ≤ e ∧ e ≤ r0) ∨ (r.day ≤ e ∧ e ≤ r0) → Evaluable cal e.year) := by
  rw [DtScheduler.addBusinessDays_eq, map_at_iff, C04_subtract_business_days_iff]
  simp only [firstWeekday_iff, weekdaysIn_iff, DtScheduler.blind_business, DtScheduler.blind_evaluable]

/-- C83. `modified_following_date_adjustment` on a datetime: the modified-following day that ignores holidays. -/
theorem C83_modified (cal : HolidayCalendar) (d r : PyDatetime)
    (h : DtScheduler.modifiedFollowingDateAdjustment cal d = .ok r) :
    r.micros = d.micros ∧ ¬ IsWeekend r.day ∧ ∃ f, FirstWeekday d.day f ∧ (f.month = d.day.month → r.day = f) ∧
      (f.month ≠ d.day.month → r.day < d.day ∧ ∀ e, r.day < e → e < d.day → IsWeekend e) := by
  rw [DtScheduler.modified_eq, map_at_iff] at h
  obtain ⟨h1, f, h2, h3, h4⟩ := C05_modified_following _ _ _ h.2
  rw [DtScheduler.blind_business] at h1
  refine ⟨h.1, h1, f, (firstWeekday_iff cal _ _).1 h2, h3, fun hne => ?_⟩
  obtain ⟨k1, _, k3⟩ := h4 hne
  exact ⟨k1, fun e a b => by have := k3 e a b; rwa [DtScheduler.blind_business, not_not] at this⟩

/-- C83 (partial). As long as no weekday holiday lies on the way, the datetime functions agree with the functions on the
date and keep the time of day. -/
theorem C83_agree_partial (cal : HolidayCalendar) (d : PyDatetime) (r : PyDate) (n : Nat)
    (hno : ∀ e, d.day ≤ e → e ≤ r → ¬ WeekdayHoliday cal e) (h : Scheduler.addBusinessDays cal d.day (n : Int) = .ok r) :
    DtScheduler.addBusinessDays cal d (n : Int) = .ok (DtScheduler.atTimeOf d r) := by
  obtain ⟨r0, L, hf, h2, h1, h4, h5, h6⟩ := (C03_add_business_days_iff cal d.day r n).1 h
  have hbd : ∀ e, d.day ≤ e → e ≤ r → (BusinessDay cal e ↔ ¬ IsWeekend e) := by
    intro e a b
    have := hno e a b
    unfold WeekdayHoliday at this
    unfold BusinessDay
    tauto
  refine (C83_add_iff cal d _ n).2 ⟨rfl, r0, L, ⟨hf.1, hf.2.1.1, fun e a b => ?_⟩, h2, h1.1, ⟨h4.1, fun e => ?_⟩, h5, h6⟩
  · have := hf.2.2 e a b
    rw [hbd e a (le_trans (le_of_lt b) h2), not_not] at this
    exact this
  · rw [h4.2 e]
    constructor
    · rintro ⟨a, b, c⟩; exact ⟨a, b, c.1⟩
    · rintro ⟨a, b, c⟩; exact ⟨a, b, (hbd e (le_trans hf.1 a) (le_of_lt b)).2 c⟩

/-- C83. In general the datetime result is never later than the date result. -/
theorem C83_never_later (cal : HolidayCalendar) (d r : PyDatetime) (s : PyDate) (n : Nat)
    (h : DtScheduler.addBusinessDays cal d (n : Int) = .ok r) (hs : Scheduler.addBusinessDays cal d.day (n : Int) = .ok s) :
    r.day ≤ s := by
  obtain ⟨_, r0, L, hf, h2, h1, h4, h5, h6⟩ := (C83_add_iff cal d r n).1 h
  obtain ⟨s0, M, gf, g2, g1, g4, g5, g6⟩ := (C03_add_business_days_iff cal d.day s n).1 hs
  by_contra hc
  have hsr := not_le.1 hc
  have h0 : r0 ≤ s0 := by
    by_contra hcc
    exact gf.2.1.1 (hf.2.2 s0 gf.1 (not_le.1 hcc))
  have hsub : (s :: M) ⊆ L := by
    intro e he
    rcases List.mem_cons.1 he with rfl | he
    · exact (h4.2 e).2 ⟨le_trans h0 g2, hsr, g1.1⟩
    · have := (g4.2 e).1 he
      exact (h4.2 e).2 ⟨le_trans h0 this.1, lt_trans this.2.1 hsr, this.2.2.1⟩
  have hnd : (s :: M).Nodup := by
    refine List.nodup_cons.2 ⟨fun hm => ?_, g4.1.imp (fun h => ne_of_lt h)⟩
    exact lt_irrefl _ ((g4.2 s).1 hm).2.1
  have := (hnd.subperm hsub).length_le
  simp at this
  omega

/-- C83 (the intended claim fails). A datetime on a weekday holiday is "adjusted" to itself, the date moves on. -/
theorem C83_following_false (cal : HolidayCalendar) (d : PyDatetime) (s : PyDate) (hd : WeekdayHoliday cal d.day)
    (hs : Scheduler.followingDateAdjustment cal d.day = .ok s) :
    DtScheduler.followingDateAdjustment cal d = .ok d ∧ d.day < s := by
  obtain ⟨⟨h1, h2, h3⟩, h4⟩ := (C02_following_iff cal d.day s).1 hs
  constructor
  · refine (C83_add_iff cal d d 0).2 ⟨rfl, d.day, [], ⟨le_refl _, hd.1, fun e a b => absurd a (not_le.2 b)⟩, le_refl _, hd.1,
      ⟨List.Pairwise.nil, fun e => ⟨fun h => by simp at h, fun h => absurd h.1 (not_le.2 h.2.1)⟩⟩, rfl, fun e a b => ?_⟩
    exact h4 e a (le_trans b h1)
  · refine lt_of_le_of_ne h1 (fun h => ?_)
    rw [← h] at h2
    exact h2.2 hd.2

theorem dt_loop_spec {cal : HolidayCalendar} {b : PyDatetime} {n : Nat} {d : PyDatetime} {L : List PyDatetime}
    (hd : ¬ IsWeekend d.day) (h : DtScheduler.businessDayLoop cal b n d = .ok L) :
    L.Pairwise (· < ·) ∧ ∀ e, e ∈ L ↔ e.micros = d.micros ∧ d.day ≤ e.day ∧ e ≤ b ∧ ¬ IsWeekend e.day := by
  induction n generalizing d L with
  | zero => cases h
  | succ n ih =>
    simp only [DtScheduler.businessDayLoop] at h
    split_ifs at h with hdb
    · simp only [bind_ok] at h
      obtain ⟨d', hd', rest, hrest, h⟩ := h
      cases h
      rw [DtScheduler.addSingle_eq, map_at_iff] at hd'
      obtain ⟨hm, hd'⟩ := hd'
      obtain ⟨_, ⟨h1, h2, h3⟩, _⟩ := Scheduler.addSingle_iff.1 hd'
      rw [DtScheduler.blind_business] at h2
      obtain ⟨i1, i2⟩ := ih h2 hrest
      refine ⟨List.Pairwise.cons (fun e he => ?_) i1, ?_⟩
      · have := (i2 e).1 he
        have h5 : d.day < e.day := lt_of_lt_of_le h1 this.2.1
        have h6 := this.1
        rw [PyDate.lt_iff] at h5
        rw [PyDatetime.lt_iff]; unfold PyDatetime.instant; omega
      · intro e
        rw [List.mem_cons, i2]
        constructor
        · rintro (rfl | ⟨h0, ha, hb, hc⟩)
          · exact ⟨rfl, le_refl _, hdb, hd⟩
          · exact ⟨by rw [h0, hm], le_trans (le_of_lt h1) ha, hb, hc⟩
        · rintro ⟨h0, ha, hb, hc⟩
          by_cases hed : e.day = d.day
          · left
            exact PyDatetime.instant_injective (by unfold PyDatetime.instant; rw [h0, hed])
          · right
            refine ⟨by rw [h0, hm], ?_, hb, hc⟩
            by_contra hlt
            have := h3 e.day (lt_of_le_of_ne ha (Ne.symm hed)) (not_le.1 hlt)
            rw [DtScheduler.blind_business] at this
            exact this hc
    · cases h
      refine ⟨List.Pairwise.nil, ?_⟩
      intro e
      simp only [List.not_mem_nil, false_iff]
      rintro ⟨h0, ha, hb, _⟩
      apply hdb
      refine le_trans ?_ hb
      rw [PyDate.le_iff] at ha
      rw [PyDatetime.le_iff]; unfold PyDatetime.instant; omega

/-- C83. `generate_business_days` between two datetimes lists, in increasing order, the start's time of day on every day
Monday to Friday from the start's day on, as long as it is not after the end. -/
theorem C83_generate (cal : HolidayCalendar) (a b : PyDatetime) (L : List PyDatetime)
    (h : DtScheduler.generateBusinessDays cal a b = .ok L) :
    L.Pairwise (· < ·) ∧ ∀ e, e ∈ L ↔ e.micros = a.micros ∧ a.day ≤ e.day ∧ e ≤ b ∧ ¬ IsWeekend e.day := by
  unfold DtScheduler.generateBusinessDays at h
  rw [bind_ok] at h
  obtain ⟨d, hd, h⟩ := h
  rw [DtScheduler.addBusinessDays_eq, map_at_iff] at hd
  obtain ⟨hm, hd⟩ := hd
  obtain ⟨⟨h1, h2, h3⟩, _⟩ := (C02_following_iff _ a.day d.day).1 hd
  rw [DtScheduler.blind_business] at h2
  obtain ⟨i1, i2⟩ := dt_loop_spec h2 h
  refine ⟨i1, fun e => (i2 e).trans ⟨fun ⟨w, x, y, z⟩ => ⟨by rw [w, hm], le_trans h1 x, y, z⟩,
    fun ⟨w, x, y, z⟩ => ⟨by rw [w, hm], ?_, y, z⟩⟩⟩
  by_contra hc
  have := h3 e.day x (not_le.1 hc)
  rw [DtScheduler.blind_business] at this
  exact this z

/-- C83. Settlement of a trade at a datetime: T+n and T-n count days Monday to Friday from the first such day on or after the
trade, T-0 is the last such day on or before it; the time of day is kept, holidays are not noticed, and the calendar-day
conventions are rejected. -/
theorem C83_settlement (cal : HolidayCalendar) (d : PyDatetime) (c : Scheduler.SettlementConvention) :
    (∀ (r : PyDatetime) (n : Nat), settlementOffset c = some (n : Int) → DtScheduler.calculateSettlementDate cal d c = .ok r →
      r.micros = d.micros ∧ ∃ r0 L, FirstWeekday d.day r0 ∧ ¬ IsWeekend r.day ∧ r0 ≤ r.day ∧ WeekdaysIn r0 r.day L ∧
        L.length = n) ∧
    (∀ (r : PyDatetime) (n : Nat), settlementOffset c = some (-(n : Int)) → DtScheduler.calculateSettlementDate cal d c = .ok r →
      r.micros = d.micros ∧ ∃ r0 L, FirstWeekday d.day r0 ∧ ¬ IsWeekend r.day ∧ r.day ≤ r0 ∧ WeekdaysIn r.day r0 L ∧
        L.length = n) ∧
    (∀ r : PyDatetime, c = .tMinusZeroBusiness → DtScheduler.calculateSettlementDate cal d c = .ok r →
      r.micros = d.micros ∧ ¬ IsWeekend r.day ∧ r.day ≤ d.day ∧ ∀ e, r.day < e → e ≤ d.day → IsWeekend e) ∧
    (settlementOffset c = none → c ≠ .tMinusZeroBusiness →
      DtScheduler.calculateSettlementDate cal d c = .error .valueError) := by
  rw [DtScheduler.settlement_eq]
  refine ⟨fun r n hn h => ?_, fun r n hn h => ?_, fun r hc h => ?_, fun hn hc => ?_⟩
  · rw [map_at_iff] at h
    obtain ⟨r0, L, h1, h2, h3, h4, h5⟩ := C06_settlement_plus _ _ _ c n hn h.2
    exact ⟨h.1, r0, L, (firstWeekday_iff cal _ _).1 h1, (DtScheduler.blind_business cal _).1 h2, h3, (weekdaysIn_iff cal _ _ _).1 h4, h5⟩
  · rw [map_at_iff] at h
    obtain ⟨r0, L, h1, h2, h3, h4, h5⟩ := C06_settlement_minus _ _ _ c n hn h.2
    exact ⟨h.1, r0, L, (firstWeekday_iff cal _ _).1 h1, (DtScheduler.blind_business cal _).1 h2, h3, (weekdaysIn_iff cal _ _ _).1 h4, h5⟩
  · subst hc
    rw [map_at_iff] at h
    obtain ⟨h1, h2, h3⟩ := C06_settlement_minus_zero _ _ _ h.2
    refine ⟨h.1, (DtScheduler.blind_business cal _).1 h2, h1, fun e a b => ?_⟩
    have := h3 e a b
    rwa [DtScheduler.blind_business, not_not] at this
  · cases c <;> simp [settlementOffset] at hn hc <;> rfl

/-- C83. A datetime start with a date end never gives a list. -/
theorem C83_mixed_raises (cal : HolidayCalendar) (a : PyDatetime) (b : PyDate) :
    ∃ e, DtScheduler.generateBusinessDaysMixed cal a b = .error e ∧
      (∀ r, DtScheduler.followingDateAdjustment cal a = .ok r → e = .typeError) := by
  unfold DtScheduler.generateBusinessDaysMixed DtScheduler.followingDateAdjustment
  cases DtScheduler.addBusinessDays cal a 0 with
  | error e => exact ⟨e, rfl, fun r h => by cases h⟩
  | ok r => exact ⟨_, rfl, fun _ _ => rfl⟩

/-- Noon. -/
def noon (d : PyDate) : PyDatetime := ⟨d, 43200000000, by decide⟩

/-- The observed Christmas of 2022: a business day as a datetime, none as a date. -/
example : DtScheduler.isBusinessDay usFederalHolidays (noon (D 2022 12 26)) = .ok true ∧
    Scheduler.isBusinessDay usFederalHolidays (D 2022 12 26) = .ok false := by decide +kernel
example : DtScheduler.addBusinessDays usFederalHolidays (noon (D 2022 12 23)) 1 = .ok (noon (D 2022 12 26)) ∧
    Scheduler.addBusinessDays usFederalHolidays (D 2022 12 23) 1 = .ok (D 2022 12 27) := by decide +kernel
example : DtScheduler.addBusinessDays usFederalHolidays (noon (D 2022 12 17)) (-2) = .ok (noon (D 2022 12 15)) := by
  decide +kernel
/-- Hypotheses of `C83_following_false` are met. -/
example : WeekdayHoliday usFederalHolidays (noon (D 2022 12 26)).day ∧
    Scheduler.followingDateAdjustment usFederalHolidays (noon (D 2022 12 26)).day = .ok (D 2022 12 27) := by
  refine ⟨⟨by unfold IsWeekend; decide +kernel, "Christmas", ⟨12, 25, usFederalHolidayAdjustment⟩, D 2022 12 25, ?_, rfl, rfl, rfl, ?_⟩, ?_⟩
  · rfl
  · decide +kernel
  · decide +kernel
/-- An end before noon drops the last day. -/
example : DtScheduler.generateBusinessDays usFederalHolidays (noon (D 2022 12 23)) ⟨D 2022 12 27, 0, by decide⟩ =
    .ok [noon (D 2022 12 23), noon (D 2022 12 26)] := by decide +kernel

end Verif.Props
