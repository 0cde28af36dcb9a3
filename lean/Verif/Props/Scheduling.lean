/-
Property theorems C01–C07: business days, rolls, settlement.
Specifications: `Verif/Spec/Calendar.lean`.  `cal` is an arbitrary holiday calendar, dates range over the whole python
range 0001-01-01 … 9999-12-31.
-/
import Verif.Lemmas.Scheduler
import Mathlib.Data.List.Perm.Subperm

namespace Verif.Props
open Verif Verif.Spec Verif.Scheduler

/-- Date literal for examples. -/
def D (y m d : Int) (h : validYMD y m d = true := by decide) : PyDate := ⟨y, m, d, h⟩

/-! ### C01 -/

/-- C01. `is_business_day` answers `True` exactly for weekdays that are not an observed holiday of their own year, and
answers at all exactly when every template can be evaluated for that year. -/
theorem C01_is_business_day (cal : HolidayCalendar) (d : PyDate) :
    (∀ b, isBusinessDay cal d = .ok b → (b = true ↔ BusinessDay cal d)) ∧
    ((∃ b, isBusinessDay cal d = .ok b) ↔ Evaluable cal d.year) :=
  ⟨fun _ h => isBusinessDay_ok h, isBusinessDay_total_iff cal d⟩

example : isBusinessDay usFederalHolidays (D 2022 12 26) = .ok false ∧
    isBusinessDay usFederalHolidays (D 2022 12 27) = .ok true := by decide +kernel
/-- A template for 29 February makes the predicate raise in common years. -/
example : isBusinessDay [("Leap", ⟨2, 29, usFederalHolidayAdjustment⟩)] (D 2023 5 1) = .error .valueError := by
  decide +kernel

/-! ### C02 -/

/-- C02. `following_date_adjustment(d)` returns `r` iff `r` is the first business day on or after `d` (and the calendar
can be evaluated on the way). -/
theorem C02_following_iff (cal : HolidayCalendar) (d r : PyDate) :
    followingDateAdjustment cal d = .ok r ↔
      (d ≤ r ∧ BusinessDay cal r ∧ ∀ e, d ≤ e → e < r → ¬ BusinessDay cal e) ∧
      (∀ e, d ≤ e → e ≤ r → Evaluable cal e.year) := by
  unfold followingDateAdjustment
  rw [show (0 : Int) = ((0 : Nat) : Int) from rfl, addBusinessDays_nonneg_eq, bind_ok]
  simp only [iterSteps]
  constructor
  · rintro ⟨x, hx, h⟩; cases h; exact rollFwd_iff.1 hx
  · intro h; exact ⟨r, rollFwd_iff.2 h, rfl⟩

/-- C02. Business days are left alone. -/
theorem C02_following_fixpoint (cal : HolidayCalendar) (d : PyDate) (h : BusinessDay cal d)
    (he : Evaluable cal d.year) : followingDateAdjustment cal d = .ok d :=
  (C02_following_iff cal d d).2 ⟨⟨le_refl _, h, fun _ h1 h2 => absurd h1 (not_le.2 h2)⟩,
    fun e h1 h2 => by have := le_antisymm h2 h1; subst this; exact he⟩

/-- C02. Adjusting twice is adjusting once. -/
theorem C02_following_idempotent (cal : HolidayCalendar) (d r : PyDate) (h : followingDateAdjustment cal d = .ok r) :
    followingDateAdjustment cal r = .ok r := by
  obtain ⟨⟨h1, h2, _⟩, h4⟩ := (C02_following_iff cal d r).1 h
  exact C02_following_fixpoint cal r h2 (h4 r h1 (le_refl _))

/-- C02. The adjustment is monotone. -/
theorem C02_following_monotone (cal : HolidayCalendar) (d e r s : PyDate) (hde : d ≤ e)
    (hr : followingDateAdjustment cal d = .ok r) (hs : followingDateAdjustment cal e = .ok s) : r ≤ s := by
  obtain ⟨⟨h1, h2, h3⟩, _⟩ := (C02_following_iff cal d r).1 hr
  obtain ⟨⟨g1, g2, g3⟩, _⟩ := (C02_following_iff cal e s).1 hs
  by_contra hc
  exact h3 s (le_trans hde g1) (not_le.1 hc) g2

/-- C02. When no business day is left before 9999-12-31 the loop ends with OverflowError (it cannot run forever). -/
theorem C02_following_overflow (cal : HolidayCalendar) (d : PyDate) (he : ∀ e, d ≤ e → Evaluable cal e.year)
    (hno : ∀ e, d ≤ e → ¬ BusinessDay cal e) : followingDateAdjustment cal d = .error .overflowError := by
  have key : ∀ (n : Nat) (x : PyDate), d ≤ x → (PyDate.maxOrd - x.ord).toNat < n →
      roll cal 1 n x = .error .overflowError := by
    intro n
    induction n with
    | zero => intro x _ h; omega
    | succ n ih =>
      intro x hx hn
      have hb := isBusinessDay_false (he x hx) (hno x hx)
      simp only [roll, hb, ok_bind, Bool.false_eq_true, if_false]
      cases ha : x.addDays 1 with
      | error e => have := (PyDate.addDays_error.1 ha).1; subst this; rfl
      | ok x' =>
        have ho := PyDate.addDays_ok.1 ha
        have := x'.ord_bounds
        rw [ok_bind]
        apply ih
        · rw [PyDate.le_iff] at *; omega
        · omega
  unfold followingDateAdjustment
  rw [show (0 : Int) = ((0 : Nat) : Int) from rfl, addBusinessDays_nonneg_eq, key loopFuel d (le_refl _) ?_]
  · rfl
  · have := d.ord_bounds; unfold loopFuel; unfold PyDate.maxOrd at *; omega

example : followingDateAdjustment usFederalHolidays (D 2022 12 24) = .ok (D 2022 12 27) := by decide +kernel
/-- Hypotheses of the overflow case are met: 9999-12-31 declared a holiday, starting on that day. -/
example : followingDateAdjustment [("X", ⟨12, 31, fun d => .ok d⟩)] (D 9999 12 31) = .error .overflowError := by
  decide +kernel

/-! ### C03 -/

/-- C03. `add_business_days(d, n)` for `n ≥ 0` returns `r` iff `r` is the business day with exactly `n` business days in
`[r0, r)`, `r0` being the first business day on or after `d`. -/
theorem C03_add_business_days_iff (cal : HolidayCalendar) (d r : PyDate) (n : Nat) :
    addBusinessDays cal d (n : Int) = .ok r ↔
      ∃ r0 L, FirstOnOrAfter cal d r0 ∧ r0 ≤ r ∧ BusinessDay cal r ∧ BusinessDaysIn cal r0 r L ∧ L.length = n ∧
        (∀ e, d ≤ e → e ≤ r → Evaluable cal e.year) := by
  rw [addBusinessDays_nonneg_eq, bind_ok]
  constructor
  · rintro ⟨r0, hr0, h⟩
    obtain ⟨hf, he⟩ := rollFwd_iff.1 hr0
    obtain ⟨h1, h2, h3, L, h4, h5⟩ := iterAdd_spec (roll_result_bd hr0) h
    refine ⟨r0, L, hf, h2, isBusinessDay_true' h1, h4, h5, ?_⟩
    intro e h6 h7
    rcases le_total e r0 with hc | hc
    · exact he e h6 hc
    · exact h3 e hc h7
  · rintro ⟨r0, L, hf, h2, h1, h4, h5, h6⟩
    refine ⟨r0, rollFwd_iff.2 ⟨hf, fun e h7 h8 => h6 e h7 (le_trans h8 h2)⟩, ?_⟩
    exact iterAdd_complete hf.2.1 h1 h2 h4 h5 (fun e h7 h8 => h6 e (le_trans hf.1 h7) h8)

/-- C03. Adding `n` and then `m` business days is adding `n + m`, including the exceptions raised. -/
theorem C03_add_compose (cal : HolidayCalendar) (d : PyDate) (n m : Nat) :
    (addBusinessDays cal d (n : Int) >>= fun r => addBusinessDays cal r (m : Int)) =
      addBusinessDays cal d ((n : Int) + (m : Int)) := by
  rw [show (n : Int) + (m : Int) = ((n + m : Nat) : Int) by omega]
  rw [addBusinessDays_nonneg_eq, addBusinessDays_nonneg_eq]
  cases h : roll cal 1 loopFuel d with
  | error e => rfl
  | ok r0 =>
    simp only [ok_bind]
    rw [iterSteps_add]
    cases h2 : iterSteps (addSingleBusinessDay cal) n r0 with
    | error e => rfl
    | ok r =>
      simp only [ok_bind]
      rw [addBusinessDays_nonneg_eq, roll_of_bd (iterAdd_spec (roll_result_bd h) h2).1]
      rfl

/-- C03. More business days lead to a later date, strictly. -/
theorem C03_strict_mono (cal : HolidayCalendar) (d r s : PyDate) (n m : Nat) (hnm : n < m)
    (hr : addBusinessDays cal d (n : Int) = .ok r) (hs : addBusinessDays cal d (m : Int) = .ok s) : r < s := by
  obtain ⟨r0, L, hf, h2, h1, h4, h5, _⟩ := (C03_add_business_days_iff cal d r n).1 hr
  obtain ⟨s0, M, gf, g2, g1, g4, g5, _⟩ := (C03_add_business_days_iff cal d s m).1 hs
  have : r0 = s0 := FirstOnOrAfter.unique hf gf
  subst this
  by_contra hc
  have hsr := not_lt.1 hc
  have hsub : M ⊆ L := fun e he => (h4.2 e).2 (by have := (g4.2 e).1 he; exact ⟨this.1, lt_of_lt_of_le this.2.1 hsr, this.2.2⟩)
  have hnd : M.Nodup := g4.1.imp (fun h => ne_of_lt h)
  have := (hnd.subperm hsub).length_le
  omega

example : addBusinessDays usFederalHolidays (D 2022 12 23) 1 = .ok (D 2022 12 27) := by decide +kernel
example : addBusinessDays usFederalHolidays (D 2024 7 3) 5 = .ok (D 2024 7 11) := by decide +kernel

/-! ### C04 -/

/-- C04. `add_business_days(d, -n)` returns `r` iff `r` is the business day with exactly `n` business days in
`[r, r0)`, `r0` being the first business day on or after `d`. -/
theorem C04_subtract_business_days_iff (cal : HolidayCalendar) (d r : PyDate) (n : Nat) :
    addBusinessDays cal d (-(n : Int)) = .ok r ↔
      ∃ r0 L, FirstOnOrAfter cal d r0 ∧ r ≤ r0 ∧ BusinessDay cal r ∧ BusinessDaysIn cal r r0 L ∧ L.length = n ∧
        (∀ e, (d ≤ e ∧ e ≤ r0) ∨ (r ≤ e ∧ e ≤ r0) → Evaluable cal e.year) := by
  by_cases hn : n = 0
  · subst hn
    have := C03_add_business_days_iff cal d r 0
    rw [show -((0 : Nat) : Int) = ((0 : Nat) : Int) from rfl, this]
    constructor
    · rintro ⟨r0, L, hf, h2, h1, h4, h5, h6⟩
      have hnil : L = [] := List.length_eq_zero_iff.1 h5
      subst hnil
      have : r0 = r := by
        by_contra hne
        have := (h4.2 r0).2 ⟨le_refl _, lt_of_le_of_ne h2 hne, hf.2.1⟩
        simp at this
      subst this
      exact ⟨r0, [], hf, le_refl _, h1, h4, rfl, fun e he => he.elim (fun h => h6 e h.1 h.2)
        (fun h => h6 e (le_trans hf.1 h.1) h.2)⟩
    · rintro ⟨r0, L, hf, h2, h1, h4, h5, h6⟩
      have hnil : L = [] := List.length_eq_zero_iff.1 h5
      subst hnil
      have : r = r0 := by
        by_contra hne
        have := (h4.2 r).2 ⟨le_refl _, lt_of_le_of_ne h2 hne, h1⟩
        simp at this
      subst this
      exact ⟨r, [], hf, le_refl _, h1, h4, rfl, fun e h7 h8 => h6 e (Or.inl ⟨h7, h8⟩)⟩
  · rw [addBusinessDays_neg_eq cal d n (by omega), bind_ok]
    constructor
    · rintro ⟨r0, hr0, h⟩
      obtain ⟨hf, he⟩ := rollFwd_iff.1 hr0
      obtain ⟨h1, h2, h3, L, h4, h5⟩ := iterSub_spec (roll_result_bd hr0) h
      exact ⟨r0, L, hf, h2, isBusinessDay_true' h1, h4, h5,
        fun e h => h.elim (fun h => he e h.1 h.2) (fun h => h3 e h.1 h.2)⟩
    · rintro ⟨r0, L, hf, h2, h1, h4, h5, h6⟩
      refine ⟨r0, rollFwd_iff.2 ⟨hf, fun e h7 h8 => h6 e (Or.inl ⟨h7, h8⟩)⟩, ?_⟩
      exact iterSub_complete hf.2.1 h1 h2 h4 h5 (fun e h7 h8 => h6 e (Or.inr ⟨h7, h8⟩))

/-- C04. From a business day, going `n` business days forward and `n` back returns to the start. -/
theorem C04_forward_back (cal : HolidayCalendar) (d r : PyDate) (n : Nat) (hd : BusinessDay cal d)
    (h : addBusinessDays cal d (n : Int) = .ok r) : addBusinessDays cal r (-(n : Int)) = .ok d := by
  obtain ⟨r0, L, hf, h2, h1, h4, h5, h6⟩ := (C03_add_business_days_iff cal d r n).1 h
  have hd0 : r0 = d := FirstOnOrAfter.unique hf ⟨le_refl _, hd, fun _ h1 h2 => absurd h1 (not_le.2 h2)⟩
  subst hd0
  refine (C04_subtract_business_days_iff cal r r0 n).2
    ⟨r, L, ⟨le_refl _, h1, fun _ h1 h2 => absurd h1 (not_le.2 h2)⟩, h2, hd, h4, h5, ?_⟩
  rintro e (⟨h7, h8⟩ | ⟨h7, h8⟩)
  · exact h6 e (le_trans h2 h7) h8
  · exact h6 e h7 h8

/-- C04. From a business day, going `n` business days back and `n` forward returns to the start. -/
theorem C04_back_forward (cal : HolidayCalendar) (d r : PyDate) (n : Nat) (hd : BusinessDay cal d)
    (h : addBusinessDays cal d (-(n : Int)) = .ok r) : addBusinessDays cal r (n : Int) = .ok d := by
  obtain ⟨r0, L, hf, h2, h1, h4, h5, h6⟩ := (C04_subtract_business_days_iff cal d r n).1 h
  have hd0 : r0 = d := FirstOnOrAfter.unique hf ⟨le_refl _, hd, fun _ h1 h2 => absurd h1 (not_le.2 h2)⟩
  subst hd0
  exact (C03_add_business_days_iff cal r r0 n).2
    ⟨r, L, ⟨le_refl _, h1, fun _ h1 h2 => absurd h1 (not_le.2 h2)⟩, h2, hd, h4, h5,
      fun e h7 h8 => h6 e (Or.inr ⟨h7, h8⟩)⟩

/-- C04. `subtract_single_business_day` returns the last business day strictly before its argument, also for arguments
that are not business days (as its documentation says). -/
theorem C04_subtract_single (cal : HolidayCalendar) (d r : PyDate)
    (h : subtractSingleBusinessDay cal d = .ok r) : LastBefore cal d r := by
  by_cases hbd : isBusinessDay cal d = .ok true
  · exact ((subSingle_bd_iff hbd).1 h).1
  · have h' := h
    unfold subtractSingleBusinessDay at h
    rw [bind_ok] at h
    obtain ⟨b, hb, h⟩ := h
    cases b with
    | true => exact absurd hb hbd
    | false =>
      simp only [Bool.false_eq_true, if_false, bind_ok] at h
      obtain ⟨d1, hd1, d2, hd2, h⟩ := h
      obtain ⟨⟨f1, f2, f3⟩, _⟩ := rollFwd_iff.1 hd1
      obtain ⟨⟨b1, b2, b3⟩, _⟩ := rollBack_iff.1 h
      rw [PyDate.addDays_ok] at hd2
      have hlt : r < d := by
        by_contra hc
        exact f3 r (not_lt.1 hc) (by rw [PyDate.lt_iff]; rw [PyDate.le_iff] at b1; omega) b2
      refine ⟨hlt, b2, ?_⟩
      intro e he1 he2
      apply b3 e he1
      rw [PyDate.le_iff] at *; rw [PyDate.lt_iff] at *; omega

example : addBusinessDays usFederalHolidays (D 2022 12 27) (-1) = .ok (D 2022 12 23) := by decide +kernel
example : BusinessDay usFederalHolidays (D 2022 12 27) :=
  isBusinessDay_true' (by decide +kernel)
example : subtractSingleBusinessDay usFederalHolidays (D 2022 12 25) = .ok (D 2022 12 23) := by decide +kernel

/-! ### C05 -/

/-- The last business day before the first business day on or after `d` is the last one before `d`. -/
theorem lastBefore_of_roll {cal : HolidayCalendar} {d r0 r : PyDate} {L : List PyDate} (hf : FirstOnOrAfter cal d r0)
    (hr : BusinessDay cal r) (hL : BusinessDaysIn cal r r0 L) (hlen : L.length = 1) :
    LastBefore cal d r := by
  obtain ⟨x, rfl⟩ := List.length_eq_one_iff.1 hlen
  have hlt : r < r0 := by
    have := (hL.2 x).1 (by simp)
    exact lt_of_le_of_lt this.1 this.2.1
  have hx : r = x := by have := (hL.2 r).2 ⟨le_refl _, hlt, hr⟩; simpa using this
  have hrd : r < d := by
    by_contra hc
    exact hf.2.2 r (not_lt.1 hc) hlt hr
  refine ⟨hrd, hr, ?_⟩
  intro e h1 h2 h3
  have := (hL.2 e).2 ⟨le_of_lt h1, lt_of_lt_of_le h2 hf.1, h3⟩
  simp at this
  rw [this, ← hx] at h1
  exact lt_irrefl _ h1

/-- C05. The modified-following date is a business day: the first on or after `d` when that has `d`'s month number,
and the last one before `d` otherwise. -/
theorem C05_modified_following (cal : HolidayCalendar) (d r : PyDate)
    (h : modifiedFollowingDateAdjustment cal d = .ok r) :
    BusinessDay cal r ∧ ∃ f, FirstOnOrAfter cal d f ∧
      ((f.month = d.month → r = f) ∧ (f.month ≠ d.month → LastBefore cal d r)) := by
  unfold modifiedFollowingDateAdjustment at h
  rw [bind_ok] at h
  obtain ⟨c, hc, h⟩ := h
  have hcf := ((C02_following_iff cal d c).1 hc).1
  split_ifs at h with hm
  · cases h
    exact ⟨hcf.2.1, _, hcf, fun _ => rfl, fun hne => absurd hm hne⟩
  · obtain ⟨r0, L, hf, h2, h1, h4, h5, _⟩ := (C04_subtract_business_days_iff cal d r 1).1 h
    exact ⟨h1, c, hcf, fun he => absurd he hm, fun _ => lastBefore_of_roll hf h1 h4 h5⟩

/-- Dates between two dates of one month are in that month. -/
theorem same_month_between {a b e : PyDate} (h1 : a ≤ e) (h2 : e ≤ b) (hy : a.year = b.year) (hm : a.month = b.month) :
    e.year = a.year ∧ e.month = a.month := by
  have := not_lt.2 h1
  have := not_lt.2 h2
  rw [PyDate.lt_iff_lex] at *
  omega

/-- C05. If `d`'s month has a business day, and the first business day on or after `d` is not in the same month of a
later year, then the modified-following date lies in `d`'s own month and year. -/
theorem C05_modified_following_same_month (cal : HolidayCalendar) (d r e : PyDate)
    (h : modifiedFollowingDateAdjustment cal d = .ok r)
    (hbd : BusinessDay cal e) (hey : e.year = d.year) (hem : e.month = d.month)
    (hyr : ∀ f, FirstOnOrAfter cal d f → f.month = d.month → f.year = d.year) :
    r.year = d.year ∧ r.month = d.month := by
  obtain ⟨_, f, hf, h1, h2⟩ := C05_modified_following cal d r h
  by_cases hm : f.month = d.month
  · rw [h1 hm]; exact ⟨hyr f hf hm, hm⟩
  · have hl := h2 hm
    by_cases hde : d ≤ e
    · exfalso
      have hfe : f ≤ e := by
        by_contra hc
        exact hf.2.2 e hde (not_le.1 hc) hbd
      have := same_month_between hf.1 hfe hey.symm hem.symm
      exact hm this.2
    · have hed := not_le.1 hde
      have her : e ≤ r := by
        by_contra hc
        exact hl.2.2 e (not_le.1 hc) hed hbd
      have := same_month_between her (le_of_lt hl.1) hey hem
      exact ⟨this.1.trans hey, this.2.trans hem⟩

example : modifiedFollowingDateAdjustment usFederalHolidays (D 2023 4 30) = .ok (D 2023 4 28) := by decide +kernel
example : modifiedFollowingDateAdjustment usFederalHolidays (D 2023 4 29) = .ok (D 2023 4 28) := by decide +kernel
example : modifiedFollowingDateAdjustment usFederalHolidays (D 2023 4 15) = .ok (D 2023 4 17) := by decide +kernel

/-! ### C06 -/

/-- The signed business-day count of a business-day settlement convention (T-0 aside). -/
def settlementOffset : SettlementConvention → Option Int
  | .tMinusTwoBusiness => some (-2)
  | .tMinusOneBusiness => some (-1)
  | .tPlusZeroBusiness => some 0
  | .tPlusOneBusiness => some 1
  | .tPlusTwoBusiness => some 2
  | .tPlusThreeBusiness => some 3
  | _ => none

/-- C06. T+n settles on the business day with exactly `n` business days from the rolled purchase date to it. -/
theorem C06_settlement_plus (cal : HolidayCalendar) (d r : PyDate) (c : SettlementConvention) (n : Nat)
    (hc : settlementOffset c = some (n : Int)) (h : calculateSettlementDate cal d c = .ok r) :
    ∃ r0 L, FirstOnOrAfter cal d r0 ∧ BusinessDay cal r ∧ r0 ≤ r ∧ BusinessDaysIn cal r0 r L ∧ L.length = n := by
  have key : addBusinessDays cal d (n : Int) = .ok r := by
    cases c <;> simp only [settlementOffset, Option.some.injEq, reduceCtorEq] at hc <;>
      (first | omega | (rw [← hc]; exact h))
  obtain ⟨r0, L, hf, h2, h1, h4, h5, _⟩ := (C03_add_business_days_iff cal d r n).1 key
  exact ⟨r0, L, hf, h1, h2, h4, h5⟩

/-- C06. T-n settles on the business day with exactly `n` business days from it to the rolled purchase date. -/
theorem C06_settlement_minus (cal : HolidayCalendar) (d r : PyDate) (c : SettlementConvention) (n : Nat)
    (hc : settlementOffset c = some (-(n : Int))) (h : calculateSettlementDate cal d c = .ok r) :
    ∃ r0 L, FirstOnOrAfter cal d r0 ∧ BusinessDay cal r ∧ r ≤ r0 ∧ BusinessDaysIn cal r r0 L ∧ L.length = n := by
  have key : addBusinessDays cal d (-(n : Int)) = .ok r := by
    cases c <;> simp only [settlementOffset, Option.some.injEq, reduceCtorEq] at hc <;>
      (first | omega | (rw [← hc]; exact h))
  obtain ⟨r0, L, hf, h2, h1, h4, h5, _⟩ := (C04_subtract_business_days_iff cal d r n).1 key
  exact ⟨r0, L, hf, h1, h2, h4, h5⟩

/-- C06. T-0 settles on the last business day on or before the purchase date. -/
theorem C06_settlement_minus_zero (cal : HolidayCalendar) (d r : PyDate)
    (h : calculateSettlementDate cal d .tMinusZeroBusiness = .ok r) : LastOnOrBefore cal d r := by
  simp only [calculateSettlementDate, bind_ok] at h
  obtain ⟨b, hb, h⟩ := h
  cases b with
  | true =>
    simp at h; subst h
    exact ⟨le_refl _, isBusinessDay_true' hb, fun e h1 h2 => absurd h2 (not_le.2 h1)⟩
  | false =>
    simp only [Bool.false_eq_true, if_false] at h
    obtain ⟨r0, L, hf, h2, h1, h4, h5, _⟩ := (C04_subtract_business_days_iff cal d r 1).1 h
    have hl := lastBefore_of_roll hf h1 h4 h5
    refine ⟨le_of_lt hl.1, hl.2.1, fun e he1 he2 => ?_⟩
    rcases lt_or_eq_of_le he2 with h3 | h3
    · exact hl.2.2 e he1 h3
    · subst h3; exact isBusinessDay_false' hb

/-- C06. The calendar-day conventions, although members of the enumeration, are always rejected with ValueError. -/
theorem C06_settlement_calendar_rejected (cal : HolidayCalendar) (d : PyDate) (c : SettlementConvention)
    (hc : c = .tPlusZeroCalendar ∨ c = .tPlusOneCalendar ∨ c = .tPlusTwoCalendar ∨ c = .tPlusThreeCalendar) :
    calculateSettlementDate cal d c = .error .valueError := by
  rcases hc with rfl | rfl | rfl | rfl <;> rfl

example : settlementOffset .tPlusTwoBusiness = some ((2 : Nat) : Int) ∧
    calculateSettlementDate usFederalHolidays (D 2023 11 22) .tPlusTwoBusiness = .ok (D 2023 11 27) := by
  decide +kernel
example : settlementOffset .tMinusTwoBusiness = some (-((2 : Nat) : Int)) ∧
    calculateSettlementDate usFederalHolidays (D 2023 11 25) .tMinusTwoBusiness = .ok (D 2023 11 22) := by
  decide +kernel
example : calculateSettlementDate usFederalHolidays (D 2023 11 25) .tMinusZeroBusiness = .ok (D 2023 11 24) := by
  decide +kernel

/-! ### C07 -/

theorem businessDayLoop_spec {cal : HolidayCalendar} {b : PyDate} {n : Nat} {d : PyDate} {L : List PyDate}
    (hd : BusinessDay cal d) (h : businessDayLoop cal b n d = .ok L) :
    L.Pairwise (· < ·) ∧ ∀ e, e ∈ L ↔ d ≤ e ∧ e ≤ b ∧ BusinessDay cal e := by
  induction n generalizing d L with
  | zero => cases h
  | succ n ih =>
    simp only [businessDayLoop] at h
    split_ifs at h with hdb
    · simp only [bind_ok] at h
      obtain ⟨d', hd', rest, hrest, h⟩ := h
      cases h
      obtain ⟨_, ⟨h1, h2, h3⟩, _⟩ := addSingle_iff.1 hd'
      obtain ⟨i1, i2⟩ := ih h2 hrest
      refine ⟨List.Pairwise.cons (fun e he => lt_of_lt_of_le h1 ((i2 e).1 he).1) i1, ?_⟩
      intro e
      rw [List.mem_cons, i2]
      constructor
      · rintro (rfl | ⟨ha, hb, hc⟩)
        · exact ⟨le_refl _, hdb, hd⟩
        · exact ⟨le_trans (le_of_lt h1) ha, hb, hc⟩
      · rintro ⟨ha, hb, hc⟩
        by_cases hed : e = d
        · exact Or.inl hed
        · right
          refine ⟨?_, hb, hc⟩
          by_contra hlt
          exact h3 e (lt_of_le_of_ne ha (Ne.symm hed)) (not_le.1 hlt) hc
    · cases h
      refine ⟨List.Pairwise.nil, ?_⟩
      intro e
      simp only [List.not_mem_nil, false_iff]
      rintro ⟨ha, hb, _⟩
      exact hdb (le_trans ha hb)

/-- C07. `generate_business_days(a, b)` is strictly increasing and contains exactly the business days of `[a, b]`. -/
theorem C07_generate_business_days (cal : HolidayCalendar) (a b : PyDate) (L : List PyDate)
    (h : generateBusinessDays cal a b = .ok L) :
    L.Pairwise (· < ·) ∧ ∀ e, e ∈ L ↔ a ≤ e ∧ e ≤ b ∧ BusinessDay cal e := by
  unfold generateBusinessDays at h
  rw [bind_ok] at h
  obtain ⟨d, hd, h⟩ := h
  obtain ⟨⟨h1, h2, h3⟩, _⟩ := (C02_following_iff cal a d).1 hd
  obtain ⟨i1, i2⟩ := businessDayLoop_spec h2 h
  refine ⟨i1, fun e => (i2 e).trans ⟨fun ⟨x, y, z⟩ => ⟨le_trans h1 x, y, z⟩, fun ⟨x, y, z⟩ => ⟨?_, y, z⟩⟩⟩
  by_contra hc
  exact h3 e x (not_le.1 hc) z

example : generateBusinessDays usFederalHolidays (D 2022 12 23) (D 2022 12 28) =
    .ok [D 2022 12 23, D 2022 12 27, D 2022 12 28] := by decide +kernel

end Verif.Props
