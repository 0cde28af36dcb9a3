/- C102, continued: curves, loans, swaps, schedules, replacing key rates, calibration dictionaries. -/
import Verif.Props.Failures
import Verif.Props.CurveReset
import Verif.Props.Swap
import Verif.Props.SchedulerDatetime
import Verif.Props.MultiConcrete

namespace Verif.Props
open Verif Verif.DayCount

/-! ## Curves -/

/-- C102. `reset_value` at a position outside the knots, counted from either end, is an IndexError and leaves the curve as it was. -/
theorem C102_curve_reset_index (c : Curve) (new : Knot) (i : Int)
    (hi : i < -(c.knots.length : Int) ∨ (c.knots.length : Int) ≤ i) :
    c.resetValueAt new i = (.error .indexError, c) ∧
    (0 ≤ i → c.resetValue new i.toNat = (.error .indexError, c)) := by
  constructor
  · unfold Curve.resetValueAt KeyRateCollection.pyIndex
    rw [if_neg (by omega), if_neg (by omega)]
  · intro h0
    unfold Curve.resetValue
    rw [if_neg (by omega)]

/-- Concrete case for C102: a curve of two knots has no positions 2 and -3. -/
example (c : Curve) (new a b : Knot) (h : c.knots = [a, b]) : c.resetValueAt new 2 = (.error .indexError, c) ∧
    c.resetValueAt new (-3) = (.error .indexError, c) :=
  ⟨(C102_curve_reset_index c new 2 (by rw [h]; simp)).1, (C102_curve_reset_index c new (-3) (by rw [h]; simp)).1⟩

/-- C102. A curve reset to no knots at all is an IndexError on every date, whatever the adjustment and the end behaviour. -/
theorem C102_curve_no_knots (c : Curve) (d : PyDate) (adj : Adjustment) :
    (c.resetValues []).1 = .ok () ∧ (c.resetValues []).2.interpolate d adj = .error .indexError := by
  have : c.resetValues [] = (.ok (), ⟨[], c.method, c.dcc, c.referenceDate, c.left, c.right, []⟩) := rfl
  rw [this]
  exact ⟨rfl, rfl⟩

theorem interpLinear_outside (g : List (ℚ × ℚ)) (x : ℚ) (h : (∀ p ∈ g, x < p.1) ∨ ∀ p ∈ g, p.1 < x) :
    interpLinear g x = .error .valueError := by
  induction g with
  | nil => rfl
  | cons p g ih =>
    obtain ⟨x0, y0⟩ := p
    cases g with
    | nil =>
      unfold interpLinear
      rw [if_neg]
      rcases h with h | h
      · exact (h _ (List.mem_cons_self ..)).ne
      · exact (h _ (List.mem_cons_self ..)).ne'
    | cons q g =>
      obtain ⟨x1, y1⟩ := q
      unfold interpLinear
      rcases h with h | h
      · rw [if_pos (h (x0, y0) (List.mem_cons_self ..))]
      · have h0 : x0 < x := h (x0, y0) (List.mem_cons_self ..)
        have h1 : x1 < x := h (x1, y1) (by simp)
        rw [if_neg (not_lt.2 h0.le), if_neg (not_lt.2 h1.le)]
        exact ih (.inr fun p hp => h p (List.mem_cons_of_mem _ hp))

theorem interpPrevious_outside (g : List (ℚ × ℚ)) (x : ℚ) (h : (∀ p ∈ g, x < p.1) ∨ ∀ p ∈ g, p.1 < x) :
    interpPrevious g x = .error .valueError := by
  induction g with
  | nil => rfl
  | cons p g ih =>
    obtain ⟨x0, y0⟩ := p
    cases g with
    | nil =>
      unfold interpPrevious
      rw [if_neg]
      rcases h with h | h
      · exact (h _ (List.mem_cons_self ..)).ne
      · exact (h _ (List.mem_cons_self ..)).ne'
    | cons q g =>
      obtain ⟨x1, y1⟩ := q
      unfold interpPrevious
      rcases h with h | h
      · rw [if_pos (h (x0, y0) (List.mem_cons_self ..))]
      · have h0 : x0 < x := h (x0, y0) (List.mem_cons_self ..)
        have h1 : x1 < x := h (x1, y1) (by simp)
        rw [if_neg (not_lt.2 h0.le), if_neg (not_lt.2 h1.le)]
        exact ih (.inr fun p hp => h p (List.mem_cons_of_mem _ hp))

/-- C102. After a failed `reset_values` (a new knot before the reference date) the curve has the new knots but interpolates on the old
grid: on a date between the new knots, but before or after every old knot in the curve's time measure, it is a ValueError. -/
theorem C102_curve_stale_grid (values values' : List Knot) (m : InterpolationMethod) (hm : m = .linear ∨ m = .previous)
    (dcc : DayCountConvention) (ref : PyDate) (l r : EndBehavior) (c : Curve)
    (hc : Curve.create values m dcc (some ref) l r = .ok c) (early late : Knot) (he : early ∈ values') (href : early.date < ref)
    (hl : late ∈ values') (d : PyDate) (hd : ref ≤ d) (hdl : d ≤ late.date) (x : ℚ) (hx : accrual ref d dcc = .ok x)
    (hout : (∀ k ∈ values, ∀ y, accrual ref k.date dcc = .ok y → y < x) ∨ (∀ k ∈ values, ∀ y, accrual ref k.date dcc = .ok y → x < y))
    (adj : Adjustment) :
    (∃ e, (c.resetValues values').1 = .error e) ∧ (c.resetValues values').2.interpolate d adj = .error .valueError := by
  unfold Curve.create at hc
  simp only [ok_bind] at hc
  obtain ⟨g, hg, hc⟩ := bind_ok.1 hc
  injection hc with hc
  subst hc
  have hfail : ∃ e, Curve.makeGrid ref dcc (pySorted Knot.date values') = .error e := by
    cases hmk : Curve.makeGrid ref dcc (pySorted Knot.date values') with
    | error e => exact ⟨e, rfl⟩
    | ok g' =>
      exfalso
      have hmem : early ∈ pySorted Knot.date values' := (pySorted_perm Knot.date values').mem_iff.2 he
      obtain ⟨y, hy⟩ := collect_ok_of_mem hmk early hmem
      obtain ⟨z, hz, -⟩ := bind_ok.1 hy
      rw [accrual_bad_order href] at hz
      cases hz
  obtain ⟨e, hfail⟩ := hfail
  have hr : (⟨pySorted Knot.date values, m, dcc, ref, l, r, g⟩ : Curve).resetValues values' =
      (.error e, ⟨pySorted Knot.date values', m, dcc, ref, l, r, g⟩) := by
    unfold Curve.resetValues
    simp only [hfail]
  rw [hr]
  refine ⟨⟨e, rfl⟩, ?_⟩
  have hsorted := pySorted_sorted Knot.date values'
  have hmem1 : early ∈ pySorted Knot.date values' := (pySorted_perm Knot.date values').mem_iff.2 he
  have hmem2 : late ∈ pySorted Knot.date values' := (pySorted_perm Knot.date values').mem_iff.2 hl
  have hgrid : (∀ p ∈ g, x < p.1) ∨ ∀ p ∈ g, p.1 < x := by
    have key : ∀ p ∈ g, ∃ k ∈ values, accrual ref k.date dcc = .ok p.1 := by
      intro p hp
      obtain ⟨k, hk, hkp⟩ := (collect_mem hg p).1 hp
      obtain ⟨y, hy, hyp⟩ := bind_ok.1 hkp
      injection hyp with hyp
      subst hyp
      exact ⟨k, (pySorted_perm Knot.date values).mem_iff.1 hk, hy⟩
    rcases hout with h | h
    · right; intro p hp; obtain ⟨k, hk, hy⟩ := key p hp; exact h k hk _ hy
    · left; intro p hp; obtain ⟨k, hk, hy⟩ := key p hp; exact h k hk _ hy
  obtain ⟨first, hfirst⟩ : ∃ f, (pySorted Knot.date values').head? = some f := by
    cases h : pySorted Knot.date values' with
    | nil => rw [h] at hmem1; cases hmem1
    | cons a as => exact ⟨a, rfl⟩
  obtain ⟨last, hlast⟩ : ∃ f, (pySorted Knot.date values').getLast? = some f := by
    cases h : (pySorted Knot.date values').getLast? with
    | none => rw [List.getLast?_eq_none_iff] at h; rw [h] at hmem1; cases hmem1
    | some f => exact ⟨f, rfl⟩
  have hf : first.date ≤ d := by
    cases h : pySorted Knot.date values' with
    | nil => rw [h] at hmem1; cases hmem1
    | cons a as =>
      rw [h] at hfirst hmem1 hsorted
      cases hfirst
      rcases List.mem_cons.1 hmem1 with rfl | hm'
      · exact href.le.trans hd
      · exact ((List.pairwise_cons.1 hsorted).1 _ hm').trans (href.le.trans hd)
  have hla : d ≤ last.date := by
    obtain ⟨init, hinit⟩ := List.getLast?_eq_some_iff.1 hlast
    rw [hinit] at hmem2 hsorted
    rcases List.mem_append.1 hmem2 with hm' | hm'
    · exact hdl.trans ((List.pairwise_append.1 hsorted).2.2 _ hm' _ (List.mem_singleton.2 rfl))
    · rw [List.mem_singleton] at hm'; subst hm'; exact hdl
  unfold Curve.interpolate
  simp only [hfirst, hlast]
  rw [if_neg (not_lt.2 hf), if_neg (not_lt.2 hla)]
  unfold Curve.axis
  rw [hx, ok_bind]
  have : (⟨pySorted Knot.date values', m, dcc, ref, l, r, g⟩ : Curve).interpolator x = .error .valueError := by
    unfold Curve.interpolator
    rcases hm with rfl | rfl
    · exact interpLinear_outside g x hgrid
    · exact interpPrevious_outside g x hgrid
  rw [this]
  rfl

/-- Concrete case for C102: a curve from 1 January 2023 with knots on 1 February and 1 March, reset to knots in 2022 and 2025, asked for
15 January 2023 (before the old knots) and for 1 January 2024 (after them). -/
example : ∃ c, Curve.create [⟨D 2023 2 1, 1⟩, ⟨D 2023 3 1, 2⟩] .linear .act360 (some (D 2023 1 1)) .error .error = .ok c ∧
    (c.resetValues [⟨D 2022 1 1, 1⟩, ⟨D 2025 1 1, 1⟩]).2.call (D 2024 1 1) = .error .valueError ∧
    (c.resetValues [⟨D 2022 1 1, 1⟩, ⟨D 2025 1 1, 1⟩]).2.call (D 2023 1 15) = .error .valueError := by
  have h1 : accrual (D 2023 1 1) (D 2023 2 1) .act360 = .ok (31 / 360) := by decide +kernel
  have h2 : accrual (D 2023 1 1) (D 2023 3 1) .act360 = .ok (59 / 360) := by decide +kernel
  have h3 : accrual (D 2023 1 1) (D 2024 1 1) .act360 = .ok (365 / 360) := by decide +kernel
  have h4 : accrual (D 2023 1 1) (D 2023 1 15) .act360 = .ok (14 / 360) := by decide +kernel
  have hc : Curve.create [⟨D 2023 2 1, 1⟩, ⟨D 2023 3 1, 2⟩] .linear .act360 (some (D 2023 1 1)) .error .error =
      .ok ⟨[⟨D 2023 2 1, 1⟩, ⟨D 2023 3 1, 2⟩], .linear, .act360, D 2023 1 1, .error, .error, [(31 / 360, 1), (59 / 360, 2)]⟩ := by
    have hs : pySorted Knot.date [⟨D 2023 2 1, 1⟩, ⟨D 2023 3 1, 2⟩] = [⟨D 2023 2 1, 1⟩, ⟨D 2023 3 1, 2⟩] := by decide +kernel
    unfold Curve.create Curve.makeGrid Curve.axis
    rw [hs]
    simp only [ok_bind, collect, h1, h2]
  refine ⟨_, hc, ?_, ?_⟩
  · refine (C102_curve_stale_grid _ _ _ (.inl rfl) _ _ _ _ _ hc ⟨D 2022 1 1, 1⟩ ⟨D 2025 1 1, 1⟩ (by simp) (by decide +kernel) (by simp)
      _ (by decide +kernel) (by decide +kernel) _ h3 (.inl ?_) _).2
    intro k hk y hy
    simp only [List.mem_cons, List.not_mem_nil, or_false] at hk
    rcases hk with rfl | rfl
    · rw [h1] at hy; injection hy with hy; rw [← hy]; norm_num
    · rw [h2] at hy; injection hy with hy; rw [← hy]; norm_num
  · refine (C102_curve_stale_grid _ _ _ (.inl rfl) _ _ _ _ _ hc ⟨D 2022 1 1, 1⟩ ⟨D 2025 1 1, 1⟩ (by simp) (by decide +kernel) (by simp)
      _ (by decide +kernel) (by decide +kernel) _ h4 (.inr ?_) _).2
    intro k hk y hy
    simp only [List.mem_cons, List.not_mem_nil, or_false] at hk
    rcases hk with rfl | rfl
    · rw [h1] at hy; injection hy with hy; rw [← hy]; norm_num
    · rw [h2] at hy; injection hy with hy; rw [← hy]; norm_num

/-! ## Key rates -/

/-- C102. In a collection of key rates that know their neighbours' dates, a replacement that is refused changes nothing; the first key rate
is refused with TypeError whatever the new one is, the last with TypeError if the new date is after its predecessor's; otherwise a date
that is not strictly between the neighbours' is a ValueError. -/
theorem C102_key_rate_replace (h : KRHeap) (c : KeyRateCollection) (hw : Wired h c.keyRates) (new : Nat) :
    (c.keyRates ≠ [] → KeyRateCollection.setItem h c 0 new = (.error .typeError, c, h)) ∧
    (∀ k a b, c.keyRates[k]? = some a → c.keyRates[k + 1]? = some b → (h new).keyDate ≤ (h a).keyDate →
      KeyRateCollection.setItem h c (k + 1 : Nat) new = (.error .valueError, c, h)) ∧
    (∀ k a b, c.keyRates[k]? = some a → c.keyRates[k + 1]? = some b → k + 2 = c.keyRates.length → (h a).keyDate < (h new).keyDate →
      KeyRateCollection.setItem h c (k + 1 : Nat) new = (.error .typeError, c, h)) ∧
    (∀ k a b d, c.keyRates[k]? = some a → c.keyRates[k + 1]? = some b → c.keyRates[k + 2]? = some d → (h d).keyDate ≤ (h new).keyDate →
      (h a).keyDate < (h new).keyDate → KeyRateCollection.setItem h c (k + 1 : Nat) new = (.error .valueError, c, h)) := by
  have hidx : ∀ k : Nat, k < c.keyRates.length → KeyRateCollection.pyIndex c.keyRates.length (k : Int) = some k := by
    intro k hk; unfold KeyRateCollection.pyIndex; rw [if_pos ⟨by omega, by omega⟩]; simp
  refine ⟨?_, ?_, ?_, ?_⟩
  · intro hne
    have hlen : 0 < c.keyRates.length := List.length_pos_iff.2 hne
    have h0 := List.getElem?_eq_getElem hlen
    obtain ⟨hp, -⟩ := hw 0 _ h0
    have := hidx 0 hlen
    simp only [Nat.cast_zero] at this
    unfold KeyRateCollection.setItem
    simp only [this, h0, hp, if_true]
  · intro k a b ha hb hle
    obtain ⟨hp, hn⟩ := hw (k + 1) b hb
    have hk := getElem?_lt hb
    unfold KeyRateCollection.setItem
    simp only [hidx _ hk, hb, hp, Nat.add_sub_cancel, ha, Option.map_some, Nat.succ_ne_zero, if_false]
    rw [if_neg (not_lt.2 hle)]
  · intro k a b ha hb hlast hlt
    obtain ⟨hp, hn⟩ := hw (k + 1) b hb
    have hk := getElem?_lt hb
    have hnone : c.keyRates[k + 1 + 1]? = none := List.getElem?_eq_none (by omega)
    unfold KeyRateCollection.setItem
    simp only [hidx _ hk, hb, hp, hn, hnone, Nat.add_sub_cancel, ha, Option.map_some, Nat.succ_ne_zero, if_false, Option.map_none]
    rw [if_pos hlt]
  · intro k a b d ha hb hd hle hlt
    obtain ⟨hp, hn⟩ := hw (k + 1) b hb
    have hk := getElem?_lt hb
    unfold KeyRateCollection.setItem
    simp only [hidx _ hk, hb, hp, hn, hd, Nat.add_sub_cancel, ha, Option.map_some, Nat.succ_ne_zero, if_false]
    rw [if_pos hlt, if_neg (not_lt.2 hle)]

/-! ## Loans -/

/-- C102. The fixed payment of a loan paying no coupons, or of one ending on the day it starts (any day count giving zero years), is a
ZeroDivisionError; extra payments that are neither None, a float nor an iterable (such as the int 100) are a TypeError whenever the
payment dates exist. -/
theorem C102_loan_arguments (l : Loan) (years : ℚ) (hy : accrual l.originationDate l.endDate l.dcc = .ok years) :
    (l.frequency = .zeroCoupon → l.calculateFixedPaymentAmount = .error .zeroDivisionError) ∧
    (years = 0 → l.calculateFixedPaymentAmount = .error .zeroDivisionError) ∧
    (∀ dates amount, l.paymentDates = .ok dates → l.generatePaymentSchedule amount .other = .error .typeError) := by
  refine ⟨?_, ?_, ?_⟩
  · intro hf
    unfold Loan.calculateFixedPaymentAmount
    rw [hy, ok_bind]
    simp only
    rw [if_pos (by rw [hf]; rfl)]
  · rintro rfl
    unfold Loan.calculateFixedPaymentAmount
    rw [hy, ok_bind]
    simp only
    by_cases hf : l.frequency.value = 0
    · rw [if_pos hf]
    · rw [if_neg hf]
      split
      · rfl
      · rw [if_pos (by simp)]
  · intro dates amount hd
    unfold Loan.generatePaymentSchedule
    rw [hd, ok_bind]
    rfl

/-- Concrete case for C102: a loan of zero months has zero years; a three-year one has payment dates. -/
example : accrual (D 2025 3 11) (D 2025 3 11) .thirty360 = .ok 0 ∧
    (⟨1000, 6 / 100, D 2025 3 11, .relativedelta 3 0, .thirty360, .monthly, .startOfMonth, D 2025 6 11⟩ : Loan).paymentDates =
      .ok [D 2025 4 1, D 2025 5 1, D 2025 6 1, D 2025 7 1] := by decide +kernel

/-! ## Swaps -/

/-- C102. A swap whose tenor is not a number followed by Y or M cannot be made (ValueError, when the settlement date exists); a leg paid
monthly or never cannot be generated: ValueError, and the swap is as before. -/
theorem C102_swap_arguments (t : SwapTerms) (s : Swap) (start : PyDate) (rate : RateFn) (set : Bool) :
    (Scheduler.calculateSettlementDate t.calendar t.purchaseDate t.settlementConvention = .ok start →
      (t.tenor.length = none ∨ (t.tenor.unit ≠ 'Y' ∧ t.tenor.unit ≠ 'M')) → Swap.create t = .error .valueError) ∧
    (s.terms.fixedFrequency = .monthly ∨ s.terms.fixedFrequency = .zeroCoupon → s.generateFixedLeg set = (.error .valueError, s)) ∧
    (s.terms.floatFrequency = .monthly ∨ s.terms.floatFrequency = .zeroCoupon → s.generateFloatLeg rate set = (.error .valueError, s)) := by
  refine ⟨?_, ?_, ?_⟩
  · intro hs h
    have he : t.endAccrual start = .error .valueError := by
      unfold SwapTerms.endAccrual
      rcases h with h | ⟨h1, h2⟩
      · rw [h]
      · cases hl : t.tenor.length with
        | none => rfl
        | some n => simp only [if_neg h1, if_neg h2]
    unfold Swap.create
    rw [hs, ok_bind, he]
    rfl
  · intro h
    have : s.fixedCashflow = .error .valueError := by
      unfold Swap.fixedCashflow Swap.fixedAccruals Swap.accrualSchedule
      rcases h with h | h <;> rw [h] <;> rfl
    unfold Swap.generateFixedLeg
    rw [this]
  · intro h
    have : s.floatCashflow rate = .error .valueError := by
      unfold Swap.floatCashflow Swap.floatAccruals Swap.accrualSchedule
      rcases h with h | h <;> rw [h] <;> rfl
    unfold Swap.generateFloatLeg
    rw [this]

/-- Concrete case for C102: the example swap with the tenor "1W". -/
example : Swap.create { exSwap with tenor := ⟨some 1, 'W'⟩ } = .error .valueError :=
  (C102_swap_arguments { exSwap with tenor := ⟨some 1, 'W'⟩ } exSwap0 (D 2024 1 17) exRate true).1 (by decide +kernel)
    (.inr ⟨by decide, by decide⟩)

/-- C102. A new swap has exactly the legs `FIXED_LEG` (value 2) and `FLOATING_LEG` (value 3), both empty: asking for another member of
the enumeration is a KeyError, asking by number or name an AttributeError. -/
theorem C102_swap_legs (t : SwapTerms) (s : Swap) (h : Swap.create t = .ok s) :
    s.legs.getItem (.member 2) = .ok none ∧ s.legs.getItem (.member 3) = .ok none ∧ s.legs.len = 2 ∧
    (∀ n, n ≠ 2 → n ≠ 3 → s.legs.getItem (.member n) = .error .keyError) ∧
    (∀ n, s.legs.getItem (.int n) = .error .attributeError) ∧ ∀ n, s.legs.getItem (.str n) = .error .attributeError := by
  unfold Swap.create at h
  rw [bind_ok] at h; obtain ⟨start, -, h⟩ := h
  rw [bind_ok] at h; obtain ⟨stop, -, h⟩ := h
  injection h with h
  subst h
  refine ⟨rfl, rfl, rfl, ?_, fun _ => rfl, fun _ => rfl⟩
  intro n h2 h3
  simp [CashflowCollection.getItem, CashflowCollection.create, PyDict.get?, PyDict.ofList, PyDict.set, Swap.fixedKey, Swap.floatKey,
    Ne.symm h2, Ne.symm h3]

/-- Concrete case for C102_swap_legs. -/
example : Swap.create exSwap = .ok exSwap0 ∧ exSwap0.legs.getItem (.member 4) = .error .keyError :=
  ⟨exSwap_create, (C102_swap_legs _ _ exSwap_create).2.2.2.1 4 (by decide) (by decide)⟩

/-! ## Schedules -/

/-- C102. An increment that is neither a timedelta nor a relativedelta is a TypeError; the next business day of a date that is not a
business day is a ValueError, for dates and for datetimes. -/
theorem C102_schedule_arguments (cal : HolidayCalendar) (start stop d : PyDate) (dt : PyDatetime) (maxDates : Int) :
    Scheduler.generateDatesByIncrements start stop .other maxDates = .error .typeError ∧
    Scheduler.addIncrement d .other = .error .typeError ∧
    (Scheduler.isBusinessDay cal d = .ok false → Scheduler.addSingleBusinessDay cal d = .error .valueError) ∧
    (DtScheduler.isBusinessDay cal dt = .ok false → DtScheduler.addSingleBusinessDay cal dt = .error .valueError) := by
  refine ⟨rfl, rfl, ?_, ?_⟩
  · intro h; unfold Scheduler.addSingleBusinessDay; rw [h]; rfl
  · intro h; unfold DtScheduler.addSingleBusinessDay; rw [h]; rfl

/-- Concrete case for C102: 6 January 2024 is a Saturday. -/
example : Scheduler.isBusinessDay [] (D 2024 1 6) = .ok false := by decide +kernel

/-! ## Calibration dictionaries of the one-factor model -/

/-- C102. Setting the one-factor model's parameters from its dictionary: the volatility and then the speed are overwritten as far as the
dictionary goes, so one number alone leaves a half-updated model and an IndexError; the level and the starting rate both come from
the dictionary's shape parameters, IndexError without one. -/
theorem C102_vasicek_setters (v : Vasicek) :
    (let r := v.setVolatilityFromDict
     (r.1 = if 2 ≤ v.params.volatility.length then .ok () else .error .indexError) ∧
     r.2 = ⟨v.mean, (v.params.volatility[1]?).getD v.speed, (v.params.volatility[0]?).getD v.vol, v.convexityLimit, v.core, v.params,
       v.startingShortRate⟩) ∧
    (let r := v.setShapeFromDict
     (r.1 = if 1 ≤ v.params.shape.length then .ok () else .error .indexError) ∧
     r.2 = ⟨(v.params.shape[0]?).getD v.mean, v.speed, v.vol, v.convexityLimit, v.core, v.params, v.startingShortRate⟩) ∧
    (let r := v.setStateVariablesFromDict
     (r.1 = if 1 ≤ v.params.shape.length then .ok () else .error .indexError) ∧
     r.2 = ⟨v.mean, v.speed, v.vol, v.convexityLimit, v.core, v.params, (v.params.shape[0]?).or v.startingShortRate⟩) := by
  refine ⟨?_, ?_, ?_⟩
  · unfold Vasicek.setVolatilityFromDict
    rcases hd : v.params.volatility with _ | ⟨a, _ | ⟨b, l⟩⟩ <;> simp [hd]
  · unfold Vasicek.setShapeFromDict
    rcases hd : v.params.shape with _ | ⟨a, l⟩ <;> simp [hd]
  · unfold Vasicek.setStateVariablesFromDict
    rcases hd : v.params.shape with _ | ⟨a, l⟩ <;> simp [hd]

/-- Concrete case for C102: one number overwrites the volatility only. -/
example (v : Vasicek) (h : v.params.volatility = [5]) : v.setVolatilityFromDict.1 = .error .indexError ∧
    v.setVolatilityFromDict.2.vol = 5 ∧ v.setVolatilityFromDict.2.speed = v.speed := by
  have := (C102_vasicek_setters v).1
  simp only [h] at this
  rw [this.1, this.2]
  simp

/-- Concrete case for C102_starting_values: three starting values for a model of two state variables. -/
example : ∃ v : MultiVasicek 2, (v.generatePathFrom [1, 2, 3] true (fun _ => 0)).1 ≠ .ok () := by
  obtain ⟨v, -⟩ := diagonal_model
  exact ⟨v, ((C102_starting_values v [1, 2, 3] true (fun _ => 0)).2.2 (by simp) (by simp)).1⟩

end Verif.Props
