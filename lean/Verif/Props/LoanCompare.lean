/- Property C105: paying a loan faster never costs more. -/
import Verif.Props.LoanInterest

namespace Verif.Props
open Verif Verif.Spec Verif.DayCount Verif.Scheduler

/-- Once the balance is zero it stays zero. -/
theorem balance_stays_zero (l : Loan) (A : ℚ) (e : ExtraPayments) (ps : List LoanPayment) (hP : 0 ≤ l.principal) (hA : 0 ≤ A)
    (hrate : 0 ≤ l.rate) (hex : ∀ k, 0 ≤ extraAt e k) (h : l.generatePaymentSchedule A e = .ok ps) (j k : Nat) (hjk : j ≤ k)
    (hk : k ≤ ps.length) (hj : balance l.principal ps j = 0) : balance l.principal ps k = 0 := by
  induction k, hjk using Nat.le_induction with
  | base => exact hj
  | succ k hjk ih =>
    rw [balance_succ _ _ _ (by omega), ih (by omega),
      (C38_paid_off l A e ps hP hA hrate hex h j k hj hjk (by omega)).2.1, sub_zero]

/-- C105. The outstanding balance obeys one recurrence throughout the loan, before and after pay-off: it earns the accrued
interest, less the instalment and the extra payment, and stops at zero. -/
theorem C105_recurrence (l : Loan) (A : ℚ) (e : ExtraPayments) (ps : List LoanPayment) (hP : 0 ≤ l.principal) (hA : 0 ≤ A)
    (hrate : 0 ≤ l.rate) (hex : ∀ k, 0 ≤ extraAt e k) (h : l.generatePaymentSchedule A e = .ok ps) :
    ∃ dates, l.paymentDates = .ok dates ∧ ps.length = dates.length - 1 ∧
      ∀ k (hk : k < ps.length) (hk' : k + 1 < dates.length), ∃ a, accrual dates[k] dates[k + 1] l.dcc = .ok a ∧ 0 ≤ a ∧
        ps[k].interest = a * l.rate * balance l.principal ps k ∧
        balance l.principal ps (k + 1) =
          max 0 (balance l.principal ps k * (1 + a * l.rate) - (A + extraAt e k)) := by
  obtain ⟨dates, hd, hlen, hnn, -, hall⟩ := C38_amortization l A e ps hP h
  obtain ⟨-, -, m, -, -, hm, -, -, -, hchain, -⟩ := C38_payment_dates l dates hd
  refine ⟨dates, hd, hlen, ?_⟩
  intro k hk hk'
  obtain ⟨-, ⟨a, ha, hi⟩, hsplit⟩ := hall k hk hk'
  refine ⟨a, ha, accrual_months_nonneg hm (chain_get hchain k hk') ha, hi, ?_⟩
  by_cases hopen : ∀ j, j < k → 0 < balance l.principal ps (j + 1)
  · rw [balance_succ _ _ _ hk]
    rcases hsplit hopen with ⟨h1, h2, h3⟩ | ⟨h1, h2, h3⟩
    · rw [h2] at h3
      rw [max_eq_right (by rw [hi] at h1; linarith)]
      rw [hi] at h3
      linarith
    · rw [h2, max_eq_left (by rw [hi] at h1; linarith), sub_self]
  · push Not at hopen
    obtain ⟨j, hj, hle⟩ := hopen
    have hz : balance l.principal ps (j + 1) = 0 := le_antisymm hle (hnn _)
    rw [balance_stays_zero l A e ps hP hA hrate hex h (j + 1) (k + 1) (by omega) (by omega) hz,
      balance_stays_zero l A e ps hP hA hrate hex h (j + 1) k (by omega) (by omega) hz, zero_mul, zero_sub,
      max_eq_left (by have := hex k; linarith)]

/-- Two loans with the same calendar: same origination, term, day count, frequency and payment time. -/
def SameCalendar (l l' : Loan) : Prop :=
  l.originationDate = l'.originationDate ∧ l.termLength = l'.termLength ∧ l.dcc = l'.dcc ∧ l.frequency = l'.frequency ∧
    l.paymentTime = l'.paymentTime

theorem SameCalendar.dates {l l' : Loan} (h : SameCalendar l l') : l.paymentDates = l'.paymentDates := by
  obtain ⟨h1, h2, h3, h4, h5⟩ := h
  unfold Loan.paymentDates Loan.startDate Loan.increment
  rw [h1, h2, h4, h5]

/-- C105. A loan of no more principal at no higher a rate, paid back on the same dates with an instalment and extra payments
that are no smaller: at every date no more is outstanding, no more interest is charged and, once the dearer loan is paid off,
so is this one. In total no more interest is paid. -/
theorem C105_faster_is_cheaper (l l' : Loan) (A A' : ℚ) (e e' : ExtraPayments) (ps ps' : List LoanPayment)
    (hcal : SameCalendar l l') (hP : 0 ≤ l.principal) (hPP : l.principal ≤ l'.principal) (hr : 0 ≤ l.rate)
    (hrr : l.rate ≤ l'.rate) (hA : 0 ≤ A') (hAA : A' ≤ A) (hex : ∀ k, 0 ≤ extraAt e' k)
    (hee : ∀ k, extraAt e' k ≤ extraAt e k) (h : l.generatePaymentSchedule A e = .ok ps)
    (h' : l'.generatePaymentSchedule A' e' = .ok ps') :
    ps.length = ps'.length ∧
    (∀ k, k ≤ ps.length → balance l.principal ps k ≤ balance l'.principal ps' k) ∧
    (∀ k (hk : k < ps.length) (hk' : k < ps'.length), ps[k].date = ps'[k].date ∧ ps[k].interest ≤ ps'[k].interest) ∧
    (∀ k, k ≤ ps.length → balance l'.principal ps' k = 0 → balance l.principal ps k = 0) ∧
    (ps.map LoanPayment.interest).sum ≤ (ps'.map LoanPayment.interest).sum := by
  have hr' : 0 ≤ l'.rate := le_trans hr hrr
  have hP' : 0 ≤ l'.principal := le_trans hP hPP
  obtain ⟨dates, hd, hlen, hrec⟩ := C105_recurrence l A e ps hP (le_trans hA hAA) hr (fun k => le_trans (hex k) (hee k)) h
  obtain ⟨dates', hd', hlen', hrec'⟩ := C105_recurrence l' A' e' ps' hP' hA hr' hex h'
  obtain ⟨_, hdx, -, hnn, -, hdate⟩ := C38_amortization l A e ps hP h
  obtain ⟨_, hdx', -, -, -, hdate'⟩ := C38_amortization l' A' e' ps' hP' h'
  rw [hd] at hdx; injection hdx with hdx; subst hdx
  rw [hd'] at hdx'; injection hdx' with hdx'; subst hdx'
  rw [hcal.dates, hd'] at hd; injection hd with hd; subst hd
  have hbal : ∀ k, k ≤ ps.length → balance l.principal ps k ≤ balance l'.principal ps' k := by
    intro k
    induction k with
    | zero => intro _; rw [balance_zero, balance_zero]; exact hPP
    | succ k ih =>
      intro hk
      obtain ⟨a, ha, ha0, -, hb⟩ := hrec k (by omega) (by omega)
      obtain ⟨a', ha', -, -, hb'⟩ := hrec' k (by omega) (by omega)
      rw [hcal.2.2.1, ha'] at ha; injection ha with ha; subst ha
      rw [hb, hb']
      have h1 := ih (by omega)
      have h2 := hnn k
      have h3 := hee k
      have : balance l.principal ps k * (1 + a' * l.rate) ≤ balance l'.principal ps' k * (1 + a' * l'.rate) := by
        have h4 : a' * l.rate ≤ a' * l'.rate := mul_le_mul_of_nonneg_left hrr ha0
        have h5 : 0 ≤ a' * l.rate := mul_nonneg ha0 hr
        exact mul_le_mul h1 (by linarith) (by linarith) (by linarith)
      exact max_le_max le_rfl (by linarith)
  have hint : ∀ k (hk : k < ps.length) (hk' : k < ps'.length),
      ps[k].date = ps'[k].date ∧ ps[k].interest ≤ ps'[k].interest := by
    intro k hk hk'
    obtain ⟨a, ha, ha0, hi, -⟩ := hrec k (by omega) (by omega)
    obtain ⟨a', ha', -, hi', -⟩ := hrec' k (by omega) (by omega)
    rw [hcal.2.2.1, ha'] at ha; injection ha with ha; subst ha
    refine ⟨by rw [(hdate k hk (by omega)).1, (hdate' k hk' (by omega)).1], ?_⟩
    rw [hi, hi']
    have h1 := hbal k (by omega)
    have h2 := hnn k
    gcongr
  refine ⟨by omega, hbal, hint, ?_, ?_⟩
  · intro k hk hz
    exact le_antisymm (hz ▸ hbal k hk) (hnn k)
  · refine List.Forall₂.sum_le_sum ?_
    rw [List.forall₂_map_left_iff, List.forall₂_map_right_iff, List.forall₂_iff_get]
    exact ⟨by omega, fun k hk hk' => by simpa using (hint k hk hk').2⟩

/-- C105. Strictly: an extra payment made while the loan is open lowers the balance at every later date at which the loan
without it is still open, by at least the extra payment. -/
theorem C105_extra_payment_saves (l : Loan) (A : ℚ) (e e' : ExtraPayments) (ps ps' : List LoanPayment)
    (hP : 0 ≤ l.principal) (hr : 0 ≤ l.rate) (hA : 0 ≤ A) (hex : ∀ k, 0 ≤ extraAt e' k)
    (hee : ∀ k, extraAt e' k ≤ extraAt e k) (h : l.generatePaymentSchedule A e = .ok ps)
    (h' : l.generatePaymentSchedule A e' = .ok ps') (j : Nat) (x : ℚ) (hx : extraAt e' j + x ≤ extraAt e j) (k : Nat)
    (hjk : j < k) (hk : k ≤ ps.length) (hx0 : 0 ≤ x) :
    balance l.principal ps k ≤ max 0 (balance l.principal ps' k - x) := by
  obtain ⟨hl, hbal, -⟩ := C105_faster_is_cheaper l l A A e e' ps ps' ⟨rfl, rfl, rfl, rfl, rfl⟩ hP le_rfl hr le_rfl hA le_rfl
    hex hee h h'
  obtain ⟨dates, hd, hlen, hrec⟩ := C105_recurrence l A e ps hP hA hr (fun k => le_trans (hex k) (hee k)) h
  obtain ⟨dates', hd', hlen', hrec'⟩ := C105_recurrence l A e' ps' hP hA hr hex h'
  rw [hd] at hd'; injection hd' with hd'; subst hd'
  induction k, hjk using Nat.le_induction with
  | base =>
    obtain ⟨a, ha, ha0, -, hb⟩ := hrec j (by omega) (by omega)
    obtain ⟨a', ha', -, -, hb'⟩ := hrec' j (by omega) (by omega)
    rw [ha'] at ha; injection ha with ha; subst ha
    have h1 := hbal j (by omega)
    have : balance l.principal ps j * (1 + a' * l.rate) ≤ balance l.principal ps' j * (1 + a' * l.rate) := by gcongr
    have h5 : balance l.principal ps' j * (1 + a' * l.rate) - (A + extraAt e' j) ≤ balance l.principal ps' (j + 1) := by
      rw [hb']; exact le_max_right _ _
    show balance l.principal ps (j + 1) ≤ max 0 (balance l.principal ps' (j + 1) - x)
    rw [hb]
    exact max_le_max le_rfl (by linarith)
  | succ k hjk ih =>
    have ih := ih (by omega)
    obtain ⟨a, ha, ha0, -, hb⟩ := hrec k (by omega) (by omega)
    obtain ⟨a', ha', -, -, hb'⟩ := hrec' k (by omega) (by omega)
    rw [ha'] at ha; injection ha with ha; subst ha
    have h3 := hee k
    have h3' := hex k
    have hnn' : 0 ≤ balance l.principal ps' k := by
      obtain ⟨_, -, -, hnn, -⟩ := C38_amortization l A e' ps' hP h'
      exact hnn k
    have har : 0 ≤ a' * l.rate := by positivity
    have h5 : balance l.principal ps' k * (1 + a' * l.rate) - (A + extraAt e' k) ≤ balance l.principal ps' (k + 1) := by
      rw [hb']; exact le_max_right _ _
    rw [hb]
    refine max_le (le_max_left _ _) ?_
    rcases le_total 0 (balance l.principal ps' k - x) with hc | hc
    · rw [max_eq_right hc] at ih
      refine le_trans ?_ (le_max_right _ _)
      nlinarith
    · rw [max_eq_left hc] at ih
      refine le_trans ?_ (le_max_left _ _)
      nlinarith

/-- Concrete case for C105: an extra 100 with the first of three payments of 400 saves 6 of interest in the second year. -/
example : exLoan.generatePaymentSchedule 400 .none = .ok
    [⟨D 2026 4 1, 400, 340, 60⟩, ⟨D 2027 4 1, 400, 1802 / 5, 198 / 5⟩, ⟨D 2028 4 1, 1498 / 5 + 2247 / 125, 1498 / 5, 2247 / 125⟩] ∧
    exLoan.generatePaymentSchedule 400 (.iterable [100]) = .ok
    [⟨D 2026 4 1, 400, 440, 60⟩, ⟨D 2027 4 1, 400, 1832 / 5, 168 / 5⟩, ⟨D 2028 4 1, 968 / 5 + 1452 / 125, 968 / 5, 1452 / 125⟩] := by
  decide +kernel
example : SameCalendar exLoan ⟨1200, 7 / 100, D 2025 3 11, .relativedelta 36 0, .thirty360, .annual, .startOfMonth, D 2028 3 11⟩ :=
  ⟨rfl, rfl, rfl, rfl, rfl⟩

end Verif.Props
