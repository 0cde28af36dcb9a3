/- Property C79: from when a loan charges interest. -/
import Verif.Props.Loan

namespace Verif.Props
open Verif Verif.Spec Verif.DayCount Verif.Scheduler

/-- C79 (what holds). After the first payment there is no gap and no overlap: the interest of payment `k+1` is charged on the
outstanding balance for exactly the time since payment `k`. -/
theorem C79_no_gaps_partial (l : Loan) (A : ℚ) (e : ExtraPayments) (ps : List LoanPayment) (hP : 0 ≤ l.principal)
    (h : l.generatePaymentSchedule A e = .ok ps) (k : Nat) (hk : k + 1 < ps.length) :
    ps[k].date < ps[k + 1].date ∧
    ∃ a, accrual ps[k].date ps[k + 1].date l.dcc = .ok a ∧
      ps[k + 1].interest = a * l.rate * balance l.principal ps (k + 1) := by
  obtain ⟨dates, hd, hlen, -, -, hall⟩ := C38_amortization l A e ps hP h
  obtain ⟨-, -, m, -, -, hm, -, -, -, hchain, -⟩ := C38_payment_dates l dates hd
  obtain ⟨e1, -, -⟩ := hall k (by omega) (by omega)
  obtain ⟨e2, ⟨a, ha, hi⟩, -⟩ := hall (k + 1) hk (by omega)
  rw [e1, e2]
  exact ⟨PyDate.addMonths_pos_lt (chain_get hchain (k + 1) (by omega)) hm, a, ha, hi⟩

/-- C79 (failure). The day of the month on which the loan was originated has no influence on anything: two loans on the same
terms, originated in the same month, have the same schedule, so the borrower who had the money 30 days longer pays no more. -/
theorem C79_same_month (l l' : Loan) (A : ℚ) (e : ExtraPayments) (hp : l.principal = l'.principal) (hr : l.rate = l'.rate)
    (ht : l.termLength = l'.termLength) (hdcc : l.dcc = l'.dcc) (hf : l.frequency = l'.frequency)
    (hpt : l.paymentTime = l'.paymentTime) (hy : l.originationDate.year = l'.originationDate.year)
    (hm : l.originationDate.month = l'.originationDate.month) :
    l.generatePaymentSchedule A e = l'.generatePaymentSchedule A e := by
  unfold Loan.generatePaymentSchedule Loan.paymentDates Loan.startDate Loan.increment
  rw [hp, hr, ht, hdcc, hf, hpt, hy, hm]

theorem start_next_month {l : Loan} {start : PyDate} (ht : l.paymentTime = .startOfMonth) (hs : l.startDate = .ok start) :
    start.day = 1 ∧ start.monthIndex = l.originationDate.monthIndex + 1 ∧ l.originationDate < start := by
  have hb := l.originationDate.bounds
  unfold Loan.startDate at hs
  rw [ht] at hs
  simp only at hs
  have key : start.day = 1 ∧ start.monthIndex = l.originationDate.monthIndex + 1 := by
    by_cases h12 : l.originationDate.month = 12
    · rw [if_pos h12] at hs
      obtain ⟨h1, h2, h3⟩ := PyDate.mk?_ok.1 hs
      refine ⟨h3, ?_⟩
      unfold PyDate.monthIndex; omega
    · rw [if_neg h12] at hs
      obtain ⟨h1, h2, h3⟩ := PyDate.mk?_ok.1 hs
      refine ⟨h3, ?_⟩
      unfold PyDate.monthIndex; omega
  refine ⟨key.1, key.2, ?_⟩
  rw [← not_le, PyDate.le_iff_month]
  omega

/-- C79 (failure). With START_OF_MONTH interest runs only from the first of the month after origination: the first interest
payment falls short of principal * rate * (time from origination to that payment) by principal * rate * (time from
origination to that first of month), which is positive and is never charged. -/
theorem C79_stub_uncharged (l : Loan) (A : ℚ) (e : ExtraPayments) (ps : List LoanPayment) (hP : 0 < l.principal)
    (hrate : 0 < l.rate) (ht : l.paymentTime = .startOfMonth) (τ : PyDate → ℚ) (hτ : timeAxis l.dcc = some τ)
    (hok : AxisOk l.dcc l.originationDate) (h : l.generatePaymentSchedule A e = .ok ps) (h0 : 0 < ps.length) :
    ∃ s : PyDate, s.day = 1 ∧ s.monthIndex = l.originationDate.monthIndex + 1 ∧
      ps[0].interest = l.principal * l.rate * (τ ps[0].date - τ l.originationDate) -
        l.principal * l.rate * (τ s - τ l.originationDate) ∧
      0 < l.principal * l.rate * (τ s - τ l.originationDate) := by
  obtain ⟨dates, hd, hlen, -, -, hall⟩ := C38_amortization l A e ps (le_of_lt hP) h
  obtain ⟨start, -, m, hs, -, hm, -, hhead, -, hchain, -⟩ := C38_payment_dates l dates hd
  obtain ⟨s1, s2, s3⟩ := start_next_month ht hs
  have hd0 : dates[0]'(by omega) = start :=
    hhead _ (by rw [List.head?_eq_getElem?, List.getElem?_eq_getElem (by omega)])
  obtain ⟨e1, ⟨a, ha, hi⟩, -⟩ := hall 0 h0 (by omega)
  have hlt := PyDate.addMonths_pos_lt (chain_get hchain 0 (by omega)) hm
  rw [accrual_axis hτ (le_of_lt hlt) (by rw [hd0]; exact AxisOk_mono (le_of_lt s3) hok)] at ha
  injection ha with ha
  have hpos := axis_strictMono hτ s3
  refine ⟨start, s1, s2, ?_, mul_pos (mul_pos hP hrate) (by linarith)⟩
  rw [hi, balance_zero, ← ha, e1, hd0]
  ring

/-- C79 (failure). With END_OF_MONTH a loan originated on a 31st accrues from the 30th, one day before it exists. -/
theorem C79_before_origination (l : Loan) (dates : List PyDate) (h : l.paymentDates = .ok dates)
    (ht : l.paymentTime = .endOfMonth) (h31 : l.originationDate.day = 31) (d : PyDate) (hd : dates.head? = some d) :
    d.ord + 1 = l.originationDate.ord := by
  obtain ⟨start, -, -, hs, -, -, -, hhead, -⟩ := C38_payment_dates l dates h
  have := hhead d hd
  subst this
  unfold Loan.startDate at hs
  rw [ht] at hs
  simp only at hs
  obtain ⟨h1, h2, h3⟩ := PyDate.mk?_ok.1 hs
  have h30 : daysInMonth l.originationDate.year 11 = 30 := rfl
  rw [h30] at h3
  simp only [PyDate.ord, h1, h2, h3, h31]
  omega

/-- C79 (failure). `present_value` of a loan raises TypeError whatever the loan and the curve. -/
theorem C79_present_value_raises (l : Loan) (discount : LoanPayment → Except PyErr ℝ) :
    l.presentValue discount = .error .typeError := rfl

/-- Two loans of 1000 at 12 % ACT/365, three yearly payments on the first of the month, originated on 1 and 31 March. -/
def earlyLoan : Loan := ⟨1000, 12 / 100, D 2025 3 1, .relativedelta 24 0, .act365, .annual, .startOfMonth, D 2027 3 1⟩
def lateLoan : Loan := ⟨1000, 12 / 100, D 2025 3 31, .relativedelta 24 0, .act365, .annual, .startOfMonth, D 2027 3 31⟩

/-- Concrete case for C79: both charge 120 on 1 April 2026, although the first ran for 396 days. -/
example : earlyLoan.generatePaymentSchedule 600 .none = lateLoan.generatePaymentSchedule 600 .none ∧
    earlyLoan.generatePaymentSchedule 600 .none = .ok
      [⟨D 2026 4 1, 600, 480, 120⟩, ⟨D 2027 4 1, 520 + 520 * (12 / 100), 520, 520 * (12 / 100)⟩] ∧
    0 < earlyLoan.rate ∧ AxisOk earlyLoan.dcc earlyLoan.originationDate ∧ earlyLoan.paymentTime = .startOfMonth ∧
    (D 2026 4 1).ord - earlyLoan.originationDate.ord = 396 := by decide +kernel
example : timeAxis earlyLoan.dcc = some (fun d => (d.ord : ℚ) / 365) := rfl
example : Loan.paymentDates ⟨1000, 6 / 100, D 2025 1 31, .relativedelta 4 0, .thirty360, .monthly, .endOfMonth, D 2025 5 31⟩ =
    .ok [D 2025 1 30, D 2025 2 28, D 2025 3 28, D 2025 4 28, D 2025 5 28] := by decide +kernel

end Verif.Props
