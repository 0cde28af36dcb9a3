/- C122: when a loan can be scheduled, how many payments it has, and when its level payment is defined. -/
import Verif.Props.Loan
import Verif.Props.UsBonds

namespace Verif.Props
open Verif Verif.Spec Verif.Scheduler Verif.DayCount

theorem dateLoop_total {m : Int} (hm : 0 < m) {e : PyDate} (h : ∀ x, x ≤ e → ∃ y, x.addMonths m = .ok y) :
    ∀ (n : Nat) (d : PyDate), 120000 < n + d.monthIndex → ∃ L, Loan.dateLoop m e n d = .ok L
  | 0, d, hn => by have := d.monthIndex_bounds; omega
  | n + 1, d, hn => by
    simp only [Loan.dateLoop]
    by_cases hd : d ≤ e
    · rw [if_pos hd]
      obtain ⟨y, hy⟩ := h d hd
      have := (PyDate.addMonths_ok.1 hy).1
      obtain ⟨L, hL⟩ := dateLoop_total hm h n y (by push_cast at hn; omega)
      exact ⟨d :: L, by rw [hy, ok_bind, hL, ok_bind]⟩
    · rw [if_neg hd]; exact ⟨[], rfl⟩

theorem paymentLoop_total {rate : ℚ} {dcc : DayCountConvention} : ∀ (items : List (ℚ × (PyDate × PyDate))) (R A : ℚ),
    (∀ it ∈ items, ∃ a, accrual it.2.1 it.2.2 dcc = .ok a) → ∃ ps, Loan.paymentLoop rate dcc R A items = .ok ps
  | [], _, _, _ => ⟨[], rfl⟩
  | (x, (sd, ed)) :: rest, R, A, h => by
    obtain ⟨a, ha⟩ := h (x, (sd, ed)) (by simp)
    simp only at ha
    simp only [Loan.paymentLoop]
    rw [ha, ok_bind]
    obtain ⟨ps, hps⟩ := paymentLoop_total (rate := rate) (dcc := dcc) rest
      (R - (if R ≤ A - a * rate * R + x then R else A - a * rate * R + x)) (if R ≤ A - a * rate * R + x then R + a * rate * R else A)
      (fun it hit => h it (by simp [hit]))
    exact ⟨_, by rw [hps, ok_bind]⟩

theorem unpackExtra_total {n : Nat} {e : ExtraPayments} (h : e ≠ .other) : ∃ xs, Loan.unpackExtra n e = .ok xs := by
  cases e with
  | none => exact ⟨_, rfl⟩
  | float x => exact ⟨_, rfl⟩
  | iterable xs =>
    simp only [Loan.unpackExtra]
    by_cases hx : xs.length ≤ n
    · rw [if_pos hx]; exact ⟨_, rfl⟩
    · rw [if_neg hx]; exact ⟨_, rfl⟩
  | other => exact absurd rfl h

/-- A loan of `M` months paid every `m` months, within the python calendar, with a day count that exists. -/
structure MonthlyTerm (l : Loan) (M m : Int) : Prop where
  frequency : l.increment = .ok m
  term : l.termLength = .relativedelta M 0
  nonneg : 0 ≤ M
  early : 2 ≤ l.originationDate.year
  late : l.originationDate.monthIndex + M ≤ 12 * 9998
  dcc : l.dcc ≠ .unknown

/-- The months from origination to the first date of the schedule: START_OF_MONTH counts from the next month. -/
def firstMonth (l : Loan) : Int := if l.paymentTime = .startOfMonth then 1 else 0

theorem startDate_total {l : Loan} (hy : l.originationDate.monthIndex ≤ 12 * 9998)
    (ht : l.paymentTime = .startOfMonth ∨ (l.paymentTime = .endOfMonth ∧ l.originationDate.month ≠ 2)) :
    ∃ s, l.startDate = .ok s ∧ s.monthIndex = l.originationDate.monthIndex + firstMonth l := by
  have hb := l.originationDate.bounds
  have h11 : daysInMonth l.originationDate.year 11 = 30 := rfl
  have hyy : l.originationDate.year ≤ 9998 := by unfold PyDate.monthIndex at hy; omega
  have mk : ∀ y m d : Int, 1 ≤ y → y ≤ 9999 → 1 ≤ m → m ≤ 12 → 1 ≤ d → d ≤ daysInMonth y m →
      12 * y + m - 1 = l.originationDate.monthIndex + firstMonth l →
      ∃ s, PyDate.mk? y m d = .ok s ∧ s.monthIndex = l.originationDate.monthIndex + firstMonth l := by
    intro y m d h1 h2 h3 h4 h5 h6 h7
    have hmk := PyDate.mk?_ok_of_valid ((PyDate.valid_iff _ _ _).2 ⟨h1, h2, h3, h4, h5, h6⟩)
    refine ⟨_, hmk, ?_⟩
    rw [← h7]
    unfold PyDate.monthIndex
    simp only
    omega
  rcases ht with ht | ⟨ht, h2⟩
  · have hf : firstMonth l = 1 := by unfold firstMonth; rw [ht, if_pos rfl]
    unfold Loan.startDate
    rw [ht]
    simp only
    by_cases h12 : l.originationDate.month = 12
    · rw [if_pos h12]
      have : daysInMonth (l.originationDate.year + 1) 1 = 31 := rfl
      exact mk _ _ _ (by omega) (by omega) (by omega) (by omega) (by omega) (by omega) (by rw [hf]; unfold PyDate.monthIndex; omega)
    · rw [if_neg h12]
      have := daysInMonth_bounds l.originationDate.year (l.originationDate.month + 1)
      exact mk _ _ _ (by omega) (by omega) (by omega) (by omega) (by omega) (by omega) (by rw [hf]; unfold PyDate.monthIndex; omega)
  · have hf : firstMonth l = 0 := by unfold firstMonth; rw [ht, if_neg (by decide)]
    unfold Loan.startDate
    rw [ht]
    simp only
    rw [h11]
    refine mk _ _ _ (by omega) (by omega) (by omega) (by omega) (by omega) ?_ (by rw [hf]; unfold PyDate.monthIndex; omega)
    have hm : l.originationDate.month = 1 ∨ l.originationDate.month = 3 ∨ l.originationDate.month = 4 ∨ l.originationDate.month = 5 ∨
      l.originationDate.month = 6 ∨ l.originationDate.month = 7 ∨ l.originationDate.month = 8 ∨ l.originationDate.month = 9 ∨
      l.originationDate.month = 10 ∨ l.originationDate.month = 11 ∨ l.originationDate.month = 12 := by omega
    rcases hm with e | e | e | e | e | e | e | e | e | e | e <;> rw [e] <;> simp [daysInMonth]

theorem chain_months_up {m : Int} {L : List PyDate} (h : List.IsChain (fun x y => x.addMonths m = .ok y) L) (j : Nat)
    (hj : j < L.length) : L[j].monthIndex = (L[0]'(by omega)).monthIndex + j * m ∧ L[j].day ≤ (L[0]'(by omega)).day := by
  induction j with
  | zero => simp
  | succ j ih =>
    obtain ⟨h1, h2⟩ := ih (by omega)
    obtain ⟨e1, e2⟩ := PyDate.addMonths_ok.1 (chain_get h j hj)
    refine ⟨?_, by omega⟩
    rw [e1, h1]; push_cast; ring

/-- C122. Which loans can be scheduled: START_OF_MONTH loans, and END_OF_MONTH loans not originated in February; whatever the
payment amount and the extra payments, there are then exactly `M / m` (rounded down) payments, one every `m` months. -/
theorem C122_schedule (l : Loan) (M m : Int) (h : MonthlyTerm l M m) (A : ℚ) (e : ExtraPayments) (he : e ≠ .other) :
    ((∃ ps, l.generatePaymentSchedule A e = .ok ps) ↔
      l.paymentTime = .startOfMonth ∨ (l.paymentTime = .endOfMonth ∧ l.originationDate.month ≠ 2)) ∧
    ∀ ps, l.generatePaymentSchedule A e = .ok ps → (ps.length : Int) = M / m ∧
      ∀ k (hk : k < ps.length), ps[k].date.monthIndex = l.originationDate.monthIndex + firstMonth l + (k + 1) * m := by
  have hb := l.originationDate.bounds
  obtain ⟨hmpos, hm12⟩ := increment_pos h.frequency
  have hm_le : m ≤ 12 := by
    have := h.frequency
    unfold Loan.increment at this
    cases hf : l.frequency <;> rw [hf] at this <;> simp only at this <;> cases this <;> decide
  have hlate := h.late
  have hnn := h.nonneg
  have hiff : (∃ ps, l.generatePaymentSchedule A e = .ok ps) ↔
      l.paymentTime = .startOfMonth ∨ (l.paymentTime = .endOfMonth ∧ l.originationDate.month ≠ 2) := by
    constructor
    · rintro ⟨ps, hps⟩
      cases ht : l.paymentTime with
      | startOfMonth => exact .inl rfl
      | fixedDate => rw [C40_rejected l A e (.inr ht)] at hps; cases hps
      | endOfMonth =>
        refine .inr ⟨rfl, ?_⟩
        intro h2
        rw [C40_rejected l A e (.inl ⟨ht, h2⟩)] at hps; cases hps
    · intro ht
      have hfm : 0 ≤ firstMonth l ∧ firstMonth l ≤ 1 := by unfold firstMonth; split_ifs <;> omega
      obtain ⟨start, hs, hsm⟩ := startDate_total (by omega) ht
      obtain ⟨stop, hstop⟩ := PyDate.addMonths_total (d := start) (k := M) (by have := start.monthIndex_bounds; omega) (by omega)
      have hstm := (PyDate.addMonths_ok.1 hstop).1
      obtain ⟨dates, hdates⟩ := dateLoop_total hmpos (e := stop) (by
        intro x hx
        rw [PyDate.le_iff_month] at hx
        exact PyDate.addMonths_total (by have := x.monthIndex_bounds; omega) (by omega)) Loan.dateFuel start
        (by have := start.monthIndex_bounds; unfold Loan.dateFuel; omega)
      have hpd : l.paymentDates = .ok dates := by
        unfold Loan.paymentDates
        rw [hs, ok_bind, h.term, addIncrement_months.2 hstop, ok_bind, h.frequency, ok_bind, hdates]
      obtain ⟨xs, hxs⟩ := unpackExtra_total (n := dates.length) he
      obtain ⟨-, hhead, hchain, -, -⟩ := dateLoop_spec hdates
      obtain ⟨ps, hps⟩ := paymentLoop_total (rate := l.rate) (dcc := l.dcc) (xs.zip (Loan.pairwise dates)) l.principal A (by
        rintro ⟨x, p⟩ hit
        have hp := (List.of_mem_zip hit).2
        obtain ⟨i, hi, rfl⟩ := List.getElem_of_mem hp
        have hi' : i + 1 < dates.length := by rw [pairwise_length] at hi; omega
        rw [pairwise_get dates i hi' hi]
        simp only
        refine usAccrual_ok h.dcc ?_ (PyDate.addMonths_pos_lt (chain_get hchain i hi') hmpos).le
        have h1 := (chain_months_up hchain i (by omega)).1
        have h0 : dates[0] = start := hhead _ (by rw [List.head?_eq_getElem?, List.getElem?_eq_getElem (by omega)])
        rw [h0] at h1
        have hpos : 0 ≤ (i : Int) * m := by positivity
        have hbi := dates[i].bounds
        have hy := h.early
        unfold PyDate.monthIndex at h1 hsm
        omega)
      refine ⟨ps, ?_⟩
      unfold Loan.generatePaymentSchedule
      rw [hpd, ok_bind, hxs, ok_bind, hps]
  refine ⟨hiff, ?_⟩
  intro ps hps
  have ht := hiff.1 ⟨ps, hps⟩
  have hfm : 0 ≤ firstMonth l ∧ firstMonth l ≤ 1 := by unfold firstMonth; split_ifs <;> omega
  obtain ⟨start, hs, hsm⟩ := startDate_total (by omega) ht
  obtain ⟨dates, items, hd, hloop, hlen, hitems, hget⟩ := schedule_items hps
  obtain ⟨start', stop, m', hs', hstop, hm', hm12', hhead, hle, hchain, hempty, hlast⟩ := C38_payment_dates l dates hd
  rw [hs] at hs'; injection hs' with hs'; subst hs'
  have hmm : m' = m := by
    have hv : (l.frequency.value : Int) ≠ 0 := by intro e0; rw [e0] at hm12; simp at hm12
    exact mul_right_cancel₀ hv (by rw [hm12, hm12'])
  subst hmm
  rw [h.term] at hstop
  obtain ⟨hst1, hst2⟩ := PyDate.addMonths_ok.1 (addIncrement_months.1 hstop)
  have hne : dates ≠ [] := by
    intro e0
    have hlt := hempty e0
    rw [PyDate.lt_iff_month] at hlt
    have := start.bounds
    rcases hlt with hlt | ⟨he1, hlt⟩
    · omega
    · obtain ⟨f1, f2⟩ := PyDate.monthIndex_fields he1
      rw [f1, f2] at hst2
      omega
  have hpos : 0 < dates.length := List.length_pos_iff.2 hne
  have h0 : dates[0] = start := hhead _ (by rw [List.head?_eq_getElem?, List.getElem?_eq_getElem hpos])
  obtain ⟨y, hy, hsy⟩ := hlast (dates[dates.length - 1]'(by omega))
    (by rw [List.getLast?_eq_getElem?, List.getElem?_eq_getElem (by omega)])
  obtain ⟨l1, l2⟩ := chain_months_up hchain (dates.length - 1) (by omega)
  have hlel := hle _ (List.getElem_mem (show dates.length - 1 < dates.length by omega))
  obtain ⟨y1, y2⟩ := PyDate.addMonths_ok.1 hy
  rw [h0] at l1 l2
  have hcast : ((dates.length - 1 : Nat) : Int) = (dates.length : Int) - 1 := by omega
  rw [hcast] at l1
  have hpslen : ps.length = dates.length - 1 := by
    rw [paymentLoop_length hloop]; omega
  have hlow : ((dates.length : Int) - 1) * m' ≤ M := by
    rw [PyDate.le_iff_month] at hlel
    omega
  have hup : M < (dates.length : Int) * m' := by
    have hymi : y.monthIndex = start.monthIndex + (dates.length : Int) * m' := by rw [y1, l1]; ring
    rw [PyDate.lt_iff_month] at hsy
    rcases hsy with hsy | ⟨he1, hsy⟩
    · omega
    · obtain ⟨f1, f2⟩ := PyDate.monthIndex_fields he1
      rw [f1, f2] at hst2
      omega
  refine ⟨?_, ?_⟩
  · rw [hpslen, hcast]
    symm
    rw [Int.ediv_eq_iff_of_pos hmpos]
    constructor
    · linarith
    · nlinarith
  · intro k hk
    have hk' : k + 1 < dates.length := by omega
    obtain ⟨-, -, hdt, -⟩ := paymentLoop_interest hloop k hk (by omega)
    rw [hget k (by omega) hk'] at hdt
    rw [hdt, (chain_months_up hchain (k + 1) hk').1, h0, hsm]
    push_cast
    ring

/-- C122. The level payment of a loan over a positive number of months is defined unless the rate is zero: it is positive, it solves
the annuity equation over the loan's length `years` in the loan's day count, and at a positive rate it exceeds one period's interest on
the whole principal. -/
theorem C122_amount (l : Loan) (M m : Int) (h : MonthlyTerm l M m) (hM : 1 ≤ M)
    (hend : addIncrement l.originationDate l.termLength = .ok l.endDate)
    (hP : 0 < l.principal) (hrate : l.rate ≠ 0) (hrate' : -(l.frequency.value : ℚ) < l.rate) :
    ∃ (years : ℚ) (A : ℝ), accrual l.originationDate l.endDate l.dcc = .ok years ∧ 0 < years ∧
      l.calculateFixedPaymentAmount = .ok A ∧ 0 < A ∧
      A * (1 - (1 + (l.rate : ℝ) / l.frequency.value) ^ (-((years : ℝ) * l.frequency.value))) =
        l.principal * l.rate / l.frequency.value ∧
      (0 < l.rate → (l.principal * l.rate / l.frequency.value : ℝ) < A) := by
  have hv : 0 < l.frequency.value := by
    rcases Nat.eq_zero_or_pos l.frequency.value with e0 | e0
    · have := (increment_pos h.frequency).2
      rw [e0] at this; simp at this
    · exact e0
  rw [h.term] at hend
  have hem := addIncrement_months.1 hend
  have hmi := (PyDate.addMonths_ok.1 hem).1
  have hlt : l.originationDate.monthIndex < l.endDate.monthIndex := by omega
  obtain ⟨years, hyears⟩ := usAccrual_ok h.dcc h.early (PyDate.lt_iff_month.2 (.inl hlt)).le
  have hy0 := accrual_pos_of_months hlt hyears
  have hf : (0 : ℝ) < l.frequency.value := by exact_mod_cast hv
  have hr : (l.rate : ℝ) ≠ 0 := by exact_mod_cast hrate
  have hr' : -(l.frequency.value : ℝ) < l.rate := by exact_mod_cast hrate'
  have hPr : (0 : ℝ) < l.principal := by exact_mod_cast hP
  have hyr : (0 : ℝ) < years := by exact_mod_cast hy0
  have hbase : 0 < 1 + (l.rate : ℝ) / l.frequency.value := by
    have : -1 < (l.rate : ℝ) / l.frequency.value := by rw [lt_div_iff₀ hf]; linarith
    linarith
  have hexp : 0 < (years : ℝ) * l.frequency.value := by positivity
  have hcpos : 0 < (1 + (l.rate : ℝ) / l.frequency.value) ^ ((years : ℝ) * l.frequency.value) := Real.rpow_pos_of_pos hbase _
  have hneg : (1 + (l.rate : ℝ) / l.frequency.value) ^ (-((years : ℝ) * l.frequency.value)) =
      ((1 + (l.rate : ℝ) / l.frequency.value) ^ ((years : ℝ) * l.frequency.value))⁻¹ := Real.rpow_neg hbase.le _
  have hgt : 0 < (l.rate : ℝ) → 1 < (1 + (l.rate : ℝ) / l.frequency.value) ^ ((years : ℝ) * l.frequency.value) := by
    intro hp
    exact Real.one_lt_rpow (by have : 0 < (l.rate : ℝ) / l.frequency.value := by positivity
                               linarith) hexp
  have hlt1 : (l.rate : ℝ) < 0 → (1 + (l.rate : ℝ) / l.frequency.value) ^ ((years : ℝ) * l.frequency.value) < 1 := by
    intro hp
    exact Real.rpow_lt_one hbase.le (by have : (l.rate : ℝ) / l.frequency.value < 0 := div_neg_of_neg_of_pos hp hf
                                        linarith) hexp
  obtain ⟨c, hc⟩ : ∃ c, (1 + (l.rate : ℝ) / l.frequency.value) ^ ((years : ℝ) * l.frequency.value) = c := ⟨_, rfl⟩
  rw [hc] at hcpos hgt hlt1 hneg
  have hc1 : c ≠ 1 := by
    rcases lt_or_gt_of_ne hr with hp | hp
    · exact (hlt1 hp).ne
    · exact (hgt hp).ne'
  have hnr : -(l.rate : ℝ) / l.frequency.value ≠ 0 := div_ne_zero (neg_ne_zero.2 hr) hf.ne'
  have hden : (1 - c) / (-(l.rate : ℝ) / l.frequency.value) ≠ 0 := div_ne_zero (sub_ne_zero.2 hc1.symm) hnr
  have hdpos : 0 < (1 - c) / (-(l.rate : ℝ) / l.frequency.value) := by
    rcases lt_or_gt_of_ne hr with hp | hp
    · exact div_pos (by have := hlt1 hp; linarith) (div_pos (by linarith) hf)
    · exact div_pos_of_neg_of_neg (by have := hgt hp; linarith) (div_neg_of_neg_of_pos (by linarith) hf)
  refine ⟨years, (l.principal : ℝ) * c / ((1 - c) / (-(l.rate : ℝ) / l.frequency.value)), hyears, hy0, ?_, ?_, ?_, ?_⟩
  · unfold Loan.calculateFixedPaymentAmount
    rw [hyears, ok_bind]
    simp only
    rw [if_neg hv.ne', hc, if_neg hnr, if_neg hden]
  · positivity
  · rw [hneg]
    have h1c : (1 - c) ≠ 0 := sub_ne_zero.2 hc1.symm
    have hf' := hf.ne'
    have hc' := hcpos.ne'
    field_simp
    ring
  · intro hp
    have hp' : (0 : ℝ) < l.rate := by exact_mod_cast hp
    have h1 := hgt hp'
    have e : (l.principal : ℝ) * c / ((1 - c) / (-(l.rate : ℝ) / l.frequency.value)) =
        (l.principal * l.rate / l.frequency.value) * (c / (c - 1)) := by
      have h1c : (1 - c) ≠ 0 := sub_ne_zero.2 hc1.symm
      have h2c : (c - 1) ≠ 0 := sub_ne_zero.2 hc1
      have hf' := hf.ne'
      rw [show 1 - c = -(c - 1) by ring]
      field_simp
    rw [e]
    have h3 : 1 < c / (c - 1) := by rw [lt_div_iff₀ (by linarith)]; linarith
    have h4 : 0 < (l.principal : ℝ) * l.rate / l.frequency.value := by positivity
    nlinarith

/-- Concrete case: the three-year loan of C38 (START_OF_MONTH), and a ten-month quarterly END_OF_MONTH loan with three payments. -/
example : MonthlyTerm exLoan 36 12 ∧ exLoan.paymentTime = .startOfMonth ∧
    addIncrement exLoan.originationDate exLoan.termLength = .ok exLoan.endDate ∧ 0 < exLoan.principal ∧ exLoan.rate ≠ 0 ∧
    -(exLoan.frequency.value : ℚ) < exLoan.rate :=
  ⟨⟨rfl, rfl, by decide, by decide +kernel, by decide +kernel, by decide⟩, rfl, by decide +kernel, by decide +kernel, by decide +kernel,
    by decide +kernel⟩

/-- A quarterly loan of ten months originated on 11 November 2025. -/
def exQuarterly : Loan := ⟨900, 4 / 100, D 2025 11 11, .relativedelta 10 0, .actAct, .quarterly, .endOfMonth, D 2026 9 11⟩

example : MonthlyTerm exQuarterly 10 3 ∧ (10 : Int) / 3 = 3 ∧
    exQuarterly.paymentDates = .ok [D 2025 11 30, D 2026 2 28, D 2026 5 28, D 2026 8 28] ∧ exQuarterly.originationDate.month ≠ 2 :=
  ⟨⟨rfl, rfl, by decide, by decide +kernel, by decide +kernel, by decide⟩, by decide, by decide +kernel, by decide +kernel⟩

end Verif.Props
