/- Property C100: loan amortization in floating point. -/
import Verif.Model.RoundedLoan
import Verif.Spec.RoundedLoan
import Verif.Props.Loan
import Verif.Props.Rounded

namespace Verif.Props
open Verif Verif.Spec Verif.DayCount

variable {rnd : ℚ → ℚ} {u tiny : ℚ}

theorem ledger_zero (P : ℚ) (ps : List LoanPayment) : ledger rnd P ps 0 = P := by simp [ledger]

theorem ledger_cons (P : ℚ) (p : LoanPayment) (ps : List LoanPayment) (k : Nat) :
    ledger rnd P (p :: ps) (k + 1) = ledger rnd (rnd (P - p.principal)) ps k := by
  simp [ledger]

theorem ledger_succ (P : ℚ) (ps : List LoanPayment) (k : Nat) (hk : k < ps.length) :
    ledger rnd P ps (k + 1) = rnd (ledger rnd P ps k - ps[k].principal) := by
  induction ps generalizing P k with
  | nil => simp at hk
  | cons p ps ih =>
    rw [ledger_cons]
    cases k with
    | zero => simp [ledger_zero]
    | succ k => rw [ledger_cons, ih _ k (by simpa using hk)]; simp

theorem ledger_id (P : ℚ) (ps : List LoanPayment) (k : Nat) : ledger id P ps k = balance P ps k := by
  induction ps generalizing P k with
  | nil => simp [ledger, balance]
  | cons p ps ih =>
    cases k with
    | zero => rw [ledger_zero, balance_zero]
    | succ k => rw [ledger_cons, balance_cons, ih]; rfl

theorem roundedLoop_cons {rate R A extra : ℚ} {dcc : DayCountConvention} {sd ed : PyDate}
    {rest : List (ℚ × (PyDate × PyDate))} {ps : List LoanPayment}
    (h : Rounded.paymentLoop rnd rate dcc R A ((extra, (sd, ed)) :: rest) = .ok ps) :
    ∃ a i c ps', Rounded.accrual rnd sd ed dcc = .ok a ∧ i = rnd (rnd (a * rate) * R) ∧ c = rnd (rnd (A - i) + extra) ∧
      ((R ≤ c ∧ ps = ⟨ed, rnd (R + i), R, i⟩ :: ps' ∧
          Rounded.paymentLoop rnd rate dcc (rnd (R - R)) (rnd (R + i)) rest = .ok ps') ∨
       (c < R ∧ ps = ⟨ed, A, c, i⟩ :: ps' ∧ Rounded.paymentLoop rnd rate dcc (rnd (R - c)) A rest = .ok ps')) := by
  simp only [Rounded.paymentLoop] at h
  rw [bind_ok] at h
  obtain ⟨a, ha, h⟩ := h
  rw [bind_ok] at h
  obtain ⟨ps', hps, h⟩ := h
  injection h with h
  refine ⟨a, _, _, ps', ha, rfl, rfl, ?_⟩
  by_cases hc : R ≤ rnd (rnd (A - rnd (rnd (a * rate) * R)) + extra)
  · rw [if_pos hc, if_pos hc] at hps h
    exact Or.inl ⟨hc, h.symm, hps⟩
  · rw [if_neg hc, if_neg hc] at hps h
    exact Or.inr ⟨not_le.1 hc, h.symm, hps⟩

theorem roundedLoop_length {rate R A : ℚ} {dcc : DayCountConvention} {items : List (ℚ × (PyDate × PyDate))}
    {ps : List LoanPayment} (h : Rounded.paymentLoop rnd rate dcc R A items = .ok ps) : ps.length = items.length := by
  induction items generalizing R A ps with
  | nil => cases h; rfl
  | cons it rest ih =>
    obtain ⟨extra, sd, ed⟩ := it
    obtain ⟨a, i, c, ps', -, -, -, ⟨-, rfl, h'⟩ | ⟨-, rfl, h'⟩⟩ := roundedLoop_cons h <;> simp [ih h']

theorem Rounding.of_nonneg (R : Rounding rnd u tiny) {x y : ℚ} (h : x ≤ y) : 0 ≤ rnd (y - x) := R.nonneg (by linarith)

/-- Every period of the loop: dates, interest, and a principal part never above what is owed. -/
theorem roundedLoop_period (h0 : rnd 0 = 0) (hm : Monotone rnd) {rate R A : ℚ} {dcc : DayCountConvention}
    {items : List (ℚ × (PyDate × PyDate))} {ps : List LoanPayment} (h : Rounded.paymentLoop rnd rate dcc R A items = .ok ps)
    (hR : 0 ≤ R) (k : Nat) (hk : k < ps.length) (hk' : k < items.length) :
    0 ≤ ledger rnd R ps k ∧ ps[k].principal ≤ ledger rnd R ps k ∧ ps[k].date = items[k].2.2 ∧
      (∃ a, Rounded.accrual rnd items[k].2.1 items[k].2.2 dcc = .ok a ∧
        ps[k].interest = rnd (rnd (a * rate) * ledger rnd R ps k)) := by
  induction items generalizing R A ps k with
  | nil => simp at hk'
  | cons it rest ih =>
    obtain ⟨extra, sd, ed⟩ := it
    obtain ⟨a, i, c, ps', ha, hi, -, ⟨hc, rfl, h'⟩ | ⟨hc, rfl, h'⟩⟩ := roundedLoop_cons h
    all_goals
      cases k with
      | zero => exact ⟨by rwa [ledger_zero], by rw [ledger_zero]; first | exact le_refl _ | exact le_of_lt hc, rfl,
          a, ha, by rw [ledger_zero]; exact hi⟩
      | succ k =>
        have hn : 0 ≤ rnd (R - R) := by rw [sub_self, h0]
        have hn' : c < R → 0 ≤ rnd (R - c) := fun hc => by
          have := hm (show (0 : ℚ) ≤ R - c by linarith); rwa [h0] at this
        have := ih h' (by first | exact hn | exact hn' hc) k (by simpa using hk) (by simpa using hk')
        rw [ledger_cons]
        simpa using this

theorem ledger_nonneg (h0 : rnd 0 = 0) (hm : Monotone rnd) {rate R A : ℚ} {dcc : DayCountConvention}
    {items : List (ℚ × (PyDate × PyDate))} {ps : List LoanPayment} (h : Rounded.paymentLoop rnd rate dcc R A items = .ok ps)
    (hR : 0 ≤ R) (k : Nat) : 0 ≤ ledger rnd R ps k := by
  induction items generalizing R A ps k with
  | nil => cases h; simpa [ledger] using hR
  | cons it rest ih =>
    obtain ⟨extra, sd, ed⟩ := it
    cases k with
    | zero => rwa [ledger_zero]
    | succ k =>
      obtain ⟨a, i, c, ps', -, -, -, ⟨hc, rfl, h'⟩ | ⟨hc, rfl, h'⟩⟩ := roundedLoop_cons h
      · rw [ledger_cons]; exact ih h' (by rw [sub_self, h0]) k
      · rw [ledger_cons]
        refine ih h' ?_ k
        have := hm (show (0 : ℚ) ≤ R - c by linarith)
        rwa [h0] at this

theorem roundedLoop_split (h0 : rnd 0 = 0) {rate R A : ℚ} {dcc : DayCountConvention} {items : List (ℚ × (PyDate × PyDate))}
    {ps : List LoanPayment} (h : Rounded.paymentLoop rnd rate dcc R A items = .ok ps) (k : Nat) (hk : k < ps.length)
    (hk' : k < items.length) (hopen : ∀ j, j < k → 0 < ledger rnd R ps (j + 1)) :
    (ps[k].principal = rnd (rnd (A - ps[k].interest) + items[k].1) ∧ ps[k].principal < ledger rnd R ps k ∧ ps[k].payment = A) ∨
    (ledger rnd R ps k ≤ rnd (rnd (A - ps[k].interest) + items[k].1) ∧ ps[k].principal = ledger rnd R ps k ∧
      ps[k].payment = rnd (ps[k].principal + ps[k].interest) ∧ ledger rnd R ps (k + 1) = 0) := by
  induction items generalizing R A ps k with
  | nil => simp at hk'
  | cons it rest ih =>
    obtain ⟨extra, sd, ed⟩ := it
    obtain ⟨a, i, c, ps', ha, hi, hcc, ⟨hc, rfl, h'⟩ | ⟨hc, rfl, h'⟩⟩ := roundedLoop_cons h
    · cases k with
      | zero =>
        right
        rw [ledger_zero, ledger_cons, ledger_zero]
        exact ⟨by simpa [← hcc] using hc, rfl, rfl, by simp [h0]⟩
      | succ k =>
        exfalso
        have := hopen 0 (by omega)
        rw [ledger_cons, ledger_zero] at this
        simp [h0] at this
    · cases k with
      | zero => left; rw [ledger_zero]; exact ⟨by simpa using hcc, hc, rfl⟩
      | succ k =>
        have := ih h' k (by simpa using hk) (by simpa using hk') (by
          intro j hj
          have := hopen (j + 1) (by omega)
          rwa [ledger_cons] at this)
        rw [ledger_cons, ledger_cons]
        simpa using this

theorem roundedLoop_after (h0 : rnd 0 = 0) (hm : Monotone rnd) {rate A : ℚ} {dcc : DayCountConvention}
    {items : List (ℚ × (PyDate × PyDate))}
    {ps : List LoanPayment} (h : Rounded.paymentLoop rnd rate dcc 0 A items = .ok ps) (hA : 0 ≤ A)
    (hex : ∀ it ∈ items, 0 ≤ it.1) : ∀ p ∈ ps, p.payment = 0 ∧ p.principal = 0 ∧ p.interest = 0 := by
  have hp : ∀ {x : ℚ}, 0 ≤ x → 0 ≤ rnd x := fun hx => by have := hm hx; rwa [h0] at this
  induction items generalizing A ps with
  | nil => cases h; simp
  | cons it rest ih =>
    obtain ⟨extra, sd, ed⟩ := it
    have he := hex (extra, (sd, ed)) (by simp)
    simp only at he
    obtain ⟨a, i, c, ps', ha, hi, hcc, ⟨hc, rfl, h'⟩ | ⟨hc, rfl, h'⟩⟩ := roundedLoop_cons h
    all_goals rw [mul_zero, h0] at hi; subst hi
    · intro p hp'
      rw [add_zero, h0] at h'
      rw [sub_zero, h0] at h'
      rcases List.mem_cons.1 hp' with rfl | hp'
      · simp [h0]
      · exact ih h' (le_refl _) (fun it hit => hex it (by simp [hit])) p hp'
    · exfalso
      rw [sub_zero] at hcc
      have := hp (add_nonneg (hp hA) he)
      rw [← hcc] at this
      linarith

theorem rounded_items {l : Loan} {A : ℚ} {e : ExtraPayments} {ps : List LoanPayment}
    (h : Rounded.generatePaymentSchedule rnd l A e = .ok ps) :
    ∃ dates items, l.paymentDates = .ok dates ∧ Rounded.paymentLoop rnd l.rate l.dcc l.principal A items = .ok ps ∧
      items.length = dates.length - 1 ∧ (∀ it ∈ items, ∃ k, it.1 = extraAt e k) ∧
      ∀ k (hk : k < items.length) (hk' : k + 1 < dates.length),
        items[k] = (extraAt e k, (dates[k], dates[k + 1])) := by
  unfold Rounded.generatePaymentSchedule at h
  rw [bind_ok] at h
  obtain ⟨dates, hd, h⟩ := h
  rw [bind_ok] at h
  obtain ⟨extras, he, h⟩ := h
  have hlen := unpackExtra_length he
  have hl2 : (extras.zip (Loan.pairwise dates)).length = dates.length - 1 := by
    rw [List.length_zip, pairwise_length, hlen]; omega
  have hget : ∀ k (hk : k < (extras.zip (Loan.pairwise dates)).length) (hk' : k + 1 < dates.length),
      (extras.zip (Loan.pairwise dates))[k] = (extraAt e k, (dates[k], dates[k + 1])) := by
    intro k hk hk'
    rw [List.getElem_zip, unpackExtra_get he, pairwise_get dates k hk']
  refine ⟨dates, _, hd, h, hl2, ?_, hget⟩
  intro it hit
  obtain ⟨k, hk, rfl⟩ := List.getElem_of_mem hit
  exact ⟨k, by rw [hget k hk (by omega)]⟩

/-- C100. In floating point the schedule still has one payment per period, dated at the period's end; the balance, kept by
rounded subtraction of the principal parts, is never negative and no principal part exceeds it; until the loan is paid off a
payment is the agreed amount, unless the balance is no more than the principal part this allows, in which case the principal part
is exactly the balance, and the balance becomes exactly zero. -/
theorem C100_amortization (R : Rounding rnd u tiny) (l : Loan) (A : ℚ) (e : ExtraPayments) (ps : List LoanPayment)
    (hP : 0 ≤ l.principal) (h : Rounded.generatePaymentSchedule rnd l A e = .ok ps) :
    ∃ dates, l.paymentDates = .ok dates ∧ ps.length = dates.length - 1 ∧ (∀ k, 0 ≤ ledger rnd l.principal ps k) ∧
      ∀ k (hk : k < ps.length) (hk' : k + 1 < dates.length),
        ps[k].date = dates[k + 1] ∧ ps[k].principal ≤ ledger rnd l.principal ps k ∧
        (∃ a, Rounded.accrual rnd dates[k] dates[k + 1] l.dcc = .ok a ∧
          ps[k].interest = rnd (rnd (a * l.rate) * ledger rnd l.principal ps k)) ∧
        ((∀ j, j < k → 0 < ledger rnd l.principal ps (j + 1)) →
          (ps[k].payment = A ∧ ps[k].principal = rnd (rnd (A - ps[k].interest) + extraAt e k) ∧
            ps[k].principal < ledger rnd l.principal ps k) ∨
          (ledger rnd l.principal ps k ≤ rnd (rnd (A - ps[k].interest) + extraAt e k) ∧
            ps[k].principal = ledger rnd l.principal ps k ∧ ps[k].payment = rnd (ps[k].principal + ps[k].interest) ∧
            ledger rnd l.principal ps (k + 1) = 0)) := by
  obtain ⟨dates, items, hd, hloop, hlen, -, hget⟩ := rounded_items h
  have hpl := roundedLoop_length hloop
  refine ⟨dates, hd, by omega, ledger_nonneg R.zero R.mono hloop hP, ?_⟩
  intro k hk hk'
  have hki : k < items.length := by omega
  have hg := hget k hki hk'
  obtain ⟨-, h1, h2, h3⟩ := roundedLoop_period R.zero R.mono hloop hP k hk hki
  rw [hg] at h2 h3
  refine ⟨h2, h1, h3, fun hopen => ?_⟩
  have hs := roundedLoop_split R.zero hloop k hk hki hopen
  rw [hg] at hs
  rcases hs with ⟨s1, s2, s3⟩ | s
  · exact Or.inl ⟨s3, s1, s2⟩
  · exact Or.inr s

/-! ## Accruals of a loan's periods -/

/-- The rounded accrual exists exactly when the exact one does. -/
theorem rounded_accrual_exists {s e : PyDate} {dcc : DayCountConvention} {x : ℚ} (h : Rounded.accrual rnd s e dcc = .ok x) :
    ∃ a, accrual s e dcc = .ok a := by
  unfold Rounded.accrual at h
  by_cases hse : s ≤ e
  · rw [if_pos hse] at h
    rw [accrual_eq hse]
    cases dcc with
    | act360 => exact ⟨_, rfl⟩
    | act365 => exact ⟨_, rfl⟩
    | act36525 => exact ⟨_, rfl⟩
    | thirty360 => exact ⟨_, rfl⟩
    | unknown => cases h
    | actAct =>
      have bs := s.bounds
      have be := e.bounds
      by_cases h1 : s.year = 1
      · exfalso
        simp only [Rounded.actAct] at h
        rw [bind_ok] at h
        obtain ⟨_, -, h⟩ := h
        rw [h1, show PyDate.mk? (1 - 1) 12 31 = .error .valueError from rfl, bind_ok] at h
        obtain ⟨_, h, -⟩ := h
        cases h
      · have hy : s.year ≤ e.year := year_mono hse
        exact ⟨_, actAct_eq (by omega) (by omega)⟩
  · rw [if_neg hse] at h
    cases h

theorem rounded_accrual_close (R : Rounding rnd u tiny) {s e : PyDate} {dcc : DayCountConvention} {a : ℚ}
    (h : accrual s e dcc = .ok a) (ha : 0 ≤ a) :
    ∃ x, Rounded.accrual rnd s e dcc = .ok x ∧ 0 ≤ x ∧ |x - a| ≤ 4 * u * a := by
  have u0 := R.u_nonneg
  by_cases hse : s ≤ e
  · have key : ∀ τ, timeAxis dcc = some τ → AxisOk dcc s →
        ∃ x, Rounded.accrual rnd s e dcc = .ok x ∧ 0 ≤ x ∧ |x - a| ≤ 4 * u * a := by
      intro τ hτ hs
      obtain ⟨x, hx, hn⟩ := rounded_accrual R hτ hse hs
      rw [accrual_axis hτ hse hs] at h
      injection h with h
      rw [h] at hn
      exact ⟨x, hx, hn.nonneg R.u_lt ha, hn.abs_err u0 R.u_small ha⟩
    have hno : dcc ≠ .actAct → AxisOk dcc s := fun hd hd' => absurd hd' hd
    cases dcc with
    | act360 => exact key _ rfl (hno (by decide))
    | act365 => exact key _ rfl (hno (by decide))
    | act36525 => exact key _ rfl (hno (by decide))
    | actAct =>
      refine key _ rfl fun _ => ?_
      have bs := s.bounds
      by_contra hc
      rw [accrual_eq hse] at h
      simp only at h
      rw [actAct_year_one (Or.inl (by omega))] at h
      cases h
    | thirty360 =>
      rw [accrual_eq hse] at h
      have h' : (thirty360Days s e : ℚ) / 360 = a := by
        simp only [thirty360] at h
        injection h
      refine ⟨rnd (thirty360Days s e / 360), ?_, ?_, ?_⟩
      · unfold Rounded.accrual; rw [if_pos hse]
      · rw [h']; exact R.nonneg ha
      · rw [h']
        rcases eq_or_lt_of_le ha with h0 | h0
        · rw [← h0, R.zero]; simp
        · have hd : (1 : ℤ) ≤ thirty360Days s e := by
            by_contra hc
            have : (thirty360Days s e : ℚ) ≤ 0 := by exact_mod_cast (by omega : thirty360Days s e ≤ 0)
            linarith
          have hd' : (1 : ℚ) ≤ thirty360Days s e := by exact_mod_cast hd
          have ht := R.tiny_small
          have h360 : (1 : ℚ) / 2 ^ 100 ≤ 1 / 360 := by norm_num
          have := R.err a (by rw [abs_of_pos h0]; linarith)
          rw [abs_of_pos h0] at this
          have := mul_nonneg u0 ha
          linarith
    | unknown => rw [accrual_eq hse] at h; cases h
  · rw [accrual_gt (not_le.1 hse)] at h
    cases h

/-- The accruals of a loan's periods are nonnegative. -/
theorem loan_accruals {l : Loan} {dates : List PyDate} (hd : l.paymentDates = .ok dates) (k : Nat) (hk : k + 1 < dates.length)
    {a : ℚ} (ha : accrual dates[k] dates[k + 1] l.dcc = .ok a) : 0 ≤ a := by
  obtain ⟨-, -, m, -, -, hm, -, -, -, hchain, -⟩ := C38_payment_dates l dates hd
  exact accrual_months_nonneg hm (chain_get hchain k hk) ha

theorem loan_rounded_accruals (R : Rounding rnd u tiny) {l : Loan} {dates : List PyDate} (hd : l.paymentDates = .ok dates) (k : Nat)
    (hk : k + 1 < dates.length) {a : ℚ} (ha : Rounded.accrual rnd dates[k] dates[k + 1] l.dcc = .ok a) : 0 ≤ a := by
  obtain ⟨b, hb⟩ := rounded_accrual_exists ha
  obtain ⟨x, hx, h0, -⟩ := rounded_accrual_close R hb (loan_accruals hd k hk hb)
  rw [hx] at ha
  injection ha with ha
  rwa [← ha]

theorem roundedLoop_paid_off (R : Rounding rnd u tiny) {rate r A : ℚ} {dcc : DayCountConvention}
    {items : List (ℚ × (PyDate × PyDate))} {ps : List LoanPayment} (h : Rounded.paymentLoop rnd rate dcc r A items = .ok ps)
    (hR : 0 ≤ r) (hA : 0 ≤ A) (hrate : 0 ≤ rate) (hex : ∀ it ∈ items, 0 ≤ it.1)
    (hacc : ∀ it ∈ items, ∀ a, Rounded.accrual rnd it.2.1 it.2.2 dcc = .ok a → 0 ≤ a)
    (j : Nat) (hj : ledger rnd r ps j = 0) (k : Nat) (hjk : j ≤ k) (hk : k < ps.length) :
    ps[k].payment = 0 ∧ ps[k].principal = 0 ∧ ps[k].interest = 0 := by
  induction items generalizing r A ps j k with
  | nil => cases h; simp at hk
  | cons it rest ih =>
    cases j with
    | zero =>
      rw [ledger_zero] at hj
      subst hj
      exact roundedLoop_after R.zero R.mono h hA hex _ (List.getElem_mem hk)
    | succ j =>
      obtain ⟨extra, sd, ed⟩ := it
      obtain ⟨k', rfl⟩ : ∃ k', k = k' + 1 := ⟨k - 1, by omega⟩
      obtain ⟨a, i, c, ps', ha, hi, hcc, ⟨hc, rfl, h'⟩ | ⟨hc, rfl, h'⟩⟩ := roundedLoop_cons h
      · rw [ledger_cons] at hj
        have ha0 := hacc (extra, (sd, ed)) (by simp) a ha
        have hi0 : 0 ≤ i := by rw [hi]; exact R.nonneg (mul_nonneg (R.nonneg (mul_nonneg ha0 hrate)) hR)
        have := ih h' (R.nonneg (by simp)) (R.nonneg (add_nonneg hR hi0)) (fun it hit => hex it (by simp [hit]))
          (fun it hit => hacc it (by simp [hit])) j (by simpa using hj) k' (by omega) (by simpa using hk)
        simpa using this
      · rw [ledger_cons] at hj
        have := ih h' (R.nonneg (by linarith)) hA (fun it hit => hex it (by simp [hit]))
          (fun it hit => hacc it (by simp [hit])) j (by simpa using hj) k' (by omega) (by simpa using hk)
        simpa using this

/-- C100. Once the balance is zero it stays zero in floating point too: every later payment, principal part and interest part is
exactly zero. -/
theorem C100_paid_off (R : Rounding rnd u tiny) (l : Loan) (A : ℚ) (e : ExtraPayments) (ps : List LoanPayment)
    (hP : 0 ≤ l.principal) (hA : 0 ≤ A) (hrate : 0 ≤ l.rate) (hex : ∀ k, 0 ≤ extraAt e k)
    (h : Rounded.generatePaymentSchedule rnd l A e = .ok ps) (j k : Nat) (hj : ledger rnd l.principal ps j = 0) (hjk : j ≤ k)
    (hk : k < ps.length) : ps[k].payment = 0 ∧ ps[k].principal = 0 ∧ ps[k].interest = 0 := by
  obtain ⟨dates, items, hd, hloop, hlen, hitems, hget⟩ := rounded_items h
  refine roundedLoop_paid_off R hloop hP hA hrate ?_ ?_ j hj k hjk hk
  · intro it hit
    obtain ⟨k, hk⟩ := hitems it hit
    rw [hk]; exact hex k
  · intro it hit a ha
    obtain ⟨i, hi, rfl⟩ := List.getElem_of_mem hit
    have hi' : i + 1 < dates.length := by omega
    rw [hget i hi hi'] at ha
    exact loan_rounded_accruals R hd i hi' ha

/-! ## Against the exact schedule -/

/-- With exact arithmetic the rounded loop is the exact one. -/
theorem roundedLoop_id (rate : ℚ) (dcc : DayCountConvention) : ∀ (items : List (ℚ × (PyDate × PyDate))) (R A : ℚ),
    Rounded.paymentLoop id rate dcc R A items = Loan.paymentLoop rate dcc R A items
  | [], _, _ => rfl
  | (x, (sd, ed)) :: rest, R, A => by
    simp only [Rounded.paymentLoop, Loan.paymentLoop, rounded_accrual_id, id]
    congr 1
    funext a
    rw [roundedLoop_id rate dcc rest]

/-- C100. With exact arithmetic the floating-point schedule is the exact one, the schedule of C38-C40. -/
theorem C100_exact (l : Loan) (A : ℚ) (e : ExtraPayments) :
    Rounded.generatePaymentSchedule id l A e = l.generatePaymentSchedule A e := by
  unfold Rounded.generatePaymentSchedule Loan.generatePaymentSchedule
  simp only [roundedLoop_id]

/-- One period, as long as the amount is the agreed one or the loan is paid off. -/
theorem roundedLoop_step (h0 : rnd 0 = 0) (hm : Monotone rnd) {rate r A A' x : ℚ} {dcc : DayCountConvention} {sd ed : PyDate}
    {rest : List (ℚ × (PyDate × PyDate))} {ps : List LoanPayment}
    (h : Rounded.paymentLoop rnd rate dcc r A' ((x, (sd, ed)) :: rest) = .ok ps) (hr : 0 ≤ r) (hA : 0 ≤ A) (hx : 0 ≤ x)
    (hrate : 0 ≤ rate) (hacc : ∀ a, Rounded.accrual rnd sd ed dcc = .ok a → 0 ≤ a) (hinv : A' = A ∨ (r = 0 ∧ 0 ≤ A')) :
    ∃ a i c ps' A'' pay, Rounded.accrual rnd sd ed dcc = .ok a ∧ i = rnd (rnd (a * rate) * r) ∧ c = rnd (rnd (A - i) + x) ∧
      ps = ⟨ed, pay, min r c, i⟩ :: ps' ∧ Rounded.paymentLoop rnd rate dcc (rnd (r - min r c)) A'' rest = .ok ps' ∧
      (A'' = A ∨ (rnd (r - min r c) = 0 ∧ 0 ≤ A'')) := by
  have hp : ∀ {x : ℚ}, 0 ≤ x → 0 ≤ rnd x := fun hx => by have := hm hx; rwa [h0] at this
  obtain ⟨a, i, c, ps', ha, hi, hcc, hor⟩ := roundedLoop_cons h
  have hi0 : 0 ≤ i := by rw [hi]; exact hp (mul_nonneg (hp (mul_nonneg (hacc a ha) hrate)) hr)
  rcases hinv with rfl | ⟨rfl, hA'⟩
  · rcases hor with ⟨hc, rfl, h'⟩ | ⟨hc, rfl, h'⟩
    · refine ⟨a, i, c, ps', rnd (r + i), _, ha, hi, hcc, by rw [min_eq_left hc], by rwa [min_eq_left hc], Or.inr ?_⟩
      rw [min_eq_left hc, sub_self, h0]
      exact ⟨rfl, hp (add_nonneg hr hi0)⟩
    · exact ⟨a, i, c, ps', A', _, ha, hi, hcc, by rw [min_eq_right hc.le], by rwa [min_eq_right hc.le], Or.inl rfl⟩
  · have hi' := hi
    rw [mul_zero, h0] at hi'
    subst hi'
    have hc0 : 0 ≤ rnd (rnd (A - 0) + x) := hp (add_nonneg (hp (by linarith)) hx)
    rcases hor with ⟨hc, rfl, h'⟩ | ⟨hc, rfl, h'⟩
    · refine ⟨a, 0, rnd (rnd (A - 0) + x), ps', rnd (0 + 0), _, ha, hi, rfl, by rw [min_eq_left hc0], by rwa [min_eq_left hc0],
        Or.inr ?_⟩
      rw [min_eq_left hc0, sub_self, h0]
      exact ⟨rfl, hp (by simp)⟩
    · exfalso
      have : 0 ≤ c := by rw [hcc]; exact hp (add_nonneg (hp (by linarith)) hx)
      linarith

theorem roundedLoop_ok {rate : ℚ} {dcc : DayCountConvention} : ∀ {items : List (ℚ × (PyDate × PyDate))},
    (∀ it ∈ items, ∃ a, Rounded.accrual rnd it.2.1 it.2.2 dcc = .ok a) →
    ∀ r A, ∃ ps, Rounded.paymentLoop rnd rate dcc r A items = .ok ps
  | [], _, _, _ => ⟨_, rfl⟩
  | (x, (sd, ed)) :: rest, h, r, A => by
    obtain ⟨a, ha⟩ := h (x, (sd, ed)) (by simp)
    simp only [Rounded.paymentLoop]
    rw [ha, ok_bind]
    obtain ⟨ps, hps⟩ := roundedLoop_ok (rate := rate) (items := rest) (fun it hit => h it (by simp [hit]))
      (rnd (r - if r ≤ rnd (rnd (A - rnd (rnd (a * rate) * r)) + x) then r else rnd (rnd (A - rnd (rnd (a * rate) * r)) + x)))
      (if r ≤ rnd (rnd (A - rnd (rnd (a * rate) * r)) + x) then rnd (r + rnd (rnd (a * rate) * r)) else A)
    exact ⟨_, by rw [hps, ok_bind]⟩

theorem roundedLoop_accruals {rate : ℚ} {dcc : DayCountConvention} : ∀ {items : List (ℚ × (PyDate × PyDate))} {r A : ℚ}
    {ps : List LoanPayment}, Rounded.paymentLoop rnd rate dcc r A items = .ok ps →
    ∀ it ∈ items, ∃ a, Rounded.accrual rnd it.2.1 it.2.2 dcc = .ok a
  | [], _, _, _, _, it, hit => by simp at hit
  | (x, (sd, ed)) :: rest, r, A, ps, h, it, hit => by
    obtain ⟨a, i, c, ps', ha, -, -, hor⟩ := roundedLoop_cons h
    rcases List.mem_cons.1 hit with rfl | hit
    · exact ⟨a, ha⟩
    · rcases hor with ⟨-, -, h'⟩ | ⟨-, -, h'⟩ <;> exact roundedLoop_accruals h' it hit

/-- The rounding error of one interest part that the agreed amount `A` covers. -/
theorem interest_error (R : Rounding rnd u tiny) {a a' rate r P A : ℚ} (ha : 0 ≤ a) (ha' : 0 ≤ a') (hclose : |a' - a| ≤ 4 * u * a)
    (hrate : 0 ≤ rate) (hr : 0 ≤ r) (hrP : r ≤ P) (hA : rnd (rnd (a' * rate) * r) ≤ A) :
    |rnd (rnd (a' * rate) * r) - a * rate * r| ≤ 7 * u * A + 4 * tiny * (1 + P) := by
  have u0 := R.u_nonneg
  have us : u ≤ 1 / 10000 := le_trans R.u_small (by norm_num)
  have t0 := R.tiny_pos
  have hrr : 0 ≤ rate * r := mul_nonneg hrate hr
  set v := a * rate * r with hv
  set v' := a' * rate * r with hv'
  set q := rnd (a' * rate) with hq
  set w := q * r with hw
  set i := rnd w with hi
  have q0 : 0 ≤ q := R.nonneg (mul_nonneg ha' hrate)
  have v0 : 0 ≤ v := mul_nonneg (mul_nonneg ha hrate) hr
  have v0' : 0 ≤ v' := mul_nonneg (mul_nonneg ha' hrate) hr
  have w0 : 0 ≤ w := mul_nonneg q0 hr
  have i0 : 0 ≤ i := R.nonneg w0
  have e1 : |v' - v| ≤ 4 * u * v := by
    have : v' - v = (a' - a) * (rate * r) := by rw [hv, hv']; ring
    rw [this, abs_mul, abs_of_nonneg hrr]
    calc |a' - a| * (rate * r) ≤ 4 * u * a * (rate * r) := mul_le_mul_of_nonneg_right hclose hrr
      _ = 4 * u * v := by rw [hv]; ring
  have e2 : |w - v'| ≤ u * v' + 2 * tiny * r := by
    have := R.abs_err (a' * rate)
    rw [abs_of_nonneg (mul_nonneg ha' hrate)] at this
    have h2 : w - v' = (q - a' * rate) * r := by rw [hw, hv']; ring
    rw [h2, abs_mul, abs_of_nonneg hr]
    calc |q - a' * rate| * r ≤ (u * (a' * rate) + 2 * tiny) * r := mul_le_mul_of_nonneg_right this hr
      _ = u * v' + 2 * tiny * r := by rw [hv']; ring
  have e3 : |i - w| ≤ u * w + 2 * tiny := by
    have := R.abs_err w
    rwa [abs_of_nonneg w0] at this
  have hT : 0 ≤ tiny * r := mul_nonneg t0.le hr
  have hTP : tiny * r ≤ tiny * P := mul_le_mul_of_nonneg_left hrP t0.le
  have uw : u * w ≤ 1 / 10000 * w := mul_le_mul_of_nonneg_right us w0
  have uv' : u * v' ≤ 1 / 10000 * v' := mul_le_mul_of_nonneg_right us v0'
  have uv : u * v ≤ 1 / 10000 * v := mul_le_mul_of_nonneg_right us v0
  have b1 := abs_le.1 e1
  have b2 := abs_le.1 e2
  have b3 := abs_le.1 e3
  have w1 : w ≤ 1.001 * (A + 2 * tiny) := by linarith
  have w2 : v' ≤ 1.003 * (A + 2 * tiny) + 2.01 * (tiny * r) := by linarith
  have w3 : v ≤ 1.005 * (A + 2 * tiny) + 2.02 * (tiny * r) := by linarith
  have x1 : u * w ≤ u * (1.001 * (A + 2 * tiny)) := mul_le_mul_of_nonneg_left w1 u0
  have x2 : u * v' ≤ u * (1.003 * (A + 2 * tiny) + 2.01 * (tiny * r)) := mul_le_mul_of_nonneg_left w2 u0
  have x3 : u * v ≤ u * (1.005 * (A + 2 * tiny) + 2.02 * (tiny * r)) := mul_le_mul_of_nonneg_left w3 u0
  have y1 : u * tiny ≤ 1 / 10000 * tiny := mul_le_mul_of_nonneg_right us t0.le
  have y2 : u * (tiny * r) ≤ 1 / 10000 * (tiny * r) := mul_le_mul_of_nonneg_right us hT
  have uA : 0 ≤ u * A := mul_nonneg u0 (le_trans i0 hA)
  have tri : |i - v| ≤ |i - w| + |w - v'| + |v' - v| := by
    have h1 := abs_sub_le i w v
    have h2 := abs_sub_le w v' v
    linarith
  refine le_trans tri ?_
  nlinarith

/-- The rounding error of the principal part allowed by an amount `A` covering the interest. -/
theorem candidate_error (R : Rounding rnd u tiny) {i x A : ℚ} (hi : 0 ≤ i) (hiA : i ≤ A) (hx : 0 ≤ x) (hA : rnd A = A) :
    0 ≤ rnd (rnd (A - i) + x) ∧ |rnd (rnd (A - i) + x) - (A - i + x)| ≤ u * (2 * A + x) + 4 * tiny := by
  have u0 := R.u_nonneg
  have hs0 : 0 ≤ rnd (A - i) := R.nonneg (by linarith)
  have hsA : rnd (A - i) ≤ A := by
    have := R.mono (show A - i ≤ A by linarith)
    rwa [hA] at this
  have e1 := R.abs_err (A - i)
  have e2 := R.abs_err (rnd (A - i) + x)
  rw [abs_of_nonneg (by linarith : 0 ≤ A - i)] at e1
  rw [abs_of_nonneg (by linarith : 0 ≤ rnd (A - i) + x)] at e2
  refine ⟨R.nonneg (by linarith), ?_⟩
  have h1 : u * (A - i) ≤ u * A := mul_le_mul_of_nonneg_left (by linarith) u0
  have h2 : u * (rnd (A - i) + x) ≤ u * (A + x) := mul_le_mul_of_nonneg_left (by linarith) u0
  have tri := abs_sub_le (rnd (rnd (A - i) + x)) (rnd (A - i) + x) (A - i + x)
  have e : rnd (A - i) + x - (A - i + x) = rnd (A - i) - (A - i) := by ring
  rw [e] at tri
  linarith

/-- The error one period may add: a few roundings of numbers no larger than the principal, the amount and the extra payment. -/
def periodError (u tiny P A X : ℚ) : ℚ := 9 * u * (P + A + X) + 10 * tiny * (1 + P)

/-- The error after `k` periods, when each adds at most `δ` and interest lets it grow by the factor `g`. -/
def accumulated (g δ : ℚ) (k : Nat) : ℚ := δ * ∑ j ∈ Finset.range k, g ^ j

theorem min_close {r c R C ε : ℚ} (h1 : |r - R| ≤ ε) (h2 : |c - C| ≤ ε) : |min r c - min R C| ≤ ε :=
  le_trans (abs_min_sub_min_le_max r c R C) (max_le h1 h2)

theorem roundedLoop_close (W : Rounding rnd u tiny) {rate P A X g : ℚ} {dcc : DayCountConvention} (hrate : 0 ≤ rate)
    (hA : 0 ≤ A) (hP : 0 ≤ P) (hrP : rnd P = P) (hrA : rnd A = A) (hg : 1 ≤ g) (hX : 0 ≤ X) :
    ∀ (items : List (ℚ × (PyDate × PyDate))) (r A1 R A2 E : ℚ) (ps qs : List LoanPayment),
    Rounded.paymentLoop rnd rate dcc r A1 items = .ok ps → Rounded.paymentLoop id rate dcc R A2 items = .ok qs →
    (A1 = A ∨ (r = 0 ∧ 0 ≤ A1)) → (A2 = A ∨ (R = 0 ∧ 0 ≤ A2)) → 0 ≤ r → r ≤ P → 0 ≤ R → 0 ≤ E → |r - R| ≤ E →
    (∀ it ∈ items, 0 ≤ it.1 ∧ it.1 ≤ X) →
    (∀ it ∈ items, ∀ a, accrual it.2.1 it.2.2 dcc = .ok a → 0 ≤ a ∧ 1 + a * rate ≤ g) →
    (∀ it ∈ items, ∀ a, Rounded.accrual rnd it.2.1 it.2.2 dcc = .ok a → rnd (rnd (a * rate) * P) ≤ A) →
    ∀ k, |ledger rnd r ps k - ledger id R qs k| ≤ E * g ^ k + accumulated g (periodError u tiny P A X) k ∧
      ∀ (hk : k < ps.length) (hk' : k < qs.length),
        |ps[k].interest - qs[k].interest| ≤ E * g ^ (k + 1) + accumulated g (periodError u tiny P A X) (k + 1) ∧
        |ps[k].principal - qs[k].principal| ≤ E * g ^ (k + 1) + accumulated g (periodError u tiny P A X) (k + 1) := by
  have u0 := W.u_nonneg
  have t0 := W.tiny_pos
  intro items
  induction items with
  | nil =>
    intro r A1 R A2 E ps qs h1 h2 _ _ _ _ _ hE hrR _ _ _ k
    cases h1
    cases h2
    refine ⟨?_, fun hk => absurd hk (by simp)⟩
    simp only [ledger, List.take_nil, List.foldl_nil]
    have h1 : 0 ≤ accumulated g (periodError u tiny P A X) k := by
      unfold accumulated periodError; positivity
    have h2 : E * 1 ≤ E * g ^ k := mul_le_mul_of_nonneg_left (one_le_pow₀ hg) hE
    linarith
  | cons it rest ih =>
    obtain ⟨x, sd, ed⟩ := it
    intro r A1 R A2 E ps qs h1 h2 inv1 inv2 hr0 hrle hR0 hE hrR hex hacc hcov k
    obtain ⟨hx0, hxX⟩ := hex (x, (sd, ed)) (by simp)
    simp only at hx0 hxX
    have hax := fun a => hacc (x, (sd, ed)) (by simp) a
    have hcv := fun a => hcov (x, (sd, ed)) (by simp) a
    simp only at hax hcv
    have hidacc : ∀ a, Rounded.accrual id sd ed dcc = .ok a → 0 ≤ a := fun a ha => by
      rw [rounded_accrual_id] at ha; exact (hax a ha).1
    have hrndacc : ∀ a, Rounded.accrual rnd sd ed dcc = .ok a → 0 ≤ a := fun a ha => by
      obtain ⟨b, hb⟩ := rounded_accrual_exists ha
      obtain ⟨y, hy, hy0, -⟩ := rounded_accrual_close W hb (hax b hb).1
      rw [hy] at ha
      injection ha with ha
      rwa [← ha]
    obtain ⟨a', i, c, ps', B1, pay, ha', hi, hc, rfl, h1', inv1'⟩ :=
      roundedLoop_step W.zero W.mono h1 hr0 hA hx0 hrate hrndacc inv1
    obtain ⟨a, I, C, qs', B2, pay', ha, hI, hC, rfl, h2', inv2'⟩ :=
      roundedLoop_step (rnd := id) rfl monotone_id h2 hR0 hA hx0 hrate hidacc inv2
    rw [rounded_accrual_id] at ha
    obtain ⟨a0, hag⟩ := hax a ha
    obtain ⟨y, hy, hy0, hclose⟩ := rounded_accrual_close W ha a0
    rw [ha'] at hy
    injection hy with hy
    subst hy
    simp only [id] at hI hC
    have hiA : i ≤ A := by
      rw [hi]
      refine le_trans (W.mono (mul_le_mul_of_nonneg_left hrle (W.nonneg (mul_nonneg hy0 hrate)))) (hcv a' ha')
    have hi0 : 0 ≤ i := by rw [hi]; exact W.nonneg (mul_nonneg (W.nonneg (mul_nonneg hy0 hrate)) hr0)
    have ei := interest_error W (A := A) a0 hy0 hclose hrate hr0 hrle (by rw [← hi]; exact hiA)
    rw [← hi] at ei
    obtain ⟨hc0, ec⟩ := candidate_error W hi0 hiA hx0 hrA
    rw [← hc] at hc0 ec
    have hR0' : 0 ≤ id (R - min R C) := by simp only [id]; linarith [min_le_left R C]
    have hm0 : 0 ≤ min r c := le_min hr0 hc0
    have hr1 : 0 ≤ rnd (r - min r c) := W.nonneg (by linarith [min_le_left r c])
    have hr2 : rnd (r - min r c) ≤ P := by
      have := W.mono (show r - min r c ≤ P by linarith)
      rwa [hrP] at this
    set δ := periodError u tiny P A X with hδ
    have ar0 : 0 ≤ a * rate := mul_nonneg a0 hrate
    have uP := mul_nonneg u0 hP
    have uA := mul_nonneg u0 hA
    have uX := mul_nonneg u0 hX
    have ux : u * x ≤ u * X := mul_le_mul_of_nonneg_left hxX u0
    have tP := mul_nonneg t0.le hP
    have hgE : a * rate * E ≤ (g - 1) * E := mul_le_mul_of_nonneg_right (by linarith) hE
    have hgr : |a * rate * r - a * rate * R| ≤ (g - 1) * E := by
      rw [← mul_sub, abs_mul, abs_of_nonneg ar0]
      exact le_trans (mul_le_mul_of_nonneg_left hrR ar0) hgE
    have bi := abs_le.1 ei
    have bc := abs_le.1 ec
    have br := abs_le.1 hgr
    have brR := abs_le.1 hrR
    have hδe : δ = 9 * (u * P) + 9 * (u * A) + 9 * (u * X) + 10 * tiny + 10 * (tiny * P) := by rw [hδ]; unfold periodError; ring
    have hδ0 : 0 ≤ δ := by rw [hδe]; positivity
    have ki : |i - I| ≤ g * E + δ := by
      rw [hI]
      exact abs_le.2 ⟨by linarith, by linarith⟩
    have kc : |c - C| ≤ g * E + δ := by
      rw [hC, hI]
      exact abs_le.2 ⟨by linarith, by linarith⟩
    have hE1 : E ≤ g * E + δ := by nlinarith
    have kp : |min r c - min R C| ≤ g * E + δ := min_close (le_trans hrR hE1) kc
    have kl : |rnd (r - min r c) - id (R - min R C)| ≤ g * E + δ := by
      simp only [id]
      have e1 := W.abs_err (r - min r c)
      rw [abs_of_nonneg (by linarith [min_le_left r c] : 0 ≤ r - min r c)] at e1
      have e2 : u * (r - min r c) ≤ u * P := mul_le_mul_of_nonneg_left (by linarith) u0
      have e3 : |(r - min r c) - (R - min R C)| ≤ g * E + (δ - u * P - 2 * tiny) := by
        have f1 : r - min r c = max 0 (r - c) := by
          rcases le_total r c with h | h
          · rw [min_eq_left h, max_eq_left (by linarith)]; ring
          · rw [min_eq_right h, max_eq_right (by linarith)]
        have f2 : R - min R C = max 0 (R - C) := by
          rcases le_total R C with h | h
          · rw [min_eq_left h, max_eq_left (by linarith)]; ring
          · rw [min_eq_right h, max_eq_right (by linarith)]
        rw [f1, f2]
        refine le_trans (abs_max_sub_max_le_max 0 (r - c) 0 (R - C)) (max_le ?_ ?_)
        · rw [sub_self, abs_zero]
          have : 0 ≤ g * E := mul_nonneg (by linarith) hE
          linarith
        · rw [hC, hI]
          exact abs_le.2 ⟨by linarith, by linarith⟩
      have tri := abs_sub_le (rnd (r - min r c)) (r - min r c) (R - min R C)
      linarith
    have hE' : 0 ≤ g * E + δ := le_trans hE hE1
    have shift : ∀ n, (g * E + δ) * g ^ n + accumulated g δ n = E * g ^ (n + 1) + accumulated g δ (n + 1) := by
      intro n
      unfold accumulated
      rw [Finset.sum_range_succ]
      ring
    have rec_ := ih _ B1 _ B2 (g * E + δ) ps' qs' h1' h2' inv1' inv2' hr1 hr2 hR0' hE' kl (fun it hit => hex it (by simp [hit]))
      (fun it hit => hacc it (by simp [hit])) (fun it hit => hcov it (by simp [hit]))
    cases k with
    | zero =>
      rw [ledger_zero, ledger_zero]
      refine ⟨by simpa [accumulated] using hrR, fun _ _ => ?_⟩
      rw [← shift 0]
      simp only [List.getElem_cons_zero, pow_zero, mul_one, accumulated, Finset.range_zero, Finset.sum_empty, mul_zero, add_zero]
      exact ⟨ki, kp⟩
    | succ k =>
      obtain ⟨r1, r2⟩ := rec_ k
      rw [ledger_cons, ledger_cons, ← shift k]
      refine ⟨r1, fun hk hk' => ?_⟩
      have := r2 (by simpa using hk) (by simpa using hk')
      rw [← shift (k + 1)]
      simpa using this

/-- The amount covers, in every period and as computed in floating point, the interest on the whole principal. -/
def CoversInterest (rnd : ℚ → ℚ) (l : Loan) (A : ℚ) (dates : List PyDate) : Prop :=
  ∀ k (hk : k + 1 < dates.length) (a : ℚ), Rounded.accrual rnd dates[k] dates[k + 1] l.dcc = .ok a →
    rnd (rnd (a * l.rate) * l.principal) ≤ A

/-- C100. For a loan whose payment covers the interest, the schedule computed in floating point exists whenever the exact one does,
and every balance, interest part and principal part is within the accumulated rounding error of the exact one: a few units in the
last place of the largest amount per period, growing with the interest rate. -/
theorem C100_close (W : Rounding rnd u tiny) (l : Loan) (A X g : ℚ) (e : ExtraPayments) (qs : List LoanPayment)
    (dates : List PyDate) (hd : l.paymentDates = .ok dates) (hP : 0 ≤ l.principal) (hA : 0 ≤ A) (hrate : 0 ≤ l.rate)
    (hex : ∀ k, 0 ≤ extraAt e k ∧ extraAt e k ≤ X) (hrP : rnd l.principal = l.principal) (hrA : rnd A = A)
    (hcov : CoversInterest rnd l A dates)
    (hg : ∀ k (hk : k + 1 < dates.length) (a : ℚ), accrual dates[k] dates[k + 1] l.dcc = .ok a → 1 + a * l.rate ≤ g)
    (hg1 : 1 ≤ g) (h : l.generatePaymentSchedule A e = .ok qs) :
    ∃ ps, Rounded.generatePaymentSchedule rnd l A e = .ok ps ∧ ps.length = qs.length ∧
      (∀ k, |ledger rnd l.principal ps k - balance l.principal qs k| ≤ accumulated g (periodError u tiny l.principal A X) k) ∧
      ∀ k (hk : k < ps.length) (hk' : k < qs.length),
        |ps[k].interest - qs[k].interest| ≤ accumulated g (periodError u tiny l.principal A X) (k + 1) ∧
        |ps[k].principal - qs[k].principal| ≤ accumulated g (periodError u tiny l.principal A X) (k + 1) := by
  obtain ⟨dates', items, hd', hloop, hlen, hitems, hget⟩ := schedule_items h
  rw [hd] at hd'
  injection hd' with hd'
  subst hd'
  rw [← roundedLoop_id] at hloop
  have hacc : ∀ it ∈ items, ∃ k, ∃ hk : k + 1 < dates.length, it = (extraAt e k, (dates[k], dates[k + 1])) := by
    intro it hit
    obtain ⟨i, hi, rfl⟩ := List.getElem_of_mem hit
    exact ⟨i, by omega, hget i hi (by omega)⟩
  have hok : ∀ it ∈ items, ∃ a, Rounded.accrual rnd it.2.1 it.2.2 l.dcc = .ok a := by
    intro it hit
    obtain ⟨a, ha⟩ := roundedLoop_accruals hloop it hit
    rw [rounded_accrual_id] at ha
    obtain ⟨k, hk, rfl⟩ := hacc it hit
    obtain ⟨y, hy, -⟩ := rounded_accrual_close W ha (loan_accruals hd k hk ha)
    exact ⟨y, hy⟩
  obtain ⟨ps, hps⟩ := roundedLoop_ok (rate := l.rate) hok l.principal A
  have hfloat : Rounded.generatePaymentSchedule rnd l A e = .ok ps := by
    unfold Loan.generatePaymentSchedule at h
    rw [bind_ok] at h
    obtain ⟨dates', hd', h⟩ := h
    rw [hd] at hd'
    injection hd' with hd'
    subst hd'
    rw [bind_ok] at h
    obtain ⟨extras, he, -⟩ := h
    have hl := unpackExtra_length he
    have : items = extras.zip (Loan.pairwise dates) := by
      apply List.ext_getElem
      · rw [List.length_zip, pairwise_length, hlen]; omega
      · intro k hk hk'
        rw [hget k hk (by omega), List.getElem_zip, unpackExtra_get he, pairwise_get dates k (by omega)]
    unfold Rounded.generatePaymentSchedule
    rw [hd, ok_bind, he, ok_bind, ← this]
    exact hps
  have hX : 0 ≤ X := le_trans (hex 0).1 (hex 0).2
  have key := roundedLoop_close W hrate hA hP hrP hrA hg1 hX items _ _ _ _ 0 ps qs hps hloop (Or.inl rfl) (Or.inl rfl) hP le_rfl hP
    le_rfl (by simp)
    (fun it hit => by obtain ⟨k, hk, rfl⟩ := hacc it hit; exact hex k)
    (fun it hit a ha => by
      obtain ⟨k, hk, rfl⟩ := hacc it hit
      exact ⟨loan_accruals hd k hk ha, hg k hk a ha⟩)
    (fun it hit a ha => by obtain ⟨k, hk, rfl⟩ := hacc it hit; exact hcov k hk a ha)
  refine ⟨ps, hfloat, by rw [roundedLoop_length hps, roundedLoop_length hloop], fun k => ?_, fun k hk hk' => ?_⟩
  · have := (key k).1
    rwa [ledger_id, zero_mul, zero_add] at this
  · have := (key k).2 hk hk'
    rwa [zero_mul, zero_add] at this

theorem roundedLoop_declines (W : Rounding rnd u tiny) {rate P A : ℚ} {dcc : DayCountConvention} (hrate : 0 ≤ rate)
    (hA : 0 ≤ A) (hP : 0 ≤ P) :
    ∀ (items : List (ℚ × (PyDate × PyDate))) (r A1 : ℚ) (ps : List LoanPayment),
    Rounded.paymentLoop rnd rate dcc r A1 items = .ok ps → (A1 = A ∨ (r = 0 ∧ 0 ≤ A1)) → 0 ≤ r → r ≤ P → rnd r = r →
    (∀ it ∈ items, 0 ≤ it.1) → (∀ it ∈ items, ∀ a, Rounded.accrual rnd it.2.1 it.2.2 dcc = .ok a → 0 ≤ a) →
    (∀ it ∈ items, ∀ a, Rounded.accrual rnd it.2.1 it.2.2 dcc = .ok a → rnd (rnd (a * rate) * P) ≤ A) →
    ∀ k, (k < ps.length → ledger rnd r ps (k + 1) ≤ ledger rnd r ps k) ∧ (∀ hk : k < ps.length, 0 ≤ ps[k].principal) ∧
      (k ≤ ps.length → |balance r ps k - ledger rnd r ps k| ≤ k * (u * P + 2 * tiny)) := by
  have u0 := W.u_nonneg
  have t0 := W.tiny_pos
  intro items
  induction items with
  | nil =>
    intro r A1 ps h1 _ _ _ _ _ _ _ k
    cases h1
    refine ⟨fun hk => absurd hk (by simp), fun hk => absurd hk (by simp), fun hk => ?_⟩
    have : k = 0 := by simpa using hk
    subst this
    simp [balance, ledger]
  | cons it rest ih =>
    obtain ⟨x, sd, ed⟩ := it
    intro r A1 ps h1 inv1 hr0 hrle hrr hex hacc hcov k
    have hx0 := hex (x, (sd, ed)) (by simp)
    have hax := fun a => hacc (x, (sd, ed)) (by simp) a
    have hcv := fun a => hcov (x, (sd, ed)) (by simp) a
    simp only at hax hcv hx0
    obtain ⟨a', i, c, ps', B1, pay, ha', hi, hc, rfl, h1', inv1'⟩ :=
      roundedLoop_step W.zero W.mono h1 hr0 hA hx0 hrate hax inv1
    have hy0 := hax a' ha'
    have hiA : i ≤ A := by
      rw [hi]
      refine le_trans (W.mono (mul_le_mul_of_nonneg_left hrle (W.nonneg (mul_nonneg hy0 hrate)))) (hcv a' ha')
    have hc0 : 0 ≤ c := by
      rw [hc]
      exact W.nonneg (add_nonneg (W.nonneg (by linarith)) hx0)
    have hm0 : 0 ≤ min r c := le_min hr0 hc0
    have hr1 : 0 ≤ rnd (r - min r c) := W.nonneg (by linarith [min_le_left r c])
    have hr2 : rnd (r - min r c) ≤ r := by
      have := W.mono (show r - min r c ≤ r by linarith)
      rwa [hrr] at this
    have rec_ := ih _ B1 ps' h1' inv1' hr1 (le_trans hr2 hrle) (W.idem _) (fun it hit => hex it (by simp [hit]))
      (fun it hit => hacc it (by simp [hit])) (fun it hit => hcov it (by simp [hit]))
    cases k with
    | zero =>
      refine ⟨fun _ => ?_, fun _ => hm0, fun _ => by simp [balance, ledger]⟩
      rw [ledger_cons, ledger_zero, ledger_zero]
      exact hr2
    | succ k =>
      obtain ⟨r1, r2, r3⟩ := rec_ k
      refine ⟨fun hk => ?_, fun hk => by simpa using r2 (by simpa using hk), fun hk => ?_⟩
      · rw [ledger_cons, ledger_cons]
        exact r1 (by simpa using hk)
      · have h3 := r3 (by simpa using hk)
        rw [balance_cons, ledger_cons]
        simp only
        have e1 := W.abs_err (r - min r c)
        rw [abs_of_nonneg (by linarith [min_le_left r c] : 0 ≤ r - min r c)] at e1
        have e2 : u * (r - min r c) ≤ u * P := mul_le_mul_of_nonneg_left (by linarith) u0
        have e3 : balance (r - min r c) ps' k - balance (rnd (r - min r c)) ps' k = (r - min r c) - rnd (r - min r c) := by
          unfold balance; ring
        have tri := abs_sub_le (balance (r - min r c) ps' k) (balance (rnd (r - min r c)) ps' k) (ledger rnd (rnd (r - min r c)) ps' k)
        rw [e3, abs_sub_comm (r - min r c)] at tri
        push_cast
        linarith

/-- C100. When the payment covers the interest, the floating-point balance never rises, no principal part is negative, and the
principal parts paid and the balance left add up to the principal within `k` roundings; so the parts of a loan paid off within
`n` periods sum to the principal within `n` units of rounding of it. -/
theorem C100_principal_repaid (W : Rounding rnd u tiny) (l : Loan) (A : ℚ) (e : ExtraPayments) (ps : List LoanPayment)
    (dates : List PyDate) (hd : l.paymentDates = .ok dates) (hP : 0 ≤ l.principal) (hA : 0 ≤ A) (hrate : 0 ≤ l.rate)
    (hex : ∀ k, 0 ≤ extraAt e k) (hrP : rnd l.principal = l.principal) (hcov : CoversInterest rnd l A dates)
    (h : Rounded.generatePaymentSchedule rnd l A e = .ok ps) :
    (∀ k, k < ps.length → ledger rnd l.principal ps (k + 1) ≤ ledger rnd l.principal ps k) ∧ (∀ p ∈ ps, 0 ≤ p.principal) ∧
      (∀ k, k ≤ ps.length → |l.principal - ((ps.take k).map LoanPayment.principal).sum - ledger rnd l.principal ps k| ≤
        k * (u * l.principal + 2 * tiny)) ∧
      (ledger rnd l.principal ps ps.length = 0 →
        |(ps.map LoanPayment.principal).sum - l.principal| ≤ ps.length * (u * l.principal + 2 * tiny)) := by
  obtain ⟨dates', items, hd', hloop, hlen, hitems, hget⟩ := rounded_items h
  rw [hd] at hd'
  injection hd' with hd'
  subst hd'
  have hacc : ∀ it ∈ items, ∃ k, ∃ hk : k + 1 < dates.length, it = (extraAt e k, (dates[k], dates[k + 1])) := by
    intro it hit
    obtain ⟨i, hi, rfl⟩ := List.getElem_of_mem hit
    exact ⟨i, by omega, hget i hi (by omega)⟩
  have key := roundedLoop_declines W hrate hA hP items _ _ ps hloop (Or.inl rfl) hP le_rfl hrP
    (fun it hit => by obtain ⟨k, hk, rfl⟩ := hacc it hit; exact hex k)
    (fun it hit a ha => by obtain ⟨k, hk, rfl⟩ := hacc it hit; exact loan_rounded_accruals W hd k hk ha)
    (fun it hit a ha => by obtain ⟨k, hk, rfl⟩ := hacc it hit; exact hcov k hk a ha)
  refine ⟨fun k => (key k).1, fun p hp => ?_, fun k => (key k).2.2, fun h0 => ?_⟩
  · obtain ⟨k, hk, rfl⟩ := List.getElem_of_mem hp
    exact (key k).2.1 hk
  · have := (key ps.length).2.2 le_rfl
    rw [h0] at this
    unfold balance at this
    rw [List.take_length, sub_zero, abs_sub_comm] at this
    exact this

/-! ## A loan in double precision -/

/-- `exLoan` with yearly payments of 500: in double precision too, the interest never exceeds them. -/
theorem exLoan_covers : CoversInterest nearest53 exLoan 500 [D 2025 4 1, D 2026 4 1, D 2027 4 1, D 2028 4 1] := by
  have hW := rounding_nearest53
  have hone : nearest53 (1 / 2) = 1 / 2 := by
    have := near53_two_zpow (-1)
    rw [nearest53_of_pos (by norm_num)]
    norm_num at this ⊢
    exact this
  have h500 : nearest53 500 = 500 := by exact_mod_cast nearest53_int 500 (by norm_num) (by norm_num)
  have key : ∀ s e : PyDate, s ≤ e → thirty360Days s e = 360 → ∀ a, Rounded.accrual nearest53 s e .thirty360 = .ok a →
      nearest53 (nearest53 (a * (6 / 100)) * 1000) ≤ 500 := by
    intro s e hse h360 a ha
    unfold Rounded.accrual at ha
    rw [if_pos hse] at ha
    simp only [h360] at ha
    injection ha with ha
    have : a = 1 := by
      rw [← ha]
      norm_num
      exact hW.one
    subst this
    have h1 : nearest53 (1 * (6 / 100)) ≤ 1 / 2 := by
      rw [← hone]
      exact hW.mono (by norm_num)
    have h2 := hW.mono (show nearest53 (1 * (6 / 100)) * 1000 ≤ 500 by linarith)
    rwa [h500] at h2
  intro k hk a ha
  have hk' : k = 0 ∨ k = 1 ∨ k = 2 := by simp at hk; omega
  rcases hk' with rfl | rfl | rfl
  · exact key (D 2025 4 1) (D 2026 4 1) (by decide +kernel) (by decide +kernel) a ha
  · exact key (D 2026 4 1) (D 2027 4 1) (by decide +kernel) (by decide +kernel) a ha
  · exact key (D 2027 4 1) (D 2028 4 1) (by decide +kernel) (by decide +kernel) a ha

/-- Concrete case for C100: in double precision the balances of `exLoan` are within 10^-11 of the exact ones, and the principal
parts and the balance left sum to 1000 within 10^-12. -/
example : ∃ ps qs, Rounded.generatePaymentSchedule nearest53 exLoan 500 .none = .ok ps ∧
    exLoan.generatePaymentSchedule 500 .none = .ok qs ∧ ps.length = 3 ∧
    (∀ k, k ≤ 3 → |ledger nearest53 1000 ps k - balance 1000 qs k| ≤ 1 / 10 ^ 11) ∧
    |1000 - (ps.map LoanPayment.principal).sum - ledger nearest53 1000 ps 3| ≤ 1 / 10 ^ 12 := by
  have hW := rounding_nearest53
  have hd : exLoan.paymentDates = .ok [D 2025 4 1, D 2026 4 1, D 2027 4 1, D 2028 4 1] := by decide +kernel
  have h1000 : nearest53 1000 = 1000 := by exact_mod_cast nearest53_int 1000 (by norm_num) (by norm_num)
  have h500 : nearest53 500 = 500 := by exact_mod_cast nearest53_int 500 (by norm_num) (by norm_num)
  have hq : exLoan.generatePaymentSchedule 500 .none = .ok
    [⟨D 2026 4 1, 500, 440, 60⟩, ⟨D 2027 4 1, 500, 2332 / 5, 168 / 5⟩, ⟨D 2028 4 1, 12402 / 125, 468 / 5, 702 / 125⟩] := by
    decide +kernel
  have ht : (1 : ℚ) / 2 ^ 1022 ≤ 1 / 2 ^ 100 := rounding_nearest53.tiny_small
  obtain ⟨ps, hps, hlen, hclose, -⟩ := C100_close hW exLoan 500 0 (106 / 100) .none _ _ hd (by decide +kernel) (by norm_num)
    (by decide +kernel) (fun k => ⟨le_rfl, le_rfl⟩) h1000 h500 exLoan_covers (by
      intro k hk a ha
      have hk' : k = 0 ∨ k = 1 ∨ k = 2 := by simp at hk; omega
      have : a = 1 := by
        rcases hk' with rfl | rfl | rfl
        · have h2 : accrual (D 2025 4 1) (D 2026 4 1) .thirty360 = .ok 1 := by decide +kernel
          exact (Except.ok.inj (h2.symm.trans ha)).symm
        · have h2 : accrual (D 2026 4 1) (D 2027 4 1) .thirty360 = .ok 1 := by decide +kernel
          exact (Except.ok.inj (h2.symm.trans ha)).symm
        · have h2 : accrual (D 2027 4 1) (D 2028 4 1) .thirty360 = .ok 1 := by decide +kernel
          exact (Except.ok.inj (h2.symm.trans ha)).symm
      subst this
      simp only [exLoan]
      norm_num) (by norm_num) hq
  refine ⟨ps, _, hps, hq, hlen, fun k hk => ?_, ?_⟩
  · refine le_trans (hclose k) ?_
    have : accumulated (106 / 100) (periodError (1 / 2 ^ 53) (1 / 2 ^ 1022) 1000 500 0) k ≤
        accumulated (106 / 100) (periodError (1 / 2 ^ 53) (1 / 2 ^ 1022) 1000 500 0) 3 := by
      unfold accumulated
      refine mul_le_mul_of_nonneg_left ?_ (by unfold periodError; positivity)
      exact Finset.sum_le_sum_of_subset_of_nonneg (Finset.range_mono hk) (fun _ _ _ => by positivity)
    refine le_trans this ?_
    unfold accumulated periodError
    simp only [Finset.sum_range_succ, Finset.range_zero, Finset.sum_empty]
    have e1 : (9 : ℚ) * (1 / 2 ^ 53) * (1000 + 500 + 0) + 10 * (1 / 2 ^ 1022) * (1 + 1000) ≤
        9 * (1 / 2 ^ 53) * 1500 + 10010 * (1 / 2 ^ 100) := by linarith
    refine le_trans (mul_le_mul_of_nonneg_right e1 (by norm_num)) (by norm_num)
  · obtain ⟨-, -, h3, -⟩ := C100_principal_repaid hW exLoan 500 .none ps _ hd (by decide +kernel) (by norm_num)
      (by decide +kernel) (fun k => le_rfl) h1000 exLoan_covers hps
    have := h3 3 (by rw [hlen]; simp)
    rw [List.take_of_length_le (by rw [hlen]; simp)] at this
    refine le_trans this ?_
    show ((3 : ℕ) : ℚ) * (1 / 2 ^ 53 * 1000 + 2 * (1 / 2 ^ 1022)) ≤ _
    have e1 : ((3 : ℕ) : ℚ) * (1 / 2 ^ 53 * 1000 + 2 * (1 / 2 ^ 1022)) ≤ 3 * (1 / 2 ^ 53 * 1000 + 2 * (1 / 2 ^ 100)) := by
      push_cast; linarith
    exact le_trans e1 (by norm_num)

end Verif.Props
