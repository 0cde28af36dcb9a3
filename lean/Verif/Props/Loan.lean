/- Properties C38-C40: loans. -/
import Verif.Spec.Loan
import Verif.Props.Bond
import Verif.Props.DayCount
import Mathlib.Algebra.Order.BigOperators.Group.Finset
import Mathlib.Tactic.GCongr

namespace Verif.Props
open Verif Verif.Spec Verif.DayCount Verif.Scheduler

theorem balance_zero (P : ℚ) (ps : List LoanPayment) : balance P ps 0 = P := by simp [balance]

theorem balance_cons (P : ℚ) (p : LoanPayment) (ps : List LoanPayment) (k : Nat) :
    balance P (p :: ps) (k + 1) = balance (P - p.principal) ps k := by
  simp only [balance, List.take_succ_cons, List.map_cons, List.sum_cons]; ring

theorem balance_succ (P : ℚ) (ps : List LoanPayment) (k : Nat) (hk : k < ps.length) :
    balance P ps (k + 1) = balance P ps k - ps[k].principal := by
  induction ps generalizing P k with
  | nil => simp at hk
  | cons p ps ih =>
    rw [balance_cons]
    cases k with
    | zero => simp [balance_zero]
    | succ k => rw [balance_cons, ih _ k (by simpa using hk)]; simp

/-! ## C38 -/

theorem paymentLoop_cons {rate R A extra : ℚ} {dcc : DayCountConvention} {sd ed : PyDate}
    {rest : List (ℚ × (PyDate × PyDate))} {ps : List LoanPayment}
    (h : Loan.paymentLoop rate dcc R A ((extra, (sd, ed)) :: rest) = .ok ps) :
    ∃ a ps', accrual sd ed dcc = .ok a ∧
      ((R ≤ A - a * rate * R + extra ∧ ps = ⟨ed, R + a * rate * R, R, a * rate * R⟩ :: ps' ∧
          Loan.paymentLoop rate dcc 0 (R + a * rate * R) rest = .ok ps') ∨
       (A - a * rate * R + extra < R ∧ ps = ⟨ed, A, A - a * rate * R + extra, a * rate * R⟩ :: ps' ∧
          Loan.paymentLoop rate dcc (R - (A - a * rate * R + extra)) A rest = .ok ps')) := by
  simp only [Loan.paymentLoop] at h
  rw [bind_ok] at h
  obtain ⟨a, ha, h⟩ := h
  rw [bind_ok] at h
  obtain ⟨ps', hps, h⟩ := h
  injection h with h
  refine ⟨a, ps', ha, ?_⟩
  by_cases hc : R ≤ A - a * rate * R + extra
  · rw [if_pos hc, if_pos hc] at hps h
    exact Or.inl ⟨hc, h.symm, by rwa [sub_self] at hps⟩
  · rw [if_neg hc, if_neg hc] at hps h
    exact Or.inr ⟨not_le.1 hc, h.symm, hps⟩

theorem paymentLoop_length {rate R A : ℚ} {dcc : DayCountConvention} {items : List (ℚ × (PyDate × PyDate))}
    {ps : List LoanPayment} (h : Loan.paymentLoop rate dcc R A items = .ok ps) : ps.length = items.length := by
  induction items generalizing R A ps with
  | nil => cases h; rfl
  | cons it rest ih =>
    obtain ⟨extra, sd, ed⟩ := it
    obtain ⟨a, ps', -, ⟨-, rfl, h'⟩ | ⟨-, rfl, h'⟩⟩ := paymentLoop_cons h <;> simp [ih h']

theorem paymentLoop_balance_nonneg {rate R A : ℚ} {dcc : DayCountConvention} {items : List (ℚ × (PyDate × PyDate))}
    {ps : List LoanPayment} (h : Loan.paymentLoop rate dcc R A items = .ok ps) (hR : 0 ≤ R) (k : Nat) :
    0 ≤ balance R ps k := by
  induction items generalizing R A ps k with
  | nil => cases h; simpa [balance] using hR
  | cons it rest ih =>
    obtain ⟨extra, sd, ed⟩ := it
    cases k with
    | zero => rw [balance_zero]; exact hR
    | succ k =>
      obtain ⟨a, ps', -, ⟨hc, rfl, h'⟩ | ⟨hc, rfl, h'⟩⟩ := paymentLoop_cons h
      · rw [balance_cons]; simp only [sub_self]; exact ih h' (le_refl _) k
      · rw [balance_cons]; exact ih h' (by linarith) k

theorem paymentLoop_interest {rate R A : ℚ} {dcc : DayCountConvention} {items : List (ℚ × (PyDate × PyDate))}
    {ps : List LoanPayment} (h : Loan.paymentLoop rate dcc R A items = .ok ps) (k : Nat) (hk : k < ps.length)
    (hk' : k < items.length) :
    ∃ a, accrual items[k].2.1 items[k].2.2 dcc = .ok a ∧ ps[k].date = items[k].2.2 ∧
      ps[k].interest = a * rate * balance R ps k := by
  induction items generalizing R A ps k with
  | nil => simp at hk'
  | cons it rest ih =>
    obtain ⟨extra, sd, ed⟩ := it
    obtain ⟨a, ps', ha, ⟨hc, rfl, h'⟩ | ⟨hc, rfl, h'⟩⟩ := paymentLoop_cons h
    all_goals
      cases k with
      | zero => exact ⟨a, ha, rfl, by rw [balance_zero]; rfl⟩
      | succ k =>
        obtain ⟨a', h1, h2, h3⟩ := ih h' k (by simpa using hk) (by simpa using hk')
        refine ⟨a', by simpa using h1, by simpa using h2, ?_⟩
        rw [balance_cons]
        simpa using h3

theorem paymentLoop_split {rate R A : ℚ} {dcc : DayCountConvention} {items : List (ℚ × (PyDate × PyDate))}
    {ps : List LoanPayment} (h : Loan.paymentLoop rate dcc R A items = .ok ps) (k : Nat) (hk : k < ps.length)
    (hk' : k < items.length) (hopen : ∀ j, j < k → 0 < balance R ps (j + 1)) :
    (A - ps[k].interest + items[k].1 < balance R ps k ∧ ps[k].principal = A - ps[k].interest + items[k].1 ∧
      ps[k].payment = A) ∨
    (balance R ps k ≤ A - ps[k].interest + items[k].1 ∧ ps[k].principal = balance R ps k ∧
      ps[k].payment = ps[k].principal + ps[k].interest) := by
  induction items generalizing R A ps k with
  | nil => simp at hk'
  | cons it rest ih =>
    obtain ⟨extra, sd, ed⟩ := it
    obtain ⟨a, ps', ha, ⟨hc, rfl, h'⟩ | ⟨hc, rfl, h'⟩⟩ := paymentLoop_cons h
    · cases k with
      | zero => right; rw [balance_zero]; exact ⟨hc, rfl, rfl⟩
      | succ k =>
        exfalso
        have := hopen 0 (by omega)
        rw [balance_cons, balance_zero] at this
        simp at this
    · cases k with
      | zero => left; rw [balance_zero]; exact ⟨hc, rfl, rfl⟩
      | succ k =>
        have := ih h' k (by simpa using hk) (by simpa using hk') (by
          intro j hj
          have := hopen (j + 1) (by omega)
          rwa [balance_cons] at this)
        rw [balance_cons]
        simpa using this

theorem paymentLoop_after {rate A : ℚ} {dcc : DayCountConvention} {items : List (ℚ × (PyDate × PyDate))}
    {ps : List LoanPayment} (h : Loan.paymentLoop rate dcc 0 A items = .ok ps) (hA : 0 ≤ A)
    (hex : ∀ it ∈ items, 0 ≤ it.1) : ∀ p ∈ ps, p.payment = 0 ∧ p.principal = 0 ∧ p.interest = 0 := by
  induction items generalizing A ps with
  | nil => cases h; simp
  | cons it rest ih =>
    obtain ⟨extra, sd, ed⟩ := it
    have he := hex (extra, (sd, ed)) (by simp)
    simp only at he
    obtain ⟨a, ps', ha, ⟨hc, rfl, h'⟩ | ⟨hc, rfl, h'⟩⟩ := paymentLoop_cons h
    · intro p hp
      rcases List.mem_cons.1 hp with rfl | hp
      · simp
      · exact ih h' (by simp) (fun it hit => hex it (by simp [hit])) p hp
    · exfalso
      simp only [mul_zero, sub_zero] at hc
      linarith

theorem paymentLoop_paid_off {rate R A : ℚ} {dcc : DayCountConvention} {items : List (ℚ × (PyDate × PyDate))}
    {ps : List LoanPayment} (h : Loan.paymentLoop rate dcc R A items = .ok ps) (hR : 0 ≤ R) (hA : 0 ≤ A) (hrate : 0 ≤ rate)
    (hex : ∀ it ∈ items, 0 ≤ it.1) (hacc : ∀ it ∈ items, ∀ a, accrual it.2.1 it.2.2 dcc = .ok a → 0 ≤ a)
    (j : Nat) (hj : balance R ps j = 0) (k : Nat) (hjk : j ≤ k) (hk : k < ps.length) :
    ps[k].payment = 0 ∧ ps[k].principal = 0 ∧ ps[k].interest = 0 := by
  induction items generalizing R A ps j k with
  | nil => cases h; simp at hk
  | cons it rest ih =>
    cases j with
    | zero =>
      rw [balance_zero] at hj
      subst hj
      exact paymentLoop_after h hA hex _ (List.getElem_mem hk)
    | succ j =>
      obtain ⟨extra, sd, ed⟩ := it
      obtain ⟨k', rfl⟩ : ∃ k', k = k' + 1 := ⟨k - 1, by omega⟩
      obtain ⟨a, ps', ha, ⟨hc, rfl, h'⟩ | ⟨hc, rfl, h'⟩⟩ := paymentLoop_cons h
      · rw [balance_cons] at hj
        have ha0 := hacc (extra, (sd, ed)) (by simp) a ha
        have := ih h' (le_refl _) (by positivity) (fun it hit => hex it (by simp [hit]))
          (fun it hit => hacc it (by simp [hit])) j (by simpa using hj) k' (by omega) (by simpa using hk)
        simpa using this
      · rw [balance_cons] at hj
        have := ih h' (by linarith) hA (fun it hit => hex it (by simp [hit]))
          (fun it hit => hacc it (by simp [hit])) j (by simpa using hj) k' (by omega) (by simpa using hk)
        simpa using this

theorem pairwise_length (l : List PyDate) : (Loan.pairwise l).length = l.length - 1 := by
  match l with
  | [] => rfl
  | [a] => rfl
  | a :: b :: rest =>
    simp only [Loan.pairwise, List.length_cons]
    have := pairwise_length (b :: rest)
    simp only [List.length_cons] at this
    omega

theorem pairwise_get (l : List PyDate) (k : Nat) (hk : k + 1 < l.length) (hk' : k < (Loan.pairwise l).length) :
    (Loan.pairwise l)[k] = (l[k], l[k + 1]) := by
  match l, k with
  | [], _ => simp at hk
  | [a], _ => simp at hk
  | a :: b :: rest, 0 => rfl
  | a :: b :: rest, k + 1 =>
    have := pairwise_get (b :: rest) k (by simpa using hk) (by simpa [Loan.pairwise] using hk')
    simp only [Loan.pairwise, List.getElem_cons_succ]
    rw [this]
    simp

theorem unpackExtra_length {n : Nat} {e : ExtraPayments} {xs : List ℚ} (h : Loan.unpackExtra n e = .ok xs) : xs.length = n := by
  cases e with
  | none => simp only [Loan.unpackExtra] at h; injection h with h; rw [← h]; simp
  | float x => simp only [Loan.unpackExtra] at h; injection h with h; rw [← h]; simp
  | iterable ys =>
    simp only [Loan.unpackExtra] at h
    by_cases hl : ys.length ≤ n
    · rw [if_pos hl] at h; injection h with h; rw [← h]; simp; omega
    · rw [if_neg hl] at h; injection h with h; rw [← h]; simp; omega
  | other => cases h

/-- What extra payment is added to payment `k`: nothing, the constant, or the `k`-th given value (zero past the end). -/
def extraAt : ExtraPayments → Nat → ℚ
  | .float x, _ => x
  | .iterable xs, k => xs.getD k 0
  | _, _ => 0

theorem unpackExtra_get {n : Nat} {e : ExtraPayments} {xs : List ℚ} (h : Loan.unpackExtra n e = .ok xs) (k : Nat)
    (hk : k < xs.length) : xs[k] = extraAt e k := by
  cases e with
  | none => simp only [Loan.unpackExtra] at h; injection h with h; subst h; simp [extraAt]
  | float x => simp only [Loan.unpackExtra] at h; injection h with h; subst h; simp [extraAt]
  | iterable ys =>
    simp only [Loan.unpackExtra] at h
    by_cases hl : ys.length ≤ n
    · rw [if_pos hl] at h; injection h with h; subst h
      simp only [extraAt, List.getD_eq_getElem?_getD]
      by_cases hy : k < ys.length
      · rw [List.getElem_append_left hy, List.getElem?_eq_getElem hy]; rfl
      · rw [List.getElem_append_right (by omega), List.getElem?_eq_none (by omega)]; simp
    · rw [if_neg hl] at h; injection h with h; subst h
      simp only [extraAt, List.getD_eq_getElem?_getD]
      rw [List.getElem_take, List.getElem?_eq_getElem (by simp at hk; omega)]; rfl
  | other => cases h

theorem schedule_items {l : Loan} {A : ℚ} {e : ExtraPayments} {ps : List LoanPayment}
    (h : l.generatePaymentSchedule A e = .ok ps) :
    ∃ dates items, l.paymentDates = .ok dates ∧ Loan.paymentLoop l.rate l.dcc l.principal A items = .ok ps ∧
      items.length = dates.length - 1 ∧ (∀ it ∈ items, ∃ k, it.1 = extraAt e k) ∧
      ∀ k (hk : k < items.length) (hk' : k + 1 < dates.length),
        items[k] = (extraAt e k, (dates[k], dates[k + 1])) := by
  unfold Loan.generatePaymentSchedule at h
  rw [bind_ok] at h
  obtain ⟨dates, hd, h⟩ := h
  rw [bind_ok] at h
  obtain ⟨extras, he, h⟩ := h
  have hlen := unpackExtra_length he
  have hl2 : (extras.zip (Loan.pairwise dates)).length = dates.length - 1 := by
    rw [List.length_zip, pairwise_length, hlen]; omega
  have hget : ∀ k (hk : k < (extras.zip (Loan.pairwise dates)).length) (hk' : k + 1 < dates.length),
      (extras.zip (Loan.pairwise dates))[k] = (extraAt e k, (dates[k], dates[k + 1])) := by
    intro k hk hk'
    rw [List.getElem_zip, unpackExtra_get he, pairwise_get dates k hk']
  refine ⟨dates, _, hd, h, hl2, ?_, hget⟩
  intro it hit
  obtain ⟨k, hk, rfl⟩ := List.getElem_of_mem hit
  exact ⟨k, by rw [hget k hk (by omega)]⟩

/-- C38. Every generated schedule: one payment per period, dated at the period's end; the balance is the principal minus the
principal parts paid and never negative, so these sum to at most the principal; the interest part is accrual * rate * balance;
until the loan is paid off a payment is the agreed amount, and amount + extra = interest + principal part, unless that would
exceed the balance, in which case the payment is exactly balance + interest. -/
theorem C38_amortization (l : Loan) (A : ℚ) (e : ExtraPayments) (ps : List LoanPayment) (hP : 0 ≤ l.principal)
    (h : l.generatePaymentSchedule A e = .ok ps) :
    ∃ dates, l.paymentDates = .ok dates ∧ ps.length = dates.length - 1 ∧
      (∀ k, 0 ≤ balance l.principal ps k) ∧ (ps.map LoanPayment.principal).sum ≤ l.principal ∧
      ∀ k (hk : k < ps.length) (hk' : k + 1 < dates.length),
        ps[k].date = dates[k + 1] ∧
        (∃ a, accrual dates[k] dates[k + 1] l.dcc = .ok a ∧ ps[k].interest = a * l.rate * balance l.principal ps k) ∧
        ((∀ j, j < k → 0 < balance l.principal ps (j + 1)) →
          (A + extraAt e k < balance l.principal ps k + ps[k].interest ∧ ps[k].payment = A ∧
            ps[k].payment + extraAt e k = ps[k].interest + ps[k].principal) ∨
          (balance l.principal ps k + ps[k].interest ≤ A + extraAt e k ∧ ps[k].principal = balance l.principal ps k ∧
            ps[k].payment = ps[k].interest + ps[k].principal)) := by
  obtain ⟨dates, items, hd, hloop, hlen, -, hget⟩ := schedule_items h
  have hpl := paymentLoop_length hloop
  refine ⟨dates, hd, by omega, paymentLoop_balance_nonneg hloop hP, ?_, ?_⟩
  · have := paymentLoop_balance_nonneg hloop hP ps.length
    unfold balance at this
    rw [List.take_length] at this
    linarith
  · intro k hk hk'
    have hki : k < items.length := by omega
    have hg := hget k hki hk'
    obtain ⟨a, h1, h2, h3⟩ := paymentLoop_interest hloop k hk hki
    rw [hg] at h1 h2
    refine ⟨h2, ⟨a, h1, h3⟩, ?_⟩
    intro hopen
    have hs := paymentLoop_split hloop k hk hki hopen
    rw [hg] at hs
    simp only at hs
    rcases hs with ⟨s1, s2, s3⟩ | ⟨s1, s2, s3⟩
    · left; exact ⟨by linarith, s3, by rw [s2, s3]; ring⟩
    · right; exact ⟨by linarith, s2, by rw [s3]; ring⟩

theorem dateLoop_spec {m : Int} {e : PyDate} {n : Nat} {d : PyDate} {L : List PyDate}
    (h : Loan.dateLoop m e n d = .ok L) :
    (∀ x ∈ L, x ≤ e) ∧ (∀ x, L.head? = some x → x = d) ∧ List.IsChain (fun x y => x.addMonths m = .ok y) L ∧
    (L = [] → e < d) ∧ (∀ l, L.getLast? = some l → ∃ x, l.addMonths m = .ok x ∧ e < x) := by
  induction n generalizing d L with
  | zero => cases h
  | succ n ih =>
    simp only [Loan.dateLoop] at h
    by_cases hd : d ≤ e
    · rw [if_pos hd, bind_ok] at h
      obtain ⟨d', hd', h⟩ := h
      rw [bind_ok] at h
      obtain ⟨rest, hrest, h⟩ := h
      injection h with h
      subst h
      obtain ⟨h1, h2, h3, h4, h5⟩ := ih hrest
      refine ⟨?_, by simp, ?_, by simp, ?_⟩
      · intro x hx
        rcases List.mem_cons.1 hx with rfl | hx
        · exact hd
        · exact h1 x hx
      · cases rest with
        | nil => simp
        | cons y ys =>
          have := h2 y rfl
          subst this
          exact List.IsChain.cons_cons hd' h3
      · intro l hl
        cases rest with
        | nil => simp only [List.getLast?_singleton, Option.some.injEq] at hl; subst hl; exact ⟨d', hd', h4 rfl⟩
        | cons y ys => rw [List.getLast?_cons_cons] at hl; exact h5 l hl
    · rw [if_neg hd] at h
      injection h with h
      subst h
      exact ⟨by simp, by simp, by simp, fun _ => not_le.1 hd, by simp⟩

/-- The loop bound is never reached: each step moves on by at least one month. -/
theorem dateLoop_ne_fuel {m : Int} (hm : 0 < m) {e : PyDate} {n : Nat} {d : PyDate}
    (hn : 120000 < n + d.monthIndex) : Loan.dateLoop m e n d ≠ .error .fuel := by
  induction n generalizing d with
  | zero => exfalso; have := d.monthIndex_bounds; omega
  | succ n ih =>
    simp only [Loan.dateLoop]
    by_cases hd : d ≤ e
    · rw [if_pos hd]
      intro hc
      rw [bind_error] at hc
      rcases hc with hc | ⟨d', hd', hc⟩
      · have := (PyDate.addMonths_error.1 hc).1; cases this
      · rw [bind_error] at hc
        rcases hc with hc | ⟨_, _, hc⟩
        · exact ih (by have := (PyDate.addMonths_ok.1 hd').1; push_cast at hn; omega) hc
        · cases hc
    · rw [if_neg hd]; intro hc; cases hc

theorem increment_pos {l : Loan} {m : Int} (h : l.increment = .ok m) : 0 < m ∧ m * l.frequency.value = 12 := by
  unfold Loan.increment at h
  cases hf : l.frequency <;> simp only [hf] at h <;> cases h <;> exact ⟨by decide, by decide⟩

/-- The model's loop bound plays no role in `generate_payment_schedule`. -/
theorem paymentDates_ne_fuel (l : Loan) (h : l.paymentDates = .error .fuel) : False := by
  unfold Loan.paymentDates at h
  rw [bind_error] at h
  rcases h with h | ⟨start, hs, h⟩
  · unfold Loan.startDate at h
    cases ht : l.paymentTime <;> simp only [ht] at h
    · have := (PyDate.mk?_error.1 h).1; cases this
    · split_ifs at h
      · have := (PyDate.mk?_error.1 h).1; cases this
      · have := (PyDate.mk?_error.1 h).1; cases this
    · cases h
  · rw [bind_error] at h
    rcases h with h | ⟨stop, hst, h⟩
    · cases ht : l.termLength with
      | timedelta k =>
        rw [ht] at h
        simp only [addIncrement] at h
        have := (PyDate.addDays_error.1 h).1; cases this
      | relativedelta m k =>
        rw [ht] at h
        simp only [addIncrement] at h
        rw [bind_error] at h
        rcases h with h | ⟨_, _, h⟩
        · have := (PyDate.addMonths_error.1 h).1; cases this
        · have := (PyDate.addDays_error.1 h).1; cases this
      | other => rw [ht] at h; cases h
    · rw [bind_error] at h
      rcases h with h | ⟨m, hm, h⟩
      · unfold Loan.increment at h
        cases hf : l.frequency <;> simp only [hf] at h <;> cases h
      · exact dateLoop_ne_fuel (increment_pos hm).1 (by
          have := start.monthIndex_bounds; unfold Loan.dateFuel; omega) h

/-- C38/C40. The payment dates: from the adjusted start date onwards, each a fixed number of calendar months (`12/f`) after
the previous one, up to the start date plus the term. -/
theorem C38_payment_dates (l : Loan) (dates : List PyDate) (h : l.paymentDates = .ok dates) :
    ∃ (start stop : PyDate) (m : Int), l.startDate = .ok start ∧ addIncrement start l.termLength = .ok stop ∧ 0 < m ∧
      m * l.frequency.value = 12 ∧ (∀ x, dates.head? = some x → x = start) ∧ (∀ x ∈ dates, x ≤ stop) ∧
      List.IsChain (fun x y => x.addMonths m = .ok y) dates ∧ (dates = [] → stop < start) ∧
      ∀ x, dates.getLast? = some x → ∃ y, x.addMonths m = .ok y ∧ stop < y := by
  unfold Loan.paymentDates at h
  rw [bind_ok] at h
  obtain ⟨start, hs, h⟩ := h
  rw [bind_ok] at h
  obtain ⟨stop, hst, h⟩ := h
  rw [bind_ok] at h
  obtain ⟨m, hm, h⟩ := h
  obtain ⟨h1, h2, h3, h4, h5⟩ := dateLoop_spec h
  exact ⟨start, stop, m, hs, hst, (increment_pos hm).1, (increment_pos hm).2, h2, h1, h3, h4, h5⟩

/-- Accruals over whole months are nonnegative under every convention. -/
theorem accrual_months_nonneg {dcc : DayCountConvention} {a b : PyDate} {m : Int} (hm : 0 < m) (hab : a.addMonths m = .ok b)
    {x : ℚ} (hx : accrual a b dcc = .ok x) : 0 ≤ x := by
  have hlt := PyDate.addMonths_pos_lt hab hm
  by_cases h30 : dcc = .thirty360
  · subst h30
    obtain ⟨y, hy, h0⟩ := C15_nonneg_partial a b (le_of_lt hlt) (by
      rintro ⟨h1, -, h3, h4, -⟩
      have := (PyDate.addMonths_ok.1 hab).1
      unfold PyDate.monthIndex at this
      omega)
    rw [hx] at hy; injection hy with hy; rw [hy]; exact h0
  · exact (accrual_between (le_of_lt hlt) (le_refl b) (fun e => absurd e h30) hx hx).1

/-- C38. Once the balance is zero it stays zero: with nonnegative rate, payment amount and extra payments, every later
payment, principal part and interest part is zero. -/
theorem C38_paid_off (l : Loan) (A : ℚ) (e : ExtraPayments) (ps : List LoanPayment) (hP : 0 ≤ l.principal) (hA : 0 ≤ A)
    (hrate : 0 ≤ l.rate) (hex : ∀ k, 0 ≤ extraAt e k)
    (h : l.generatePaymentSchedule A e = .ok ps) (j k : Nat) (hj : balance l.principal ps j = 0) (hjk : j ≤ k)
    (hk : k < ps.length) : ps[k].payment = 0 ∧ ps[k].principal = 0 ∧ ps[k].interest = 0 := by
  obtain ⟨dates, items, hd, hloop, hlen, hitems, hget⟩ := schedule_items h
  obtain ⟨-, -, m, -, -, hm, -, -, -, hchain, -⟩ := C38_payment_dates l dates hd
  refine paymentLoop_paid_off hloop hP hA hrate ?_ ?_ j hj k hjk hk
  · intro it hit
    obtain ⟨k, hk⟩ := hitems it hit
    rw [hk]; exact hex k
  · intro it hit a ha
    obtain ⟨i, hi, rfl⟩ := List.getElem_of_mem hit
    have hi' : i + 1 < dates.length := by omega
    rw [hget i hi hi'] at ha
    exact accrual_months_nonneg hm (chain_get hchain i hi') ha

/-- A three-year loan of 1000 at 6%, originated on 11 March 2025 and paid yearly on the first of April. -/
def exLoan : Loan := ⟨1000, 6 / 100, D 2025 3 11, .relativedelta 36 0, .thirty360, .annual, .startOfMonth, D 2028 3 11⟩

/-- Concrete case for C38: with payments of 500 and an extra 100 first, the loan is paid off by the second payment. -/
example : exLoan.generatePaymentSchedule 500 (.iterable [100]) = .ok
    [⟨D 2026 4 1, 500, 540, 60⟩, ⟨D 2027 4 1, 2438 / 5, 460, 138 / 5⟩, ⟨D 2028 4 1, 0, 0, 0⟩] := by decide +kernel
example : exLoan.paymentDates = .ok [D 2025 4 1, D 2026 4 1, D 2027 4 1, D 2028 4 1] := by decide +kernel

/-! ## C39 -/

/-- The geometric sum `1 + c + ... + c^(n-1)`. -/
def geom (c : ℚ) : Nat → ℚ
  | 0 => 0
  | n + 1 => geom c n + c ^ n

theorem geom_mul (c : ℚ) (n : Nat) : (c - 1) * geom c n = c ^ n - 1 := by
  induction n with
  | zero => simp [geom]
  | succ n ih => rw [geom, mul_add, ih, pow_succ]; ring

theorem geom_pos {c : ℚ} (hc : 0 < c) (n : Nat) : 0 < geom c (n + 1) := by
  induction n with
  | zero => simp [geom]
  | succ n ih => rw [geom]; positivity

/-- The balance recursion: equal accruals `1/f`, no extra payments, and an amount `A` such that the annuity of the remaining
`n` payments is worth the balance. -/
theorem paymentLoop_annuity {rate : ℚ} {dcc : DayCountConvention} {f : ℚ} (hc : 0 < 1 + rate / f) {A : ℚ} (hA : 0 < A)
    (items : List (ℚ × (PyDate × PyDate))) (R : ℚ)
    (hit : ∀ it ∈ items, it.1 = 0 ∧ accrual it.2.1 it.2.2 dcc = .ok (1 / f))
    (hR : R * (1 + rate / f) ^ items.length = A * geom (1 + rate / f) items.length) :
    ∃ ps, Loan.paymentLoop rate dcc R A items = .ok ps ∧ ps.length = items.length ∧
      (∀ p ∈ ps, p.payment = A ∧ p.interest + p.principal = A) ∧
      ∀ k, k ≤ items.length → balance R ps k = R * (1 + rate / f) ^ k - A * geom (1 + rate / f) k := by
  induction items generalizing R with
  | nil =>
    refine ⟨[], rfl, rfl, by simp, ?_⟩
    intro k hk
    have : k = 0 := by simpa using hk
    subst this
    simp [balance, geom]
  | cons it rest ih =>
    obtain ⟨extra, sd, ed⟩ := it
    obtain ⟨hex, hacc⟩ := hit (extra, (sd, ed)) (by simp)
    simp only at hex hacc
    subst hex
    set c := 1 + rate / f with hcdef
    have hint : 1 / f * rate * R = (c - 1) * R := by rw [hcdef]; ring
    simp only [List.length_cons] at hR
    have hcn : 0 < c ^ rest.length := by positivity
    -- the balance carried to the next period
    have hR' : (R * c - A) * c ^ rest.length = A * geom c rest.length := by
      have : R * c ^ (rest.length + 1) = A * (geom c rest.length + c ^ rest.length) := hR
      rw [pow_succ] at this
      linarith
    obtain ⟨ps, h1, h2, h3, h4⟩ := ih (R * c - A) (fun it h => hit it (by simp [h])) hR'
    have hRA : A ≤ R * c := by
      by_contra hlt
      have hneg : R * c - A < 0 := by linarith
      have : (R * c - A) * c ^ rest.length < 0 := mul_neg_of_neg_of_pos hneg hcn
      rw [hR'] at this
      have hg : 0 ≤ geom c rest.length := by
        cases rest with
        | nil => simp [geom]
        | cons a as => exact le_of_lt (geom_pos hc _)
      have : 0 ≤ A * geom c rest.length := mul_nonneg (le_of_lt hA) hg
      linarith
    have hcand : A - (c - 1) * R + 0 = R - (R * c - A) := by ring
    refine ⟨⟨ed, A, R - (R * c - A), (c - 1) * R⟩ :: ps, ?_, by simp [h2], ?_, ?_⟩
    · simp only [Loan.paymentLoop, hacc, ok_bind, hint, hcand]
      by_cases hle : R ≤ R - (R * c - A)
      · have heq : R * c - A = 0 := by linarith
        rw [if_pos hle, if_pos hle, sub_self]
        have e1 : R + (c - 1) * R = A := by linarith
        rw [e1, heq]
        rw [heq] at h1
        rw [h1, ok_bind, sub_zero]
      · rw [if_neg hle, if_neg hle, sub_sub_cancel, h1, ok_bind]
    · intro p hp
      rcases List.mem_cons.1 hp with rfl | hp
      · exact ⟨rfl, by simp only; ring⟩
      · exact h3 p hp
    · intro k hk
      cases k with
      | zero => simp [balance_zero, geom]
      | succ k =>
        rw [balance_cons]
        simp only [sub_sub_cancel]
        rw [h4 k (by simpa using hk)]
        have : geom c (k + 1) = geom c k + c ^ k := rfl
        rw [this, pow_succ]; ring

theorem dateLoop_months {m : Int} (hm : 0 < m) (q : Nat) : ∀ (n : Nat) (d e : PyDate), q + 1 < n → d.day ≤ 28 →
    e.monthIndex = d.monthIndex + q * m → e.day = d.day → e.monthIndex + m ≤ 12 * 9999 + 11 →
    ∃ L, Loan.dateLoop m e n d = .ok L ∧ L.length = q + 1 ∧
      ∀ j (hj : j < L.length), L[j].monthIndex = d.monthIndex + j * m ∧ L[j].day = d.day := by
  induction q with
  | zero =>
    intro n d e hn hd he hday hov
    have hde : d = e := PyDate.eq_of_month (by omega) hday.symm
    subst hde
    obtain ⟨n', rfl⟩ : ∃ n', n = n' + 2 := ⟨n - 2, by omega⟩
    have hb := d.monthIndex_bounds
    obtain ⟨r, hr⟩ := PyDate.addMonths_total (d := d) (k := m) (by omega) hov
    refine ⟨[d], ?_, rfl, ?_⟩
    · simp only [Loan.dateLoop]
      rw [if_pos (le_refl d), hr, ok_bind, if_neg (not_le.2 (PyDate.addMonths_pos_lt hr hm))]; rfl
    · intro j hj
      have : j = 0 := by simpa using hj
      subst this
      simp
  | succ q ih =>
    intro n d e hn hd he hday hov
    have hb := d.monthIndex_bounds
    have hqm : (0 : Int) ≤ q * m := by positivity
    have hcast : ((q + 1 : Nat) : Int) * m = q * m + m := by push_cast; ring
    rw [hcast] at he
    obtain ⟨r, hr⟩ := PyDate.addMonths_total (d := d) (k := m) (by omega) (by omega)
    have hr1 := (PyDate.addMonths_ok.1 hr).1
    have hr2 := PyDate.addMonths_day hr hd
    obtain ⟨n', rfl⟩ : ∃ n', n = n' + 1 := ⟨n - 1, by omega⟩
    obtain ⟨L, hL, hlen, hall⟩ := ih n' r e (by omega) (by omega) (by omega) (by omega) hov
    refine ⟨d :: L, ?_, by simp [hlen], ?_⟩
    · simp only [Loan.dateLoop]
      rw [if_pos (PyDate.le_iff_month.2 (by omega)), hr, ok_bind, hL, ok_bind]
    · intro j hj
      cases j with
      | zero => simp
      | succ j =>
        obtain ⟨a1, a2⟩ := hall j (by simpa using hj)
        simp only [List.getElem_cons_succ]
        refine ⟨?_, by omega⟩
        rw [a1, hr1]; push_cast; ring

theorem accrual_first_of_month {a b : PyDate} {m : Int} (ha : a.day = 1) (hb : b.day = 1) (hm : 0 ≤ m)
    (h : b.monthIndex = a.monthIndex + m) : accrual a b .thirty360 = .ok ((m : ℚ) / 12) := by
  have hab : a ≤ b := PyDate.le_iff_month.2 (by omega)
  rw [accrual_eq hab]
  have hd : thirty360Days a b = 30 * m := by
    unfold thirty360Days
    unfold PyDate.monthIndex at h
    simp only [ha, hb]
    simp
    omega
  simp only [thirty360, hd]
  congr 1
  push_cast
  ring

/-- C39. A loan of `n` years at a nonzero rate above `-f`, 30/360, with payments on the first of the month: the amount `A`
returned by `calculate_fixed_payment_amount` (a rational number, here with exact arithmetic) amortizes the loan exactly.
The generated schedule has `n * f` payments, each equal to `A` (split into interest and principal), the balance after `k` of
them is `P (1+i)^k - A ((1+i)^k - 1)/i` with `i = rate/f`, positive before the last payment and zero after it. -/
theorem C39_amortizes (l : Loan) (n : Nat) (m : Int) (hinc : l.increment = .ok m)
    (hterm : l.termLength = .relativedelta (12 * n) 0)
    (hend : addIncrement l.originationDate l.termLength = .ok l.endDate) (hn : 0 < n) (hday : l.originationDate.day ≤ 28)
    (hyear : l.originationDate.year + n ≤ 9997) (htime : l.paymentTime = .startOfMonth) (hdcc : l.dcc = .thirty360)
    (hP : 0 < l.principal) (hrate : l.rate ≠ 0) (hrate' : -(l.frequency.value : ℚ) < l.rate) :
    ∃ (A : ℚ) (ps : List LoanPayment), l.calculateFixedPaymentAmount = .ok (A : ℝ) ∧ 0 < A ∧
      l.generatePaymentSchedule A .none = .ok ps ∧ ps.length = n * l.frequency.value ∧
      (∀ p ∈ ps, p.payment = A ∧ p.interest + p.principal = A) ∧
      (∀ k, k ≤ n * l.frequency.value → balance l.principal ps k =
        l.principal * (1 + l.rate / l.frequency.value) ^ k -
          A * ((1 + l.rate / l.frequency.value) ^ k - 1) / (l.rate / l.frequency.value)) ∧
      (∀ k, k < n * l.frequency.value → 0 < balance l.principal ps k) ∧
      balance l.principal ps (n * l.frequency.value) = 0 := by
  obtain ⟨hmpos, hm12⟩ := increment_pos hinc
  have hfpos : 0 < l.frequency.value := by
    rcases Nat.eq_zero_or_pos l.frequency.value with e | e
    · rw [e] at hm12; simp at hm12
    · exact e
  have hfQ : (0 : ℚ) < l.frequency.value := by exact_mod_cast hfpos
  set f : ℚ := (l.frequency.value : ℚ) with hf
  set N : Nat := n * l.frequency.value with hN
  have hNpos : 0 < N := Nat.mul_pos hn hfpos
  have hcpos : 0 < 1 + l.rate / f := by
    have : -1 < l.rate / f := by rw [lt_div_iff₀ hfQ]; linarith
    linarith
  set c : ℚ := 1 + l.rate / f with hc
  have hci : c - 1 = l.rate / f := by rw [hc]; ring
  have hi0 : l.rate / f ≠ 0 := div_ne_zero hrate (ne_of_gt hfQ)
  have hgN : 0 < geom c N := by
    obtain ⟨N', hN'⟩ : ∃ N', N = N' + 1 := ⟨N - 1, by omega⟩
    rw [hN']; exact geom_pos hcpos N'
  have hcN : 0 < c ^ N := by positivity
  let A : ℚ := l.principal * c ^ N / geom c N
  have hA : 0 < A := by show 0 < l.principal * c ^ N / geom c N; positivity
  have hAg : l.principal * c ^ N = A * geom c N := by
    show _ = l.principal * c ^ N / geom c N * geom c N
    field_simp
  -- the dates
  have hob := l.originationDate.bounds
  have hstart : ∃ start, l.startDate = .ok start ∧ start.day = 1 ∧ start.monthIndex = l.originationDate.monthIndex + 1 := by
    unfold Loan.startDate
    rw [htime]
    simp only
    by_cases h12 : l.originationDate.month = 12
    · rw [if_pos h12]
      have hv : validYMD (l.originationDate.year + 1) 1 1 = true := by
        rw [PyDate.valid_iff]; have := daysInMonth_bounds (l.originationDate.year + 1) 1; omega
      have := PyDate.mk?_ok_of_valid hv
      refine ⟨_, this, ?_, ?_⟩
      · rfl
      · unfold PyDate.monthIndex; simp only; omega
    · rw [if_neg h12]
      have hv : validYMD l.originationDate.year (l.originationDate.month + 1) 1 = true := by
        rw [PyDate.valid_iff]; have := daysInMonth_bounds l.originationDate.year (l.originationDate.month + 1); omega
      have := PyDate.mk?_ok_of_valid hv
      refine ⟨_, this, ?_, ?_⟩
      · rfl
      · unfold PyDate.monthIndex; simp only; omega
  obtain ⟨start, hs, hs1, hsm⟩ := hstart
  have hsb : l.originationDate.monthIndex ≤ 12 * (9997 - n) + 11 := by
    unfold PyDate.monthIndex; omega
  have hob2 := l.originationDate.monthIndex_bounds
  obtain ⟨stop, hstop⟩ := PyDate.addMonths_total (d := start) (k := 12 * (n : Int)) (by omega) (by omega)
  have hstop1 := (PyDate.addMonths_ok.1 hstop).1
  have hstop2 := PyDate.addMonths_day hstop (by omega)
  have hstopI : addIncrement start l.termLength = .ok stop := by
    rw [hterm]; exact addIncrement_months.2 hstop
  have hNm : (N : Int) * m = 12 * n := by
    rw [hN]; push_cast; rw [← hm12]; ring
  have hm12' : m ≤ 12 := by
    unfold Loan.increment at hinc
    cases hfr : l.frequency <;> simp only [hfr] at hinc <;> cases hinc <;> decide
  have hNle : N ≤ 12 * n := by
    have : (N : Int) * 1 ≤ N * m := mul_le_mul_of_nonneg_left (by omega) (by omega)
    rw [hNm] at this
    omega
  obtain ⟨dates, hdates, hdlen, hdall⟩ := dateLoop_months hmpos N Loan.dateFuel start stop
    (by unfold Loan.dateFuel; omega) (by omega) (by omega) hstop2 (by omega)
  have hpd : l.paymentDates = .ok dates := by
    unfold Loan.paymentDates
    rw [hs, ok_bind, hstopI, ok_bind, hinc, ok_bind, hdates]
  -- the payment loop
  have hex : Loan.unpackExtra dates.length .none = .ok (List.replicate dates.length 0) := rfl
  have hlen : ((List.replicate dates.length (0 : ℚ)).zip (Loan.pairwise dates)).length = N := by
    rw [List.length_zip, pairwise_length, List.length_replicate, hdlen]; omega
  have hfm : (m : ℚ) / 12 = 1 / f := by
    have : (m : ℚ) * f = 12 := by rw [hf]; exact_mod_cast hm12
    field_simp
    linarith
  have hit : ∀ it ∈ (List.replicate dates.length (0 : ℚ)).zip (Loan.pairwise dates),
      it.1 = 0 ∧ accrual it.2.1 it.2.2 l.dcc = .ok (1 / f) := by
    intro it hmem
    obtain ⟨k, hk, rfl⟩ := List.getElem_of_mem hmem
    have hk1 : k + 1 < dates.length := by omega
    rw [List.getElem_zip, List.getElem_replicate, pairwise_get dates k hk1]
    refine ⟨rfl, ?_⟩
    simp only
    obtain ⟨a1, a2⟩ := hdall k (by omega)
    obtain ⟨b1, b2⟩ := hdall (k + 1) hk1
    rw [hdcc, accrual_first_of_month (by omega) (by omega) (le_of_lt hmpos) (by rw [a1, b1]; push_cast; ring), hfm]
  obtain ⟨ps, h1, h2, h3, h4⟩ := paymentLoop_annuity (f := f) hcpos hA _ l.principal hit (by rw [hlen]; exact hAg)
  rw [hlen] at h2 h4
  have hform : ∀ k, geom c k = (c ^ k - 1) / (l.rate / f) := by
    intro k
    rw [eq_div_iff hi0, ← hci, mul_comm]; exact geom_mul c k
  refine ⟨A, ps, ?_, hA, ?_, h2, h3, ?_, ?_, ?_⟩
  · -- the closed formula
    have hyears : accrual l.originationDate l.endDate l.dcc = .ok (n : ℚ) := by
      rw [hterm] at hend
      have hend' := addIncrement_months.1 hend
      have e1 := (PyDate.addMonths_ok.1 hend').1
      have e2 := PyDate.addMonths_day hend' hday
      have hle : l.originationDate ≤ l.endDate := PyDate.le_iff_month.2 (by omega)
      have hym : l.originationDate.month = l.endDate.month ∧ l.endDate.year - l.originationDate.year = n := by
        have := l.endDate.bounds
        unfold PyDate.monthIndex at e1
        omega
      rw [hdcc, C15_whole_years _ _ hle hym.1 e2.symm, hym.2]
      norm_cast
    unfold Loan.calculateFixedPaymentAmount
    rw [hyears, ok_bind]
    simp only
    rw [if_neg (by omega)]
    have hexp : (((n : ℚ) : ℝ) * (l.frequency.value : ℝ)) = ((N : ℕ) : ℝ) := by rw [hN]; push_cast; rfl
    have hbase : (1 + (l.rate : ℝ) / (l.frequency.value : ℝ)) = ((c : ℚ) : ℝ) := by rw [hc, hf]; push_cast; rfl
    rw [hexp, hbase, Real.rpow_natCast]
    have hi0R : -(l.rate : ℝ) / (l.frequency.value : ℝ) = ((-(l.rate / f) : ℚ) : ℝ) := by rw [hf]; push_cast; ring
    rw [hi0R]
    rw [if_neg (by exact_mod_cast neg_ne_zero.2 hi0)]
    have hden : (1 - ((c : ℚ) : ℝ) ^ N) / ((-(l.rate / f) : ℚ) : ℝ) = ((geom c N : ℚ) : ℝ) := by
      rw [hform N]; push_cast; rw [← neg_div_neg_eq]; ring
    rw [hden, if_neg (by exact_mod_cast ne_of_gt hgN)]
    congr 1
    show _ = ((l.principal * c ^ N / geom c N : ℚ) : ℝ)
    push_cast; rfl
  · unfold Loan.generatePaymentSchedule
    rw [hpd, ok_bind, hex, ok_bind]; exact h1
  · intro k hk
    rw [h4 k hk, hform k]; ring
  · intro k hk
    rw [h4 k (le_of_lt hk)]
    -- A * geom c k < P * c^k, because A * geom c N = P * c^N
    have hsplit : ∀ j, geom c (k + j) = geom c k + c ^ k * geom c j := by
      intro j
      induction j with
      | zero => simp [geom]
      | succ j ih => rw [← Nat.add_assoc, geom, ih, geom, pow_add]; ring
    obtain ⟨j, hj⟩ : ∃ j, N = k + (j + 1) := ⟨N - k - 1, by omega⟩
    have e1 := hAg
    rw [hj, hsplit, pow_add] at e1
    have hgj := geom_pos hcpos j
    have hck : 0 < c ^ k := by positivity
    have hmul : geom c (j + 1) * (c - 1) = c ^ (j + 1) - 1 := by rw [mul_comm]; exact geom_mul c _
    have hgk : geom c k * (c - 1) = c ^ k - 1 := by rw [mul_comm]; exact geom_mul c _
    -- (P c^k - A geom c k) * c^(j+1) = A * geom c (j+1)
    have key : (l.principal * c ^ k - A * geom c k) * c ^ (j + 1) = A * geom c (j + 1) := by
      have e2 : c ^ (j + 1) = 1 + geom c (j + 1) * (c - 1) := by linarith
      have e3 : c ^ k = 1 + geom c k * (c - 1) := by linarith
      calc (l.principal * c ^ k - A * geom c k) * c ^ (j + 1)
          = l.principal * (c ^ k * c ^ (j + 1)) - A * geom c k * c ^ (j + 1) := by ring
        _ = A * (geom c k + c ^ k * geom c (j + 1)) - A * geom c k * c ^ (j + 1) := by rw [e1]
        _ = A * (geom c k + (1 + geom c k * (c - 1)) * geom c (j + 1) - geom c k * (1 + geom c (j + 1) * (c - 1))) := by
            rw [← e2, ← e3]; ring
        _ = A * geom c (j + 1) := by ring
    have hpos : 0 < A * geom c (j + 1) := mul_pos hA hgj
    rw [← key] at hpos
    exact (mul_pos_iff_of_pos_right (by positivity)).1 hpos
  · rw [h4 N (le_refl _), hAg, sub_self]

/-- Concrete case for C39: the three-year example loan. -/
example : exLoan.increment = .ok 12 ∧ exLoan.termLength = .relativedelta (12 * (3 : Nat)) 0 ∧
    addIncrement exLoan.originationDate exLoan.termLength = .ok exLoan.endDate ∧ exLoan.originationDate.day ≤ 28 ∧
    exLoan.originationDate.year + (3 : Nat) ≤ 9997 ∧ exLoan.paymentTime = .startOfMonth ∧ exLoan.dcc = .thirty360 ∧
    0 < exLoan.principal ∧ exLoan.rate ≠ 0 ∧ -(exLoan.frequency.value : ℚ) < exLoan.rate := by decide +kernel

/-- C39 (limits). At rate zero `calculate_fixed_payment_amount` raises ZeroDivisionError instead of dividing the principal
equally (whenever the length of the loan can be computed at all; and it never returns an amount). -/
theorem C39_zero_rate (l : Loan) (hrate : l.rate = 0) :
    (∀ years, accrual l.originationDate l.endDate l.dcc = .ok years → l.calculateFixedPaymentAmount = .error .zeroDivisionError) ∧
    ∀ x : ℝ, l.calculateFixedPaymentAmount ≠ .ok x := by
  have key : ∀ years, accrual l.originationDate l.endDate l.dcc = .ok years →
      l.calculateFixedPaymentAmount = .error .zeroDivisionError := by
    intro years hy
    unfold Loan.calculateFixedPaymentAmount
    rw [hy, ok_bind]
    simp only
    by_cases hf : l.frequency.value = 0
    · rw [if_pos hf]
    · rw [if_neg hf, hrate]
      simp
  refine ⟨key, ?_⟩
  intro x h
  cases hy : accrual l.originationDate l.endDate l.dcc with
  | ok years => rw [key years hy] at h; cases h
  | error e => unfold Loan.calculateFixedPaymentAmount at h; rw [hy] at h; cases h

/-! ## C40 -/

/-- C40 (what holds). Originated in a 30-day month, the first end-of-month date is the last day of that month; and with
START_OF_MONTH every payment falls on the first of a month. -/
theorem C40_month_dates_partial (l : Loan) (dates : List PyDate) (h : l.paymentDates = .ok dates) :
    (l.paymentTime = .endOfMonth → daysInMonth l.originationDate.year l.originationDate.month = 30 →
      ∀ d, dates.head? = some d → d.year = l.originationDate.year ∧ d.month = l.originationDate.month ∧
        d.day = daysInMonth d.year d.month) ∧
    (l.paymentTime = .startOfMonth → ∀ d ∈ dates, d.day = 1) := by
  obtain ⟨start, stop, m, hs, hst, hm, -, hhead, -, hchain, -⟩ := C38_payment_dates l dates h
  constructor
  · intro ht h30 d hd
    have := hhead d hd
    subst this
    unfold Loan.startDate at hs
    rw [ht] at hs
    simp only at hs
    obtain ⟨h1, h2, h3⟩ := PyDate.mk?_ok.1 hs
    refine ⟨h1, h2, ?_⟩
    rw [h3, h1, h2, h30]; rfl
  · intro ht d hd
    obtain ⟨i, hi, rfl⟩ := List.getElem_of_mem hd
    have hs1 : start.day = 1 := by
      unfold Loan.startDate at hs
      rw [ht] at hs
      simp only at hs
      split_ifs at hs
      · exact (PyDate.mk?_ok.1 hs).2.2
      · exact (PyDate.mk?_ok.1 hs).2.2
    induction i with
    | zero =>
      have := hhead dates[0] (by rw [List.head?_eq_getElem?, List.getElem?_eq_getElem hi])
      rw [this]; exact hs1
    | succ i ih =>
      have hc := chain_get hchain i hi
      have := ih (by omega) (List.getElem_mem _)
      have := PyDate.addMonths_day hc (by omega)
      omega

/-- C40 (failure). With END_OF_MONTH no payment date is ever later than the 30th, so none falls on the last day of a 31-day
month. -/
theorem C40_never_31st (l : Loan) (dates : List PyDate) (h : l.paymentDates = .ok dates) (ht : l.paymentTime = .endOfMonth) :
    ∀ d ∈ dates, d.day ≤ 30 ∧ (daysInMonth d.year d.month = 31 → d.day ≠ daysInMonth d.year d.month) := by
  obtain ⟨start, stop, m, hs, hst, hm, -, hhead, -, hchain, -⟩ := C38_payment_dates l dates h
  have key : ∀ i (hi : i < dates.length), dates[i].day ≤ 30 := by
    intro i
    induction i with
    | zero =>
      intro hi
      have := hhead dates[0] (by rw [List.head?_eq_getElem?, List.getElem?_eq_getElem hi])
      rw [this]
      unfold Loan.startDate at hs
      rw [ht] at hs
      simp only at hs
      rw [(PyDate.mk?_ok.1 hs).2.2]
      exact le_refl _
    | succ i ih =>
      intro hi
      have := PyDate.addMonths_day_le (chain_get hchain i hi)
      have := ih (by omega)
      omega
  intro d hd
  obtain ⟨i, hi, rfl⟩ := List.getElem_of_mem hd
  have := key i hi
  exact ⟨this, by omega⟩

/-- C40 (failure). END_OF_MONTH loans originated in February cannot be scheduled at all, and FIXED_DATE never: ValueError. -/
theorem C40_rejected (l : Loan) (A : ℚ) (e : ExtraPayments)
    (h : (l.paymentTime = .endOfMonth ∧ l.originationDate.month = 2) ∨ l.paymentTime = .fixedDate) :
    l.generatePaymentSchedule A e = .error .valueError := by
  have hs : l.startDate = .error .valueError := by
    unfold Loan.startDate
    rcases h with ⟨h1, h2⟩ | h1
    · rw [h1]
      simp only
      rw [PyDate.mk?_error]
      refine ⟨rfl, ?_⟩
      rw [h2]
      by_contra hv
      have := (PyDate.valid_iff _ _ _).1 (by simpa using hv)
      have h30 : daysInMonth l.originationDate.year 11 = 30 := rfl
      have h29 : daysInMonth l.originationDate.year 2 ≤ 29 := by
        simp only [daysInMonth]; split_ifs <;> omega
      omega
    · rw [h1]
  unfold Loan.generatePaymentSchedule Loan.paymentDates
  rw [hs]; rfl

/-- Concrete case for the failures of C40: a monthly loan originated on 31 January 2025 is due on the 30th, then (after
February) always on the 28th, and not at the end of any month but February. -/
example : Loan.paymentDates ⟨1000, 6 / 100, D 2025 1 31, .relativedelta 4 0, .thirty360, .monthly, .endOfMonth, D 2025 5 31⟩ =
    .ok [D 2025 1 30, D 2025 2 28, D 2025 3 28, D 2025 4 28, D 2025 5 28] := by decide +kernel

end Verif.Props
