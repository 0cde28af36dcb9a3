/- C62: what each payment of a swap leg is and when it is paid. -/
import Verif.Spec.Settlement
import Verif.Props.Swap

namespace Verif.Props
open Verif.Spec Scheduler

/-- C62. Whatever the settlement function returns is the date the convention names. -/
theorem C62_settles (cal : HolidayCalendar) (d r : PyDate) (c : SettlementConvention)
    (h : calculateSettlementDate cal d c = .ok r) : SettlesOn cal d c r := by
  cases c
  case tMinusTwoBusiness => exact C06_settlement_minus cal d r _ 2 rfl h
  case tMinusOneBusiness => exact C06_settlement_minus cal d r _ 1 rfl h
  case tMinusZeroBusiness => exact C06_settlement_minus_zero cal d r h
  case tPlusZeroBusiness => exact C06_settlement_plus cal d r _ 0 rfl h
  case tPlusOneBusiness => exact C06_settlement_plus cal d r _ 1 rfl h
  case tPlusTwoBusiness => exact C06_settlement_plus cal d r _ 2 rfl h
  case tPlusThreeBusiness => exact C06_settlement_plus cal d r _ 3 rfl h
  all_goals exact absurd h (by simp [calculateSettlementDate])

/-- C62. Each period of the fixed leg pays notional times accrual times the fixed rate, on the date the payment delay names after
the end of the period; the leg has exactly these payments, in date order. -/
theorem C62_fixed_leg (s : Swap) (accs : List SwapAccrual) (cf : List Payment) (ha : s.fixedAccruals = .ok accs)
    (h : s.fixedCashflow = .ok cf) :
    cf.Pairwise (fun p q => p.date ≤ q.date) ∧
    ∃ ps : List Payment, cf.Perm ps ∧ List.Forall₂ (fun a p =>
      SettlesOn s.terms.calendar a.stop s.terms.paymentDelay p.date ∧
      p.amount = some (s.terms.notional * a.factor * s.terms.fixedRate)) accs ps := by
  unfold Swap.fixedCashflow at h
  rw [ha, ok_bind, bind_ok] at h
  obtain ⟨ps, hps, h⟩ := h
  injection h with h
  subst h
  refine ⟨pySorted_sorted _ _, ps, pySorted_perm _ _, ?_⟩
  rw [collect_ok] at hps
  refine hps.imp ?_
  intro a p hp
  unfold Swap.fixedPayment Swap.paymentDate at hp
  rw [bind_ok] at hp
  obtain ⟨d, hd, hp⟩ := hp
  injection hp with hp
  subst hp
  exact ⟨C62_settles _ _ _ _ hd, by simp only; congr 1; ring⟩

/-- C62. Each period of a term swap's floating leg pays notional times accrual times the rate observed on the fixing date, which the
fixing convention names relative to the start of the period. -/
theorem C62_term_leg (s : Swap) (hcls : s.terms.cls = .term) (rate : RateFn) (accs : List SwapAccrual) (cf : List Payment)
    (ha : s.floatAccruals = .ok accs) (h : s.floatCashflow rate = .ok cf) :
    cf.Pairwise (fun p q => p.date ≤ q.date) ∧
    ∃ ps : List Payment, cf.Perm ps ∧ List.Forall₂ (fun a p =>
      SettlesOn s.terms.calendar a.stop s.terms.paymentDelay p.date ∧
      ∃ fixingDate r, SettlesOn s.terms.calendar a.start s.terms.fixing fixingDate ∧ rate fixingDate = .ok r ∧
        p.amount = some (s.terms.notional * a.factor * r)) accs ps := by
  unfold Swap.floatCashflow at h
  rw [ha, ok_bind, bind_ok] at h
  obtain ⟨ps, hps, h⟩ := h
  injection h with h
  subst h
  refine ⟨pySorted_sorted _ _, ps, pySorted_perm _ _, ?_⟩
  rw [collect_ok] at hps
  refine hps.imp ?_
  intro a p hp
  unfold Swap.floatPayment at hp
  rw [hcls] at hp
  simp only [Swap.termPayment, Swap.paymentDate] at hp
  rw [bind_ok] at hp
  obtain ⟨f, hf, hp⟩ := hp
  rw [bind_ok] at hp
  obtain ⟨r, hr, hp⟩ := hp
  rw [bind_ok] at hp
  obtain ⟨d, hd, hp⟩ := hp
  injection hp with hp
  subst hp
  exact ⟨C62_settles _ _ _ _ hd, f, r, C62_settles _ _ _ _ hf, hr, by simp only; congr 1; ring⟩

/-- C62. Each period of an overnight swap's floating leg pays notional times accrual times the annualized compounded rate over the
business days of the period. -/
theorem C62_overnight_leg (s : Swap) (hcls : s.terms.cls = .overnight) (rate : RateFn) (accs : List SwapAccrual) (cf : List Payment)
    (ha : s.floatAccruals = .ok accs) (h : s.floatCashflow rate = .ok cf) :
    cf.Pairwise (fun p q => p.date ≤ q.date) ∧
    ∃ ps : List Payment, cf.Perm ps ∧ List.Forall₂ (fun a p =>
      SettlesOn s.terms.calendar a.stop s.terms.paymentDelay p.date ∧
      ∃ q, p.amount = some (s.terms.notional * a.factor * q) ∧
        Swap.annualizedRate s.terms.calendar rate a.start a.stop = .ok q) accs ps := by
  unfold Swap.floatCashflow at h
  rw [ha, ok_bind, bind_ok] at h
  obtain ⟨ps, hps, h⟩ := h
  injection h with h
  subst h
  refine ⟨pySorted_sorted _ _, ps, pySorted_perm _ _, ?_⟩
  rw [collect_ok] at hps
  refine hps.imp ?_
  intro a p hp
  unfold Swap.floatPayment at hp
  rw [hcls] at hp
  simp only [Swap.overnightPayment, Swap.paymentDate] at hp
  rw [bind_ok] at hp
  obtain ⟨d, hd, hp⟩ := hp
  rw [bind_ok] at hp
  obtain ⟨r, hr, hp⟩ := hp
  injection hp with hp
  subst hp
  exact ⟨C62_settles _ _ _ _ hd, r, by simp only; congr 1; ring, hr⟩

/-- Concrete case for C62: the example swap's floating leg sees the rate two business days before each period. -/
example : exSwap0.terms.cls = .term ∧ ∃ accs cf, exSwap0.floatAccruals = .ok accs ∧ accs.length = 4 ∧
    exSwap0.floatCashflow (fun d => .ok (d.ord : ℚ)) = .ok cf ∧
    cf.head?.map Payment.date = some (D 2024 4 17) ∧
    (cf.head?.bind Payment.amount) = some (1000 * (91 / 360) * ((D 2024 1 15).ord : ℚ)) := by
  have h : ∃ accs, exSwap0.floatAccruals = .ok accs ∧ accs.length = 4 := by
    have : (exSwap0.floatAccruals.toOption.map List.length) = some 4 := by decide +kernel
    cases hc : exSwap0.floatAccruals with
    | error e => rw [hc] at this; cases this
    | ok accs => rw [hc] at this; exact ⟨accs, rfl, by injection this⟩
  obtain ⟨accs, h1, h2⟩ := h
  have h : ((exSwap0.floatCashflow (fun d => .ok (d.ord : ℚ))).toOption.map
      fun cf => (cf.head?.map Payment.date, cf.head?.bind Payment.amount)) =
      some (some (D 2024 4 17), some (1000 * (91 / 360) * ((D 2024 1 15).ord : ℚ))) := by decide +kernel
  refine ⟨rfl, accs, ?_⟩
  cases hc : exSwap0.floatCashflow (fun d => .ok (d.ord : ℚ)) with
  | error e => rw [hc] at h; cases h
  | ok cf =>
    rw [hc] at h
    simp only [Except.toOption, Option.map_some, Option.some.injEq, Prod.mk.injEq] at h
    exact ⟨cf, h1, h2, rfl, h.1, h.2⟩

end Verif.Props
