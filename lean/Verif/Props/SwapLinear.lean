/- Property C106: the value of a swap as a function of its direction, fixed rate and notional. -/
import Verif.Props.SwapLegs

namespace Verif.Props
open Verif.Spec Scheduler

/-- The same terms with another direction, fixed rate and notional. -/
def reterm (t : SwapTerms) (dir : SwapDirection) (r N : ℚ) : SwapTerms :=
  ⟨t.cls, dir, r, N, t.purchaseDate, t.settlementConvention, t.tenor, t.floatFrequency, t.fixedFrequency, t.floatDcc,
    t.fixedDcc, t.calendar, t.fixing, t.paymentDelay, t.adjustment⟩

/-- What a user gets who generates both legs of a swap, storing them, and asks for its present value. -/
def swapWorth (s : Swap) (rate : RateFn) (curve : DiscountFn) : Except PyErr ℚ :=
  ((s.generateFixedLeg true).2.generateFloatLeg rate true).2.presentValue curve

/-- The discounted sum of `factor × value` over the periods paid on or after `ref`: accrual factor, payment date and payment
per unit of notional of each period are given. -/
def discountedLeg (ref : PyDate) (df : PyDate → ℚ) (pd : SwapAccrual → PyDate) (u : SwapAccrual → ℚ) (accs : List SwapAccrual) : ℚ :=
  (accs.map (fun a => if ref ≤ pd a then a.factor * u a * df (pd a) else 0)).sum

theorem swapWorth_eq {t : SwapTerms} {s : Swap} (hs : Swap.create t = .ok s) (rate : RateFn) (curve : DiscountFn) :
    swapWorth s rate curve = swapValue t.direction s.fixedCashflow.toOption (s.floatCashflow rate).toOption curve := by
  have hhist := C41_history t s hs [.generateFixed true, .generateFloat rate true] curve
  simp only [List.foldl_cons, List.foldl_nil, SwapOp.apply, storedFixed, storedFloat] at hhist
  rw [swapWorth, hhist]
  cases (s.floatCashflow rate).toOption <;> rfl

theorem reterm_create {t : SwapTerms} {s : Swap} (h : Swap.create t = .ok s) (dir : SwapDirection) (r N : ℚ) :
    Swap.create (reterm t dir r N) = .ok ⟨reterm t dir r N, s.startAccrual, s.endAccrual, s.legs⟩ := by
  obtain ⟨-, h2, h3, h4⟩ := swap_create_ok h
  unfold Swap.create
  rw [show calculateSettlementDate (reterm t dir r N).calendar (reterm t dir r N).purchaseDate
    (reterm t dir r N).settlementConvention = .ok s.startAccrual from h2, ok_bind,
    show (reterm t dir r N).endAccrual s.startAccrual = .ok s.endAccrual from h3, ok_bind, h4]

/-- A floating payment is proportional to the notional. -/
theorem floatPayment_unit {s : Swap} {rate : RateFn} {a : SwapAccrual} {p : Payment} (h : s.floatPayment rate a = .ok p) :
    ∃ q, s.paymentDate a = .ok p.date ∧ p.amount = some (a.factor * s.terms.notional * q) ∧ ∀ dir r N,
      Swap.floatPayment ⟨reterm s.terms dir r N, s.startAccrual, s.endAccrual, s.legs⟩ rate a =
        .ok ⟨p.date, some (a.factor * N * q)⟩ := by
  unfold Swap.floatPayment at h
  cases hc : s.terms.cls with
  | term =>
    rw [hc] at h
    simp only [Swap.termPayment] at h
    rw [bind_ok] at h; obtain ⟨f, hf, h⟩ := h
    rw [bind_ok] at h; obtain ⟨q, hq, h⟩ := h
    rw [bind_ok] at h; obtain ⟨d, hd, h⟩ := h
    injection h with h
    subst h
    refine ⟨q, hd, rfl, fun dir r N => ?_⟩
    unfold Swap.floatPayment
    rw [show (⟨reterm s.terms dir r N, s.startAccrual, s.endAccrual, s.legs⟩ : Swap).terms.cls = .term from hc]
    simp only [Swap.termPayment]
    rw [show calculateSettlementDate (reterm s.terms dir r N).calendar a.start (reterm s.terms dir r N).fixing = .ok f from hf,
      ok_bind, hq, ok_bind, show Swap.paymentDate ⟨reterm s.terms dir r N, s.startAccrual, s.endAccrual, s.legs⟩ a = .ok d from hd,
      ok_bind]
    rfl
  | overnight =>
    rw [hc] at h
    simp only [Swap.overnightPayment] at h
    rw [bind_ok] at h; obtain ⟨d, hd, h⟩ := h
    rw [bind_ok] at h; obtain ⟨q, hq, h⟩ := h
    injection h with h
    subst h
    refine ⟨q, hd, rfl, fun dir r N => ?_⟩
    unfold Swap.floatPayment
    rw [show (⟨reterm s.terms dir r N, s.startAccrual, s.endAccrual, s.legs⟩ : Swap).terms.cls = .overnight from hc]
    simp only [Swap.overnightPayment]
    rw [show Swap.paymentDate ⟨reterm s.terms dir r N, s.startAccrual, s.endAccrual, s.legs⟩ a = .ok d from hd, ok_bind,
      show Swap.annualizedRate (reterm s.terms dir r N).calendar rate a.start a.stop = .ok q from hq, ok_bind]
    rfl

/-- The present value of a leg whose payments are `factor × notional × u`. -/
theorem leg_value (curve : DiscountFn) (df : PyDate → ℚ) (pd : SwapAccrual → PyDate) (u : SwapAccrual → ℚ)
    (accs : List SwapAccrual) (N : ℚ)
    (hdf : ∀ a ∈ accs, curve.referenceDate ≤ pd a → curve.call (pd a) = .ok (df (pd a))) :
    Cashflow.presentValue (Cashflow.create (accs.map (fun a => (⟨pd a, some (a.factor * N * u a)⟩ : Payment)))) curve =
      .ok (N * discountedLeg curve.referenceDate df pd u accs) := by
  rw [C19_present_value _ curve df]
  · congr 1
    unfold discountedLeg
    rw [List.map_map, ← List.sum_map_mul_left]
    congr 1
    refine List.map_congr_left (fun a _ => ?_)
    simp only [Function.comp, contribution]
    split_ifs <;> ring
  · intro p hp _ href
    obtain ⟨a, ha, rfl⟩ := List.mem_map.1 hp
    exact hdf a ha href

/-- The dates at which a cashflow that could be valued was discounted. -/
theorem priced_of_ok {ps : List Payment} {curve : DiscountFn} {x : ℚ}
    (h : Cashflow.presentValue (Cashflow.create ps) curve = .ok x) :
    ∀ p ∈ ps, p.amount ≠ none → curve.referenceDate ≤ p.date → ∃ y, curve.call p.date = .ok y := by
  intro p hp ha href
  cases hc : curve.call p.date with
  | ok y => exact ⟨y, rfl⟩
  | error e =>
    obtain ⟨e', he'⟩ := (C19_raises_iff ps curve).2 ⟨p, hp, ha, href, e, hc⟩
    rw [h] at he'; cases he'

theorem fixed_parts {s : Swap} {cf : List Payment} (h : s.fixedCashflow = .ok cf) :
    ∃ (accs : List SwapAccrual) (pd : SwapAccrual → PyDate), s.fixedAccruals = .ok accs ∧ (∀ a ∈ accs, s.paymentDate a = .ok (pd a)) ∧
      cf = Cashflow.create (accs.map (fun a => (⟨pd a, some (a.factor * s.terms.notional * s.terms.fixedRate)⟩ : Payment))) := by
  have h' := h
  unfold Swap.fixedCashflow at h'
  rw [bind_ok] at h'; obtain ⟨accs, hacc, h'⟩ := h'
  rw [bind_ok] at h'; obtain ⟨ps, hps, -⟩ := h'
  let pd : SwapAccrual → PyDate := fun a => match s.paymentDate a with | .ok d => d | .error _ => a.stop
  have hpd : ∀ a ∈ accs, s.paymentDate a = .ok (pd a) := by
    intro a ha
    obtain ⟨b, hb⟩ := collect_ok_of_mem hps a ha
    unfold Swap.fixedPayment at hb
    rw [bind_ok] at hb; obtain ⟨d, hd, -⟩ := hb
    simp only [pd, hd]
  refine ⟨accs, pd, hacc, hpd, ?_⟩
  rw [fixedCashflow_eq hacc hpd] at h
  injection h with h
  exact h.symm

theorem float_parts {s : Swap} {rate : RateFn} {cf : List Payment} (h : s.floatCashflow rate = .ok cf) :
    ∃ (accs : List SwapAccrual) (pd : SwapAccrual → PyDate) (q : SwapAccrual → ℚ), s.floatAccruals = .ok accs ∧ (∀ a ∈ accs, s.paymentDate a = .ok (pd a)) ∧
      (∀ a ∈ accs, ∀ dir r N, Swap.floatPayment ⟨reterm s.terms dir r N, s.startAccrual, s.endAccrual, s.legs⟩ rate a =
        .ok ⟨pd a, some (a.factor * N * q a)⟩) ∧
      cf = Cashflow.create (accs.map (fun a => (⟨pd a, some (a.factor * s.terms.notional * q a)⟩ : Payment))) := by
  classical
  unfold Swap.floatCashflow at h
  rw [bind_ok] at h; obtain ⟨accs, hacc, h⟩ := h
  rw [bind_ok] at h; obtain ⟨ps, hps, h⟩ := h
  injection h with h
  have hex : ∀ a, ∃ dq : PyDate × ℚ, a ∈ accs → s.floatPayment rate a = .ok ⟨dq.1, some (a.factor * s.terms.notional * dq.2)⟩ ∧
      s.paymentDate a = .ok dq.1 ∧ ∀ dir r N,
      Swap.floatPayment ⟨reterm s.terms dir r N, s.startAccrual, s.endAccrual, s.legs⟩ rate a =
        .ok ⟨dq.1, some (a.factor * N * dq.2)⟩ := by
    intro a
    by_cases ha : a ∈ accs
    · obtain ⟨p, hp⟩ := collect_ok_of_mem hps a ha
      obtain ⟨q, h1, h2, h3⟩ := floatPayment_unit hp
      exact ⟨(p.date, q), fun _ => ⟨by rw [hp]; cases p; simp only at h2; rw [h2], h1, h3⟩⟩
    · exact ⟨(a.stop, 0), fun h => absurd h ha⟩
  choose dq hdq using hex
  refine ⟨accs, fun a => (dq a).1, fun a => (dq a).2, hacc, fun a ha => (hdq a ha).2.1, fun a ha => (hdq a ha).2.2, ?_⟩
  rw [collect_map (g := fun a => (⟨(dq a).1, some (a.factor * s.terms.notional * (dq a).2)⟩ : Payment))
    (fun a ha => (hdq a ha).1)] at hps
  injection hps with hps
  rw [← h, ← hps]

/-- C106. If one swap can be valued, so can every swap that differs from it only in direction, fixed rate and notional, and its
value is notional × (fixed rate × annuity − floating) for the receiver of the fixed rate and the opposite for the payer. The
annuity (the discounted accrual factors of the fixed periods paid on or after the curve's reference date) and the floating value
(the same for the floating periods, times the rate observed for each) depend on neither. -/
theorem C106_value (t : SwapTerms) (s : Swap) (hs : Swap.create t = .ok s) (curve : DiscountFn) (rate : RateFn) (v : ℚ)
    (hv : swapWorth s rate curve = .ok v) :
    ∃ (fixedAccs floatAccs : List SwapAccrual) (pd pd' : SwapAccrual → PyDate) (q : SwapAccrual → ℚ) (df : PyDate → ℚ),
      s.fixedAccruals = .ok fixedAccs ∧ s.floatAccruals = .ok floatAccs ∧
      (∀ a ∈ fixedAccs, calculateSettlementDate t.calendar a.stop t.paymentDelay = .ok (pd a) ∧
        (curve.referenceDate ≤ pd a → curve.call (pd a) = .ok (df (pd a)))) ∧
      (∀ a ∈ floatAccs, calculateSettlementDate t.calendar a.stop t.paymentDelay = .ok (pd' a) ∧
        (curve.referenceDate ≤ pd' a → curve.call (pd' a) = .ok (df (pd' a))) ∧
        s.floatPayment rate a = .ok ⟨pd' a, some (a.factor * t.notional * q a)⟩) ∧
      ∀ (dir : SwapDirection) (r N : ℚ), ∃ s', Swap.create (reterm t dir r N) = .ok s' ∧
        swapWorth s' rate curve = .ok
          (N * ((if dir = .receiverFixed then 1 else -1) *
            (r * discountedLeg curve.referenceDate df pd (fun _ => 1) fixedAccs -
              discountedLeg curve.referenceDate df pd' q floatAccs))) := by
  obtain ⟨ht, -, -, -⟩ := swap_create_ok hs
  rw [swapWorth_eq hs] at hv
  cases hfx : s.fixedCashflow with
  | error e => rw [hfx] at hv; simp [Except.toOption, swapValue] at hv
  | ok fx =>
    cases hfl : s.floatCashflow rate with
    | error e => rw [hfx, hfl] at hv; simp [Except.toOption, swapValue] at hv
    | ok fl =>
      rw [hfx, hfl] at hv
      simp only [Except.toOption, swapValue] at hv
      rw [bind_ok] at hv; obtain ⟨y, hy, hv⟩ := hv
      rw [bind_ok] at hv; obtain ⟨x, hx, -⟩ := hv
      obtain ⟨A, pd, hA, hpd, rfl⟩ := fixed_parts hfx
      obtain ⟨B, pd', q, hB, hpd', hq, rfl⟩ := float_parts hfl
      let df : PyDate → ℚ := fun d => match curve.call d with | .ok x => x | .error _ => 0
      have h1 : ∀ a ∈ A, curve.referenceDate ≤ pd a → curve.call (pd a) = .ok (df (pd a)) := by
        intro a ha href
        obtain ⟨z, hz⟩ := priced_of_ok hx _ (List.mem_map.2 ⟨a, ha, rfl⟩) (by simp) href
        simp only at hz
        simp only [df, hz]
      have h2 : ∀ a ∈ B, curve.referenceDate ≤ pd' a → curve.call (pd' a) = .ok (df (pd' a)) := by
        intro a ha href
        obtain ⟨z, hz⟩ := priced_of_ok hy _ (List.mem_map.2 ⟨a, ha, rfl⟩) (by simp) href
        simp only at hz
        simp only [df, hz]
      subst ht
      refine ⟨A, B, pd, pd', q, df, hA, hB, fun a ha => ⟨hpd a ha, h1 a ha⟩,
        fun a ha => ⟨hpd' a ha, h2 a ha, ?_⟩, ?_⟩
      · have := hq a ha s.terms.direction s.terms.fixedRate s.terms.notional
        exact this
      · intro dir r N
        refine ⟨_, reterm_create hs dir r N, ?_⟩
        rw [swapWorth_eq (reterm_create hs dir r N)]
        set s' : Swap := ⟨reterm s.terms dir r N, s.startAccrual, s.endAccrual, s.legs⟩ with hs'
        have e1 : s'.fixedCashflow = .ok (Cashflow.create (A.map (fun a => (⟨pd a, some (a.factor * N * r)⟩ : Payment)))) :=
          fixedCashflow_eq (s := s') (show s'.fixedAccruals = .ok A from hA) (show ∀ a ∈ A, s'.paymentDate a = .ok (pd a) from hpd)
        have e2 : s'.floatCashflow rate =
            .ok (Cashflow.create (B.map (fun a => (⟨pd' a, some (a.factor * N * q a)⟩ : Payment)))) := by
          unfold Swap.floatCashflow
          rw [show s'.floatAccruals = .ok B from hB, ok_bind, collect_map (g := fun a => ⟨pd' a, some (a.factor * N * q a)⟩), ok_bind]
          intro a ha
          exact hq a ha dir r N
        rw [e1, e2]
        simp only [Except.toOption, swapValue]
        rw [leg_value curve df pd' q B N h2, ok_bind, leg_value curve df pd (fun _ => r) A N h1, ok_bind]
        have e3 : discountedLeg curve.referenceDate df pd (fun _ => r) A =
            r * discountedLeg curve.referenceDate df pd (fun _ => 1) A := by
          unfold discountedLeg
          rw [← List.sum_map_mul_left]
          congr 1
          refine List.map_congr_left (fun a _ => ?_)
          split_ifs <;> ring
        rw [e3]
        show Except.ok (if dir = .receiverFixed then _ else _) = _
        congr 1
        split_ifs <;> ring

/-- C106. On a curve of nonnegative discount factors, with nonnegative notional and accrual factors, raising the fixed rate never
lowers the receiver's value and never raises the payer's. -/
theorem C106_monotone (t : SwapTerms) (s s₁ s₂ : Swap) (hs : Swap.create t = .ok s) (curve : DiscountFn) (rate : RateFn)
    (hcurve : ∀ d x, curve.call d = .ok x → 0 ≤ x)
    (hfac : ∀ accs, s.fixedAccruals = .ok accs → ∀ a ∈ accs, 0 ≤ a.factor) (v : ℚ) (hv : swapWorth s rate curve = .ok v)
    (dir : SwapDirection) (r₁ r₂ N : ℚ) (hN : 0 ≤ N) (hr : r₁ ≤ r₂) (h₁ : Swap.create (reterm t dir r₁ N) = .ok s₁)
    (h₂ : Swap.create (reterm t dir r₂ N) = .ok s₂) :
    ∃ v₁ v₂, swapWorth s₁ rate curve = .ok v₁ ∧ swapWorth s₂ rate curve = .ok v₂ ∧
      (dir = .receiverFixed → v₁ ≤ v₂) ∧ (dir = .payerFixed → v₂ ≤ v₁) := by
  obtain ⟨A, B, pd, pd', q, df, hA, -, hpd, -, hval⟩ := C106_value t s hs curve rate v hv
  obtain ⟨s₁', e₁, w₁⟩ := hval dir r₁ N
  obtain ⟨s₂', e₂, w₂⟩ := hval dir r₂ N
  rw [h₁] at e₁; injection e₁ with e₁; subst e₁
  rw [h₂] at e₂; injection e₂ with e₂; subst e₂
  have hann : 0 ≤ discountedLeg curve.referenceDate df pd (fun _ => 1) A := by
    unfold discountedLeg
    refine List.sum_nonneg (fun x hx => ?_)
    obtain ⟨a, ha, rfl⟩ := List.mem_map.1 hx
    simp only
    by_cases href : curve.referenceDate ≤ pd a
    · rw [if_pos href, mul_one]
      exact mul_nonneg (hfac A hA a ha) (hcurve _ _ ((hpd a ha).2 href))
    · rw [if_neg href]
  refine ⟨_, _, w₁, w₂, ?_, ?_⟩
  · intro hd
    rw [if_pos hd, one_mul]
    refine mul_le_mul_of_nonneg_left ?_ hN
    have := mul_le_mul_of_nonneg_right hr hann
    linarith
  · intro hd
    rw [if_neg (by rw [hd]; decide)]
    refine mul_le_mul_of_nonneg_left ?_ hN
    have := mul_le_mul_of_nonneg_right hr hann
    linarith

/-- C106. Doubling the notional doubles the value; an opposite swap of the same terms offsets it; a swap struck at `r₁` against
one struck at `r₂` leaves the annuity of the difference, whatever the floating rates turn out to be. -/
theorem C106_scaling (t : SwapTerms) (s : Swap) (hs : Swap.create t = .ok s) (curve : DiscountFn) (rate : RateFn) (v : ℚ)
    (hv : swapWorth s rate curve = .ok v) (c : ℚ) (s' : Swap)
    (hs' : Swap.create (reterm t t.direction t.fixedRate (c * t.notional)) = .ok s') :
    swapWorth s' rate curve = .ok (c * v) := by
  obtain ⟨A, B, pd, pd', q, df, -, -, -, -, hval⟩ := C106_value t s hs curve rate v hv
  obtain ⟨s₁, e₁, w₁⟩ := hval t.direction t.fixedRate t.notional
  obtain ⟨s₂, e₂, w₂⟩ := hval t.direction t.fixedRate (c * t.notional)
  rw [hs'] at e₂; injection e₂ with e₂; subst e₂
  rw [show reterm t t.direction t.fixedRate t.notional = t from rfl, hs] at e₁
  injection e₁ with e₁; subst e₁
  rw [hv] at w₁; injection w₁ with w₁
  rw [w₂, w₁]
  congr 1; ring

/-- C106. The difference between two swaps at different fixed rates does not depend on the floating rates: it is notional ×
(difference of rates) × annuity, with one annuity for all floating rates. -/
theorem C106_rate_difference (t : SwapTerms) (s : Swap) (hs : Swap.create t = .ok s) (curve : DiscountFn) (rate rate' : RateFn)
    (v v' : ℚ) (hv : swapWorth s rate curve = .ok v) (hv' : swapWorth s rate' curve = .ok v') (r : ℚ) (s₁ : Swap)
    (hs₁ : Swap.create (reterm t t.direction r t.notional) = .ok s₁) :
    ∃ w w', swapWorth s₁ rate curve = .ok w ∧ swapWorth s₁ rate' curve = .ok w' ∧ w - v = w' - v' := by
  obtain ⟨A, B, pd, pd', q, df, hA, -, hpd, -, hval⟩ := C106_value t s hs curve rate v hv
  obtain ⟨A', B', pe, pe', q', df', hA', -, hpe, -, hval'⟩ := C106_value t s hs curve rate' v' hv'
  rw [hA] at hA'; injection hA' with hA'; subst hA'
  have key : discountedLeg curve.referenceDate df pd (fun _ => 1) A = discountedLeg curve.referenceDate df' pe (fun _ => 1) A := by
    unfold discountedLeg
    congr 1
    refine List.map_congr_left (fun a ha => ?_)
    have hp : pd a = pe a := by
      have e := (hpd a ha).1
      rw [(hpe a ha).1] at e; injection e with e; exact e.symm
    rw [hp]
    by_cases href : curve.referenceDate ≤ pe a
    · have h1 := (hpd a ha).2 (by rw [hp]; exact href)
      have h2 := (hpe a ha).2 href
      rw [hp, h2] at h1
      injection h1 with h1
      rw [h1]
    · rw [if_neg href, if_neg href]
  have hself : reterm t t.direction t.fixedRate t.notional = t := rfl
  obtain ⟨a1, b1, c1⟩ := hval t.direction t.fixedRate t.notional
  obtain ⟨a2, b2, c2⟩ := hval' t.direction t.fixedRate t.notional
  obtain ⟨a3, b3, c3⟩ := hval t.direction r t.notional
  obtain ⟨a4, b4, c4⟩ := hval' t.direction r t.notional
  rw [hself, hs] at b1 b2
  injection b1 with b1; subst b1
  injection b2 with b2; subst b2
  rw [hs₁] at b3 b4
  injection b3 with b3; subst b3
  injection b4 with b4; subst b4
  rw [hv] at c1; injection c1 with c1
  rw [hv'] at c2; injection c2 with c2
  refine ⟨_, _, c3, c4, ?_⟩
  rw [c1, c2, key]; ring

/-- Concrete case for C106: the example swap (receiver, 1000 at 5 %) on its trade date, undiscounted: two fixed payments of 25
against the floating leg; twice the notional at 4 % as a payer. -/
example : ∃ v w s', swapWorth exSwap0 exRate (unitCurve (D 2024 1 15)) = .ok v ∧
    Swap.create (reterm exSwap .payerFixed (4 / 100) 2000) = .ok s' ∧
    swapWorth s' exRate (unitCurve (D 2024 1 15)) = .ok w ∧ (exSwap.direction = .receiverFixed ∧ w = -2 * (v - 10)) := by
  refine ⟨259 / 18, -79 / 9, _, ?_, reterm_create exSwap_create _ _ _, ?_, ?_⟩
  all_goals decide +kernel

end Verif.Props
