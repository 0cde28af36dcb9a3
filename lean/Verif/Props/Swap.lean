/- Properties C41-C43: interest-rate swaps. -/
import Verif.Spec.Swap
import Verif.Props.Cashflow
import Verif.Props.Loan

namespace Verif.Props
open Verif Verif.Spec Verif.DayCount Verif.Scheduler

/-! ## C41 -/

/-- The same swap in the other direction. -/
def withDirection (s : Swap) (d : SwapDirection) : Swap := { s with terms := { s.terms with direction := d } }

theorem swap_pv_eq (s : Swap) (curve : DiscountFn) (fx fl : Option (List Payment))
    (h1 : s.legs.getItem Swap.fixedKey = .ok fx) (h2 : s.legs.getItem Swap.floatKey = .ok fl) :
    s.presentValue curve = swapValue s.terms.direction fx fl curve := by
  unfold Swap.presentValue swapValue
  rw [h1, ok_bind, h2, ok_bind]
  cases fx with
  | none => rfl
  | some fx =>
    cases fl with
    | none => rfl
    | some fl =>
      simp only
      cases Cashflow.presentValue fl curve with
      | error e => rfl
      | ok y =>
        rw [ok_bind, ok_bind]
        cases Cashflow.presentValue fx curve with
        | error e => rfl
        | ok x =>
          rw [ok_bind, ok_bind]
          cases s.terms.direction <;> simp

/-- C41. Payer and receiver swaps of the same terms and legs have opposite values, and raise on the same inputs. -/
theorem C41_antisymmetric (s : Swap) (curve : DiscountFn) :
    (∀ v, (withDirection s .payerFixed).presentValue curve = .ok v ↔
      (withDirection s .receiverFixed).presentValue curve = .ok (-v)) ∧
    (∀ e, (withDirection s .payerFixed).presentValue curve = .error e ↔
      (withDirection s .receiverFixed).presentValue curve = .error e) := by
  unfold Swap.presentValue
  simp only [withDirection]
  cases s.legs.getItem Swap.fixedKey with
  | error e => simp only [error_bind, reduceCtorEq, Except.error.injEq, implies_true, and_self]
  | ok fx =>
    cases s.legs.getItem Swap.floatKey with
    | error e => simp only [error_bind, ok_bind, reduceCtorEq, Except.error.injEq, implies_true, and_self]
    | ok fl =>
      cases fx with
      | none => simp
      | some fx =>
        cases fl with
        | none => simp
        | some fl =>
          simp only [ok_bind]
          cases Cashflow.presentValue fl curve with
          | error e => simp
          | ok y =>
            simp only [ok_bind]
            cases Cashflow.presentValue fx curve with
            | error e => simp
            | ok x =>
              simp only [ok_bind, Except.ok.injEq, reduceCtorEq, implies_true, and_true]
              intro v; constructor <;> intro h <;> linarith

theorem getItem_of_get? {ν : Type} {c : CashflowCollection ν} {k : CashflowKey} {v : ν}
    (h : PyDict.get? c.cashflows k = some v) : c.getItem k = .ok v := by
  unfold CashflowCollection.getItem; rw [h]

/-- What an operation does to a swap: it never touches the terms or dates, and may store a leg. -/
theorem apply_spec (s : Swap) (op : SwapOp) :
    (op.apply s).terms = s.terms ∧ (op.apply s).startAccrual = s.startAccrual ∧ (op.apply s).endAccrual = s.endAccrual ∧
    PyDict.get? (op.apply s).legs.cashflows Swap.fixedKey =
      (match storedFixed s [op] with
        | some cf => some (some cf)
        | none => PyDict.get? s.legs.cashflows Swap.fixedKey) ∧
    PyDict.get? (op.apply s).legs.cashflows Swap.floatKey =
      (match storedFloat s [op] with
        | some cf => some (some cf)
        | none => PyDict.get? s.legs.cashflows Swap.floatKey) := by
  have hne : Swap.fixedKey ≠ Swap.floatKey := by decide
  have hfl : ∀ (rate : RateFn) (set : Bool) (s' : Swap), s' = (s.generateFloatLeg rate set).2 →
      s'.terms = s.terms ∧ s'.startAccrual = s.startAccrual ∧ s'.endAccrual = s.endAccrual ∧
      PyDict.get? s'.legs.cashflows Swap.fixedKey = PyDict.get? s.legs.cashflows Swap.fixedKey ∧
      PyDict.get? s'.legs.cashflows Swap.floatKey =
        (match (if set then (s.floatCashflow rate).toOption else none) with
          | some cf => some (some cf)
          | none => PyDict.get? s.legs.cashflows Swap.floatKey) := by
    rintro rate set s' rfl
    unfold Swap.generateFloatLeg
    cases hcf : s.floatCashflow rate with
    | error e => cases set <;> simp [Except.toOption]
    | ok cf =>
      cases set with
      | false => simp [Swap.store]
      | true =>
        simp only [Swap.store, if_true, setItem_cashflows, PyDict.get?_set, Except.toOption]
        simp [hne.symm]
  cases op with
  | generateFixed set =>
    simp only [SwapOp.apply, storedFixed, storedFloat, Swap.generateFixedLeg]
    cases hcf : s.fixedCashflow with
    | error e => cases set <;> simp [Except.toOption]
    | ok cf =>
      cases set with
      | false => simp [Swap.store]
      | true =>
        simp only [Swap.store, if_true, setItem_cashflows, PyDict.get?_set, Except.toOption]
        simp [hne]
  | generateFloat rate set =>
    obtain ⟨h1, h2, h3, h4, h5⟩ := hfl rate set _ rfl
    refine ⟨h1, h2, h3, ?_, ?_⟩
    · simp only [SwapOp.apply, storedFixed]; exact h4
    · simp only [SwapOp.apply, storedFloat]
      rw [h5]; cases set <;> rfl
  | impliedRate curve rate set =>
    have : (s.impliedRate curve rate set).2 = (s.generateFloatLeg rate set).2 := by
      unfold Swap.impliedRate
      rcases s.generateFloatLeg rate set with ⟨r, s'⟩
      cases r <;> rfl
    obtain ⟨h1, h2, h3, h4, h5⟩ := hfl rate set _ this
    refine ⟨h1, h2, h3, ?_, ?_⟩
    · simp only [SwapOp.apply, storedFixed]; exact h4
    · simp only [SwapOp.apply, storedFloat]
      rw [h5]; cases set <;> rfl

/-- The generated cashflows depend only on the terms and accrual dates. -/
theorem cashflows_congr {s s' : Swap} (h1 : s'.terms = s.terms) (h2 : s'.startAccrual = s.startAccrual)
    (h3 : s'.endAccrual = s.endAccrual) :
    s'.fixedCashflow = s.fixedCashflow ∧ ∀ rate, s'.floatCashflow rate = s.floatCashflow rate := by
  cases s; cases s'
  subst h1 h2 h3
  exact ⟨rfl, fun _ => rfl⟩

theorem stored_congr {s s' : Swap} (h1 : s'.terms = s.terms) (h2 : s'.startAccrual = s.startAccrual)
    (h3 : s'.endAccrual = s.endAccrual) (ops : List SwapOp) :
    storedFixed s' ops = storedFixed s ops ∧ storedFloat s' ops = storedFloat s ops := by
  obtain ⟨hf, hg⟩ := cashflows_congr h1 h2 h3
  induction ops with
  | nil => exact ⟨rfl, rfl⟩
  | cons op ops ih =>
    simp only [storedFixed, storedFloat, ih.1, ih.2]
    cases op with
    | generateFixed set => cases set <;> simp [hf]
    | generateFloat rate set => cases set <;> simp [hg]
    | impliedRate curve rate set => cases set <;> simp [hg]

/-- C41. A swap as a state machine: after any sequence of fixed-leg generations, floating-leg generations and implied-rate
calls on a newly constructed swap, the present value is that of the legs last stored with `set_cashflow=True` (fixed minus
floating for the receiver, floating minus fixed for the payer), and ValueError as long as one of them has not been stored. -/
theorem C41_history (t : SwapTerms) (s : Swap) (h : Swap.create t = .ok s) (ops : List SwapOp) (curve : DiscountFn) :
    (ops.foldl SwapOp.apply s).presentValue curve =
      swapValue t.direction (storedFixed s ops) (storedFloat s ops) curve := by
  have key : ∀ (ops : List SwapOp) (s : Swap) (fx fl : Option (List Payment)),
      PyDict.get? s.legs.cashflows Swap.fixedKey = some fx → PyDict.get? s.legs.cashflows Swap.floatKey = some fl →
      (ops.foldl SwapOp.apply s).presentValue curve =
        swapValue s.terms.direction (storedFixed s ops <|> fx) (storedFloat s ops <|> fl) curve := by
    intro ops
    induction ops with
    | nil =>
      intro s fx fl h1 h2
      exact swap_pv_eq s curve fx fl (getItem_of_get? h1) (getItem_of_get? h2)
    | cons op ops ih =>
      intro s fx fl h1 h2
      obtain ⟨e1, e2, e3, e4, e5⟩ := apply_spec s op
      obtain ⟨c1, c2⟩ := stored_congr e1 e2 e3 ops
      rw [List.foldl_cons, ih (op.apply s) (storedFixed s [op] <|> fx) (storedFloat s [op] <|> fl)
        (by rw [e4, h1]; cases storedFixed s [op] <;> rfl) (by rw [e5, h2]; cases storedFloat s [op] <;> rfl), e1, c1, c2]
      congr 1
      · simp only [storedFixed]
        cases storedFixed s ops <;> rfl
      · simp only [storedFloat]
        cases storedFloat s ops <;> rfl
  unfold Swap.create at h
  rw [bind_ok] at h; obtain ⟨start, -, h⟩ := h
  rw [bind_ok] at h; obtain ⟨stop, -, h⟩ := h
  injection h with h
  rw [key ops s none none (by rw [← h]; rfl) (by rw [← h]; rfl), ← h]
  cases storedFixed _ ops <;> cases storedFloat _ ops <;> rfl

/-! ## C42 -/

theorem swap_create_ok {t : SwapTerms} {s : Swap} (h : Swap.create t = .ok s) :
    s.terms = t ∧ calculateSettlementDate t.calendar t.purchaseDate t.settlementConvention = .ok s.startAccrual ∧
    t.endAccrual s.startAccrual = .ok s.endAccrual ∧
    s.legs = CashflowCollection.create [none, none] [Swap.fixedKey, Swap.floatKey] := by
  unfold Swap.create at h
  rw [bind_ok] at h; obtain ⟨start, h1, h⟩ := h
  rw [bind_ok] at h; obtain ⟨stop, h2, h⟩ := h
  injection h with h
  subst h
  exact ⟨rfl, h1, h2, rfl⟩

/-- Constructing the same swap at another fixed rate. -/
theorem swap_create_rate {t : SwapTerms} {s : Swap} (h : Swap.create t = .ok s) (r : ℚ) :
    Swap.create { t with fixedRate := r } = .ok { s with terms := { t with fixedRate := r } } := by
  obtain ⟨-, h2, h3, h4⟩ := swap_create_ok h
  unfold Swap.create
  simp only [h2, ok_bind]
  rw [show SwapTerms.endAccrual { t with fixedRate := r } s.startAccrual = .ok s.endAccrual from h3, ok_bind, ← h4]

theorem collect_map {α β : Type} {f : α → Except PyErr β} {g : α → β} {l : List α} (h : ∀ a ∈ l, f a = .ok (g a)) :
    collect f l = .ok (l.map g) := by
  induction l with
  | nil => rfl
  | cons a as ih =>
    simp only [collect, h a (by simp), ok_bind]
    rw [ih (fun b hb => h b (by simp [hb])), ok_bind]; rfl

theorem fixedCashflow_eq {s : Swap} {accs : List SwapAccrual} {pd : SwapAccrual → PyDate} (hacc : s.fixedAccruals = .ok accs)
    (hpd : ∀ a ∈ accs, s.paymentDate a = .ok (pd a)) :
    s.fixedCashflow = .ok (Cashflow.create (accs.map (fun a =>
      (⟨pd a, some (a.factor * s.terms.notional * s.terms.fixedRate)⟩ : Payment)))) := by
  unfold Swap.fixedCashflow
  rw [hacc, ok_bind, collect_map (g := fun a => ⟨pd a, some (a.factor * s.terms.notional * s.terms.fixedRate)⟩), ok_bind]
  intro a ha
  unfold Swap.fixedPayment
  rw [hpd a ha, ok_bind]

/-- What `implied_rate` computed, when it returned. -/
theorem impliedRate_ok {s : Swap} {curve : DiscountFn} {rate : RateFn} {set : Bool} {r : ℚ}
    (h : (s.impliedRate curve rate set).1 = .ok r) :
    ∃ (fl : List Payment) (y : ℚ) (accs : List SwapAccrual) (pd : SwapAccrual → PyDate) (df : PyDate → ℚ),
      s.floatCashflow rate = .ok fl ∧ Cashflow.presentValue fl curve = .ok y ∧ s.fixedAccruals = .ok accs ∧
      (∀ d x, curve.call d = .ok x → df d = x) ∧
      (∀ a ∈ accs, s.paymentDate a = .ok (pd a) ∧ curve.call (pd a) = .ok (df (pd a))) ∧
      (accs.map (fun a => df (pd a) * (a.factor * s.terms.notional))).sum ≠ 0 ∧
      r = y / (accs.map (fun a => df (pd a) * (a.factor * s.terms.notional))).sum := by
  classical
  unfold Swap.impliedRate Swap.generateFloatLeg at h
  cases hfl : s.floatCashflow rate with
  | error e => rw [hfl] at h; cases h
  | ok fl =>
    rw [hfl] at h
    simp only at h
    have hs : ∀ cf, (s.store set Swap.floatKey cf).rateFromFloat curve fl = s.rateFromFloat curve fl := by
      intro cf; unfold Swap.store; cases set <;> rfl
    rw [hs] at h
    unfold Swap.rateFromFloat at h
    rw [bind_ok] at h; obtain ⟨y, hy, h⟩ := h
    rw [bind_ok] at h; obtain ⟨accs, haccs, h⟩ := h
    rw [bind_ok] at h; obtain ⟨A, hA, h⟩ := h
    obtain ⟨hA0, hr⟩ := pyDiv_ok.1 h
    let df : PyDate → ℚ := fun d => match curve.call d with | .ok x => x | .error _ => 0
    let pd : SwapAccrual → PyDate := fun a => match s.paymentDate a with | .ok d => d | .error _ => a.stop
    have hdf : ∀ d x, curve.call d = .ok x → df d = x := by intro d x hx; simp only [df, hx]
    have hall : ∀ a ∈ accs, s.paymentDate a = .ok (pd a) ∧ curve.call (pd a) = .ok (df (pd a)) := by
      intro a ha
      unfold pySum at hA
      rw [bind_ok] at hA
      obtain ⟨xs, hxs, -⟩ := hA
      obtain ⟨b, hb⟩ := collect_ok_of_mem hxs a ha
      unfold Swap.discountedAccrual at hb
      rw [bind_ok] at hb; obtain ⟨d, hd, hb⟩ := hb
      rw [bind_ok] at hb; obtain ⟨x, hx, -⟩ := hb
      have hpd : pd a = d := by simp only [pd, hd]
      rw [hpd]
      exact ⟨hd, by rw [hx, hdf d x hx]⟩
    have hAeq : A = (accs.map (fun a => df (pd a) * (a.factor * s.terms.notional))).sum := by
      rw [pySum_ok (g := fun a => df (pd a) * (a.factor * s.terms.notional))] at hA
      · injection hA with hA; exact hA.symm
      · intro a ha
        unfold Swap.discountedAccrual
        rw [(hall a ha).1, ok_bind, (hall a ha).2, ok_bind]
    rw [hAeq] at hA0 hr
    exact ⟨fl, y, accs, pd, df, rfl, hy, haccs, hdf, hall, hA0, hr⟩

/-- Sum of discount factor times amount over the payments dated before the curve's reference date, which `present_value`
leaves out. -/
def pastValue (ref : PyDate) (df : PyDate → ℚ) (l : List Payment) : ℚ :=
  (l.map (fun p => if p.date < ref then df p.date * p.amount.getD 0 else 0)).sum

/-- C42 (general). A swap struck at the implied rate `r`, with both legs generated: the receiver's value is minus the
(discounted) value of the fixed payments dated before the curve's reference date, the payer's plus that. -/
theorem C42_implied_rate_value (t : SwapTerms) (s : Swap) (hs : Swap.create t = .ok s) (curve : DiscountFn) (rate : RateFn)
    (set : Bool) (r : ℚ) (hr : (s.impliedRate curve rate set).1 = .ok r) (df : PyDate → ℚ)
    (hdf : ∀ d x, curve.call d = .ok x → df d = x) :
    ∃ s' fx fl, Swap.create { t with fixedRate := r } = .ok s' ∧
      (s'.generateFixedLeg true).1 = .ok fx ∧
      ((s'.generateFixedLeg true).2.generateFloatLeg rate true).1 = .ok fl ∧
      ((s'.generateFixedLeg true).2.generateFloatLeg rate true).2.presentValue curve =
        .ok (if t.direction = .receiverFixed then - pastValue curve.referenceDate df fx
          else pastValue curve.referenceDate df fx) := by
  obtain ⟨fl, y, accs, pd, df', hfl, hy, hacc, hdf', hall, hA0, hry⟩ := impliedRate_ok hr
  obtain ⟨ht, -, -, -⟩ := swap_create_ok hs
  have hs' := swap_create_rate hs r
  set s' : Swap := { s with terms := { t with fixedRate := r } } with hs'def
  have hterm : s'.terms.notional = s.terms.notional := by rw [hs'def, ht]
  have hacc' : s'.fixedAccruals = .ok accs := by rw [← hacc, hs'def]; subst ht; rfl
  have hpd' : ∀ a ∈ accs, s'.paymentDate a = .ok (pd a) := by
    intro a ha; rw [← (hall a ha).1, hs'def]; subst ht; rfl
  have hfl' : s'.floatCashflow rate = .ok fl := by rw [← hfl, hs'def]; subst ht; rfl
  have hfx := fixedCashflow_eq hacc' hpd'
  rw [hterm, show s'.terms.fixedRate = r from rfl] at hfx
  set ps : List Payment := accs.map (fun a => (⟨pd a, some (a.factor * s.terms.notional * r)⟩ : Payment)) with hps
  have hg1 : s'.generateFixedLeg true = (.ok (Cashflow.create ps), s'.store true Swap.fixedKey (Cashflow.create ps)) := by
    unfold Swap.generateFixedLeg; rw [hfx]
  have hfl2 : (s'.store true Swap.fixedKey (Cashflow.create ps)).floatCashflow rate = .ok fl := hfl'
  refine ⟨s', Cashflow.create ps, fl, hs', ?_, ?_, ?_⟩
  · rw [hg1]
  · rw [hg1]; unfold Swap.generateFloatLeg; rw [hfl2]
  · have hhist := C41_history _ s' hs' [.generateFixed true, .generateFloat rate true] curve
    simp only [List.foldl_cons, List.foldl_nil, SwapOp.apply, storedFixed, storedFloat] at hhist
    rw [hhist, hfx, hfl']
    simp only [Except.toOption, swapValue]
    rw [hy, ok_bind, C19_present_value ps curve df' ?_, ok_bind]
    · have hperm : pastValue curve.referenceDate df (Cashflow.create ps) = pastValue curve.referenceDate df ps :=
        ((pySorted_perm Payment.date ps).map _).sum_eq
      rw [hperm]
      have hyA : y = r * (accs.map (fun a => df' (pd a) * (a.factor * s.terms.notional))).sum := by
        rw [hry, div_mul_cancel₀ _ hA0]
      have hsum : (ps.map (contribution curve.referenceDate df')).sum = y - pastValue curve.referenceDate df ps := by
        rw [hyA, hps, pastValue]
        clear hA0 hry hyA hps hg1 hfl2 hfx hacc hacc' hpd' hhist hperm
        induction accs with
        | nil => simp
        | cons a as ih =>
          have ih := ih (fun a ha => hall a (by simp [ha]))
          simp only [List.map_cons, List.sum_cons]
          rw [ih]
          have ea := hdf _ _ (hall a (by simp)).2
          simp only [contribution, Option.getD_some]
          rw [ea]
          by_cases hd : curve.referenceDate ≤ pd a
          · rw [if_pos hd, if_neg (not_lt.2 hd)]; ring
          · rw [if_neg hd, if_pos (not_le.1 hd)]; ring
      rw [hsum]
      congr 1
      split_ifs <;> ring
    · intro p hp _ _
      rw [hps, List.mem_map] at hp
      obtain ⟨a, ha, rfl⟩ := hp
      exact (hall a ha).2

/-- C42 (what holds). If no fixed payment is dated before the curve's reference date, a swap struck at the implied rate has
value zero. -/
theorem C42_fair_partial (t : SwapTerms) (s : Swap) (hs : Swap.create t = .ok s) (curve : DiscountFn) (rate : RateFn)
    (set : Bool) (r : ℚ) (hr : (s.impliedRate curve rate set).1 = .ok r)
    (hdates : ∀ fx, s.fixedCashflow = .ok fx → ∀ p ∈ fx, curve.referenceDate ≤ p.date) :
    ∃ s', Swap.create { t with fixedRate := r } = .ok s' ∧
      ((s'.generateFixedLeg true).2.generateFloatLeg rate true).2.presentValue curve = .ok 0 := by
  obtain ⟨fl, y, accs, pd, df, hfl, hy, hacc, hdf, hall, hA0, hry⟩ := impliedRate_ok hr
  obtain ⟨s', fx, fl', hs', hfx, hfl', hpv⟩ := C42_implied_rate_value t s hs curve rate set r hr df hdf
  refine ⟨s', hs', ?_⟩
  obtain ⟨ht, -, -, -⟩ := swap_create_ok hs
  have hfix := fixedCashflow_eq hacc (fun a ha => (hall a ha).1)
  have hpds : ∀ a ∈ accs, curve.referenceDate ≤ pd a := by
    intro a ha
    have := hdates _ hfix ⟨pd a, some (a.factor * s.terms.notional * s.terms.fixedRate)⟩
      ((pySorted_perm _ _).mem_iff.2 (List.mem_map.2 ⟨a, ha, rfl⟩))
    exact this
  have e := swap_create_rate hs r
  rw [hs'] at e; injection e with e
  have hfix' : s'.fixedCashflow = .ok (Cashflow.create (accs.map (fun a =>
      (⟨pd a, some (a.factor * s'.terms.notional * s'.terms.fixedRate)⟩ : Payment)))) := by
    apply fixedCashflow_eq
    · rw [← hacc, e]; subst ht; rfl
    · intro a ha; rw [← (hall a ha).1, e]; subst ht; rfl
  unfold Swap.generateFixedLeg at hfx
  rw [hfix'] at hfx
  simp only [Except.ok.injEq] at hfx
  have hzero : pastValue curve.referenceDate df fx = 0 := by
    unfold pastValue
    apply List.sum_eq_zero
    intro x hx
    obtain ⟨p, hp, rfl⟩ := List.mem_map.1 hx
    rw [← hfx] at hp
    obtain ⟨a, ha, rfl⟩ := List.mem_map.1 ((pySorted_perm _ _).mem_iff.1 hp)
    rw [if_neg (not_lt.2 (hpds a ha))]
  rw [hpv, hzero]; simp

/-- C42. The implied rate is the only one: any other fixed rate gives a nonzero value (no fixed payment before the curve's
reference date). -/
theorem C42_unique (t : SwapTerms) (s : Swap) (hs : Swap.create t = .ok s) (curve : DiscountFn) (rate : RateFn)
    (set : Bool) (r : ℚ) (hr : (s.impliedRate curve rate set).1 = .ok r)
    (hdates : ∀ fx, s.fixedCashflow = .ok fx → ∀ p ∈ fx, curve.referenceDate ≤ p.date)
    (hpv : ((s.generateFixedLeg true).2.generateFloatLeg rate true).2.presentValue curve = .ok 0) : t.fixedRate = r := by
  obtain ⟨fl, y, accs, pd, df, hfl, hy, hacc, hdf, hall, hA0, hry⟩ := impliedRate_ok hr
  obtain ⟨ht, -, -, -⟩ := swap_create_ok hs
  have hfix := fixedCashflow_eq hacc (fun a ha => (hall a ha).1)
  have hpds : ∀ a ∈ accs, curve.referenceDate ≤ pd a := by
    intro a ha
    have := hdates _ hfix ⟨pd a, some (a.factor * s.terms.notional * s.terms.fixedRate)⟩
      ((pySorted_perm _ _).mem_iff.2 (List.mem_map.2 ⟨a, ha, rfl⟩))
    exact this
  have hhist := C41_history t s hs [.generateFixed true, .generateFloat rate true] curve
  simp only [List.foldl_cons, List.foldl_nil, SwapOp.apply, storedFixed, storedFloat] at hhist
  rw [hpv, hfix, hfl] at hhist
  simp only [Except.toOption, swapValue] at hhist
  rw [hy, ok_bind, C19_present_value _ curve df ?_, ok_bind] at hhist
  · have hsum : ((accs.map (fun a => (⟨pd a, some (a.factor * s.terms.notional * s.terms.fixedRate)⟩ : Payment))).map
        (contribution curve.referenceDate df)).sum =
        t.fixedRate * (accs.map (fun a => df (pd a) * (a.factor * s.terms.notional))).sum := by
      clear hA0 hry hfix hacc hhist
      induction accs with
      | nil => simp
      | cons a as ih =>
        simp only [List.map_cons, List.sum_cons]
        rw [ih (fun a ha => hall a (by simp [ha])) (fun a ha => hpds a (by simp [ha]))]
        simp only [contribution]
        rw [if_pos (hpds a (by simp)), ht]; ring
    rw [hsum] at hhist
    injection hhist with hhist
    rw [hry, eq_div_iff hA0]
    split_ifs at hhist <;> linarith
  · intro p hp _ _
    obtain ⟨a, ha, rfl⟩ := List.mem_map.1 hp
    exact (hall a ha).2

/-- A 5% receiver swap: 1 year, semi-annual fixed, quarterly floating, no holidays, T+0 payments. -/
def exSwap : SwapTerms where
  cls := .term
  direction := .receiverFixed
  fixedRate := 5 / 100
  notional := 1000
  purchaseDate := D 2024 1 15
  settlementConvention := .tPlusTwoBusiness
  tenor := ⟨some 1, 'Y'⟩
  floatFrequency := .quarterly
  fixedFrequency := .semiAnnual
  floatDcc := .act360
  fixedDcc := .thirty360
  calendar := []
  fixing := .tMinusTwoBusiness
  paymentDelay := .tPlusZeroBusiness
  adjustment := .modifiedFollowing

/-- A flat discount factor of 1, as of a given date. -/
def unitCurve (ref : PyDate) : DiscountFn := ⟨ref, fun _ => .ok 1⟩

def exRate : RateFn := fun d => .ok (if d < D 2024 7 1 then 3 / 100 else 4 / 100)

def exSwap0 : Swap := ⟨exSwap, D 2024 1 17, D 2025 1 17, CashflowCollection.create [none, none] [Swap.fixedKey, Swap.floatKey]⟩

theorem exSwap_create : Swap.create exSwap = .ok exSwap0 := by
  have h1 : calculateSettlementDate exSwap.calendar exSwap.purchaseDate exSwap.settlementConvention = .ok (D 2024 1 17) := by
    decide +kernel
  have h2 : exSwap.endAccrual (D 2024 1 17) = .ok (D 2025 1 17) := by decide +kernel
  unfold Swap.create
  rw [h1, ok_bind, h2, ok_bind]
  rfl

example : ((exSwap0.generateFixedLeg true).2.generateFloatLeg exRate true).2.presentValue (unitCurve (D 2024 1 15)) =
    .ok (50 - (91 * 30 + 91 * 30 + 92 * 40 + 92 * 40) / 360) := by decide +kernel

/-- Concrete case for C42: on its trade date the example swap's implied rate is 3.56% (rounded) and no payment is past. -/
example : (exSwap0.impliedRate (unitCurve (D 2024 1 15)) exRate false).1 = .ok (641 / 18000) ∧
    (∃ fx, exSwap0.fixedCashflow = .ok fx ∧ fx.length = 2 ∧ ∀ p ∈ fx, D 2024 1 15 ≤ p.date) := by
  refine ⟨by decide +kernel, [⟨D 2024 7 17, some 25⟩, ⟨D 2025 1 17, some 25⟩], by decide +kernel, rfl, by decide +kernel⟩

/-- C42 (failure). A seasoned swap: seen from 1 August 2024, after the first fixed payment, the example swap struck at its
implied rate is not worth zero, because `implied_rate` also counts the fixed payment already made. -/
theorem C42_seasoned_not_fair :
    ∃ r s', (exSwap0.impliedRate (unitCurve (D 2024 8 1)) exRate false).1 = .ok r ∧
      Swap.create { exSwap with fixedRate := r } = .ok s' ∧
      ∃ v, ((s'.generateFixedLeg true).2.generateFloatLeg exRate true).2.presentValue (unitCurve (D 2024 8 1)) = .ok v ∧
        v ≠ 0 := by
  refine ⟨46 / 2250, _, by decide +kernel, swap_create_rate exSwap_create _, -(46 / 4500 * 1000), by decide +kernel, by norm_num⟩

/-! ## C43 -/

theorem act360_accrual {x y : PyDate} (h : x ≤ y) : DayCount.accrual x y .act360 = .ok (act360 x y) := by
  rw [C13_act_fixed .act360 360 rfl _ _ h]; rfl

theorem compoundLoop_spec {rate : RateFn} {rr : PyDate → ℚ} (hrr : ∀ d y, rate d = .ok y → rr d = y) :
    ∀ (L : List PyDate) (a g : ℚ) (r : ℚ × ℚ), L.Pairwise (· < ·) →
      Swap.compoundLoop rate (Loan.pairwise L) (a, g) = .ok r →
      r.1 = a + sumPairs act360 L ∧ r.2 = g * prodPairs (fun x y => 1 + rr x * act360 x y) L
  | [], a, g, r, _, h => by
    simp only [Loan.pairwise, Swap.compoundLoop] at h
    injection h with h; subst h; simp [sumPairs, prodPairs]
  | [x], a, g, r, _, h => by
    simp only [Loan.pairwise, Swap.compoundLoop] at h
    injection h with h; subst h; simp [sumPairs, prodPairs]
  | x :: y :: L, a, g, r, hp, h => by
    simp only [Loan.pairwise, Swap.compoundLoop] at h
    have hxy : x < y := (List.pairwise_cons.1 hp).1 y (by simp)
    rw [act360_accrual (le_of_lt hxy), ok_bind, bind_ok] at h
    obtain ⟨q, hq, h⟩ := h
    obtain ⟨h1, h2⟩ := compoundLoop_spec hrr (y :: L) _ _ r (List.pairwise_cons.1 hp).2 h
    rw [h1, h2]
    simp only [sumPairs, prodPairs]
    rw [hrr x q hq]
    constructor <;> ring

theorem compoundLoop_total {rate : RateFn} {rr : PyDate → ℚ} :
    ∀ (L : List PyDate) (a g : ℚ), L.Pairwise (· < ·) → (∀ d ∈ L, rate d = .ok (rr d)) →
      ∃ r, Swap.compoundLoop rate (Loan.pairwise L) (a, g) = .ok r
  | [], a, g, _, _ => ⟨_, rfl⟩
  | [x], a, g, _, _ => ⟨_, rfl⟩
  | x :: y :: L, a, g, hp, hr => by
    simp only [Loan.pairwise, Swap.compoundLoop]
    have hxy : x < y := (List.pairwise_cons.1 hp).1 y (by simp)
    rw [act360_accrual (le_of_lt hxy), ok_bind, hr x (by simp), ok_bind]
    exact compoundLoop_total (y :: L) _ _ (List.pairwise_cons.1 hp).2 (fun d hd => hr d (List.mem_cons_of_mem _ hd))

/-- Accruals telescope: they sum to the accrual from the first to the last date. -/
theorem sumPairs_act360 : ∀ (x : PyDate) (L : List PyDate), sumPairs act360 (x :: L) = act360 x ((x :: L).getLast (by simp))
  | x, [] => by simp [sumPairs, act360]
  | x, y :: L => by
    simp only [sumPairs]
    rw [sumPairs_act360 y L, show (x :: y :: L).getLast (by simp) = (y :: L).getLast (by simp) from List.getLast_cons (by simp)]
    simp only [act360]
    push_cast; ring

theorem sumPairs_pos : ∀ (L : List PyDate), L.Pairwise (· < ·) → 2 ≤ L.length → 0 < sumPairs act360 L
  | x :: y :: L, hp, _ => by
    rw [sumPairs_act360]
    have : x < (x :: y :: L).getLast (by simp) := by
      rw [List.getLast_cons (by simp)]
      exact (List.pairwise_cons.1 hp).1 _ (List.getLast_mem _)
    rw [PyDate.lt_iff] at this
    unfold act360
    have h : (0 : ℚ) < (((x :: y :: L).getLast (by simp)).ord - x.ord : Int) := by exact_mod_cast (by omega : (0:Int) < _)
    positivity
  | [x], _, h => by simp at h
  | [], _, h => by simp at h

/-- C43. The annualized rate `q` over `[start, stop]`: with `L` the business days of the interval in order, there are at
least two, and `1 + q * (total accrual)` is the product of the daily growth factors `1 + rate * accrual`, where accruals are
actual/360 between consecutive business days and add up to the accrual from the first to the last of them. -/
theorem C43_compounding (cal : HolidayCalendar) (rate : RateFn) (start stop : PyDate) (q : ℚ) (rr : PyDate → ℚ)
    (hrr : ∀ d y, rate d = .ok y → rr d = y) (h : Swap.annualizedRate cal rate start stop = .ok q) :
    ∃ L : List PyDate, L.Pairwise (· < ·) ∧ (∀ e, e ∈ L ↔ start ≤ e ∧ e ≤ stop ∧ BusinessDay cal e) ∧ 2 ≤ L.length ∧
      1 + q * sumPairs act360 L = prodPairs (fun x y => 1 + rr x * act360 x y) L ∧
      ∀ first last, L.head? = some first → L.getLast? = some last → sumPairs act360 L = act360 first last := by
  unfold Swap.annualizedRate at h
  rw [bind_ok] at h; obtain ⟨L, hL, h⟩ := h
  rw [bind_ok] at h; obtain ⟨r, hr, h⟩ := h
  obtain ⟨h0, hq⟩ := pyDiv_ok.1 h
  obtain ⟨hp, hmem⟩ := C07_generate_business_days cal start stop L hL
  obtain ⟨h1, h2⟩ := compoundLoop_spec hrr L 0 1 r hp hr
  rw [zero_add] at h1; rw [one_mul] at h2
  refine ⟨L, hp, hmem, ?_, ?_, ?_⟩
  · rcases L with _ | ⟨x, _ | ⟨y, L⟩⟩
    · exact absurd h1 h0
    · exact absurd h1 h0
    · simp
  · rw [hq, ← h1, div_mul_cancel₀ _ h0, ← h2]; ring
  · intro first last hf hl
    cases L with
    | nil => simp at hf
    | cons x L =>
      simp only [List.head?_cons, Option.some.injEq] at hf
      rw [List.getLast?_eq_getLast_of_ne_nil (by simp), Option.some.injEq] at hl
      rw [sumPairs_act360, hl, hf]

/-- C43. When the rate is defined on the business days of the interval and these can be generated, the computation raises
exactly if there are fewer than two of them, and then ZeroDivisionError. -/
theorem C43_raises (cal : HolidayCalendar) (rate : RateFn) (start stop : PyDate) (L : List PyDate) (rr : PyDate → ℚ)
    (hL : generateBusinessDays cal start stop = .ok L) (hr : ∀ d ∈ L, rate d = .ok (rr d)) :
    (L.length < 2 → Swap.annualizedRate cal rate start stop = .error .zeroDivisionError) ∧
    (2 ≤ L.length → ∃ q, Swap.annualizedRate cal rate start stop = .ok q) := by
  obtain ⟨hp, hmem⟩ := C07_generate_business_days cal start stop L hL
  obtain ⟨r, hrr⟩ := compoundLoop_total (rr := rr) L 0 1 hp hr
  unfold Swap.annualizedRate
  rw [hL, ok_bind, hrr, ok_bind]
  let rf : PyDate → ℚ := fun d => match rate d with | .ok x => x | .error _ => 0
  obtain ⟨h1, -⟩ := compoundLoop_spec (rr := rf) (fun d y hy => by simp only [rf, hy]) L 0 1 r hp hrr
  rw [zero_add] at h1
  constructor
  · intro hlen
    have : r.1 = 0 := by
      rw [h1]
      rcases L with _ | ⟨x, _ | ⟨y, L⟩⟩
      · rfl
      · rfl
      · simp at hlen
    unfold pyDiv; rw [if_pos this]
  · intro hlen
    have := sumPairs_pos L hp hlen
    unfold pyDiv; rw [if_neg (by rw [h1]; exact ne_of_gt this)]
    exact ⟨_, rfl⟩

theorem prodPairs_ge {rr : PyDate → ℚ} : ∀ (L : List PyDate), L.Pairwise (· < ·) → (∀ d ∈ L, 0 ≤ rr d) →
    0 ≤ sumPairs (fun x y => rr x * act360 x y) L ∧
    1 + sumPairs (fun x y => rr x * act360 x y) L ≤ prodPairs (fun x y => 1 + rr x * act360 x y) L
  | [], _, _ => by simp [sumPairs, prodPairs]
  | [x], _, _ => by simp [sumPairs, prodPairs]
  | x :: y :: L, hp, hr => by
    obtain ⟨h0, h1⟩ := prodPairs_ge (y :: L) (List.pairwise_cons.1 hp).2 (fun d hd => hr d (List.mem_cons_of_mem _ hd))
    have hxy : x < y := (List.pairwise_cons.1 hp).1 y (by simp)
    have ha : 0 ≤ act360 x y := by
      rw [PyDate.lt_iff] at hxy
      unfold act360
      have h : (0 : ℚ) ≤ (y.ord - x.ord : Int) := by exact_mod_cast (by omega : (0:Int) ≤ _)
      positivity
    have hra : 0 ≤ rr x * act360 x y := mul_nonneg (hr x (by simp)) ha
    simp only [sumPairs, prodPairs]
    constructor
    · linarith
    · nlinarith

/-- C43. With nonnegative rates the compounded rate is at least the accrual-weighted average of the daily rates. -/
theorem C43_at_least_average (cal : HolidayCalendar) (rate : RateFn) (start stop : PyDate) (q : ℚ) (rr : PyDate → ℚ)
    (hrr : ∀ d y, rate d = .ok y → rr d = y) (h0 : ∀ d, 0 ≤ rr d)
    (h : Swap.annualizedRate cal rate start stop = .ok q) :
    ∃ L : List PyDate, L.Pairwise (· < ·) ∧ (∀ e, e ∈ L ↔ start ≤ e ∧ e ≤ stop ∧ BusinessDay cal e) ∧
      0 < sumPairs act360 L ∧ sumPairs (fun x y => rr x * act360 x y) L / sumPairs act360 L ≤ q := by
  obtain ⟨L, hp, hmem, hlen, hprod, -⟩ := C43_compounding cal rate start stop q rr hrr h
  have hpos := sumPairs_pos L hp hlen
  refine ⟨L, hp, hmem, hpos, ?_⟩
  rw [div_le_iff₀ hpos]
  have := (prodPairs_ge (rr := rr) L hp (fun d _ => h0 d)).2
  linarith

/-- Concrete case for C43: Thursday to Tuesday, with the three-day weekend accrual. -/
example : Swap.annualizedRate [] (fun _ => .ok (36 / 100)) (D 2024 1 4) (D 2024 1 9) =
    .ok (((1 + 1 / 1000) * (1 + 3 / 1000) * (1 + 1 / 1000) - 1) / (5 / 360)) := by decide +kernel

/-- Concrete case for the failure: one business day only. -/
example : Swap.annualizedRate [] (fun _ => .ok (36 / 100)) (D 2024 1 5) (D 2024 1 7) = .error .zeroDivisionError := by
  decide +kernel

/-! ## C53: accrual periods -/

theorem swap_adjust_paidOn {t : SwapTerms} {u d : PyDate} (h : t.adjust u = .ok d) :
    PaidOn t.calendar t.adjustment u d ∧ BusinessDay t.calendar d := by
  unfold SwapTerms.adjust at h
  unfold PaidOn
  cases ha : t.adjustment with
  | following =>
    simp only [ha] at h ⊢
    have := ((C02_following_iff _ _ _).1 h).1
    exact ⟨this, this.2.1⟩
  | modifiedFollowing =>
    simp only [ha] at h ⊢
    obtain ⟨h1, h2⟩ := C05_modified_following _ _ _ h
    exact ⟨h2, h1⟩

theorem swap_increment {f : PaymentFrequency} {k : Int} (hk : couponMonths f = some k) :
    SwapTerms.increment f = .ok (.relativedelta (-k) 0) ∧ 0 < k := by
  cases f <;> simp only [couponMonths, reduceCtorEq] at hk <;> cases hk <;> exact ⟨rfl, by decide⟩

/-- C53. The accrual schedule of a leg.  `L` lists the unadjusted accrual dates backwards: from the end accrual date in steps of
`k` calendar months down to the start accrual date.  `A` are the same dates in increasing order, each moved to a business
day by the swap's adjustment.  The periods run from one date of `A` to the next, so each starts where the previous one ended,
and carry the day-count fraction of the leg's convention. -/
theorem C53_schedule (t : SwapTerms) (s : Swap) (hs : Swap.create t = .ok s) (f : PaymentFrequency) (dcc : DayCountConvention)
    (k : Int) (hk : couponMonths f = some k) (accs : List SwapAccrual) (h : s.accrualSchedule f dcc = .ok accs) :
    ∃ L A : List PyDate,
      List.IsChain (fun x y => x.addMonths (-k) = .ok y) L ∧
      (s.startAccrual ≤ s.endAccrual → L.head? = some s.endAccrual) ∧
      (∀ x ∈ L, s.startAccrual ≤ x ∧ x ≤ s.endAccrual) ∧
      L.length ≤ 1001 ∧
      (L.length < 1001 → ∀ l, L.getLast? = some l → ∃ x, l.addMonths (-k) = .ok x ∧ x < s.startAccrual) ∧
      List.Forall₂ (fun u a => PaidOn t.calendar t.adjustment u a ∧ BusinessDay t.calendar a) L.reverse A ∧
      accs.length = A.length - 1 ∧
      (∀ i (hi : i < accs.length) (hi' : i + 1 < A.length), accs[i].start = A[i] ∧ accs[i].stop = A[i + 1] ∧
        DayCount.accrual A[i] A[i + 1] dcc = .ok accs[i].factor) := by
  obtain ⟨ht, -, -, -⟩ := swap_create_ok hs
  obtain ⟨hinc, hkpos⟩ := swap_increment hk
  unfold Swap.accrualSchedule at h
  rw [hinc, ok_bind, bind_ok] at h
  obtain ⟨L, hL, h⟩ := h
  rw [bind_ok] at h
  obtain ⟨A, hA, h⟩ := h
  obtain ⟨pos, hp, h1, h2, h3, h4, h5⟩ := C08_chain _ _ _ _ _ hL
  have hposF : pos = false := by
    simp only [isPositive] at hp
    rw [bind_ok] at hp
    obtain ⟨y, hy, hp⟩ := hp
    rw [addIncrement_months] at hy
    injection hp with hp
    rw [← hp]
    exact decide_eq_false (not_le.2 (PyDate.addMonths_neg_lt hy (by omega)))
  subst hposF
  have hchain : List.IsChain (fun x y => x.addMonths (-k) = .ok y) L := h2.imp (fun x y hxy => addIncrement_months.1 hxy)
  have hnp : ∀ x, NotPast false s.startAccrual x ↔ s.startAccrual ≤ x := by
    intro x; simp only [NotPast, Bool.false_eq_true, if_false]
  have hdec := months_chain_le hkpos hchain
  have hle : ∀ x ∈ L, x ≤ s.endAccrual := by
    intro x hx
    cases L with
    | nil => simp at hx
    | cons a as =>
      have ha := h1 a rfl
      subst ha
      rcases List.mem_cons.1 hx with rfl | hx
      · exact le_refl _
      · exact le_of_lt ((List.pairwise_cons.1 hdec).1 x hx)
  have hlen := collect_length h
  refine ⟨L, A, hchain, ?_, fun x hx => ⟨(hnp x).1 (h3 x hx), hle x hx⟩, h4, ?_, ?_, ?_, ?_⟩
  · intro hlt
    cases L with
    | nil =>
      exfalso
      rcases h5 (by simp) with ⟨-, hn⟩ | ⟨l, x, hl, -⟩
      · exact hn ((hnp _).2 hlt)
      · simp at hl
    | cons a as => rw [h1 a rfl]; rfl
  · intro hlt l hl
    rcases h5 hlt with ⟨rfl, hn⟩ | ⟨l', x, hl', hx, hn⟩
    · simp at hl
    · rw [hl] at hl'
      injection hl' with e
      subst e
      exact ⟨x, addIncrement_months.1 hx, not_le.1 (fun hc => hn ((hnp x).2 hc))⟩
  · have := collect_ok.1 hA
    exact this.imp (fun u a hua => by rw [ht] at hua; exact swap_adjust_paidOn hua)
  · rw [hlen, pairwise_length]
  · intro i hi hi'
    have hi2 : i < (Loan.pairwise A).length := by rw [← hlen]; exact hi
    have hg := (List.forall₂_iff_get.1 (collect_ok.1 h)).2 i hi2 hi
    simp only [List.get_eq_getElem] at hg
    rw [pairwise_get A i hi' hi2] at hg
    unfold Swap.accrualOf at hg
    rw [bind_ok] at hg
    obtain ⟨x, hx, hg⟩ := hg
    injection hg with hg
    rw [← hg]
    exact ⟨rfl, rfl, hx⟩

/-- The end accrual date is the start accrual date plus the tenor. -/
theorem swap_end_months {t : SwapTerms} {s : Swap} (hs : Swap.create t = .ok s) :
    ∃ M, tenorMonths t.tenor = some M ∧ s.startAccrual.addMonths M = .ok s.endAccrual := by
  obtain ⟨-, -, h, -⟩ := swap_create_ok hs
  unfold SwapTerms.endAccrual at h
  unfold tenorMonths
  cases hl : t.tenor.length with
  | none => simp only [hl] at h; cases h
  | some n =>
    simp only [hl] at h ⊢
    by_cases hY : t.tenor.unit = 'Y'
    · rw [if_pos hY] at h ⊢; exact ⟨_, rfl, h⟩
    · rw [if_neg hY] at h ⊢
      by_cases hM : t.tenor.unit = 'M'
      · rw [if_pos hM] at h ⊢; exact ⟨_, rfl, h⟩
      · rw [if_neg hM] at h; cases h

/-- C53 (what holds). If the swap starts on a day of the month at most 28, a tenor of `M` months has `M / k` periods rounded
*down* (up to the scheduler's cap); the last ends on the adjusted end accrual date, and if `k` divides `M` the first starts on
the adjusted start accrual date. -/
theorem C53_coverage_partial (t : SwapTerms) (s : Swap) (hs : Swap.create t = .ok s) (f : PaymentFrequency)
    (dcc : DayCountConvention) (k M : Int) (hk : couponMonths f = some k) (hM : tenorMonths t.tenor = some M) (hM0 : 0 ≤ M)
    (hday : s.startAccrual.day ≤ 28) (hcap : M / k ≤ 1000) (accs : List SwapAccrual)
    (h : s.accrualSchedule f dcc = .ok accs) :
    (accs.length : Int) = M / k ∧
    (∀ a, accs.getLast? = some a → PaidOn t.calendar t.adjustment s.endAccrual a.stop) ∧
    (k ∣ M → ∀ a, accs.head? = some a → PaidOn t.calendar t.adjustment s.startAccrual a.start) := by
  obtain ⟨M', hM', hend⟩ := swap_end_months hs
  rw [hM] at hM'; injection hM' with hM'; subst hM'
  obtain ⟨-, hkpos⟩ := swap_increment hk
  obtain ⟨L, A, hchain, hhead, hmem, hlen, hcut, hadj, halen, hget⟩ := C53_schedule t s hs f dcc k hk accs h
  have hmi := (PyDate.addMonths_ok.1 hend).1
  have heday := PyDate.addMonths_day hend hday
  have hle : s.startAccrual ≤ s.endAccrual := by
    rw [PyDate.le_iff_month]; omega
  have hh := hhead hle
  have hpos : ∀ i (hi : i < L.length), L[i].monthIndex = s.endAccrual.monthIndex - i * k ∧ L[i].day = s.endAccrual.day := by
    intro i
    induction i with
    | zero =>
      intro hi
      rw [List.head?_eq_getElem?, List.getElem?_eq_getElem hi] at hh
      rw [Option.some.inj hh]; simp
    | succ i ih =>
      intro hi
      obtain ⟨ih1, ih2⟩ := ih (by omega)
      have hcc := chain_get hchain i hi
      have hd' := PyDate.addMonths_day hcc (by omega)
      refine ⟨?_, by omega⟩
      rw [(PyDate.addMonths_ok.1 hcc).1, ih1]; push_cast; ring
  have hl0 : 0 < L.length := by
    rcases L with _ | ⟨a, L⟩
    · simp at hh
    · simp
  have hlast := hpos (L.length - 1) (by omega)
  have hlb : ((L.length - 1 : Nat) : Int) * k ≤ M := by
    have := (hmem _ (List.getElem_mem (show L.length - 1 < L.length by omega))).1
    rw [PyDate.le_iff_month] at this
    omega
  have hq : ((L.length - 1 : Nat) : Int) = M / k := by
    have h1 : ((L.length - 1 : Nat) : Int) ≤ M / k := by rw [Int.le_ediv_iff_mul_le hkpos]; exact hlb
    by_cases hc : L.length < 1001
    · obtain ⟨x, hx, hxs⟩ := hcut hc (L[L.length - 1]'(by omega))
        (by rw [List.getLast?_eq_getElem?, List.getElem?_eq_getElem (by omega)])
      have hxm := (PyDate.addMonths_ok.1 hx).1
      have hxd := PyDate.addMonths_day hx (by omega)
      rw [PyDate.lt_iff_month] at hxs
      have : M < (((L.length - 1 : Nat) : Int) + 1) * k := by rw [add_mul, one_mul]; omega
      have h2 : M / k < ((L.length - 1 : Nat) : Int) + 1 := by rw [Int.ediv_lt_iff_lt_mul hkpos]; exact this
      omega
    · omega
  have hAL : A.length = L.length := by rw [← hadj.length_eq, List.length_reverse]
  have hg := List.forall₂_iff_get.1 hadj
  refine ⟨by rw [halen, hAL]; exact hq, ?_, ?_⟩
  · intro a ha
    have hne : accs ≠ [] := by rintro rfl; simp at ha
    have hp : 0 < accs.length := List.length_pos_iff.2 hne
    rw [List.getLast?_eq_getElem?, List.getElem?_eq_getElem (by omega)] at ha
    have ha := Option.some.inj ha
    obtain ⟨-, h2, -⟩ := hget (accs.length - 1) (by omega) (by omega)
    rw [← ha, h2]
    have := (hg.2 (accs.length - 1 + 1) (by simp; omega) (by omega)).1
    simp only [List.get_eq_getElem, List.getElem_reverse] at this
    have e : L[L.length - 1 - (accs.length - 1 + 1)]'(by omega) = L[0] := by congr 1; omega
    rw [e] at this
    rw [List.head?_eq_getElem?, List.getElem?_eq_getElem hl0] at hh
    rwa [Option.some.inj hh] at this
  · intro hdvd a ha
    have hne : accs ≠ [] := by rintro rfl; simp at ha
    have hp : 0 < accs.length := List.length_pos_iff.2 hne
    rw [List.head?_eq_getElem?, List.getElem?_eq_getElem (by omega)] at ha
    have ha := Option.some.inj ha
    obtain ⟨h1, -, -⟩ := hget 0 hp (by omega)
    rw [← ha, h1]
    have := (hg.2 0 (by simp; omega) (by omega)).1
    simp only [List.get_eq_getElem, List.getElem_reverse] at this
    have e : L[L.length - 1 - 0]'(by omega) = s.startAccrual := by
      apply PyDate.eq_of_month
      · rw [(hpos (L.length - 1 - 0) (by omega)).1, Nat.sub_zero, hq, Int.ediv_mul_cancel hdvd]; omega
      · rw [(hpos (L.length - 1 - 0) (by omega)).2, heday]
    rwa [e] at this

/-- A swap settling on 31 August 2023. -/
def exMonthEnd : SwapTerms := { exSwap with
  purchaseDate := D 2023 8 29, tenor := ⟨some 6, 'M'⟩, fixedFrequency := .semiAnnual, floatFrequency := .quarterly }

/-- C53 (failure, month end). A six-month swap settling on 31 August has end accrual date 29 February; six months before that
is 29 August, before the start: the fixed leg has no period, and pays nothing. -/
theorem C53_month_end_loses_period :
    ∃ s, Swap.create exMonthEnd = .ok s ∧ s.startAccrual = D 2023 8 31 ∧ s.endAccrual = D 2024 2 29 ∧
      s.fixedAccruals = .ok [] ∧ s.fixedCashflow = .ok [] := by
  have h1 : calculateSettlementDate exMonthEnd.calendar exMonthEnd.purchaseDate exMonthEnd.settlementConvention =
      .ok (D 2023 8 31) := by decide +kernel
  have h2 : exMonthEnd.endAccrual (D 2023 8 31) = .ok (D 2024 2 29) := by decide +kernel
  refine ⟨⟨exMonthEnd, D 2023 8 31, D 2024 2 29, CashflowCollection.create [none, none] [Swap.fixedKey, Swap.floatKey]⟩, ?_, rfl, rfl, by decide +kernel, by decide +kernel⟩
  unfold Swap.create
  rw [h1, ok_bind, h2, ok_bind]

/-- C53 (failure, stub). A five-month quarterly leg accrues over the last three months only. -/
theorem C53_stub_dropped :
    ∃ s a, Swap.create { exSwap with tenor := ⟨some 5, 'M'⟩ } = .ok s ∧ s.startAccrual = D 2024 1 17 ∧
      s.floatAccruals = .ok [a] ∧ a.start = D 2024 3 18 ∧ a.stop = D 2024 6 17 := by
  have h1 : calculateSettlementDate exSwap.calendar exSwap.purchaseDate exSwap.settlementConvention = .ok (D 2024 1 17) := by
    decide +kernel
  have h2 : SwapTerms.endAccrual { exSwap with tenor := ⟨some 5, 'M'⟩ } (D 2024 1 17) = .ok (D 2024 6 17) := by
    decide +kernel
  refine ⟨⟨{ exSwap with tenor := ⟨some 5, 'M'⟩ }, D 2024 1 17, D 2024 6 17,
    CashflowCollection.create [none, none] [Swap.fixedKey, Swap.floatKey]⟩, ⟨D 2024 3 18, D 2024 6 17, 91 / 360⟩, ?_, rfl,
    by decide +kernel, rfl, rfl⟩
  unfold Swap.create
  rw [h1, ok_bind, h2, ok_bind]

/-- Concrete case for C53: the example swap's fixed leg. -/
example : tenorMonths exSwap.tenor = some 12 ∧ exSwap0.startAccrual.day ≤ 28 ∧ exSwap0.fixedAccruals =
    .ok [⟨D 2024 1 17, D 2024 7 17, 1 / 2⟩, ⟨D 2024 7 17, D 2025 1 17, 1 / 2⟩] := by
  refine ⟨rfl, by decide +kernel, by decide +kernel⟩

/-! ## C54: the overnight floating leg is worth par minus par -/

/-- `rr` is the overnight forward rate of the discount factors `P`: between neighbouring business days `x`, `y` it compounds to
`P x / P y`. -/
def ForwardOf (cal : HolidayCalendar) (P rr : PyDate → ℚ) : Prop :=
  ∀ x y, BusinessDay cal x → BusinessDay cal y → x < y → (∀ e, x < e → e < y → ¬ BusinessDay cal e) →
    1 + rr x * act360 x y = P x / P y

theorem prodPairs_forward {cal : HolidayCalendar} {P rr : PyDate → ℚ} (hP : ∀ d, P d ≠ 0) (hf : ForwardOf cal P rr) :
    ∀ (x : PyDate) (L : List PyDate), (x :: L).Pairwise (· < ·) → (∀ e ∈ x :: L, BusinessDay cal e) →
      (∀ e, x ≤ e → e ≤ (x :: L).getLast (by simp) → BusinessDay cal e → e ∈ x :: L) →
      prodPairs (fun x y => 1 + rr x * act360 x y) (x :: L) = P x / P ((x :: L).getLast (by simp))
  | x, [], _, _, _ => by simp [prodPairs, hP]
  | x, y :: L, hp, hb, hall => by
    have hp' := List.pairwise_cons.1 hp
    have hxy : x < y := hp'.1 y (by simp)
    have hlast : (x :: y :: L).getLast (by simp) = (y :: L).getLast (by simp) := List.getLast_cons (by simp)
    have hyl : y ≤ (y :: L).getLast (by simp) := by
      rcases List.mem_cons.1 (List.getLast_mem (show y :: L ≠ [] by simp)) with h | h
      · exact le_of_eq h.symm
      · exact le_of_lt ((List.pairwise_cons.1 hp'.2).1 _ h)
    simp only [prodPairs]
    rw [prodPairs_forward hP hf y L hp'.2 (fun e he => hb e (List.mem_cons_of_mem _ he)) ?_, hlast,
      hf x y (hb x (by simp)) (hb y (by simp)) hxy ?_]
    · have := hP y
      have := hP ((y :: L).getLast (by simp))
      field_simp
    · intro e h1 h2 h3
      rcases List.mem_cons.1 (hall e (le_of_lt h1) (by rw [hlast]; exact le_trans (le_of_lt h2) hyl) h3) with h | h
      · exact absurd h1 (by rw [h]; exact lt_irrefl _)
      · rcases List.mem_cons.1 h with h | h
        · exact absurd h2 (by rw [h]; exact lt_irrefl _)
        · exact absurd h2 (not_lt.2 (le_of_lt ((List.pairwise_cons.1 hp'.2).1 e h)))
    · intro e h1 h2 h3
      rcases List.mem_cons.1 (hall e (le_trans (le_of_lt hxy) h1) (by rw [hlast]; exact h2) h3) with h | h
      · exact absurd h1 (not_le.2 (by rw [h]; exact hxy))
      · exact h

/-- C54. One overnight payment on an actual/360 leg: the notional times the compounded growth minus one. -/
theorem C54_overnight_payment (s : Swap) (rate : RateFn) (a : SwapAccrual) (p : Payment) (rr : PyDate → ℚ)
    (hrr : ∀ d y, rate d = .ok y → rr d = y) (hcls : s.terms.cls = .overnight) (hfac : a.factor = act360 a.start a.stop)
    (hb1 : BusinessDay s.terms.calendar a.start) (hb2 : BusinessDay s.terms.calendar a.stop) (hle : a.start ≤ a.stop)
    (h : s.floatPayment rate a = .ok p) :
    ∃ L : List PyDate, L.Pairwise (· < ·) ∧
      (∀ e, e ∈ L ↔ a.start ≤ e ∧ e ≤ a.stop ∧ BusinessDay s.terms.calendar e) ∧
      L.head? = some a.start ∧ L.getLast? = some a.stop ∧
      p.amount = some (s.terms.notional * (prodPairs (fun x y => 1 + rr x * act360 x y) L - 1)) := by
  unfold Swap.floatPayment at h
  rw [hcls] at h
  simp only [Swap.overnightPayment] at h
  rw [bind_ok] at h; obtain ⟨d, -, h⟩ := h
  rw [bind_ok] at h; obtain ⟨q, hq, h⟩ := h
  injection h with h
  obtain ⟨L, hp, hmem, hlen, hprod, hsum⟩ := C43_compounding _ rate _ _ q rr hrr hq
  have hs : a.start ∈ L := (hmem _).2 ⟨le_refl _, hle, hb1⟩
  have he : a.stop ∈ L := (hmem _).2 ⟨hle, le_refl _, hb2⟩
  have hne : L ≠ [] := List.ne_nil_of_mem hs
  have hhead : L.head? = some a.start := by
    cases L with
    | nil => exact absurd rfl hne
    | cons x L =>
      rcases List.mem_cons.1 hs with h' | h'
      · rw [h']; rfl
      · have h1 := (List.pairwise_cons.1 hp).1 _ h'
        exact absurd ((hmem x).1 (by simp)).1 (not_le.2 h1)
  have hlast : L.getLast? = some a.stop := by
    rw [List.getLast?_eq_getLast_of_ne_nil hne]
    have hl := (hmem _).1 (List.getLast_mem hne)
    congr 1
    apply le_antisymm hl.2.1
    have hd := List.dropLast_append_getLast hne
    rw [← hd] at hp he
    rw [List.pairwise_append] at hp
    rcases List.mem_append.1 he with h' | h'
    · exact le_of_lt (hp.2.2 _ h' _ (by simp))
    · rw [List.mem_singleton] at h'; exact le_of_eq h'
  refine ⟨L, hp, hmem, hhead, hlast, ?_⟩
  rw [← h, ← hprod, hsum _ _ hhead hlast, hfac]
  show some _ = some _
  congr 1
  ring

/-- The sum over contiguous periods telescopes. -/
theorem telescope (P : PyDate → ℚ) (N : ℚ) : ∀ (a : SwapAccrual) (l : List SwapAccrual),
    List.IsChain (fun x y : SwapAccrual => x.stop = y.start) (a :: l) →
    ((a :: l).map (fun x => N * (P x.start - P x.stop))).sum = N * (P a.start - P ((a :: l).getLast (by simp)).stop)
  | a, [], _ => by simp
  | a, b :: l, h => by
    rw [List.isChain_cons_cons] at h
    have hl : (a :: b :: l).getLast (by simp) = (b :: l).getLast (by simp) := List.getLast_cons (by simp)
    rw [List.map_cons, List.sum_cons, telescope P N b l h.2, h.1, hl]
    ring

/-- C54. An overnight swap with an actual/360 floating leg and payments at the end of each period, whose rates are the overnight
forwards of the discount curve used to value it, and whose payments all lie on or after the curve's reference date: the
floating leg is worth notional times (discount factor at the start of the first period minus that at the end of the last). -/
theorem C54_floating_leg_par (t : SwapTerms) (s : Swap) (hs : Swap.create t = .ok s) (hcls : t.cls = .overnight)
    (hdcc : t.floatDcc = .act360) (hdelay : t.paymentDelay = .tPlusZeroBusiness) (k : Int)
    (hk : couponMonths t.floatFrequency = some k) (P rr : PyDate → ℚ) (hP : ∀ d, P d ≠ 0) (hfwd : ForwardOf t.calendar P rr)
    (curve : DiscountFn) (hcurve : ∀ d, curve.call d = .ok (P d)) (rate : RateFn) (hrate : ∀ d, rate d = .ok (rr d))
    (accs : List SwapAccrual) (hacc : s.floatAccruals = .ok accs) (first last : SwapAccrual) (hfirst : accs.head? = some first)
    (hlast : accs.getLast? = some last) (fl : List Payment) (hfl : s.floatCashflow rate = .ok fl)
    (hdates : ∀ p ∈ fl, curve.referenceDate ≤ p.date) :
    Cashflow.presentValue fl curve = .ok (t.notional * (P first.start - P last.stop)) := by
  obtain ⟨ht, -, -, -⟩ := swap_create_ok hs
  unfold Swap.floatAccruals at hacc
  rw [ht, hdcc] at hacc
  obtain ⟨Lm, A, -, -, -, -, -, hadj, halen, hget⟩ := C53_schedule t s hs t.floatFrequency .act360 k hk accs hacc
  have hbd : ∀ i (hi : i < A.length), BusinessDay t.calendar A[i] := by
    intro i hi
    have hg := List.forall₂_iff_get.1 hadj
    have := (hg.2 i (by rw [hg.1]; exact hi) hi).2
    simpa using this
  -- facts about each period
  have hper : ∀ a ∈ accs, BusinessDay t.calendar a.start ∧ BusinessDay t.calendar a.stop ∧ a.start ≤ a.stop ∧
      a.factor = act360 a.start a.stop := by
    intro a ha
    obtain ⟨i, hi, rfl⟩ := List.getElem_of_mem ha
    obtain ⟨h1, h2, h3⟩ := hget i hi (by omega)
    have hle : A[i] ≤ A[i + 1] := by
      by_contra hc
      rw [not_le] at hc
      rw [accrual_gt hc] at h3
      cases h3
    rw [act360_accrual hle] at h3
    injection h3 with h3
    rw [h1, h2]
    exact ⟨hbd _ _, hbd _ _, hle, h3.symm⟩
  have hchain : List.IsChain (fun x y : SwapAccrual => x.stop = y.start) accs := by
    rw [List.isChain_iff_getElem]
    intro i hi
    obtain ⟨-, h2, -⟩ := hget i (by omega) (by omega)
    obtain ⟨h1, -, -⟩ := hget (i + 1) hi (by omega)
    rw [h1, h2]
  unfold Swap.floatCashflow at hfl
  rw [show s.floatAccruals = .ok accs by unfold Swap.floatAccruals; rw [ht, hdcc]; exact hacc, ok_bind, bind_ok] at hfl
  obtain ⟨ps, hps, hfl⟩ := hfl
  injection hfl with hfl
  rw [← hfl]
  rw [C19_present_value ps curve P (fun p _ _ _ => hcurve _)]
  congr 1
  have hpay : ∀ a ∈ accs, ∀ p, s.floatPayment rate a = .ok p →
      p.date = a.stop ∧ p.amount = some (t.notional * (P a.start / P a.stop - 1)) := by
    intro a ha p hp
    obtain ⟨hb1, hb2, hle, hfac⟩ := hper a ha
    obtain ⟨L, hpw, hmem, hh, hl, hamt⟩ := C54_overnight_payment s rate a p rr
      (fun d y hy => by rw [hrate d] at hy; injection hy) (by rw [ht]; exact hcls) hfac (by rw [ht]; exact hb1)
      (by rw [ht]; exact hb2) hle hp
    constructor
    · unfold Swap.floatPayment at hp
      rw [ht, hcls] at hp
      simp only [Swap.overnightPayment, Swap.paymentDate] at hp
      rw [ht, hdelay] at hp
      rw [bind_ok] at hp; obtain ⟨d, hd, hp⟩ := hp
      rw [bind_ok] at hp; obtain ⟨q, -, hp⟩ := hp
      injection hp with hp
      rw [← hp]
      have hfo := ((C02_following_iff t.calendar a.stop d).1 hd).1
      exact FirstOnOrAfter.unique hfo ⟨le_refl _, hb2, fun _ h1 h2 => absurd h1 (not_le.2 h2)⟩
    · rw [hamt]
      cases L with
      | nil => simp at hh
      | cons x L =>
        simp only [List.head?_cons, Option.some.injEq] at hh
        rw [List.getLast?_eq_getLast_of_ne_nil (by simp), Option.some.injEq] at hl
        rw [prodPairs_forward hP hfwd x L hpw (fun e he => by
          have := ((hmem e).1 he).2.2; rwa [ht] at this) (fun e h1 h2 h3 => (hmem e).2
          ⟨hh ▸ h1, hl ▸ h2, by rw [ht]; exact h3⟩), hl, hh, ht]
  have hpd : ∀ p ∈ ps, curve.referenceDate ≤ p.date := by
    intro p hp; exact hdates p (by rw [← hfl]; exact (pySorted_perm _ _).mem_iff.2 hp)
  have hmap : ps.map (contribution curve.referenceDate P) =
      accs.map (fun x => t.notional * (P x.start - P x.stop)) := by
    have hF := collect_ok.1 hps
    clear hfirst hlast hget halen hper hchain hps hdates hfl hacc
    induction hF with
    | nil => rfl
    | @cons a p l ps' hap hrest ih =>
      rw [List.map_cons, List.map_cons, ih (fun a ha => hpay a (by simp [ha])) (fun p hp => hpd p (by simp [hp]))]
      obtain ⟨h1, h2⟩ := hpay a (by simp) p hap
      have h3 := hpd p (by simp)
      congr 1
      unfold contribution
      rw [h2]
      simp only
      rw [if_pos h3, h1]
      have := hP a.stop
      field_simp
  rw [hmap]
  cases accs with
  | nil => simp at hfirst
  | cons a l =>
    simp only [List.head?_cons, Option.some.injEq] at hfirst
    rw [List.getLast?_eq_getLast_of_ne_nil (by simp), Option.some.injEq] at hlast
    rw [telescope P t.notional a l hchain, hlast, hfirst]

def exOis : SwapTerms := { exSwap with cls := .overnight, tenor := ⟨some 6, 'M'⟩ }

def exOis0 : Swap := ⟨exOis, D 2024 1 17, D 2024 7 17, CashflowCollection.create [none, none] [Swap.fixedKey, Swap.floatKey]⟩

theorem exOis_create : Swap.create exOis = .ok exOis0 := by
  have h1 : calculateSettlementDate exOis.calendar exOis.purchaseDate exOis.settlementConvention = .ok (D 2024 1 17) := by
    decide +kernel
  have h2 : exOis.endAccrual (D 2024 1 17) = .ok (D 2024 7 17) := by decide +kernel
  unfold Swap.create
  rw [h1, ok_bind, h2, ok_bind]
  rfl

/-- Concrete case for C54: a six-month overnight swap valued on a curve of constant simple interest, whose overnight forwards are
`360 / ordinal`; the floating leg has two payments. -/
example : ForwardOf exOis.calendar (fun d => 1 / (d.ord : ℚ)) (fun d => 360 / (d.ord : ℚ)) ∧
    (∀ d : PyDate, 1 / (d.ord : ℚ) ≠ 0) ∧
    exOis0.floatAccruals = .ok [⟨D 2024 1 17, D 2024 4 17, 91 / 360⟩, ⟨D 2024 4 17, D 2024 7 17, 91 / 360⟩] ∧
    ∃ fl, exOis0.floatCashflow (fun d => .ok (360 / (d.ord : ℚ))) = .ok fl ∧ fl.length = 2 ∧ ∀ p ∈ fl, D 2024 1 17 ≤ p.date := by
  have hne : ∀ d : PyDate, (d.ord : ℚ) ≠ 0 := by
    intro d
    have := d.ord_bounds.1
    have h : d.ord ≠ 0 := by omega
    exact_mod_cast h
  refine ⟨?_, ?_, by decide +kernel, ?_⟩
  · intro x y _ _ _ _
    have := hne x
    have := hne y
    unfold act360
    push_cast
    field_simp
    ring
  · intro d
    have := hne d
    positivity
  · refine ⟨[⟨D 2024 4 17, some (91000 / 738902)⟩, ⟨D 2024 7 17, some (91000 / 738993)⟩], ?_, rfl, by decide +kernel⟩
    decide +kernel

end Verif.Props
