/- Property C124: swaps respond to the floating rates with one sign. -/
import Verif.Props.UsSwaps

namespace Verif.Props
open Verif.Spec Scheduler

/-- Strictly increasing lists with the same members are equal. -/
theorem increasing_unique {L L' : List PyDate} (h : L.Pairwise (· < ·)) (h' : L'.Pairwise (· < ·)) (hm : ∀ e, e ∈ L ↔ e ∈ L') :
    L = L' := by
  have hp : L.Perm L' := (List.perm_ext_iff_of_nodup (h.imp (fun h => ne_of_lt h)) (h'.imp (fun h => ne_of_lt h))).2 hm
  exact hp.eq_of_pairwise (fun a b _ _ h1 h2 => absurd h1 (lt_asymm h2)) h h'

theorem prodPairs_mono {rr rr' : PyDate → ℚ} (L : List PyDate) (hL : L.Pairwise (· < ·))
    (h0 : ∀ x ∈ L, ∀ y ∈ L, x < y → 0 < 1 + rr x * act360 x y)
    (hle : ∀ d ∈ L, rr d ≤ rr' d) :
    0 < prodPairs (fun x y => 1 + rr x * act360 x y) L ∧
    prodPairs (fun x y => 1 + rr x * act360 x y) L ≤ prodPairs (fun x y => 1 + rr' x * act360 x y) L ∧
    ((∀ d ∈ L, rr d < rr' d) → 2 ≤ L.length →
      prodPairs (fun x y => 1 + rr x * act360 x y) L < prodPairs (fun x y => 1 + rr' x * act360 x y) L) := by
  induction L with
  | nil => simp [prodPairs]
  | cons x L ih =>
    cases L with
    | nil => simp [prodPairs]
    | cons y L =>
      obtain ⟨i1, i2, i3⟩ := ih hL.of_cons
        (fun d hd e he => h0 d (List.mem_cons_of_mem _ hd) e (List.mem_cons_of_mem _ he)) (fun d hd => hle d (List.mem_cons_of_mem _ hd))
      have hxy : x < y := (List.pairwise_cons.1 hL).1 y List.mem_cons_self
      have hacc : 0 < act360 x y := by
        unfold act360
        have : x.ord < y.ord := hxy
        apply div_pos _ (by norm_num)
        exact_mod_cast sub_pos.2 this
      have hx1 := hle x List.mem_cons_self
      have e1 : prodPairs (fun x y => 1 + rr x * act360 x y) (x :: y :: L) =
        (1 + rr x * act360 x y) * prodPairs (fun x y => 1 + rr x * act360 x y) (y :: L) := rfl
      have e2 : prodPairs (fun x y => 1 + rr' x * act360 x y) (x :: y :: L) =
        (1 + rr' x * act360 x y) * prodPairs (fun x y => 1 + rr' x * act360 x y) (y :: L) := rfl
      rw [e1, e2]
      have f0 : 0 < 1 + rr x * act360 x y := h0 x List.mem_cons_self y (List.mem_cons_of_mem _ List.mem_cons_self) hxy
      have f1 : 1 + rr x * act360 x y ≤ 1 + rr' x * act360 x y := by
        have := mul_le_mul_of_nonneg_right hx1 hacc.le; linarith
      refine ⟨mul_pos f0 i1, mul_le_mul f1 i2 i1.le (f0.le.trans f1), fun hs _ => ?_⟩
      have f2 : 1 + rr x * act360 x y < 1 + rr' x * act360 x y := by
        have := mul_lt_mul_of_pos_right (hs x List.mem_cons_self) hacc; linarith
      exact mul_lt_mul f2 i2 i1 (f0.le.trans f1)

/-- Between two dates of the period the growth factor is positive if it would be over the whole period. -/
theorem growth_pos {x : ℚ} {start stop d e : PyDate} (hx : -360 < x * (stop.ord - start.ord : Int)) (h1 : start ≤ d) (h2 : e ≤ stop)
    (hde : d < e) : 0 < 1 + x * act360 d e := by
  unfold act360
  have a1 := PyDate.le_iff.1 h1
  have a2 := PyDate.le_iff.1 h2
  have a3 : d.ord < e.ord := hde
  have b1 : (0 : ℚ) < ((e.ord - d.ord : Int) : ℚ) := by exact_mod_cast sub_pos.2 a3
  have b2 : ((e.ord - d.ord : Int) : ℚ) ≤ ((stop.ord - start.ord : Int) : ℚ) := by exact_mod_cast (by omega : e.ord - d.ord ≤ stop.ord - start.ord)
  have key : -360 < x * ((e.ord - d.ord : Int) : ℚ) := by
    rcases le_or_gt 0 x with h0 | h0
    · nlinarith [mul_nonneg h0 b1.le]
    · nlinarith [mul_le_mul_of_nonpos_left b2 h0.le]
  linarith

/-- C124. Compounding overnight rates is monotone: nowhere lower daily rates give a no lower compounded rate, and everywhere higher
rates a higher one, as long as no daily rate is so negative that it would use up the whole capital within the period (a rate above
-390 % for three months). -/
theorem C124_compounding (cal : HolidayCalendar) (rate rate' : RateFn) (start stop : PyDate) (q q' : ℚ)
    (h0 : ∀ d x, rate d = .ok x → -360 < x * (stop.ord - start.ord : Int))
    (hle : ∀ d x x', rate d = .ok x → rate' d = .ok x' → x ≤ x')
    (h : Swap.annualizedRate cal rate start stop = .ok q) (h' : Swap.annualizedRate cal rate' start stop = .ok q') :
    q ≤ q' ∧ ((∀ d, ∃ x x', rate d = .ok x ∧ rate' d = .ok x' ∧ x < x') → q < q') := by
  classical
  -- rates on days never asked for are irrelevant: make them 0
  let rr : PyDate → ℚ := fun d => match rate d with | .ok x => x | .error _ => 0
  have hrr : ∀ d y, rate d = .ok y → rr d = y := by intro d y hy; simp only [rr, hy]
  let rr' : PyDate → ℚ := fun d => match rate d, rate' d with | .ok x, .ok y => y | .ok x, .error _ => x | .error _, .ok y => y | .error _, .error _ => 0
  have hrr' : ∀ d y, rate' d = .ok y → rr' d = y := by
    intro d y hy; simp only [rr', hy]; cases rate d <;> rfl
  obtain ⟨L, hp, hmem, hlen, hprod, -⟩ := C43_compounding cal rate start stop q rr hrr h
  obtain ⟨L', hp', hmem', -, hprod', -⟩ := C43_compounding cal rate' start stop q' rr' hrr' h'
  obtain rfl : L = L' := increasing_unique hp hp' (fun e => by rw [hmem, hmem'])
  have hpos := sumPairs_pos L hp hlen
  -- a day without a rate is not the start of a pair; bound it by raising the second rate there
  let ss : PyDate → ℚ := fun d => max (rr d) (rr' d)
  have hrr0 : ∀ d, -360 < rr d * (stop.ord - start.ord : Int) := by
    intro d
    cases hd : rate d with
    | ok x => simp only [rr, hd]; exact h0 d x hd
    | error e => simp only [rr, hd]; norm_num
  have hss : ∀ d y, rate' d = .ok y → (∃ x, rate d = .ok x) → ss d = y := by
    intro d y hy ⟨x, hx⟩
    simp only [ss, rr, rr', hx, hy]
    exact max_eq_right (hle d x y hx hy)
  -- rates exist at every business day but the last
  have hex : ∀ {rt : RateFn} {z : ℚ}, Swap.annualizedRate cal rt start stop = .ok z → ∀ x y (pre post : List PyDate),
      L = pre ++ x :: y :: post → ∃ v, rt x = .ok v := by
    intro rt z hz x y pre post hsplit
    unfold Swap.annualizedRate at hz
    rw [bind_ok] at hz; obtain ⟨L1, hL1, hz⟩ := hz
    rw [bind_ok] at hz; obtain ⟨r, hr, -⟩ := hz
    obtain ⟨a1, a2⟩ := C07_generate_business_days cal start stop L1 hL1
    obtain rfl : L = L1 := increasing_unique hp a1 (fun e => by rw [hmem, a2])
    subst hsplit
    clear hp hp' hmem hmem' hlen hprod hprod' hpos hL1 a1 a2
    generalize ((0 : ℚ), (1 : ℚ)) = st at hr
    induction pre generalizing st with
    | nil =>
      simp only [List.nil_append, Loan.pairwise, Swap.compoundLoop] at hr
      rw [bind_ok] at hr
      obtain ⟨u, hu, hr⟩ := hr
      first
        | exact ⟨u, hu⟩
        | (rw [bind_ok] at hr; obtain ⟨w, hw, -⟩ := hr; exact ⟨w, hw⟩)
    | cons p pre ih =>
      cases pre with
      | nil =>
        simp only [List.cons_append, List.nil_append, Loan.pairwise, Swap.compoundLoop] at hr ih
        rw [bind_ok] at hr; obtain ⟨u, hu, hr⟩ := hr
        rw [bind_ok] at hr; obtain ⟨w, hw, hr⟩ := hr
        exact ih (st.1 + u, st.2 * (1 + w * u)) hr
      | cons p' pre =>
        simp only [List.cons_append, Loan.pairwise, Swap.compoundLoop] at hr
        rw [bind_ok] at hr; obtain ⟨u, hu, hr⟩ := hr
        rw [bind_ok] at hr; obtain ⟨w, hw, hr⟩ := hr
        exact ih _ (by simp only [List.cons_append]; exact hr)
  have hcongr : prodPairs (fun x y => 1 + rr' x * act360 x y) L = prodPairs (fun x y => 1 + ss x * act360 x y) L := by
    have : ∀ (pre L1 : List PyDate), L = pre ++ L1 →
        prodPairs (fun x y => 1 + rr' x * act360 x y) L1 = prodPairs (fun x y => 1 + ss x * act360 x y) L1 := by
      intro pre L1
      induction L1 generalizing pre with
      | nil => intro _; rfl
      | cons x L1 ih =>
        intro hsplit
        cases L1 with
        | nil => rfl
        | cons y L1 =>
          have e := ih (pre ++ [x]) (by rw [hsplit]; simp)
          obtain ⟨v, hv⟩ := hex h x y pre L1 hsplit
          obtain ⟨v', hv'⟩ := hex h' x y pre L1 hsplit
          show (1 + rr' x * act360 x y) * prodPairs _ (y :: L1) = (1 + ss x * act360 x y) * prodPairs _ (y :: L1)
          rw [e, hrr' x v' hv', hss x v' hv' ⟨v, hv⟩]
    exact this [] L rfl
  obtain ⟨-, m1, m2⟩ := prodPairs_mono (rr := rr) (rr' := ss) L hp
    (fun d hd e he hde => growth_pos (hrr0 d) ((hmem d).1 hd).1 ((hmem e).1 he).2.1 hde) (fun d _ => le_max_left _ _)
  rw [← hcongr, ← hprod, ← hprod'] at m1 m2
  constructor
  · have : q * sumPairs act360 L ≤ q' * sumPairs act360 L := by linarith
    exact le_of_mul_le_mul_right this hpos
  · intro hs
    have := m2 (fun d _ => by
      obtain ⟨x, x', hx, hx', hlt⟩ := hs d
      rw [hss d x' hx' ⟨x, hx⟩, hrr d x hx]; exact hlt) hlen
    exact lt_of_mul_lt_mul_right (by linarith) hpos.le

/-- The amount of one floating payment, compared between two rate functions. -/
theorem floatPayment_mono {s : Swap} {rate rate' : RateFn} {a : SwapAccrual} {p p' : Payment}
    (h0 : s.terms.cls = .overnight → ∀ d x, rate d = .ok x → -360 < x * (a.stop.ord - a.start.ord : Int))
    (hle : ∀ d x x', rate d = .ok x → rate' d = .ok x' → x ≤ x')
    (h : s.floatPayment rate a = .ok p) (h' : s.floatPayment rate' a = .ok p') :
    p.date = p'.date ∧ ∃ q q', p.amount = some (a.factor * s.terms.notional * q) ∧
      p'.amount = some (a.factor * s.terms.notional * q') ∧ q ≤ q' ∧
      ((∀ d, ∃ x x', rate d = .ok x ∧ rate' d = .ok x' ∧ x < x') → q < q') ∧ ((∀ d x, rate d = .ok x → 0 ≤ x) → 0 ≤ q) := by
  unfold Swap.floatPayment at h h'
  cases hc : s.terms.cls with
  | term =>
    rw [hc] at h h'
    simp only [Swap.termPayment] at h h'
    rw [bind_ok] at h; obtain ⟨f, hf, h⟩ := h
    rw [bind_ok] at h; obtain ⟨q, hq, h⟩ := h
    rw [bind_ok] at h; obtain ⟨d, hd, h⟩ := h
    rw [bind_ok] at h'; obtain ⟨f', hf', h'⟩ := h'
    rw [bind_ok] at h'; obtain ⟨q', hq', h'⟩ := h'
    rw [bind_ok] at h'; obtain ⟨d', hd', h'⟩ := h'
    rw [hf] at hf'; injection hf' with hf'; subst hf'
    rw [hd] at hd'; injection hd' with hd'; subst hd'
    injection h with h
    injection h' with h'
    subst h h'
    refine ⟨rfl, q, q', rfl, rfl, hle _ _ _ hq hq', fun hs => ?_, fun hz => hz _ _ hq⟩
    obtain ⟨x, x', hx, hx', hlt⟩ := hs f
    rw [hq] at hx; injection hx with hx
    rw [hq'] at hx'; injection hx' with hx'
    rw [hx, hx']; exact hlt
  | overnight =>
    rw [hc] at h h'
    simp only [Swap.overnightPayment] at h h'
    rw [bind_ok] at h; obtain ⟨d, hd, h⟩ := h
    rw [bind_ok] at h; obtain ⟨q, hq, h⟩ := h
    rw [bind_ok] at h'; obtain ⟨d', hd', h'⟩ := h'
    rw [bind_ok] at h'; obtain ⟨q', hq', h'⟩ := h'
    rw [hd] at hd'; injection hd' with hd'; subst hd'
    injection h with h
    injection h' with h'
    subst h h'
    obtain ⟨h1, h2⟩ := C124_compounding _ rate rate' _ _ q q' (h0 hc) hle hq hq'
    refine ⟨rfl, q, q', rfl, rfl, h1, h2, fun hz => ?_⟩
    let rr : PyDate → ℚ := fun d => match rate d with | .ok x => x | .error _ => 0
    have hrr0 : ∀ d, 0 ≤ rr d := by
      intro d
      cases hd : rate d with
      | ok x => simp only [rr, hd]; exact hz d x hd
      | error e => simp only [rr, hd]; exact le_rfl
    obtain ⟨L, hp, -, hlen, hprod, -⟩ := C43_compounding _ rate _ _ q rr (by intro d y hy; simp only [rr, hy]) hq
    have hpos := sumPairs_pos L hp hlen
    have h3 := (prodPairs_mono (rr := fun _ => 0) (rr' := rr) L hp (fun _ _ _ _ _ => by simp) (fun d _ => hrr0 d)).2.1
    have h4 : prodPairs (fun x y => 1 + (fun _ => (0 : ℚ)) x * act360 x y) L = 1 := by
      clear hprod hpos h3 hlen hp
      induction L with
      | nil => rfl
      | cons x L ih =>
        cases L with
        | nil => rfl
        | cons y L =>
          show (1 + 0 * act360 x y) * prodPairs _ (y :: L) = 1
          rw [ih]; ring
    rw [h4, ← hprod] at h3
    by_contra hneg
    have := mul_neg_of_neg_of_pos (not_le.1 hneg) hpos
    linarith

/-- Two floating legs of one swap, payment by payment. -/
theorem floatLegs_mono {s : Swap} {rate rate' : RateFn} {fl fl' : List Payment}
    (h0 : s.terms.cls = .overnight → ∀ accs, s.floatAccruals = .ok accs → ∀ a ∈ accs, ∀ d x, rate d = .ok x →
      -360 < x * (a.stop.ord - a.start.ord : Int))
    (hle : ∀ d x x', rate d = .ok x → rate' d = .ok x' → x ≤ x')
    (h : s.floatCashflow rate = .ok fl) (h' : s.floatCashflow rate' = .ok fl') :
    ∃ (accs : List SwapAccrual) (pd : SwapAccrual → PyDate) (q q' : SwapAccrual → ℚ), s.floatAccruals = .ok accs ∧
      (∀ a ∈ accs, s.paymentDate a = .ok (pd a)) ∧
      fl = Cashflow.create (accs.map (fun a => (⟨pd a, some (a.factor * s.terms.notional * q a)⟩ : Payment))) ∧
      fl' = Cashflow.create (accs.map (fun a => (⟨pd a, some (a.factor * s.terms.notional * q' a)⟩ : Payment))) ∧
      ∀ a ∈ accs, q a ≤ q' a ∧ ((∀ d, ∃ x x', rate d = .ok x ∧ rate' d = .ok x' ∧ x < x') → q a < q' a) ∧
        ((∀ d x, rate d = .ok x → 0 ≤ x) → 0 ≤ q a) := by
  classical
  unfold Swap.floatCashflow at h h'
  rw [bind_ok] at h; obtain ⟨accs, hacc, h⟩ := h
  rw [bind_ok] at h; obtain ⟨ps, hps, h⟩ := h
  rw [hacc, ok_bind, bind_ok] at h'
  obtain ⟨ps', hps', h'⟩ := h'
  injection h with h
  injection h' with h'
  have hex : ∀ a, ∃ dq : PyDate × ℚ × ℚ, a ∈ accs →
      s.floatPayment rate a = .ok ⟨dq.1, some (a.factor * s.terms.notional * dq.2.1)⟩ ∧
      s.floatPayment rate' a = .ok ⟨dq.1, some (a.factor * s.terms.notional * dq.2.2)⟩ ∧ s.paymentDate a = .ok dq.1 ∧
      dq.2.1 ≤ dq.2.2 ∧ ((∀ d, ∃ x x', rate d = .ok x ∧ rate' d = .ok x' ∧ x < x') → dq.2.1 < dq.2.2) ∧
      ((∀ d x, rate d = .ok x → 0 ≤ x) → 0 ≤ dq.2.1) := by
    intro a
    by_cases ha : a ∈ accs
    · obtain ⟨p, hp⟩ := collect_ok_of_mem hps a ha
      obtain ⟨p', hp'⟩ := collect_ok_of_mem hps' a ha
      obtain ⟨e1, q, q', e2, e3, e4, e5⟩ := floatPayment_mono (fun hc => h0 hc accs hacc a ha) hle hp hp'
      obtain ⟨-, e6, -, -⟩ := floatPayment_unit hp
      refine ⟨(p.date, q, q'), fun _ => ⟨?_, ?_, e6, e4, e5⟩⟩
      · rw [hp]; cases p; simp only at e2; rw [e2]
      · rw [hp']; cases p'; simp only at e3 e1; rw [e3, e1]
    · exact ⟨(a.stop, 0, 0), fun h => absurd h ha⟩
  choose dq hdq using hex
  rw [collect_map (g := fun a => (⟨(dq a).1, some (a.factor * s.terms.notional * (dq a).2.1)⟩ : Payment))
    (fun a ha => (hdq a ha).1)] at hps
  rw [collect_map (g := fun a => (⟨(dq a).1, some (a.factor * s.terms.notional * (dq a).2.2)⟩ : Payment))
    (fun a ha => (hdq a ha).2.1)] at hps'
  injection hps with hps
  injection hps' with hps'
  exact ⟨accs, fun a => (dq a).1, fun a => (dq a).2.1, fun a => (dq a).2.2, hacc, fun a ha => (hdq a ha).2.2.1,
    by rw [← h, ← hps], by rw [← h', ← hps'], fun a ha => (hdq a ha).2.2.2⟩

/-- Values of two legs that differ in the rate per period only. -/
theorem legs_compare {accs : List SwapAccrual} {pd : SwapAccrual → PyDate} {q q' : SwapAccrual → ℚ} {curve : DiscountFn}
    {N y y' : ℚ} (hN : 0 ≤ N) (hcurve : ∀ d x, curve.call d = .ok x → 0 ≤ x) (hfac : ∀ a ∈ accs, 0 ≤ a.factor)
    (hq : ∀ a ∈ accs, q a ≤ q' a)
    (h : Cashflow.presentValue (Cashflow.create (accs.map (fun a => (⟨pd a, some (a.factor * N * q a)⟩ : Payment)))) curve = .ok y)
    (h' : Cashflow.presentValue (Cashflow.create (accs.map (fun a => (⟨pd a, some (a.factor * N * q' a)⟩ : Payment)))) curve = .ok y') :
    y ≤ y' ∧ (0 < N → (∀ a ∈ accs, q a < q' a) → (∃ a ∈ accs, 0 < a.factor ∧ curve.referenceDate ≤ pd a ∧
      ∀ x, curve.call (pd a) = .ok x → 0 < x) → y < y') := by
  let df : PyDate → ℚ := fun d => match curve.call d with | .ok x => x | .error _ => 0
  have hd : ∀ a ∈ accs, curve.referenceDate ≤ pd a → curve.call (pd a) = .ok (df (pd a)) := by
    intro a ha href
    obtain ⟨z, hz⟩ := priced_of_ok h _ (List.mem_map.2 ⟨a, ha, rfl⟩) (by simp) href
    simp only at hz
    simp only [df, hz]
  rw [leg_value curve df pd q accs N hd] at h
  rw [leg_value curve df pd q' accs N hd] at h'
  injection h with h
  injection h' with h'
  have hterm : ∀ a ∈ accs, (if curve.referenceDate ≤ pd a then a.factor * q a * df (pd a) else 0) ≤
      (if curve.referenceDate ≤ pd a then a.factor * q' a * df (pd a) else 0) := by
    intro a ha
    by_cases href : curve.referenceDate ≤ pd a
    · rw [if_pos href, if_pos href]
      exact mul_le_mul_of_nonneg_right (mul_le_mul_of_nonneg_left (hq a ha) (hfac a ha)) (hcurve _ _ (hd a ha href))
    · rw [if_neg href, if_neg href]
  have hsum : discountedLeg curve.referenceDate df pd q accs ≤ discountedLeg curve.referenceDate df pd q' accs :=
    List.sum_le_sum hterm
  refine ⟨?_, ?_⟩
  · rw [← h, ← h']; exact mul_le_mul_of_nonneg_left hsum hN
  · rintro hN' hlt ⟨a, ha, hf, href, hx⟩
    rw [← h, ← h']
    refine mul_lt_mul_of_pos_left ?_ hN'
    refine List.sum_lt_sum _ _ hterm ⟨a, ha, ?_⟩
    rw [if_pos href, if_pos href]
    exact mul_lt_mul_of_pos_right (mul_lt_mul_of_pos_left (hlt a ha) hf) (hx _ (hd a ha href))

/-- C124. Raising floating rates never lowers the value to the payer of the fixed rate and never raises it to the receiver (for an
overnight swap the lower rates must not be so negative as to use up the capital within one period); the implied rate does not fall. The discount factors and the floating leg's
accrual factors must not be negative. -/
theorem C124_floating (t : SwapTerms) (s : Swap) (hs : Swap.create t = .ok s) (curve : DiscountFn) (rate rate' : RateFn)
    (hcurve : ∀ d x, curve.call d = .ok x → 0 ≤ x)
    (hfac : ∀ accs, s.floatAccruals = .ok accs → ∀ a ∈ accs, 0 ≤ a.factor) (hN : 0 ≤ t.notional)
    (h0 : t.cls = .overnight → ∀ accs, s.floatAccruals = .ok accs → ∀ a ∈ accs, ∀ d x, rate d = .ok x →
      -360 < x * (a.stop.ord - a.start.ord : Int))
    (hle : ∀ d x x', rate d = .ok x → rate' d = .ok x' → x ≤ x') :
    (∀ v v', swapWorth s rate curve = .ok v → swapWorth s rate' curve = .ok v' →
      (t.direction = .payerFixed → v ≤ v') ∧ (t.direction = .receiverFixed → v' ≤ v)) ∧
    ((∀ accs, s.fixedAccruals = .ok accs → ∀ a ∈ accs, 0 ≤ a.factor) → ∀ set set' r r', (s.impliedRate curve rate set).1 = .ok r →
      (s.impliedRate curve rate' set').1 = .ok r' → r ≤ r') := by
  obtain ⟨hterms, -, -, -⟩ := swap_create_ok hs
  rw [← hterms] at h0 hN
  constructor
  · intro v v' hv hv'
    rw [swapWorth_eq hs] at hv hv'
    cases hfx : s.fixedCashflow with
    | error e => rw [hfx] at hv; simp [Except.toOption, swapValue] at hv
    | ok fx =>
      cases hfl : s.floatCashflow rate with
      | error e => rw [hfx, hfl] at hv; simp [Except.toOption, swapValue] at hv
      | ok fl =>
        cases hfl' : s.floatCashflow rate' with
        | error e => rw [hfx, hfl'] at hv'; simp [Except.toOption, swapValue] at hv'
        | ok fl' =>
          rw [hfx, hfl] at hv
          rw [hfx, hfl'] at hv'
          simp only [Except.toOption, swapValue] at hv hv'
          rw [bind_ok] at hv; obtain ⟨y, hy, hv⟩ := hv
          rw [bind_ok] at hv; obtain ⟨x, hx, hv⟩ := hv
          rw [bind_ok] at hv'; obtain ⟨y', hy', hv'⟩ := hv'
          rw [bind_ok] at hv'; obtain ⟨x', hx', hv'⟩ := hv'
          rw [hx] at hx'; injection hx' with hx'; subst hx'
          obtain ⟨B, pd, q, q', hB, -, rfl, rfl, hq⟩ := floatLegs_mono h0 hle hfl hfl'
          have hyy := (legs_compare hN hcurve (hfac B hB) (fun a ha => (hq a ha).1) hy hy').1
          injection hv with hv
          injection hv' with hv'
          constructor
          · intro hd
            rw [if_neg (by rw [hd]; decide)] at hv hv'
            linarith
          · intro hd
            rw [if_pos hd] at hv hv'
            linarith
  · intro hfx set set' r r' hr hr'
    obtain ⟨fl, y, accs, pd, df, h1, h2, h3, h4, h5, h6, h7⟩ := impliedRate_ok hr
    obtain ⟨fl', y', accs', pd', df', h1', h2', h3', h4', h5', h6', h7'⟩ := impliedRate_ok hr'
    rw [h3] at h3'; injection h3' with h3'; subst h3'
    have heq : (accs.map (fun a => df (pd a) * (a.factor * s.terms.notional))).sum =
        (accs.map (fun a => df' (pd' a) * (a.factor * s.terms.notional))).sum := by
      congr 1
      refine List.map_congr_left (fun a ha => ?_)
      have e1 := (h5 a ha).1
      rw [(h5' a ha).1] at e1; injection e1 with e1
      have e2 := (h5 a ha).2
      rw [← e1, (h5' a ha).2] at e2
      injection e2 with e2
      rw [← e1, e2]
    rw [← heq] at h7' h6'
    obtain ⟨B, pe, q, q', hB, -, rfl, rfl, hq⟩ := floatLegs_mono h0 hle h1 h1'
    have hyy := (legs_compare hN hcurve (hfac B hB) (fun a ha => (hq a ha).1) h2 h2').1
    have hpos : 0 < (accs.map (fun a => df (pd a) * (a.factor * s.terms.notional))).sum := by
      refine lt_of_le_of_ne (List.sum_nonneg (fun z hz => ?_)) (Ne.symm h6)
      obtain ⟨a, ha, rfl⟩ := List.mem_map.1 hz
      exact mul_nonneg (hcurve _ _ (h5 a ha).2) (mul_nonneg (hfx accs h3 a ha) hN)
    rw [h7, h7']
    exact (div_le_div_iff_of_pos_right hpos).2 hyy

/-- C124. On the US federal holiday calendar, on a curve of positive discount factors and with a positive notional, nothing else is
needed: the implied rates of two rate functions are ordered like them, strictly if the rates are everywhere strictly ordered and
the floating leg has a period; and so are the payer's values. Rates may be negative, down to -90 %. -/
theorem C124_us (t : SwapTerms) (M kx kf : Int) (ht : UsSwap t M kx kf) (rate rate' : RateFn)
    (hr : ∀ d, ∃ x x', rate d = .ok x ∧ rate' d = .ok x' ∧ -9 / 10 ≤ x ∧ x ≤ x') (curve : DiscountFn)
    (hc : ∀ d, ∃ x, curve.call d = .ok x ∧ 0 < x) (hN : 0 < t.notional) (s : Swap) (hs : Swap.create t = .ok s)
    (hone : kx < M ∨ (kx = M ∧ s.startAccrual.day ≤ 28)) (href : curve.referenceDate ≤ s.startAccrual) :
    ∃ r r' v v', (∀ set, (s.impliedRate curve rate set).1 = .ok r) ∧ (∀ set, (s.impliedRate curve rate' set).1 = .ok r') ∧
      ((∀ d x, rate d = .ok x → 0 ≤ x) → 0 ≤ r) ∧ r ≤ r' ∧ swapWorth s rate curve = .ok v ∧ swapWorth s rate' curve = .ok v' ∧
      (t.direction = .payerFixed → v ≤ v') ∧ (t.direction = .receiverFixed → v' ≤ v) ∧
      ((∀ d x x', rate d = .ok x → rate' d = .ok x' → x < x') → kf < M ∨ (kf = M ∧ s.startAccrual.day ≤ 28) → r < r') := by
  have hr1 : ∀ d, ∃ q, rate d = .ok q := fun d => by obtain ⟨x, x', h, -⟩ := hr d; exact ⟨x, h⟩
  have hr2 : ∀ d, ∃ q, rate' d = .ok q := fun d => by obtain ⟨x, x', -, h, -⟩ := hr d; exact ⟨x', h⟩
  have hlow : ∀ d x, rate d = .ok x → -9 / 10 ≤ x := by
    intro d x hx
    obtain ⟨y, y', hy, -, h0, -⟩ := hr d
    rw [hx] at hy; injection hy with hy; rw [hy]; exact h0
  have hle : ∀ d x x', rate d = .ok x → rate' d = .ok x' → x ≤ x' := by
    intro d x x' hx hx'
    obtain ⟨y, y', hy, hy', -, hle⟩ := hr d
    rw [hx] at hy; injection hy with hy
    rw [hx'] at hy'; injection hy' with hy'
    rw [hy, hy']; exact hle
  have hct : ∀ d, ∃ x, curve.call d = .ok x := fun d => (hc d).imp fun _ h => h.1
  have hcp : ∀ d x, curve.call d = .ok x → 0 < x := by
    intro d x hx
    obtain ⟨y, hy, hp⟩ := hc d
    rw [hx] at hy; injection hy with hy; rw [hy]; exact hp
  obtain ⟨s1, A, B, hs1, hA, hB, hAp, hBp, -, hBne⟩ := C120_periods t M kx kf ht
  rw [hs] at hs1; injection hs1 with hs1; subst hs1
  have h0 : ∀ accs, s.floatAccruals = .ok accs → ∀ a ∈ accs, ∀ d x, rate d = .ok x → -360 < x * (a.stop.ord - a.start.ord : Int) := by
    intro accs h a ha d x hx
    rw [hB] at h; injection h with h; subst h
    have hk : 3 ≤ kf ∧ kf ≤ 12 := by
      have := ht.floatFrequency
      cases hf : t.floatFrequency <;> rw [hf] at this <;> simp only [couponMonths, reduceCtorEq] at this <;> cases this <;> decide
    have h1 := (hBp a ha).lower
    have h2 := (hBp a ha).upper
    have h3 : (0 : ℚ) < ((a.stop.ord - a.start.ord : Int) : ℚ) := by exact_mod_cast (by omega : 0 < a.stop.ord - a.start.ord)
    have h4 : ((a.stop.ord - a.start.ord : Int) : ℚ) ≤ 382 := by exact_mod_cast (by omega : a.stop.ord - a.start.ord ≤ 382)
    have := mul_le_mul_of_nonneg_right (hlow d x hx) h3.le
    linarith
  have fB : ∀ accs, s.floatAccruals = .ok accs → ∀ a ∈ accs, 0 ≤ a.factor := by
    intro accs h a ha
    rw [hB] at h; injection h with h; subst h
    exact (hBp a ha).factor.le
  have fA : ∀ accs, s.fixedAccruals = .ok accs → ∀ a ∈ accs, 0 ≤ a.factor := by
    intro accs h a ha
    rw [hA] at h; injection h with h; subst h
    exact (hAp a ha).factor.le
  obtain ⟨r, hrr, -⟩ := C120_par t M kx kf ht rate hr1 curve hc hN.ne' s hs hone href
  obtain ⟨r', hrr', -⟩ := C120_par t M kx kf ht rate' hr2 curve hc hN.ne' s hs hone href
  obtain ⟨s1, -, -, v, hs1, -, -, hv⟩ := C120_valued t M kx kf ht rate hr1 curve hct
  rw [hs] at hs1; injection hs1 with hs1; subst hs1
  obtain ⟨s1, -, -, v', hs1, -, -, hv'⟩ := C120_valued t M kx kf ht rate' hr2 curve hct
  rw [hs] at hs1; injection hs1 with hs1; subst hs1
  obtain ⟨hterms, -, -, -⟩ := swap_create_ok hs
  obtain ⟨m1, m2⟩ := C124_floating t s hs curve rate rate' (fun d x h => (hcp d x h).le) fB hN.le (fun _ => h0) hle
  obtain ⟨fl, y, accs, pd, df, h1, h2, h3, h4, h5, h6, h7⟩ := impliedRate_ok (hrr true)
  obtain ⟨fl', y', accs', pd', df', h1', h2', h3', h4', h5', h6', h7'⟩ := impliedRate_ok (hrr' true)
  have hNs : 0 < s.terms.notional := by rw [hterms]; exact hN
  have hpos : 0 < (accs.map (fun a => df (pd a) * (a.factor * s.terms.notional))).sum := by
    refine lt_of_le_of_ne (List.sum_nonneg (fun z hz => ?_)) (Ne.symm h6)
    obtain ⟨a, ha, rfl⟩ := List.mem_map.1 hz
    exact mul_nonneg (hcp _ _ (h5 a ha).2).le (mul_nonneg (fA accs h3 a ha) hNs.le)
  obtain ⟨B', pe, q, q', hB', hpe, hfl, hfl', hq⟩ := floatLegs_mono (fun _ => h0) hle h1 h1'
  rw [hB] at hB'; injection hB' with hB'; subst hB'
  subst hfl hfl'
  refine ⟨r, r', v, v', hrr, hrr', ?_, m2 fA true true r r' (hrr true) (hrr' true), hv, hv', (m1 v v' hv hv').1,
    (m1 v v' hv hv').2, ?_⟩
  · -- against the zero rate
    intro hnn
    rw [h7]
    refine div_nonneg ?_ hpos.le
    let dz : PyDate → ℚ := fun d => match curve.call d with | .ok x => x | .error _ => 0
    rw [leg_value curve dz pe q B s.terms.notional (fun a _ _ => by
      obtain ⟨x, hx⟩ := hct (pe a)
      simp only [dz, hx])] at h2
    injection h2 with h2
    rw [← h2]
    refine mul_nonneg hNs.le (List.sum_nonneg (fun z hz => ?_))
    obtain ⟨a, ha, rfl⟩ := List.mem_map.1 hz
    split_ifs
    · refine mul_nonneg (mul_nonneg (fB B hB a ha) ((hq a ha).2.2 hnn)) ?_
      obtain ⟨x, hx, hx0⟩ := hc (pe a)
      simp only [dz, hx]; exact hx0.le
    · exact le_rfl
  · intro hlt hkf
    rw [h7, h7']
    have heq : (accs.map (fun a => df (pd a) * (a.factor * s.terms.notional))).sum =
        (accs'.map (fun a => df' (pd' a) * (a.factor * s.terms.notional))).sum := by
      rw [h3] at h3'; injection h3' with h3'; subst h3'
      congr 1
      refine List.map_congr_left (fun a ha => ?_)
      have e1 := (h5 a ha).1
      rw [(h5' a ha).1] at e1; injection e1 with e1
      have e2 := (h5 a ha).2
      rw [← e1, (h5' a ha).2] at e2
      injection e2 with e2
      rw [← e1, e2]
    rw [← heq]
    refine (div_lt_div_iff_of_pos_right hpos).2 ?_
    refine (legs_compare hNs.le (fun d x h => (hcp d x h).le) (fB B hB) (fun a ha => (hq a ha).1) h2 h2').2 hNs
      (fun a ha => (hq a ha).2.1 (fun d => by
        obtain ⟨x, x', hx, hx', -⟩ := hr d
        exact ⟨x, x', hx, hx', hlt d x x' hx hx'⟩)) ?_
    obtain ⟨a, ha⟩ := List.exists_mem_of_ne_nil _ (hBne hkf)
    refine ⟨a, ha, (hBp a ha).factor, ?_, fun x hx => hcp _ _ hx⟩
    refine href.trans ?_
    obtain ⟨s2, hs2, hd⟩ := us_create ht
    rw [hs] at hs2; injection hs2 with hs2; subst hs2
    obtain ⟨B2, hB2, hB2p, -⟩ := us_schedule ht hs hd ht.floatFrequency ht.floatDcc
    obtain rfl : B = B2 := by
      unfold Swap.floatAccruals at hB
      rw [hterms, hB2] at hB; injection hB with hB; exact hB.symm
    have kf3 : 3 ≤ kf := by
      have := ht.floatFrequency
      cases hf : t.floatFrequency <;> rw [hf] at this <;> simp only [couponMonths, reduceCtorEq] at this <;> cases this <;> decide
    obtain ⟨⟨d, e1, e2⟩, -⟩ := us_payment ht hs hd kf3 (hB2p a ha)
    rw [hpe a ha] at e1; injection e1 with e1
    obtain ⟨hp, e3, -⟩ := hB2p a ha
    have := hp.lower
    rw [e1]
    exact PyDate.le_iff.2 (by omega)

/-- Concrete case for C124: the overnight swap of the C120 example, at negative rates ten percentage points below those of the
examples, and one percentage point higher. -/
example : UsSwap exUs 12 6 3 ∧ (∀ d, ∃ x x', (fun d => (exRate d).map (· - 1 / 10)) d = .ok x ∧
      (fun d => (exRate d).map (· - 9 / 100)) d = .ok x' ∧ -9 / 10 ≤ x ∧ x < x') ∧
    0 < exUs.notional ∧ Swap.create exUs = .ok exUs0 ∧ ((6 : Int) < 12 ∧ (3 : Int) < 12) := by
  refine ⟨⟨rfl, by decide, by unfold WithinRange; decide +kernel, by unfold BusinessConvention; decide, by unfold BusinessConvention; decide, by unfold BusinessConvention; decide, rfl, rfl, by decide, by decide⟩, ?_, by decide +kernel, exUs_create, by decide⟩
  intro d
  refine ⟨_, _, rfl, rfl, ?_, by simp only; linarith⟩
  split_ifs <;> norm_num

end Verif.Props
