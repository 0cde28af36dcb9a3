/- Property C119: the value of a bond on a curve is that of its strips, hence linear in its terms. -/
import Verif.Props.Yields
import Verif.Props.YieldCurve
import Mathlib.Tactic.Positivity

namespace Verif.Props
open Verif Verif.Spec Verif.DayCount Verif.Scheduler

/-! ## C119 -/

theorem zeroCoupon_call {d : PyDate} {curve : DiscountFn} (h : curve.referenceDate ≤ d) :
    ZeroCoupon.presentValue d curve = curve.call d := by
  cases hc : curve.call d with
  | ok x => exact (C19_zero_coupon d curve).1 h x hc
  | error e =>
    unfold ZeroCoupon.presentValue ZeroCoupon.cashflow
    simp [Cashflow.presentValue, Cashflow.create, pySorted, pyInsert, pySum, collect, h, hc, error_bind]

theorem payment_paidOn {t : BondTerms} {b : Bond} {k : Int} (hk : couponMonths t.frequency = some k)
    (h : Bond.create t = .ok b) :
    ∀ p ∈ b.coupons ++ b.principalPayments, PaidOn t.calendar t.adjustment p.unadjusted p.date := by
  intro p hp
  rcases List.mem_append.1 hp with hp | hp
  · exact ((C33_coupons t b k hk h).2.2.1 p hp).2
  · obtain ⟨a, ha, hpp⟩ := principalCashflow_ok (create_ok h).2.2.2.1
    rw [hpp, List.mem_singleton] at hp
    rw [hp]
    exact adjust_paidOn ha

theorem weightedSum_eq_filter (P : BondPayment → Prop) [DecidablePred P] (w : BondPayment → ℚ) (l : List BondPayment) :
    weightedSum P w l = ((l.filter (fun p => P p)).map w).sum := by
  unfold weightedSum
  induction l with
  | nil => rfl
  | cons p ps ih =>
    by_cases hp : P p
    · simp [hp, ih]
    · simp [hp, ih]

/-- The portfolio of the strips of a bond: for every payment whose unadjusted date is on or after `s`, as many zero-coupon bonds
maturing on its payment date as the payment has dollars. -/
def strips (b : Bond) (s : PyDate) : List PortfolioEntry :=
  ((b.coupons ++ b.principalPayments).filter (fun p => s ≤ p.unadjusted)).map
    (fun p => ⟨p.amount, ZeroCoupon.presentValue p.date⟩)

/-- C119. A bond is worth as much as the portfolio of its strips, on every curve: one has a value if and only if the other has,
and then they are equal. -/
theorem C119_strips (t : BondTerms) (b : Bond) (k : Int) (hk : couponMonths t.frequency = some k) (h : Bond.create t = .ok b)
    (curve : DiscountFn) (s : PyDate) (hs : addBusinessDays t.calendar curve.referenceDate 1 = .ok s) (v : ℚ) :
    b.presentValue curve = .ok v ↔ portfolioPresentValue (strips b s) 0 curve = .ok v := by
  have hpaid := payment_paidOn hk h
  have hns := nextSettlement_of_add hs
  have ht := (create_ok h).1
  have hz : ∀ p ∈ b.coupons ++ b.principalPayments, s ≤ p.unadjusted →
      ZeroCoupon.presentValue p.date curve = curve.call p.date := by
    intro p hp hsp
    obtain ⟨r0, hr0, hlt, hbd, -⟩ := hns
    exact zeroCoupon_call (le_trans hr0.1 (le_trans hlt.le (paidOn_ge hbd hsp (hpaid p hp))))
  have hval : ∀ df : PyDate → ℚ, (∀ p ∈ b.coupons ++ b.principalPayments, s ≤ p.unadjusted → curve.call p.date = .ok (df p.date)) →
      portfolioPresentValue (strips b s) 0 curve =
        .ok (weightedSum (fun p => s ≤ p.unadjusted) (fun p => df p.date * p.amount) (b.coupons ++ b.principalPayments)) := by
    intro df hdf
    unfold portfolioPresentValue strips pySum
    have hcol : ∀ l : List BondPayment, (∀ p ∈ l, ZeroCoupon.presentValue p.date curve = .ok (df p.date)) →
        collect (fun e : PortfolioEntry => (do let v ← e.asset curve; .ok (e.quantity * v) : Except PyErr ℚ))
          (l.map (fun p => ⟨p.amount, ZeroCoupon.presentValue p.date⟩)) = .ok (l.map (fun p => df p.date * p.amount)) := by
      intro l hl
      induction l with
      | nil => rfl
      | cons p ps ih =>
        simp only [List.map_cons, collect, hl p (by simp), ok_bind]
        rw [ih (fun q hq => hl q (by simp [hq])), ok_bind, mul_comm]
    rw [hcol _ (fun p hp => by
      obtain ⟨h1, h2⟩ := List.mem_filter.1 hp
      have h2 : s ≤ p.unadjusted := by simpa using h2
      rw [hz p h1 h2, hdf p h1 h2]), ok_bind, ok_bind, ← weightedSum_eq_filter, add_zero]
  constructor
  · intro hv
    obtain ⟨s', df, hs', hdf, rfl⟩ := C34_present_value t b h curve v hv
    have := NextSettlement.unique hns hs'
    subst this
    exact hval df hdf
  · intro hv
    have hall := (C32_value_exists (strips b s) 0 curve).1 ⟨v, hv⟩
    have hdf : ∀ d, ∃ x, (∃ p ∈ b.coupons ++ b.principalPayments, s ≤ p.unadjusted ∧ p.date = d) → curve.call d = .ok x := by
      intro d
      by_cases hd : ∃ p ∈ b.coupons ++ b.principalPayments, s ≤ p.unadjusted ∧ p.date = d
      · obtain ⟨p, hp, hsp, rfl⟩ := hd
        obtain ⟨x, hx⟩ := hall ⟨p.amount, ZeroCoupon.presentValue p.date⟩
          (List.mem_map.2 ⟨p, List.mem_filter.2 ⟨hp, by simpa using hsp⟩, rfl⟩)
        exact ⟨x, fun _ => by rw [← hz p hp hsp]; exact hx⟩
      · exact ⟨0, fun h' => absurd h' hd⟩
    choose df hdf using hdf
    have hdf' : ∀ p ∈ b.coupons ++ b.principalPayments, s ≤ p.unadjusted → curve.call p.date = .ok (df p.date) :=
      fun p hp hsp => hdf p.date ⟨p, hp, hsp, rfl⟩
    rw [hval df hdf'] at hv
    rw [C34_present_value_exists b curve s df (by rw [ht]; exact hs) hdf']
    exact hv

theorem weightedSum_const_amount {s : PyDate} {df : PyDate → ℚ} (x : ℚ) (l : List BondPayment) :
    weightedSum (fun p => s ≤ p.unadjusted) (fun p => df p.date * p.amount) (l.map (withAmount x)) =
      x * weightedSum (fun p => s ≤ p.unadjusted) (fun p => df p.date) l := by
  unfold weightedSum
  rw [List.map_map, ← List.sum_map_mul_left]
  refine congrArg List.sum (List.map_congr_left fun p _ => ?_)
  show (if s ≤ p.unadjusted then df p.date * x else 0) = x * (if s ≤ p.unadjusted then df p.date else 0)
  by_cases hp : s ≤ p.unadjusted
  · rw [if_pos hp, if_pos hp, mul_comm]
  · rw [if_neg hp, if_neg hp, mul_zero]

/-- C119. On a given curve and for a given schedule there are an annuity `A` (the sum of the zero-coupon values of the coupon
dates still due) and a principal factor `D` (the zero-coupon value of the repayment date, if still due) such that every bond with
this schedule, of either class and whatever its price, coupon rate and principal, is worth
`principal * (couponRate / (100 * f) * A + D)`. -/
theorem C119_affine (t : BondTerms) (b : Bond) (k : Int) (hk : couponMonths t.frequency = some k) (h : Bond.create t = .ok b)
    (curve : DiscountFn) (v : ℚ) (hv : b.presentValue curve = .ok v) :
    ∃ A D : ℚ, (∃ (s : PyDate) (z : PyDate → ℚ), NextSettlement t.calendar curve.referenceDate s ∧
        (∀ p ∈ b.coupons ++ b.principalPayments, s ≤ p.unadjusted → ZeroCoupon.presentValue p.date curve = .ok (z p.date)) ∧
        A = weightedSum (fun p => s ≤ p.unadjusted) (fun p => z p.date) b.coupons ∧
        D = weightedSum (fun p => s ≤ p.unadjusted) (fun p => z p.date) b.principalPayments) ∧
      ∀ t' b', SameSchedule t t' → Bond.create t' = .ok b' →
        b'.presentValue curve = .ok (t'.principal * (t'.couponRate / (100 * t.frequency.value) * A + D)) := by
  obtain ⟨s, df, hs, hdf, -⟩ := C34_present_value t b h curve v hv
  obtain ⟨s0, hs0⟩ : ∃ s, addBusinessDays t.calendar curve.referenceDate 1 = .ok s := by
    cases ha : addBusinessDays t.calendar curve.referenceDate 1 with
    | ok s => exact ⟨s, rfl⟩
    | error e =>
      exfalso
      obtain ⟨a, -, hpp⟩ := principalCashflow_ok (create_ok h).2.2.2.1
      unfold Bond.presentValue at hv
      rw [bind_ok] at hv
      obtain ⟨c, -, hv⟩ := hv
      rw [bind_ok] at hv
      obtain ⟨q, hq, -⟩ := hv
      rw [hpp] at hq
      simp only [Bond.sumIf, Bond.isPaymentReceived, (create_ok h).1, ha, error_bind] at hq
      cases hq
  have := NextSettlement.unique hs (nextSettlement_of_add hs0)
  subst this
  have hpaid := payment_paidOn hk h
  refine ⟨weightedSum (fun p => s ≤ p.unadjusted) (fun p => df p.date) b.coupons,
    weightedSum (fun p => s ≤ p.unadjusted) (fun p => df p.date) b.principalPayments, ⟨s, df, hs, ?_, rfl, rfl⟩, ?_⟩
  · intro p hp hsp
    obtain ⟨r0, hr0, hlt, hbd, -⟩ := hs
    rw [zeroCoupon_call (le_trans hr0.1 (le_trans hlt.le (paidOn_ge hbd hsp (hpaid p hp)))), hdf p hp hsp]
  · intro t' b' hsame h'
    obtain ⟨e1, e2, -⟩ := bond_same hsame h h'
    have ht' := (create_ok h').1
    have hdf' : ∀ p ∈ b'.coupons ++ b'.principalPayments, s ≤ p.unadjusted → curve.call p.date = .ok (df p.date) := by
      intro p hp hsp
      rw [e1, e2] at hp
      rcases List.mem_append.1 hp with hp | hp
      · obtain ⟨q, hq, rfl⟩ := List.mem_map.1 hp
        exact hdf q (List.mem_append_left _ hq) hsp
      · obtain ⟨q, hq, rfl⟩ := List.mem_map.1 hp
        exact hdf q (List.mem_append_right _ hq) hsp
    rw [C34_present_value_exists b' curve s df (by rw [ht', hsame.calendar]; exact hs0) hdf', e1, e2]
    refine congrArg Except.ok ?_
    have happ : ∀ l l' : List BondPayment, weightedSum (fun p => s ≤ p.unadjusted) (fun p => df p.date * p.amount) (l ++ l') =
        weightedSum (fun p => s ≤ p.unadjusted) (fun p => df p.date * p.amount) l +
        weightedSum (fun p => s ≤ p.unadjusted) (fun p => df p.date * p.amount) l' := by
      intro l l'; simp [weightedSum]
    rw [happ, weightedSum_const_amount, weightedSum_const_amount]
    have hcp : t'.couponPayment = t'.principal * t'.couponRate / (100 * t.frequency.value) := by
      unfold BondTerms.couponPayment
      rw [hsame.frequency]
      cases hf : t.frequency <;> simp [hf, couponMonths] at hk ⊢
    rw [hcp]
    ring

/-- C119. Consequences for bonds of the same schedule on the same curve. Values are proportional to the principal when the coupon
rates agree; and a third coupon is priced from two others: holding `c2 - c3` of the first and `c3 - c1` of the second is worth
`c2 - c1` of the third. -/
theorem C119_replication (t1 t2 t3 : BondTerms) (b1 b2 b3 : Bond) (k : Int) (hk : couponMonths t1.frequency = some k)
    (h12 : SameSchedule t1 t2) (h13 : SameSchedule t1 t3) (h1 : Bond.create t1 = .ok b1) (h2 : Bond.create t2 = .ok b2)
    (h3 : Bond.create t3 = .ok b3) (curve : DiscountFn) (v1 : ℚ) (hv1 : b1.presentValue curve = .ok v1) :
    ∃ v2 v3 : ℚ, b2.presentValue curve = .ok v2 ∧ b3.presentValue curve = .ok v3 ∧
      (t2.couponRate = t1.couponRate → v2 * t1.principal = v1 * t2.principal) ∧
      (t2.principal = t1.principal → t3.principal = t1.principal →
        (t2.couponRate - t3.couponRate) * v1 + (t3.couponRate - t1.couponRate) * v2 = (t2.couponRate - t1.couponRate) * v3) := by
  obtain ⟨A, D, -, hall⟩ := C119_affine t1 b1 k hk h1 curve v1 hv1
  have e1 := hall t1 b1 ⟨rfl, rfl, rfl, rfl, rfl, rfl, rfl, rfl⟩ h1
  rw [hv1] at e1
  injection e1 with e1
  refine ⟨_, _, hall t2 b2 h12 h2, hall t3 b3 h13 h3, ?_, ?_⟩
  · intro hc; rw [e1, hc]; ring
  · intro hp2 hp3; rw [e1, hp2, hp3]; ring

/-- C119. The par coupon. If the bond is still to mature and the curve's discount factors for the payments due are positive, there
is exactly one coupon rate `c` at which bonds with this schedule are worth their principal: a bond with a positive principal is
worth its principal, more, or less, exactly as its coupon rate is `c`, more, or less. If moreover the discount factor of the
repayment is below one, `c` is positive. -/
theorem C119_par_coupon (t : BondTerms) (b : Bond) (k : Int) (hk : couponMonths t.frequency = some k) (h : Bond.create t = .ok b)
    (curve : DiscountFn) (s : PyDate) (hs : addBusinessDays t.calendar curve.referenceDate 1 = .ok s) (hm : s ≤ t.maturityDate)
    (hd : b.datedDate < t.maturityDate) (df : PyDate → ℚ)
    (hdf : ∀ p ∈ b.coupons ++ b.principalPayments, s ≤ p.unadjusted → curve.call p.date = .ok (df p.date) ∧ 0 < df p.date) :
    ∃ c : ℚ, (∀ t' b' , SameSchedule t t' → Bond.create t' = .ok b' → 0 < t'.principal →
        ∃ v, b'.presentValue curve = .ok v ∧ (v = t'.principal ↔ t'.couponRate = c) ∧ (t'.principal < v ↔ c < t'.couponRate)) ∧
      ((∀ p ∈ b.principalPayments, df p.date < 1) → 0 < c) := by
  have ht := (create_ok h).1
  have hv := C34_present_value_exists b curve s df (by rw [ht]; exact hs) (fun p hp hsp => (hdf p hp hsp).1)
  obtain ⟨A, D, ⟨s', z, hs', hz, hA, hD⟩, hall⟩ := C119_affine t b k hk h curve _ hv
  have := NextSettlement.unique (nextSettlement_of_add hs) hs'
  subst this
  have hzdf : ∀ p ∈ b.coupons ++ b.principalPayments, s ≤ p.unadjusted → z p.date = df p.date := by
    intro p hp hsp
    obtain ⟨r0, hr0, hlt, hbd, -⟩ := hs'
    have e := hz p hp hsp
    rw [zeroCoupon_call (le_trans hr0.1 (le_trans hlt.le (paidOn_ge hbd hsp (payment_paidOn hk h p hp)))), (hdf p hp hsp).1] at e
    injection e with e
    exact e.symm
  obtain ⟨-, hkpos, hk12⟩ := increment_months hk
  have hf : (0 : ℚ) < t.frequency.value := by
    rcases Nat.eq_zero_or_pos t.frequency.value with e | e
    · rw [e] at hk12; simp at hk12
    · exact_mod_cast e
  have hApos : 0 < A := by
    obtain ⟨⟨L, hperm, hhead, -⟩, -⟩ := C33_coupons t b k hk h
    have hmem : t.maturityDate ∈ L := List.mem_of_mem_head? (by rw [hhead hd]; rfl)
    obtain ⟨p, hp, hpu⟩ := List.mem_map.1 (hperm.mem_iff.2 hmem)
    have hsp : s ≤ p.unadjusted := by rw [hpu]; exact hm
    rw [hA, weightedSum_eq_filter]
    have hmp : p ∈ b.coupons.filter (fun p => s ≤ p.unadjusted) := List.mem_filter.2 ⟨hp, by simpa using hsp⟩
    refine lt_of_lt_of_le (hdf p (List.mem_append_left _ hp) hsp).2 ?_
    rw [← hzdf p (List.mem_append_left _ hp) hsp]
    refine List.single_le_sum ?_ _ (List.mem_map.2 ⟨p, hmp, rfl⟩)
    intro x hx
    obtain ⟨q, hq, rfl⟩ := List.mem_map.1 hx
    obtain ⟨hq1, hq2⟩ := List.mem_filter.1 hq
    have hq2 : s ≤ q.unadjusted := by simpa using hq2
    rw [hzdf q (List.mem_append_left _ hq1) hq2]
    exact (hdf q (List.mem_append_left _ hq1) hq2).2.le
  have hF : (0 : ℚ) < 100 * t.frequency.value := by positivity
  refine ⟨(1 - D) * (100 * t.frequency.value) / A, ?_, ?_⟩
  · intro t' b' hsame h' hpr
    refine ⟨_, hall t' b' hsame h', ?_, ?_⟩
    · constructor
      · intro e
        have e' : t'.couponRate / (100 * t.frequency.value) * A + D = 1 := by
          have := mul_left_cancel₀ hpr.ne' (e.trans (mul_one _).symm)
          exact this
        rw [eq_div_iff hApos.ne', ← e']
        field_simp
        ring
      · intro e
        rw [e]
        field_simp
        ring
    · rw [div_lt_iff₀ hApos]
      constructor
      · intro e
        have e' : 1 < t'.couponRate / (100 * t.frequency.value) * A + D := by
          by_contra hcon
          have := mul_le_mul_of_nonneg_left (not_lt.1 hcon) hpr.le
          linarith
        have e'' : 1 - D < t'.couponRate * A / (100 * t.frequency.value) := by
          have : t'.couponRate / (100 * t.frequency.value) * A = t'.couponRate * A / (100 * t.frequency.value) := by ring
          linarith
        rwa [lt_div_iff₀ hF] at e''
      · intro e
        have e'' : 1 - D < t'.couponRate * A / (100 * t.frequency.value) := by rwa [lt_div_iff₀ hF]
        have : t'.couponRate / (100 * t.frequency.value) * A = t'.couponRate * A / (100 * t.frequency.value) := by ring
        have e' : 1 < t'.couponRate / (100 * t.frequency.value) * A + D := by linarith
        have := mul_lt_mul_of_pos_left e' hpr
        linarith
  · intro hlt
    have hD1 : D < 1 := by
      obtain ⟨a, -, hpp⟩ := principalCashflow_ok (create_ok h).2.2.2.1
      have hmem : (⟨t.maturityDate, a, t.principal⟩ : BondPayment) ∈ b.principalPayments := by rw [hpp]; simp
      have e := hzdf _ (List.mem_append_right _ hmem) hm
      have e2 := hlt _ hmem
      rw [hD, hpp]
      unfold weightedSum
      simp only [List.map_cons, List.map_nil, List.sum_cons, List.sum_nil, add_zero]
      rw [if_pos hm]
      simp only at e e2
      rw [e]; exact e2
    refine div_pos (mul_pos (by linarith) hF) hApos

/-- C119. Higher discount factors mean a higher value: for two curves with the same reference date, on which every payment due
has a discount factor at least as large on the second, a bond without negative payments is worth at least as much on the second;
and if every factor lies between `lo` and `hi` the value lies between `lo` and `hi` times the total amount due. -/
theorem C119_curve_monotone (t : BondTerms) (b : Bond) (k : Int) (hk : couponMonths t.frequency = some k)
    (h : Bond.create t = .ok b) (hrate : 0 ≤ t.couponRate) (hpr : 0 < t.principal) (c1 c2 : DiscountFn) (s : PyDate)
    (href : c2.referenceDate = c1.referenceDate) (hs : addBusinessDays t.calendar c1.referenceDate 1 = .ok s)
    (d1 d2 : PyDate → ℚ)
    (h1 : ∀ p ∈ b.coupons ++ b.principalPayments, s ≤ p.unadjusted → c1.call p.date = .ok (d1 p.date))
    (h2 : ∀ p ∈ b.coupons ++ b.principalPayments, s ≤ p.unadjusted → c2.call p.date = .ok (d2 p.date))
    (hle : ∀ p ∈ b.coupons ++ b.principalPayments, s ≤ p.unadjusted → d1 p.date ≤ d2 p.date) :
    ∃ v1 v2 : ℚ, b.presentValue c1 = .ok v1 ∧ b.presentValue c2 = .ok v2 ∧ v1 ≤ v2 ∧
      ((∃ p ∈ b.principalPayments, s ≤ p.unadjusted ∧ d1 p.date < d2 p.date) → v1 < v2) ∧
      ∀ lo hi : ℚ, (∀ p ∈ b.coupons ++ b.principalPayments, s ≤ p.unadjusted → lo ≤ d1 p.date ∧ d1 p.date ≤ hi) →
        lo * weightedSum (fun p => s ≤ p.unadjusted) (fun p => p.amount) (b.coupons ++ b.principalPayments) ≤ v1 ∧
        v1 ≤ hi * weightedSum (fun p => s ≤ p.unadjusted) (fun p => p.amount) (b.coupons ++ b.principalPayments) := by
  have ht := (create_ok h).1
  have hfacts := payment_facts hk h hrate hpr
  refine ⟨_, _, C34_present_value_exists b c1 s d1 (by rw [ht]; exact hs) h1,
    C34_present_value_exists b c2 s d2 (by rw [ht, href]; exact hs) h2, ?_, ?_, ?_⟩
  · unfold weightedSum
    refine List.sum_le_sum fun p hp => ?_
    split_ifs with hsp
    · exact mul_le_mul_of_nonneg_right (hle p hp hsp) (hfacts p hp).1
    · exact le_refl _
  · rintro ⟨p, hp, hsp, hlt⟩
    unfold weightedSum
    refine List.sum_lt_sum _ _ (fun q hq => ?_) ⟨p, List.mem_append_right _ hp, ?_⟩
    · split_ifs with hsq
      · exact mul_le_mul_of_nonneg_right (hle q hq hsq) (hfacts q hq).1
      · exact le_refl _
    · rw [if_pos hsp, if_pos hsp]
      obtain ⟨a, -, hpp⟩ := principalCashflow_ok (create_ok h).2.2.2.1
      rw [hpp, List.mem_singleton] at hp
      refine mul_lt_mul_of_pos_right hlt ?_
      rw [hp]; exact hpr
  · intro lo hi hb
    unfold weightedSum
    rw [← List.sum_map_mul_left, ← List.sum_map_mul_left]
    constructor
    · refine List.sum_le_sum fun p hp => ?_
      split_ifs with hsp
      · exact mul_le_mul_of_nonneg_right (hb p hp hsp).1 (hfacts p hp).1
      · simp
    · refine List.sum_le_sum fun p hp => ?_
      split_ifs with hsp
      · exact mul_le_mul_of_nonneg_right (hb p hp hsp).2 (hfacts p hp).1
      · simp

/-- Concrete case for C119: the example note and its corporate sibling of ten times the principal, on a flat curve of 1/2 seen
from 14 August 2024, are worth 52 and 520: less than their principals, so the par coupon is above 4%. -/
example : ∃ b b', Bond.create exTerms = .ok b ∧ Bond.create exTerms' = .ok b' ∧ SameSchedule exTerms exTerms' ∧
    couponMonths exTerms.frequency = some 6 ∧ b.datedDate < exTerms.maturityDate ∧
    (∃ df : PyDate → ℚ, ∀ p ∈ b.coupons ++ b.principalPayments, D 2024 8 15 ≤ p.unadjusted →
      (⟨D 2024 8 14, fun d => if D 2024 8 15 ≤ d then .ok (1 / 2) else .error .valueError⟩ : DiscountFn).call p.date =
        .ok (df p.date) ∧ 0 < df p.date) ∧
    b.presentValue ⟨D 2024 8 14, fun d => if D 2024 8 15 ≤ d then .ok (1 / 2) else .error .valueError⟩ = .ok 52 ∧
    b'.presentValue ⟨D 2024 8 14, fun d => if D 2024 8 15 ≤ d then .ok (1 / 2) else .error .valueError⟩ = .ok 520 := by
  obtain ⟨b, h, hd, -, h3, h4, -⟩ := exTerms_create
  obtain ⟨b', h', -⟩ := exTerms'_create
  have hsame : SameSchedule exTerms exTerms' := ⟨rfl, rfl, rfl, rfl, rfl, rfl, rfl, rfl⟩
  have ht := (create_ok h).1
  have hcall : ∀ p ∈ b.coupons ++ b.principalPayments, D 2024 8 15 ≤ p.unadjusted →
      (⟨D 2024 8 14, fun d => if D 2024 8 15 ≤ d then .ok (1 / 2) else .error .valueError⟩ : DiscountFn).call p.date =
        .ok ((fun _ => (1 / 2 : ℚ)) p.date) := by
    rw [h3, h4]; intro p hp hsp
    simp only [List.cons_append, List.nil_append, List.mem_cons, List.not_mem_nil, or_false] at hp
    rcases hp with rfl | rfl | rfl | rfl | rfl <;> revert hsp <;> decide +kernel
  have hv : b.presentValue ⟨D 2024 8 14, fun d => if D 2024 8 15 ≤ d then .ok (1 / 2) else .error .valueError⟩ = .ok 52 := by
    rw [C34_present_value_exists b _ (D 2024 8 15) (fun _ => 1 / 2) (by rw [ht]; decide +kernel) hcall, h3, h4]
    decide +kernel
  obtain ⟨v2, -, hv2, -, hprop, -⟩ := C119_replication exTerms exTerms' exTerms' b b' b' 6 rfl hsame hsame h h' h' _ 52 hv
  refine ⟨b, b', h, h', hsame, rfl, by rw [hd]; decide +kernel, ⟨fun _ => 1 / 2, fun p hp hsp => ⟨hcall p hp hsp, by norm_num⟩⟩, hv, ?_⟩
  rw [hv2]
  have e := hprop rfl
  have e1 : exTerms.principal = 100 := rfl
  have e2 : exTerms'.principal = 1000 := rfl
  rw [e1, e2] at e
  refine congrArg Except.ok ?_
  linarith

end Verif.Props
