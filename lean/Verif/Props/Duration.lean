/- Property C82: duration and Macaulay duration. -/
import Verif.Props.Bond
import Mathlib.Analysis.SpecialFunctions.Pow.Deriv
import Mathlib.Analysis.Calculus.Deriv.MeanValue

namespace Verif.Props
open Verif Verif.Spec Verif.DayCount Verif.Scheduler

/-- The sum of `exponent * amount / x ^ (exponent + 1)`. -/
noncomputable def discountedSlope (l : List (ℝ × ℝ)) (x : ℝ) : ℝ := (l.map (fun ae => ae.2 * ae.1 / x ^ (ae.2 + 1))).sum

theorem discountedSum_hasDerivAt (l : List (ℝ × ℝ)) {x : ℝ} (hx : 0 < x) :
    HasDerivAt (discountedSum l) (-discountedSlope l x) x := by
  induction l with
  | nil =>
    have : discountedSum [] = fun _ => (0 : ℝ) := by funext y; simp [discountedSum]
    rw [this]
    simpa [discountedSlope] using hasDerivAt_const x (0 : ℝ)
  | cons a l ih =>
    have hterm : HasDerivAt (fun y : ℝ => 1 / y ^ a.2 * a.1) (-(a.2 * a.1 / x ^ (a.2 + 1))) x := by
      have h1 : HasDerivAt (fun y : ℝ => y ^ (-a.2)) (-a.2 * x ^ (-a.2 - 1)) x :=
        Real.hasDerivAt_rpow_const (Or.inl hx.ne')
      have h2 := h1.mul_const a.1
      have e1 : (fun y : ℝ => 1 / y ^ a.2 * a.1) =ᶠ[nhds x] fun y => y ^ (-a.2) * a.1 := by
        filter_upwards [lt_mem_nhds hx] with y hy
        rw [Real.rpow_neg hy.le, one_div]
      have e2 : -(a.2 * a.1 / x ^ (a.2 + 1)) = -a.2 * x ^ (-a.2 - 1) * a.1 := by
        have : -a.2 - 1 = -(a.2 + 1) := by ring
        rw [this, Real.rpow_neg hx.le]
        ring
      rw [e2]
      exact h2.congr_of_eventuallyEq e1
    have hsum := hterm.add ih
    have e3 : discountedSum (a :: l) = fun y => 1 / y ^ a.2 * a.1 + discountedSum l y := by
      funext y; exact discountedSum_cons a l y
    have e4 : -discountedSlope (a :: l) x = -(a.2 * a.1 / x ^ (a.2 + 1)) + -discountedSlope l x := by
      simp [discountedSlope]; ring
    rw [e3, e4]
    exact hsum

theorem discountedSlope_eq (l : List (ℝ × ℝ)) (x : ℝ) :
    discountedSlope l x = discountedSum (l.map fun ae => (ae.2 * ae.1, ae.2 + 1)) x := by
  unfold discountedSlope discountedSum
  rw [List.map_map]
  refine congrArg List.sum (List.map_congr_left fun a _ => ?_)
  simp only [Function.comp]
  ring

theorem weightedSum_slope (s ref : PyDate) (τ : PyDate → ℚ) {f : Nat} (hf : (0 : ℝ) < f) (l : List BondPayment) (x : ℝ) :
    weightedSum (fun p => s ≤ p.unadjusted) (fun p => ((τ p.date - τ ref : ℚ) : ℝ) * (p.amount : ℝ) /
        x ^ (((τ p.date - τ ref : ℚ) : ℝ) * f + 1)) l =
      discountedSlope (receivedPairs s ref τ f l) x / f := by
  induction l with
  | nil => simp [weightedSum, receivedPairs, discountedSlope]
  | cons p ps ih =>
    by_cases hp : s ≤ p.unadjusted
    · have : receivedPairs s ref τ f (p :: ps) = ((p.amount : ℝ), ((τ p.date - τ ref : ℚ) : ℝ) * f) :: receivedPairs s ref τ f ps := by
        simp [receivedPairs, hp]
      have e : discountedSlope (receivedPairs s ref τ f (p :: ps)) x / f =
          ((τ p.date - τ ref : ℚ) : ℝ) * (p.amount : ℝ) / x ^ (((τ p.date - τ ref : ℚ) : ℝ) * f + 1) +
            discountedSlope (receivedPairs s ref τ f ps) x / f := by
        rw [this]
        simp only [discountedSlope, List.map_cons, List.sum_cons]
        field_simp
      rw [e, ← ih]
      simp [weightedSum, hp]
    · have : receivedPairs s ref τ f (p :: ps) = receivedPairs s ref τ f ps := by simp [receivedPairs, hp]
      rw [this, ← ih]
      simp [weightedSum, hp]

/-- The price sensitivity of a bond at rate `r`: the sum over the payments due on or after `s` of
`time * amount / (1 + r/f) ^ (f * time + 1)`, with time counted from `ref`. -/
noncomputable def sensitivity (s ref : PyDate) (τ : PyDate → ℚ) (f : Nat) (l : List BondPayment) (r : ℝ) : ℝ :=
  weightedSum (fun p => s ≤ p.unadjusted) (fun p => ((τ p.date - τ ref : ℚ) : ℝ) * (p.amount : ℝ) /
    (1 + r / f) ^ (((τ p.date - τ ref : ℚ) : ℝ) * f + 1)) l

/-- C82. Minus the sensitivity is the derivative of the fixed-rate value with respect to the rate, at every rate above `-f`; it
is strictly decreasing in the rate; and `pv_deriv` is minus the sensitivity at some rate within half a basis point of the yield,
so it lies between the exact derivatives at the two ends. -/
theorem C82_derivative (t : BondTerms) (b : Bond) (k : Int) (hk : couponMonths t.frequency = some k)
    (h : Bond.create t = .ok b) (τ : PyDate → ℚ) (s : PyDate)
    (hτ : MeasuresFrom t.dcc t.purchaseDate s τ) (hs : addBusinessDays t.calendar t.purchaseDate 1 = .ok s) (hm : s ≤ t.maturityDate)
    (hrate : 0 ≤ t.couponRate) (hpr : 0 < t.principal) :
    ∃ v : ℝ → ℝ,
      (∀ r, -(t.frequency.value : ℝ) < r → b.discountByFixedRate r none = .ok (v r) ∧
        HasDerivAt v (-(sensitivity s t.purchaseDate τ t.frequency.value (b.coupons ++ b.principalPayments) r)) r) ∧
      StrictAntiOn (sensitivity s t.purchaseDate τ t.frequency.value (b.coupons ++ b.principalPayments))
        (Set.Ioi (-(t.frequency.value : ℝ))) ∧
      (∀ r, -(t.frequency.value : ℝ) < r → 0 < sensitivity s t.purchaseDate τ t.frequency.value (b.coupons ++ b.principalPayments) r) ∧
      ∀ ytm, -(t.frequency.value : ℝ) + 1 / 20000 < ytm → ∃ ξ : ℝ, |ξ - ytm| < 1 / 20000 ∧
        b.pvDeriv 0 ytm = .ok (-(sensitivity s t.purchaseDate τ t.frequency.value (b.coupons ++ b.principalPayments) ξ)) := by
  obtain ⟨-, hkpos, hk12⟩ := increment_months hk
  have hfpos : 0 < t.frequency.value := by
    rcases Nat.eq_zero_or_pos t.frequency.value with e | e
    · rw [e] at hk12; simp at hk12
    · exact e
  have hfR : (0 : ℝ) < t.frequency.value := by exact_mod_cast hfpos
  have hbase : ∀ r : ℝ, -(t.frequency.value : ℝ) < r → 0 < 1 + r / t.frequency.value := by
    intro r hr
    have : -1 < r / t.frequency.value := by rw [lt_div_iff₀ hfR]; linarith
    linarith
  have ht := (create_ok h).1
  have hnone : ∀ r, b.discountByFixedRate r none = b.discountByFixedRate r (some t.purchaseDate) := by
    intro r; unfold Bond.discountByFixedRate; simp only [Option.getD_none, Option.getD_some, ht]
  obtain ⟨hall, hex⟩ := receivedPairs_facts hk h hτ hs hrate hpr hm
  set L := receivedPairs s t.purchaseDate τ t.frequency.value (b.coupons ++ b.principalPayments) with hL
  have hsens : ∀ r, sensitivity s t.purchaseDate τ t.frequency.value (b.coupons ++ b.principalPayments) r =
      discountedSlope L (1 + r / t.frequency.value) / t.frequency.value := fun r => weightedSum_slope _ _ _ hfR _ _
  have hval : ∀ r, -(t.frequency.value : ℝ) < r → b.discountByFixedRate r none = .ok (discountedSum L (1 + r / t.frequency.value)) :=
    fun r hr => by rw [hnone]; exact discountByFixedRate_eq hk h hτ hs hrate hpr hr
  have hder : ∀ r, -(t.frequency.value : ℝ) < r → HasDerivAt (fun r : ℝ => discountedSum L (1 + r / t.frequency.value))
      (-(sensitivity s t.purchaseDate τ t.frequency.value (b.coupons ++ b.principalPayments) r)) r := by
    intro r hr
    have h1 : HasDerivAt (fun r : ℝ => 1 + r / (t.frequency.value : ℝ)) (1 / (t.frequency.value : ℝ)) r :=
      ((hasDerivAt_id r).div_const _).const_add 1
    have h2 := (discountedSum_hasDerivAt L (hbase r hr)).comp r h1
    have e : -(sensitivity s t.purchaseDate τ t.frequency.value (b.coupons ++ b.principalPayments) r) =
        -discountedSlope L (1 + r / t.frequency.value) * (1 / (t.frequency.value : ℝ)) := by rw [hsens r]; ring
    rw [e]
    exact h2
  have hslope_pairs : (∀ a ∈ L.map fun ae => (ae.2 * ae.1, ae.2 + 1), 0 ≤ a.1 ∧ 0 ≤ a.2) ∧
      ∃ a ∈ L.map fun ae => (ae.2 * ae.1, ae.2 + 1), 0 < a.1 ∧ 0 < a.2 := by
    constructor
    · intro a ha
      obtain ⟨c, hc, rfl⟩ := List.mem_map.1 ha
      obtain ⟨c1, c2⟩ := hall c hc
      exact ⟨mul_nonneg c2.le c1, by positivity⟩
    · obtain ⟨c, hc, hc1⟩ := hex
      obtain ⟨-, c2⟩ := hall c hc
      exact ⟨_, List.mem_map.2 ⟨c, hc, rfl⟩, mul_pos c2 hc1, by positivity⟩
  refine ⟨fun r => discountedSum L (1 + r / t.frequency.value), fun r hr => ⟨hval r hr, hder r hr⟩, ?_, ?_, ?_⟩
  · intro x hx y hy hxy
    rw [hsens, hsens, discountedSlope_eq, discountedSlope_eq]
    refine div_lt_div_of_pos_right ?_ hfR
    refine discountedSum_strictAnti hslope_pairs.1 hslope_pairs.2 (hbase x hx) ?_
    have := div_lt_div_of_pos_right hxy hfR
    linarith
  · intro r hr
    rw [hsens, discountedSlope_eq]
    refine div_pos ?_ hfR
    obtain ⟨a, ha, ha1, -⟩ := hslope_pairs.2
    unfold discountedSum
    refine lt_of_lt_of_le (b := 1 / (1 + r / (t.frequency.value : ℝ)) ^ a.2 * a.1) ?_ ?_
    · have := Real.rpow_pos_of_pos (hbase r hr) a.2
      positivity
    · refine List.single_le_sum ?_ _ (List.mem_map.2 ⟨a, ha, rfl⟩)
      intro y hy
      obtain ⟨c, hc, rfl⟩ := List.mem_map.1 hy
      have := Real.rpow_pos_of_pos (hbase r hr) c.2
      have := (hslope_pairs.1 c hc).1
      positivity
  · intro ytm hy
    have hbp : (oneBasisPoint : ℝ) = 1 / 10000 := by norm_num [oneBasisPoint]
    have hlt : ytm + 0 - (oneBasisPoint : ℝ) / 2 < ytm + 0 + (oneBasisPoint : ℝ) / 2 := by rw [hbp]; linarith
    have hdown : -(t.frequency.value : ℝ) < ytm + 0 - (oneBasisPoint : ℝ) / 2 := by rw [hbp]; linarith
    obtain ⟨ξ, hξ, he⟩ := exists_hasDerivAt_eq_slope (fun r : ℝ => discountedSum L (1 + r / t.frequency.value))
      (fun r => -(sensitivity s t.purchaseDate τ t.frequency.value (b.coupons ++ b.principalPayments) r)) hlt
      (fun r hr => (hder r (lt_of_lt_of_le hdown hr.1)).continuousAt.continuousWithinAt)
      (fun r hr => hder r (lt_trans hdown hr.1))
    refine ⟨ξ, ?_, ?_⟩
    · rw [abs_lt]; rw [hbp] at hξ; constructor <;> linarith [hξ.1, hξ.2]
    · unfold Bond.pvDeriv
      rw [hval _ (lt_trans hdown hlt), ok_bind, hval _ hdown, ok_bind]
      refine congrArg Except.ok ?_
      rw [he]
      congr 1
      ring

/-- C82 (what holds, and how far). If `ytm` is the yield of the bond, then with `D` = sensitivity / value, the relative price
sensitivity at a rate within half a basis point of the yield, `duration()` is `D * principal / 100`: the relative sensitivity if
the principal is 100, and only then.  (The price is quoted per 100 of principal, the sensitivity is not.)  Missing: the relative
sensitivity for other principals. -/
theorem C82_duration_partial (t : BondTerms) (b : Bond) (k : Int) (hk : couponMonths t.frequency = some k)
    (h : Bond.create t = .ok b) (τ : PyDate → ℚ) (s : PyDate)
    (hτ : MeasuresFrom t.dcc t.purchaseDate s τ) (hs : addBusinessDays t.calendar t.purchaseDate 1 = .ok s) (hm : s ≤ t.maturityDate)
    (hrate : 0 ≤ t.couponRate) (hpr : 0 < t.principal) (hprice : 0 < b.fullPrice) (ytm : ℝ)
    (hy : -(t.frequency.value : ℝ) + 1 / 20000 < ytm) (hytm : b.diffFromFullPrice none ytm = .ok 0) :
    ∃ ξ v x : ℝ, |ξ - ytm| < 1 / 20000 ∧ b.discountByFixedRate ytm none = .ok v ∧ 0 < v ∧ b.duration ytm = .ok x ∧
      x = sensitivity s t.purchaseDate τ t.frequency.value (b.coupons ++ b.principalPayments) ξ / v * (t.principal / 100) ∧
      (x = sensitivity s t.purchaseDate τ t.frequency.value (b.coupons ++ b.principalPayments) ξ / v ↔ t.principal = 100) := by
  obtain ⟨v, hv, -, hpos, hd⟩ := C82_derivative t b k hk h τ s hτ hs hm hrate hpr
  obtain ⟨ξ, hξ, hpv⟩ := hd ytm hy
  have ht := (create_ok h).1
  have hyf : -(t.frequency.value : ℝ) < ytm := by linarith
  have hξf : -(t.frequency.value : ℝ) < ξ := by rw [abs_lt] at hξ; linarith [hξ.1]
  have hfp : (0 : ℝ) < b.fullPrice := by exact_mod_cast hprice
  have hprR : (0 : ℝ) < t.principal := by exact_mod_cast hpr
  have hnone : b.discountByFixedRate ytm none = b.discountByFixedRate ytm (some t.purchaseDate) := by
    unfold Bond.discountByFixedRate; simp only [Option.getD_none, Option.getD_some, ht]
  have hvy : v ytm = (b.fullPrice : ℝ) * t.principal / 100 := by
    unfold Bond.diffFromFullPrice at hytm
    simp only [Option.getD_none] at hytm
    rw [ht, ← hnone, (hv ytm hyf).1, ok_bind] at hytm
    injection hytm with hytm
    push_cast at hytm
    linarith
  have hS := hpos ξ hξf
  set S := sensitivity s t.purchaseDate τ t.frequency.value (b.coupons ++ b.principalPayments) ξ with hSdef
  have hvpos : 0 < v ytm := by rw [hvy]; positivity
  have hx : -(-S) / (b.fullPrice : ℝ) = S / v ytm * (t.principal / 100) := by
    rw [hvy]; field_simp
  refine ⟨ξ, v ytm, -(-S) / (b.fullPrice : ℝ), hξ, (hv ytm hyf).1, hvpos, ?_, hx, ?_⟩
  · unfold Bond.duration; rw [hpv, ok_bind, if_neg hfp.ne']
  · rw [hx]
    have hD : 0 < S / v ytm := div_pos hS hvpos
    constructor
    · intro he
      have : (t.principal : ℝ) / 100 = 1 := by
        have := mul_left_cancel₀ hD.ne' (he.trans (mul_one _).symm)
        exact this
      have : (t.principal : ℝ) = 100 := by linarith
      exact_mod_cast this
    · intro he
      rw [he]; norm_num [hSdef]

/-- C82 (failure). For a principal of 1000 (say) the duration comes out ten times too large; in general it is
`principal / 100` times the relative sensitivity, so two bonds differing only in size have different durations. -/
theorem C82_principal_false (t : BondTerms) (b : Bond) (k : Int) (hk : couponMonths t.frequency = some k)
    (h : Bond.create t = .ok b) (τ : PyDate → ℚ) (s : PyDate)
    (hτ : MeasuresFrom t.dcc t.purchaseDate s τ) (hs : addBusinessDays t.calendar t.purchaseDate 1 = .ok s) (hm : s ≤ t.maturityDate)
    (hrate : 0 ≤ t.couponRate) (hpr : t.principal = 1000) (hprice : 0 < b.fullPrice) (ytm : ℝ)
    (hy : -(t.frequency.value : ℝ) + 1 / 20000 < ytm) (hytm : b.diffFromFullPrice none ytm = .ok 0) :
    ∃ ξ v : ℝ, |ξ - ytm| < 1 / 20000 ∧ b.discountByFixedRate ytm none = .ok v ∧
      b.duration ytm =
        .ok (10 * (sensitivity s t.purchaseDate τ t.frequency.value (b.coupons ++ b.principalPayments) ξ / v)) := by
  obtain ⟨ξ, v, x, h1, h2, -, h3, h4, -⟩ := C82_duration_partial t b k hk h τ s hτ hs hm hrate (by rw [hpr]; norm_num) hprice ytm hy hytm
  refine ⟨ξ, v, h1, h2, ?_⟩
  rw [h3, h4, hpr]
  refine congrArg Except.ok ?_
  push_cast
  ring

/-- C82. `convexity()` raises AttributeError for every bond and yield. -/
theorem C82_convexity_raises (b : Bond) (ytm : ℝ) : b.convexity ytm = .error .attributeError := rfl

/-! ### Macaulay duration -/

theorem macaulay_eq {t : BondTerms} {b : Bond} {k : Int} (hk : couponMonths t.frequency = some k)
    (h : Bond.create t = .ok b) {τ : PyDate → ℚ} {s : PyDate}
    (hτ : MeasuresFrom t.dcc t.purchaseDate s τ) (hs : addBusinessDays t.calendar t.purchaseDate 1 = .ok s)
    (hset : b.settlementDate = s) (hrate : 0 ≤ t.couponRate)
    (hpr : 0 < t.principal) (hprice : 0 < b.fullPrice) {r : ℝ} (hr : -(t.frequency.value : ℝ) < r) :
    b.macaulayDuration r none = .ok (weightedSum (fun p => s ≤ p.unadjusted)
      (fun p => 1 / (1 + r / t.frequency.value) ^ (((τ p.date - τ t.purchaseDate : ℚ) : ℝ) * t.frequency.value) * (p.amount : ℝ) *
        ((τ p.date - τ t.purchaseDate : ℚ) : ℝ)) (b.coupons ++ b.principalPayments) /
      ((b.fullPrice : ℝ) * t.principal / 100)) := by
  obtain ⟨ht, -⟩ := create_ok h
  have hfacts := payment_facts hk h hrate hpr
  obtain ⟨r0, hr0, hlt, hbd, -⟩ := nextSettlement_of_add hs
  have hrs : t.purchaseDate < s := lt_of_le_of_lt hr0.1 hlt
  obtain ⟨-, hkpos, hk12⟩ := increment_months hk
  have hfpos : 0 < t.frequency.value := by
    rcases Nat.eq_zero_or_pos t.frequency.value with e | e
    · rw [e] at hk12; simp at hk12
    · exact e
  have hfR : (0 : ℝ) < t.frequency.value := by exact_mod_cast hfpos
  have hbase : 0 < 1 + r / t.frequency.value := by
    have : -1 < r / t.frequency.value := by rw [lt_div_iff₀ hfR]; linarith
    linarith
  have hkeep : ∀ p, b.isPaymentReceived p none = .ok (decide (s ≤ p.unadjusted)) := by
    intro p; unfold Bond.isPaymentReceived; rw [hset]; rfl
  have hval : ∀ p ∈ b.coupons ++ b.principalPayments, s ≤ p.unadjusted → (do
      let a ← DayCount.accrual t.purchaseDate p.date b.terms.dcc
      let df ← Bond.fixedRateFactor b.terms.frequency.value r a
      .ok (df * (p.amount : ℝ) * (a : ℝ)) : Except PyErr ℝ) =
      .ok (1 / (1 + r / t.frequency.value) ^ (((τ p.date - τ t.purchaseDate : ℚ) : ℝ) * t.frequency.value) * (p.amount : ℝ) *
        ((τ p.date - τ t.purchaseDate : ℚ) : ℝ)) := by
    intro p hp hsp
    have hd := paidOn_ge hbd hsp (hfacts p hp).2
    rw [ht, (hτ p.date hd).1, ok_bind]
    unfold Bond.fixedRateFactor
    rw [if_neg (by omega)]
    simp only
    rw [if_neg (ne_of_gt (Real.rpow_pos_of_pos hbase _)), ok_bind]
  have hscaled : ((b.fullPrice * t.principal / 100 : ℚ) : ℝ) ≠ 0 := by
    have : 0 < b.fullPrice * t.principal / 100 := by positivity
    exact_mod_cast this.ne'
  unfold Bond.macaulayDuration
  simp only [Option.getD_none]
  rw [ht] at hval ⊢
  rw [sumIf_ok (fun p => s ≤ p.unadjusted) _ (fun p _ => hkeep p) (fun p hp hsp => hval p (List.mem_append_left _ hp) hsp),
    ok_bind,
    sumIf_ok (fun p => s ≤ p.unadjusted) _ (fun p _ => hkeep p) (fun p hp hsp => hval p (List.mem_append_right _ hp) hsp),
    ok_bind, if_neg hscaled]
  refine congrArg Except.ok ?_
  simp only [weightedSum, List.map_append, List.sum_append]
  push_cast
  rfl

theorem weightedSum_average {l : List BondPayment} {P : BondPayment → Prop} [DecidablePred P] {w time : BondPayment → ℝ} {lo hi : ℝ}
    (hw : ∀ p ∈ l, P p → 0 ≤ w p) (hb : ∀ p ∈ l, P p → lo ≤ time p ∧ time p ≤ hi) :
    lo * weightedSum P w l ≤ weightedSum P (fun p => w p * time p) l ∧
    weightedSum P (fun p => w p * time p) l ≤ hi * weightedSum P w l := by
  induction l with
  | nil => simp [weightedSum]
  | cons p ps ih =>
    obtain ⟨i1, i2⟩ := ih (fun q hq => hw q (by simp [hq])) (fun q hq => hb q (by simp [hq]))
    unfold weightedSum at i1 i2 ⊢
    simp only [List.map_cons, List.sum_cons]
    by_cases hp : P p
    · have h0 := hw p (by simp) hp
      obtain ⟨b1, b2⟩ := hb p (by simp) hp
      rw [if_pos hp, if_pos hp]
      constructor <;> nlinarith
    · rw [if_neg hp, if_neg hp]
      constructor <;> linarith

theorem weightedSum_div_base {x : ℝ} (hx : 0 < x) (s ref : PyDate) (τ : PyDate → ℚ) (f : Nat) (l : List BondPayment) :
    weightedSum (fun p => s ≤ p.unadjusted) (fun p => 1 / x ^ (((τ p.date - τ ref : ℚ) : ℝ) * f) * (p.amount : ℝ) *
        ((τ p.date - τ ref : ℚ) : ℝ)) l / x =
      weightedSum (fun p => s ≤ p.unadjusted) (fun p => ((τ p.date - τ ref : ℚ) : ℝ) * (p.amount : ℝ) /
        x ^ (((τ p.date - τ ref : ℚ) : ℝ) * f + 1)) l := by
  induction l with
  | nil => simp [weightedSum]
  | cons p ps ih =>
    unfold weightedSum at ih ⊢
    simp only [List.map_cons, List.sum_cons]
    rw [add_div, ih]
    congr 1
    by_cases hp : s ≤ p.unadjusted
    · rw [if_pos hp, if_pos hp, Real.rpow_add hx, Real.rpow_one]
      have := Real.rpow_pos_of_pos hx (((τ p.date - τ ref : ℚ) : ℝ) * f)
      field_simp
    · rw [if_neg hp, if_neg hp, zero_div]

/-- C82. The Macaulay duration at the bond's yield, when the bond settles on the business day after purchase: the average of the
times to the payments due, weighted by their discounted amounts, so between the smallest and the largest of these times; and
divided by `1 + ytm/f` it is the relative price sensitivity at the yield. -/
theorem C82_macaulay (t : BondTerms) (b : Bond) (k : Int) (hk : couponMonths t.frequency = some k)
    (h : Bond.create t = .ok b) (τ : PyDate → ℚ) (s : PyDate)
    (hτ : MeasuresFrom t.dcc t.purchaseDate s τ) (hs : addBusinessDays t.calendar t.purchaseDate 1 = .ok s) (hm : s ≤ t.maturityDate)
    (hset : b.settlementDate = s) (hrate : 0 ≤ t.couponRate) (hpr : 0 < t.principal) (hprice : 0 < b.fullPrice) (ytm : ℝ)
    (hy : -(t.frequency.value : ℝ) < ytm) (hytm : b.diffFromFullPrice none ytm = .ok 0) :
    ∃ v m : ℝ, b.discountByFixedRate ytm none = .ok v ∧ 0 < v ∧ b.macaulayDuration ytm none = .ok m ∧
      m * v = weightedSum (fun p => s ≤ p.unadjusted)
        (fun p => 1 / (1 + ytm / t.frequency.value) ^ (((τ p.date - τ t.purchaseDate : ℚ) : ℝ) * t.frequency.value) * (p.amount : ℝ) *
          ((τ p.date - τ t.purchaseDate : ℚ) : ℝ)) (b.coupons ++ b.principalPayments) ∧
      (∀ lo hi : ℝ, (∀ p ∈ b.coupons ++ b.principalPayments, s ≤ p.unadjusted →
        lo ≤ ((τ p.date - τ t.purchaseDate : ℚ) : ℝ) ∧ ((τ p.date - τ t.purchaseDate : ℚ) : ℝ) ≤ hi) → lo ≤ m ∧ m ≤ hi) ∧
      m / (1 + ytm / t.frequency.value) =
        sensitivity s t.purchaseDate τ t.frequency.value (b.coupons ++ b.principalPayments) ytm / v := by
  obtain ⟨v, hv, -⟩ := C37_yield_unique t b k hk h τ t.purchaseDate s hτ hs hm hrate hpr
  have ht := (create_ok h).1
  have hfp : (0 : ℝ) < b.fullPrice := by exact_mod_cast hprice
  have hprR : (0 : ℝ) < t.principal := by exact_mod_cast hpr
  obtain ⟨-, hkpos, hk12⟩ := increment_months hk
  have hfpos : 0 < t.frequency.value := by
    rcases Nat.eq_zero_or_pos t.frequency.value with e | e
    · rw [e] at hk12; simp at hk12
    · exact e
  have hfR : (0 : ℝ) < t.frequency.value := by exact_mod_cast hfpos
  have hbase : 0 < 1 + ytm / t.frequency.value := by
    have : -1 < ytm / t.frequency.value := by rw [lt_div_iff₀ hfR]; linarith
    linarith
  have hnone : b.discountByFixedRate ytm none = b.discountByFixedRate ytm (some t.purchaseDate) := by
    unfold Bond.discountByFixedRate; simp only [Option.getD_none, Option.getD_some, ht]
  obtain ⟨hv1, hv2⟩ := hv ytm hy
  have hvy : v ytm = (b.fullPrice : ℝ) * t.principal / 100 := by
    unfold Bond.diffFromFullPrice at hytm
    simp only [Option.getD_none] at hytm
    rw [ht, hv1, ok_bind] at hytm
    injection hytm with hytm
    push_cast at hytm
    linarith
  have hvpos : 0 < v ytm := by rw [hvy]; positivity
  have hmac := macaulay_eq hk h hτ hs hset hrate hpr hprice hy
  rw [← hvy] at hmac
  refine ⟨v ytm, _, by rw [hnone, hv1], hvpos, hmac, by field_simp, ?_, ?_⟩
  · intro lo hi hb
    have := weightedSum_average (l := b.coupons ++ b.principalPayments) (P := fun p => s ≤ p.unadjusted)
      (w := fun p => 1 / (1 + ytm / t.frequency.value) ^ (((τ p.date - τ t.purchaseDate : ℚ) : ℝ) * t.frequency.value) * (p.amount : ℝ))
      (time := fun p => ((τ p.date - τ t.purchaseDate : ℚ) : ℝ)) (lo := lo) (hi := hi) (by
        intro p hp _
        have h0 : (0 : ℝ) ≤ p.amount := by exact_mod_cast (payment_facts hk h hrate hpr p hp).1
        have := Real.rpow_pos_of_pos hbase (((τ p.date - τ t.purchaseDate : ℚ) : ℝ) * t.frequency.value)
        positivity) hb
    rw [← hv2] at this
    rw [le_div_iff₀ hvpos, div_le_iff₀ hvpos]
    exact this
  · rw [div_div, mul_comm (v ytm), ← div_div]
    congr 1
    unfold sensitivity
    exact weightedSum_div_base hbase _ _ _ _ _

/-- Concrete case for C82: the example note (principal 100, settling on the business day after purchase) has a yield, and it is
not negative. -/
example : ∃ b ytm, Bond.create exTerms = .ok b ∧ couponMonths exTerms.frequency = some 6 ∧
    timeAxis exTerms.dcc = some yearCoord ∧ AxisOk exTerms.dcc exTerms.purchaseDate ∧
    addBusinessDays exTerms.calendar exTerms.purchaseDate 1 = .ok (D 2023 6 2) ∧ D 2023 6 2 ≤ exTerms.maturityDate ∧
    b.settlementDate = D 2023 6 2 ∧ 0 ≤ exTerms.couponRate ∧ 0 < exTerms.principal ∧ 0 < b.fullPrice ∧
    -(exTerms.frequency.value : ℝ) + 1 / 20000 < ytm ∧ b.diffFromFullPrice none ytm = .ok 0 := by
  obtain ⟨b, h, h1, h2, h3, h4, h5⟩ := exTerms_create
  have hfp := (C36_full_price_partial _ b h).1
  have ht := (create_ok h).1
  have hprice : 0 < b.fullPrice := by rw [hfp, h5]; decide +kernel
  have hs : addBusinessDays exTerms.calendar exTerms.purchaseDate 1 = .ok (D 2023 6 2) := by decide +kernel
  obtain ⟨v, hv, hanti, h0, huniq⟩ := C37_yield_unique exTerms b 6 (by decide +kernel) h yearCoord exTerms.purchaseDate (D 2023 6 2)
    (measures_axis rfl (by decide +kernel) hs) hs (by decide +kernel) (by decide +kernel) (by decide +kernel)
  obtain ⟨ytm, ⟨hy, hytm⟩, -⟩ := C37_ytm_unique exTerms b 6 (by decide +kernel) h yearCoord exTerms.purchaseDate (D 2023 6 2)
    (measures_axis rfl (by decide +kernel) hs) hs (by decide +kernel) (by decide +kernel) (by decide +kernel) hprice
  have hf : (exTerms.frequency.value : ℝ) = 2 := by norm_num [show exTerms.frequency.value = 2 from rfl]
  have hvy : v ytm = ((b.fullPrice * exTerms.principal / 100 : ℚ) : ℝ) := by
    unfold Bond.diffFromFullPrice at hytm
    simp only [Option.getD_some] at hytm
    rw [(hv ytm hy).1, ok_bind, ht] at hytm
    injection hytm with hytm
    linarith
  have hle : v ytm ≤ v 0 := by
    rw [hvy, h0]
    have hq : ((b.fullPrice * exTerms.principal / 100 : ℚ)) ≤ weightedSum (fun p => D 2023 6 2 ≤ p.unadjusted)
        (fun p => p.amount) (b.coupons ++ b.principalPayments) := by
      rw [hfp, h5, h3, h4]; decide +kernel
    have hcast : weightedSum (fun p => D 2023 6 2 ≤ p.unadjusted) (fun p => (p.amount : ℝ)) (b.coupons ++ b.principalPayments) =
        ((weightedSum (fun p => D 2023 6 2 ≤ p.unadjusted) (fun p => p.amount) (b.coupons ++ b.principalPayments) : ℚ) : ℝ) := by
      unfold weightedSum
      generalize b.coupons ++ b.principalPayments = l
      induction l with
      | nil => simp
      | cons p ps ih =>
        simp only [List.map_cons, List.sum_cons, Rat.cast_add, ih]
        congr 1
        split_ifs <;> simp
    rw [hcast]
    exact_mod_cast hq
  have hy0 : 0 ≤ ytm := by
    by_contra hneg
    have := hanti hy (show -(exTerms.frequency.value : ℝ) < 0 by rw [hf]; norm_num) (not_le.1 hneg)
    linarith
  refine ⟨b, ytm, h, by decide +kernel, rfl, by decide +kernel, hs, by decide +kernel, h2, by decide +kernel,
    by decide +kernel, hprice, by rw [hf]; linarith, ?_⟩
  unfold Bond.diffFromFullPrice at hytm ⊢
  simp only [Option.getD_some, Option.getD_none] at hytm ⊢
  rw [ht] at hytm ⊢
  exact hytm

end Verif.Props
