/- Property C130: how far the rate returned by `yield_to_maturity` can be from the yield. -/
import Verif.Props.PriceConvexity
import Verif.Props.Yields

namespace Verif.Props
open Verif Verif.Spec Verif.DayCount Verif.Scheduler

/-! ## C130 -/

/-- The fixed-rate value on any reference date and its slope (C82_derivative is the case of the purchase date). -/
theorem value_slope {t : BondTerms} {b : Bond} {k : Int} (hk : couponMonths t.frequency = some k)
    (h : Bond.create t = .ok b) {τ : PyDate → ℚ} {ref s : PyDate}
    (hτ : MeasuresFrom t.dcc ref s τ) (hs : addBusinessDays t.calendar ref 1 = .ok s) (hm : s ≤ t.maturityDate)
    (hrate : 0 ≤ t.couponRate) (hpr : 0 < t.principal) :
    ∃ v : ℝ → ℝ,
      (∀ r, -(t.frequency.value : ℝ) < r → b.discountByFixedRate r (some ref) = .ok (v r) ∧
        HasDerivAt v (-(sensitivity s ref τ t.frequency.value (b.coupons ++ b.principalPayments) r)) r ∧
        v r = weightedSum (fun p => s ≤ p.unadjusted) (fun p => 1 / (1 + r / t.frequency.value) ^
          (((τ p.date - τ ref : ℚ) : ℝ) * t.frequency.value) * (p.amount : ℝ)) (b.coupons ++ b.principalPayments)) ∧
      StrictAntiOn (sensitivity s ref τ t.frequency.value (b.coupons ++ b.principalPayments))
        (Set.Ioi (-(t.frequency.value : ℝ))) ∧
      (∀ r, -(t.frequency.value : ℝ) < r → 0 < sensitivity s ref τ t.frequency.value (b.coupons ++ b.principalPayments) r) := by
  obtain ⟨-, hkpos, hk12⟩ := increment_months hk
  have hfpos : 0 < t.frequency.value := by
    rcases Nat.eq_zero_or_pos t.frequency.value with e | e
    · rw [e] at hk12; simp at hk12
    · exact e
  have hfR : (0 : ℝ) < t.frequency.value := by exact_mod_cast hfpos
  have hbase : ∀ r : ℝ, -(t.frequency.value : ℝ) < r → 0 < 1 + r / t.frequency.value := by
    intro r hr
    have : -1 < r / t.frequency.value := by rw [lt_div_iff₀ hfR]; linarith
    linarith
  obtain ⟨hall, hex⟩ := receivedPairs_facts hk h hτ hs hrate hpr hm
  obtain ⟨v', hv', -⟩ := C37_yield_unique t b k hk h τ ref s hτ hs hm hrate hpr
  set L := receivedPairs s ref τ t.frequency.value (b.coupons ++ b.principalPayments) with hL
  have hsens : ∀ r, sensitivity s ref τ t.frequency.value (b.coupons ++ b.principalPayments) r =
      discountedSlope L (1 + r / t.frequency.value) / t.frequency.value := fun r => weightedSum_slope _ _ _ hfR _ _
  have hval : ∀ r, -(t.frequency.value : ℝ) < r → b.discountByFixedRate r (some ref) =
      .ok (discountedSum L (1 + r / t.frequency.value)) :=
    fun r hr => discountByFixedRate_eq hk h hτ hs hrate hpr hr
  have hder : ∀ r, -(t.frequency.value : ℝ) < r → HasDerivAt (fun r : ℝ => discountedSum L (1 + r / t.frequency.value))
      (-(sensitivity s ref τ t.frequency.value (b.coupons ++ b.principalPayments) r)) r := by
    intro r hr
    have h1 : HasDerivAt (fun r : ℝ => 1 + r / (t.frequency.value : ℝ)) (1 / (t.frequency.value : ℝ)) r :=
      ((hasDerivAt_id r).div_const _).const_add 1
    have h2 := (discountedSum_hasDerivAt L (hbase r hr)).comp r h1
    have e : -(sensitivity s ref τ t.frequency.value (b.coupons ++ b.principalPayments) r) =
        -discountedSlope L (1 + r / t.frequency.value) * (1 / (t.frequency.value : ℝ)) := by rw [hsens r]; ring
    rw [e]
    exact h2
  have hslope_pairs : (∀ a ∈ L.map fun ae => (ae.2 * ae.1, ae.2 + 1), 0 ≤ a.1 ∧ 0 ≤ a.2) ∧
      ∃ a ∈ L.map fun ae => (ae.2 * ae.1, ae.2 + 1), 0 < a.1 ∧ 0 < a.2 := by
    constructor
    · intro a ha
      obtain ⟨c, hc, rfl⟩ := List.mem_map.1 ha
      obtain ⟨c1, c2⟩ := hall c hc
      exact ⟨mul_nonneg c2.le c1, by positivity⟩
    · obtain ⟨c, hc, hc1⟩ := hex
      obtain ⟨-, c2⟩ := hall c hc
      exact ⟨_, List.mem_map.2 ⟨c, hc, rfl⟩, mul_pos c2 hc1, by positivity⟩
  refine ⟨fun r => discountedSum L (1 + r / t.frequency.value), fun r hr => ⟨hval r hr, hder r hr, ?_⟩, ?_, ?_⟩
  · obtain ⟨h1, h2⟩ := hv' r hr
    rw [hval r hr] at h1
    injection h1 with h1
    exact h1.trans h2
  · intro x hx y hy hxy
    rw [hsens, hsens, discountedSlope_eq, discountedSlope_eq]
    refine div_lt_div_of_pos_right ?_ hfR
    refine discountedSum_strictAnti hslope_pairs.1 hslope_pairs.2 (hbase x hx) ?_
    have := div_lt_div_of_pos_right hxy hfR
    linarith
  · intro r hr
    rw [hsens, discountedSlope_eq]
    refine div_pos ?_ hfR
    obtain ⟨a, ha, ha1, -⟩ := hslope_pairs.2
    unfold discountedSum
    refine lt_of_lt_of_le (b := 1 / (1 + r / (t.frequency.value : ℝ)) ^ a.2 * a.1) ?_ ?_
    · have := Real.rpow_pos_of_pos (hbase r hr) a.2
      positivity
    · refine List.single_le_sum ?_ _ (List.mem_map.2 ⟨a, ha, rfl⟩)
      intro y hy
      obtain ⟨c, hc, rfl⟩ := List.mem_map.1 hy
      have := Real.rpow_pos_of_pos (hbase r hr) c.2
      have := (hslope_pairs.1 c hc).1
      positivity

/-- A decreasing convex function between two points: its fall lies between the length times the slopes at the two ends. -/
theorem fall_bounds {v d : ℝ → ℝ} {a : ℝ} (hd : ∀ r, a < r → HasDerivAt v (-(d r)) r) (hanti : StrictAntiOn d (Set.Ioi a))
    {x y : ℝ} (hx : a < x) (hxy : x < y) : d y * (y - x) < v x - v y ∧ v x - v y < d x * (y - x) := by
  have hmono : StrictMonoOn (fun r => -(d r)) (Set.Ioi a) := fun p hp q hq hpq => neg_lt_neg (hanti hp hq hpq)
  have h1 := above_tangent hd hmono hx (hx.trans hxy) hxy.ne
  have h2 := above_tangent hd hmono (hx.trans hxy) hx hxy.ne'
  constructor <;> linarith

/-- C130. `yield_to_maturity` returns the point where scipy's root finder stopped, whether or not it succeeded. Whatever rate
`r` above `-f` that is, let `ε` be the amount by which it misses the equation - the target price less the value at `r`. Then
`ε` is zero exactly at the yield, negative below and positive above; and the distance of `r` from the yield `y` lies between
`|ε|` divided by the price sensitivities at the lower and at the higher of the two rates. -/
theorem C130_residual (t : BondTerms) (b : Bond) (k : Int) (hk : couponMonths t.frequency = some k)
    (h : Bond.create t = .ok b) (τ : PyDate → ℚ) (ref s : PyDate)
    (hτ : MeasuresFrom t.dcc ref s τ) (hs : addBusinessDays t.calendar ref 1 = .ok s) (hm : s ≤ t.maturityDate)
    (hrate : 0 ≤ t.couponRate) (hpr : 0 < t.principal) (y r : ℝ) (hy : IsYield b ref y) (hr : -(t.frequency.value : ℝ) < r) :
    ∃ ε, b.diffFromFullPrice (some ref) r = .ok ε ∧ (ε = 0 ↔ r = y) ∧ (ε < 0 ↔ r < y) ∧ (0 < ε ↔ y < r) ∧
      |ε| / sensitivity s ref τ t.frequency.value (b.coupons ++ b.principalPayments) (min r y) ≤ |r - y| ∧
      |r - y| ≤ |ε| / sensitivity s ref τ t.frequency.value (b.coupons ++ b.principalPayments) (max r y) := by
  obtain ⟨v, hv, hanti, hpos⟩ := value_slope hk h hτ hs hm hrate hpr
  have ht := (create_ok h).1
  obtain ⟨hy1, hy2⟩ := hy
  rw [ht] at hy1
  have hder : ∀ x, -(t.frequency.value : ℝ) < x → HasDerivAt v
      (-(sensitivity s ref τ t.frequency.value (b.coupons ++ b.principalPayments) x)) x := fun x hx => (hv x hx).2.1
  have hvy : ((b.fullPrice * b.terms.principal / 100 : ℚ) : ℝ) = v y := by
    unfold Bond.diffFromFullPrice at hy2
    simp only [Option.getD_some] at hy2
    rw [(hv y hy1).1, ok_bind] at hy2
    injection hy2 with hy2
    linarith
  refine ⟨v y - v r, ?_, ?_⟩
  · unfold Bond.diffFromFullPrice
    simp only [Option.getD_some]
    rw [(hv r hr).1, ok_bind, hvy]
  rcases lt_trichotomy r y with hlt | rfl | hgt
  · obtain ⟨h1, h2⟩ := fall_bounds hder hanti hr hlt
    have p1 := hpos r hr
    have p2 := hpos y hy1
    have hd : 0 < y - r := by linarith
    have hlow : 0 < v r - v y := lt_trans (mul_pos p2 hd) h1
    refine ⟨⟨fun e => by linarith, fun e => by linarith⟩, ⟨fun _ => hlt, fun _ => by linarith⟩,
      ⟨fun e => by linarith, fun e => by linarith⟩, ?_, ?_⟩
    · rw [min_eq_left hlt.le, div_le_iff₀ p1, abs_of_neg (by linarith), abs_of_neg (by linarith)]; linarith
    · rw [max_eq_right hlt.le, le_div_iff₀ p2, abs_of_neg (by linarith), abs_of_neg (by linarith)]; linarith
  · simp
  · obtain ⟨h1, h2⟩ := fall_bounds hder hanti hy1 hgt
    have p1 := hpos r hr
    have p2 := hpos y hy1
    have hd : 0 < r - y := by linarith
    have hlow : 0 < v y - v r := lt_trans (mul_pos p1 hd) h1
    refine ⟨⟨fun e => by linarith, fun e => by linarith⟩, ⟨fun e => by linarith, fun e => by linarith⟩,
      ⟨fun _ => hgt, fun _ => hlow⟩, ?_, ?_⟩
    · rw [min_eq_right hgt.le, div_le_iff₀ p2, abs_of_pos hlow, abs_of_pos hd]; linarith
    · rw [max_eq_left hgt.le, le_div_iff₀ p1, abs_of_pos hlow, abs_of_pos hd]; linarith

/-- C130. A bound that needs only what the caller has: the rate `r` returned, the amount `ε` by which it misses the target price
`P` (full price times principal over 100), and a time `lo` before which no payment falls due. If `lo * (P - |ε|)` exceeds
`|ε| / f` then the yield is within `|ε| * (1 + r/f) / (lo * (P - |ε|) - |ε| / f)` of `r`. -/
theorem C130_computable (t : BondTerms) (b : Bond) (k : Int) (hk : couponMonths t.frequency = some k)
    (h : Bond.create t = .ok b) (τ : PyDate → ℚ) (ref s : PyDate)
    (hτ : MeasuresFrom t.dcc ref s τ) (hs : addBusinessDays t.calendar ref 1 = .ok s) (hm : s ≤ t.maturityDate)
    (hrate : 0 ≤ t.couponRate) (hpr : 0 < t.principal) (y r ε lo : ℝ) (hy : IsYield b ref y) (hr : -(t.frequency.value : ℝ) < r)
    (hε : b.diffFromFullPrice (some ref) r = .ok ε) (hlo0 : 0 ≤ lo)
    (hlo : ∀ p ∈ b.coupons ++ b.principalPayments, s ≤ p.unadjusted → lo ≤ ((τ p.date - τ ref : ℚ) : ℝ))
    (hsmall : |ε| / t.frequency.value < lo * (((b.fullPrice * t.principal / 100 : ℚ) : ℝ) - |ε|)) :
    |r - y| ≤ |ε| * (1 + r / t.frequency.value) /
      (lo * (((b.fullPrice * t.principal / 100 : ℚ) : ℝ) - |ε|) - |ε| / t.frequency.value) := by
  obtain ⟨-, hkpos, hk12⟩ := increment_months hk
  have hfpos : 0 < t.frequency.value := by
    rcases Nat.eq_zero_or_pos t.frequency.value with e | e
    · rw [e] at hk12; simp at hk12
    · exact e
  have hfR : (0 : ℝ) < t.frequency.value := by exact_mod_cast hfpos
  have hbase : ∀ r : ℝ, -(t.frequency.value : ℝ) < r → 0 < 1 + r / t.frequency.value := by
    intro r hr
    have : -1 < r / t.frequency.value := by rw [lt_div_iff₀ hfR]; linarith
    linarith
  obtain ⟨v, hv, hanti, hpos⟩ := value_slope hk h hτ hs hm hrate hpr
  obtain ⟨ε', he', -, -, -, -, hup⟩ := C130_residual t b k hk h τ ref s hτ hs hm hrate hpr y r hy hr
  rw [hε] at he'
  injection he' with he'
  subst he'
  have ht := (create_ok h).1
  obtain ⟨hy1, hy2⟩ := hy
  rw [ht] at hy1
  set P := ((b.fullPrice * t.principal / 100 : ℚ) : ℝ) with hP
  have hvy : v y = P := by
    unfold Bond.diffFromFullPrice at hy2
    simp only [Option.getD_some] at hy2
    rw [(hv y hy1).1, ok_bind, ht] at hy2
    injection hy2 with hy2
    linarith
  have hvr : v r = P - ε := by
    unfold Bond.diffFromFullPrice at hε
    simp only [Option.getD_some] at hε
    rw [(hv r hr).1, ok_bind, ht] at hε
    injection hε with hε
    linarith
  have hfacts := payment_facts hk h hrate hpr
  have hmx : -(t.frequency.value : ℝ) < max r y := lt_max_of_lt_left hr
  have hsens : lo * v (max r y) ≤ sensitivity s ref τ t.frequency.value (b.coupons ++ b.principalPayments) (max r y) *
      (1 + max r y / t.frequency.value) := by
    have hb := hbase _ hmx
    rw [(hv _ hmx).2.2]
    unfold sensitivity
    rw [← weightedSum_div_base hb, div_mul_cancel₀ _ hb.ne']
    refine (weightedSum_average (hi := (b.coupons ++ b.principalPayments).foldr
      (fun p m => max ((τ p.date - τ ref : ℚ) : ℝ) m) 0) (fun p hp _ => ?_) (fun p hp hsp => ⟨hlo p hp hsp, ?_⟩)).1
    · have h0 := Real.rpow_pos_of_pos hb (((τ p.date - τ ref : ℚ) : ℝ) * t.frequency.value)
      have h1 : (0 : ℝ) ≤ (p.amount : ℝ) := by exact_mod_cast (hfacts p hp).1
      positivity
    · generalize b.coupons ++ b.principalPayments = l at hp
      induction l with
      | nil => simp at hp
      | cons q l ih =>
        rcases List.mem_cons.1 hp with rfl | hp
        · exact le_max_left _ _
        · exact (ih hp).trans (le_max_right _ _)
  have hvm : P - |ε| ≤ v (max r y) := by
    rcases le_total r y with hle | hle
    · rw [max_eq_right hle, hvy]; linarith [abs_nonneg ε]
    · rw [max_eq_left hle, hvr]; linarith [le_abs_self ε]
  have p1 := hpos _ hmx
  rw [le_div_iff₀ p1] at hup
  have hmaxle : max r y ≤ r + |r - y| := by
    rcases le_total r y with hle | hle
    · rw [max_eq_right hle]; linarith [neg_abs_le (r - y)]
    · rw [max_eq_left hle]; linarith [abs_nonneg (r - y)]
  rw [le_div_iff₀ (by linarith)]
  have e1 : |r - y| * (lo * (P - |ε|)) ≤ |r - y| * (lo * v (max r y)) :=
    mul_le_mul_of_nonneg_left (mul_le_mul_of_nonneg_left hvm hlo0) (abs_nonneg _)
  have e2 : |r - y| * (lo * v (max r y)) ≤ |r - y| *
      (sensitivity s ref τ t.frequency.value (b.coupons ++ b.principalPayments) (max r y) * (1 + max r y / t.frequency.value)) :=
    mul_le_mul_of_nonneg_left hsens (abs_nonneg _)
  have e3 := mul_le_mul_of_nonneg_right hup (hbase _ hmx).le
  have e4 : |ε| * (1 + max r y / t.frequency.value) ≤ |ε| * (1 + (r + |r - y|) / t.frequency.value) := by
    refine mul_le_mul_of_nonneg_left ?_ (abs_nonneg _)
    have := div_le_div_of_nonneg_right hmaxle hfR.le
    linarith
  have e5 : |ε| * (1 + (r + |r - y|) / t.frequency.value) =
      |ε| * (1 + r / t.frequency.value) + |r - y| * (|ε| / t.frequency.value) := by
    field_simp
    ring
  have e6 : |r - y| * (sensitivity s ref τ t.frequency.value (b.coupons ++ b.principalPayments) (max r y) *
      (1 + max r y / t.frequency.value)) = |r - y| *
      sensitivity s ref τ t.frequency.value (b.coupons ++ b.principalPayments) (max r y) *
      (1 + max r y / t.frequency.value) := by ring
  have e7 : |r - y| * (lo * (P - |ε|) - |ε| / t.frequency.value) =
      |r - y| * (lo * (P - |ε|)) - |r - y| * (|ε| / t.frequency.value) := by ring
  linarith

/-- C130. Two rates whose values miss the target price on opposite sides enclose the yield. -/
theorem C130_bracket (t : BondTerms) (b : Bond) (k : Int) (hk : couponMonths t.frequency = some k)
    (h : Bond.create t = .ok b) (τ : PyDate → ℚ) (ref s : PyDate)
    (hτ : MeasuresFrom t.dcc ref s τ) (hs : addBusinessDays t.calendar ref 1 = .ok s) (hm : s ≤ t.maturityDate)
    (hrate : 0 ≤ t.couponRate) (hpr : 0 < t.principal) (hprice : 0 < b.fullPrice) (r r' ε ε' : ℝ)
    (hr : -(t.frequency.value : ℝ) < r) (hr' : -(t.frequency.value : ℝ) < r')
    (he : b.diffFromFullPrice (some ref) r = .ok ε) (he' : b.diffFromFullPrice (some ref) r' = .ok ε') (hneg : ε ≤ 0)
    (hpos : 0 ≤ ε') : ∃ y, IsYield b ref y ∧ r ≤ y ∧ y ≤ r' := by
  have ht := (create_ok h).1
  obtain ⟨y, ⟨hy1, hy2⟩, -⟩ := C37_ytm_unique t b k hk h τ ref s hτ hs hm hrate hpr hprice
  have hy : IsYield b ref y := ⟨by rw [ht]; exact hy1, hy2⟩
  obtain ⟨x, hx, -, -, x1, -⟩ := C130_residual t b k hk h τ ref s hτ hs hm hrate hpr y r hy hr
  obtain ⟨x', hx', -, x2, -, -⟩ := C130_residual t b k hk h τ ref s hτ hs hm hrate hpr y r' hy hr'
  rw [he] at hx; injection hx with hx; subst hx
  rw [he'] at hx'; injection hx' with hx'; subst hx'
  refine ⟨y, hy, ?_, ?_⟩
  · by_contra hc
    exact absurd (x1.2 (lt_of_not_ge hc)) (not_lt.2 hneg)
  · by_contra hc
    exact absurd (x2.2 (lt_of_not_ge hc)) (not_lt.2 hpos)

/-- C130. A Newton step of the equation, with the exact derivative, never goes beyond the yield: from a rate below the yield it
gets closer without passing it, and from a rate above the yield it lands below. -/
theorem C130_newton (t : BondTerms) (b : Bond) (k : Int) (hk : couponMonths t.frequency = some k)
    (h : Bond.create t = .ok b) (τ : PyDate → ℚ) (ref s : PyDate)
    (hτ : MeasuresFrom t.dcc ref s τ) (hs : addBusinessDays t.calendar ref 1 = .ok s) (hm : s ≤ t.maturityDate)
    (hrate : 0 ≤ t.couponRate) (hpr : 0 < t.principal) (y r ε r' : ℝ) (hy : IsYield b ref y) (hr : -(t.frequency.value : ℝ) < r)
    (he : b.diffFromFullPrice (some ref) r = .ok ε) (hne : r ≠ y)
    (hstep : r' = r - ε / sensitivity s ref τ t.frequency.value (b.coupons ++ b.principalPayments) r) :
    r' < y ∧ (r < y → r < r') := by
  obtain ⟨v, hv, hanti, hpos⟩ := value_slope hk h hτ hs hm hrate hpr
  obtain ⟨ε', he', -, hs1, hs2, -⟩ := C130_residual t b k hk h τ ref s hτ hs hm hrate hpr y r hy hr
  rw [he] at he'
  injection he' with he'
  subst he'
  have ht := (create_ok h).1
  obtain ⟨hy1, hy2⟩ := hy
  rw [ht] at hy1
  have hder : ∀ x, -(t.frequency.value : ℝ) < x → HasDerivAt v
      (-(sensitivity s ref τ t.frequency.value (b.coupons ++ b.principalPayments) x)) x := fun x hx => (hv x hx).2.1
  have hε : ε = v y - v r := by
    unfold Bond.diffFromFullPrice at hy2 he
    simp only [Option.getD_some] at hy2 he
    rw [(hv y hy1).1, ok_bind] at hy2
    rw [(hv r hr).1, ok_bind] at he
    injection hy2 with hy2
    injection he with he
    linarith
  have hp := hpos r hr
  have key : ε / sensitivity s ref τ t.frequency.value (b.coupons ++ b.principalPayments) r > r - y := by
    rw [gt_iff_lt, lt_div_iff₀ hp]
    have hmono : StrictMonoOn (fun r => -(sensitivity s ref τ t.frequency.value (b.coupons ++ b.principalPayments) r))
        (Set.Ioi (-(t.frequency.value : ℝ))) := fun p hp q hq hpq => neg_lt_neg (hanti hp hq hpq)
    have := above_tangent hder hmono hr hy1 hne
    linarith
  refine ⟨by rw [hstep]; linarith, fun hlt => ?_⟩
  have := div_neg_of_neg_of_pos (hs1.2 hlt) hp
  rw [hstep]; linarith

/-- Concrete case for C130: the starting point `0` of the solver for the example note, which misses the full price of
`100 + 33/181` by 7 and 148/181. No payment is due within 0.2 years, so the bound applies to it. -/
example : ∃ b y, Bond.create exTerms = .ok b ∧ couponMonths exTerms.frequency = some 6 ∧
    timeAxis exTerms.dcc = some yearCoord ∧ AxisOk exTerms.dcc exTerms.purchaseDate ∧
    addBusinessDays exTerms.calendar exTerms.purchaseDate 1 = .ok (D 2023 6 2) ∧ D 2023 6 2 ≤ exTerms.maturityDate ∧
    0 ≤ exTerms.couponRate ∧ 0 < exTerms.principal ∧ 0 < b.fullPrice ∧ IsYield b exTerms.purchaseDate y ∧
    -(exTerms.frequency.value : ℝ) < 0 ∧ b.diffFromFullPrice (some exTerms.purchaseDate) 0 = .ok (-(1415 / 181)) ∧ (0 : ℝ) ≠ y ∧
    (∀ p ∈ b.coupons ++ b.principalPayments, D 2023 6 2 ≤ p.unadjusted →
      (1 / 5 : ℝ) ≤ ((yearCoord p.date - yearCoord exTerms.purchaseDate : ℚ) : ℝ)) ∧
    |-(1415 / 181 : ℝ)| / exTerms.frequency.value <
      1 / 5 * (((b.fullPrice * exTerms.principal / 100 : ℚ) : ℝ) - |-(1415 / 181 : ℝ)|) := by
  obtain ⟨b, h, h1, h2, h3, h4, h5⟩ := exTerms_create
  have hfp := (C36_full_price_partial _ b h).1
  have ht := (create_ok h).1
  have hfull : b.fullPrice = 100 + 33 / 181 := by rw [hfp, h5]; decide +kernel
  have hP : b.fullPrice * exTerms.principal / 100 = 100 + 33 / 181 := by rw [hfull]; decide +kernel
  have hprice : 0 < b.fullPrice := by rw [hfull]; norm_num
  have hs : addBusinessDays exTerms.calendar exTerms.purchaseDate 1 = .ok (D 2023 6 2) := by decide +kernel
  have hf : (exTerms.frequency.value : ℝ) = 2 := by norm_num [show exTerms.frequency.value = 2 from rfl]
  obtain ⟨v, hv, hanti, h0, huniq⟩ := C37_yield_unique exTerms b 6 (by decide +kernel) h yearCoord exTerms.purchaseDate (D 2023 6 2)
    (measures_axis rfl (by decide +kernel) hs) hs (by decide +kernel) (by decide +kernel) (by decide +kernel)
  obtain ⟨y, ⟨hy, hytm⟩, -⟩ := C37_ytm_unique exTerms b 6 (by decide +kernel) h yearCoord exTerms.purchaseDate (D 2023 6 2)
    (measures_axis rfl (by decide +kernel) hs) hs (by decide +kernel) (by decide +kernel) (by decide +kernel) hprice
  have hzero : b.diffFromFullPrice (some exTerms.purchaseDate) 0 = .ok (-(1415 / 181)) := by
    unfold Bond.diffFromFullPrice
    simp only [Option.getD_some]
    rw [(hv 0 (by rw [hf]; norm_num)).1, ok_bind, ht, hP, h0, weightedSum_cast, h3, h4]
    have : weightedSum (fun p => D 2023 6 2 ≤ p.unadjusted) (fun p => p.amount)
        ([(⟨D 2023 8 15, D 2023 8 15, 2⟩ : BondPayment), ⟨D 2024 2 15, D 2024 2 15, 2⟩, ⟨D 2024 8 15, D 2024 8 15, 2⟩,
          ⟨D 2025 2 15, D 2025 2 18, 2⟩] ++ [⟨D 2025 2 15, D 2025 2 18, 100⟩]) = 108 := by decide +kernel
    rw [this]
    norm_num
  refine ⟨b, y, h, by decide +kernel, rfl, by decide +kernel, hs, by decide +kernel, by decide +kernel, by decide +kernel, hprice,
    ⟨by rw [ht]; exact hy, hytm⟩, by rw [hf]; norm_num, hzero, ?_, ?_, ?_⟩
  · rintro rfl
    rw [hzero] at hytm
    injection hytm with hytm
    norm_num at hytm
  · have hq : ∀ p ∈ b.coupons ++ b.principalPayments, D 2023 6 2 ≤ p.unadjusted →
        (1 / 5 : ℚ) ≤ yearCoord p.date - yearCoord exTerms.purchaseDate := by
      rw [h3, h4]; decide +kernel
    intro p hp hsp
    have := (Rat.cast_le (K := ℝ)).2 (hq p hp hsp)
    calc (1 / 5 : ℝ) = ((1 / 5 : ℚ) : ℝ) := by norm_num
      _ ≤ _ := this
  · rw [hP, hf, abs_neg, abs_of_pos (by norm_num : (0 : ℝ) < 1415 / 181)]
    norm_num

end Verif.Props
