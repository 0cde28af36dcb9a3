/- Property C118: the price of a bond is strictly convex in its yield. -/
import Verif.Props.Duration
import Mathlib.Analysis.Convex.Deriv

namespace Verif.Props
open Verif Verif.Spec Verif.DayCount Verif.Scheduler

/-- The second derivative of the fixed-rate value with respect to the rate: the sum over the payments due on or after `s` of
`time * (time + 1/f) * amount / (1 + r/f) ^ (f * time + 2)`. -/
noncomputable def curvature (s ref : PyDate) (τ : PyDate → ℚ) (f : Nat) (l : List BondPayment) (r : ℝ) : ℝ :=
  weightedSum (fun p => s ≤ p.unadjusted) (fun p => ((τ p.date - τ ref : ℚ) : ℝ) * (((τ p.date - τ ref : ℚ) : ℝ) + 1 / f) *
    (p.amount : ℝ) / (1 + r / f) ^ (((τ p.date - τ ref : ℚ) : ℝ) * f + 2)) l

/-- A function with a strictly increasing derivative lies strictly above its tangents. -/
theorem above_tangent {v d : ℝ → ℝ} {a : ℝ} (hd : ∀ r, a < r → HasDerivAt v (d r) r) (hmono : StrictMonoOn d (Set.Ioi a))
    {x y : ℝ} (hx : a < x) (hy : a < y) (hne : x ≠ y) : v x + d x * (y - x) < v y := by
  rcases lt_or_gt_of_ne hne with h | h
  · obtain ⟨ξ, hξ, he⟩ := exists_hasDerivAt_eq_slope v d h
      (fun r hr => (hd r (lt_of_lt_of_le hx hr.1)).continuousAt.continuousWithinAt) (fun r hr => hd r (lt_trans hx hr.1))
    have := hmono (Set.mem_Ioi.2 hx) (Set.mem_Ioi.2 (lt_trans hx hξ.1)) hξ.1
    rw [he, lt_div_iff₀ (by linarith)] at this
    linarith
  · obtain ⟨ξ, hξ, he⟩ := exists_hasDerivAt_eq_slope v d h
      (fun r hr => (hd r (lt_of_lt_of_le hy hr.1)).continuousAt.continuousWithinAt) (fun r hr => hd r (lt_trans hy hr.1))
    have := hmono (Set.mem_Ioi.2 (lt_trans hy hξ.1)) (Set.mem_Ioi.2 hx) hξ.2
    rw [he, div_lt_iff₀ (by linarith)] at this
    linarith

/-- The average slope over two intervals of the same length, the second to the right of the first. -/
theorem chord_mono {v d : ℝ → ℝ} {a : ℝ} (hd : ∀ r, a < r → HasDerivAt v (d r) r) (hmono : StrictMonoOn d (Set.Ioi a))
    {x y h : ℝ} (hx : a < x - h) (hh : 0 < h) (hxy : x < y) : v (x + h) - v (x - h) < v (y + h) - v (y - h) := by
  obtain ⟨ξ, hξ, he⟩ := exists_hasDerivAt_eq_slope (fun r => v (r + h) - v (r - h)) (fun r => d (r + h) - d (r - h)) hxy
    (fun r hr => by
      have h1 : HasDerivAt (fun r => v (r + h)) (d (r + h)) r := (hd (r + h) (by linarith [hr.1])).comp_add_const r h
      have h2 : HasDerivAt (fun r => v (r - h)) (d (r - h)) r := (hd (r - h) (by linarith [hr.1])).comp_sub_const r h
      exact (h1.sub h2).continuousAt.continuousWithinAt)
    (fun r hr => by
      have h1 : HasDerivAt (fun r => v (r + h)) (d (r + h)) r := (hd (r + h) (by linarith [hr.1])).comp_add_const r h
      have h2 : HasDerivAt (fun r => v (r - h)) (d (r - h)) r := (hd (r - h) (by linarith [hr.1])).comp_sub_const r h
      exact h1.sub h2)
  have hpos : 0 < d (ξ + h) - d (ξ - h) :=
    sub_pos.2 (hmono (Set.mem_Ioi.2 (by linarith [hξ.1])) (Set.mem_Ioi.2 (by linarith [hξ.1])) (by linarith))
  rw [he, lt_div_iff₀ (by linarith)] at hpos
  linarith

/-- The average of a strictly convex slope over an interval exceeds its value at the midpoint: stated for `v` with derivative
`-d`, where `d` has the strictly increasing derivative `e`. -/
theorem central_overstates {v d e : ℝ → ℝ} {a : ℝ} (hd : ∀ r, a < r → HasDerivAt v (-(d r)) r)
    (he : ∀ r, a < r → HasDerivAt d (e r) r) (hmono : StrictMonoOn e (Set.Ioi a)) {y h : ℝ} (hy : a < y - h) (hh : 0 < h) :
    v (y + h) - v (y - h) < -(d y) * (2 * h) := by
  obtain ⟨ξ, hξ, hs⟩ := exists_hasDerivAt_eq_slope (fun t => v (y + t) - v (y - t) + 2 * t * d y)
    (fun t => -(d (y + t)) - (-(-(d (y - t)))) + 2 * d y) hh
    (fun t ht => by
      have h1 : HasDerivAt (fun t => v (y + t)) (-(d (y + t))) t := (hd (y + t) (by linarith [ht.1])).comp_const_add y t
      have h2 : HasDerivAt (fun t => v (y - t)) (-(-(d (y - t)))) t := (hd (y - t) (by linarith [ht.2])).comp_const_sub y t
      have h3 : HasDerivAt (fun t : ℝ => 2 * t * d y) (2 * d y) t := by
        simpa using ((hasDerivAt_id t).const_mul 2).mul_const (d y)
      exact ((h1.sub h2).add h3).continuousAt.continuousWithinAt)
    (fun t ht => by
      have h1 : HasDerivAt (fun t => v (y + t)) (-(d (y + t))) t := (hd (y + t) (by linarith [ht.1])).comp_const_add y t
      have h2 : HasDerivAt (fun t => v (y - t)) (-(-(d (y - t)))) t := (hd (y - t) (by linarith [ht.2])).comp_const_sub y t
      have h3 : HasDerivAt (fun t : ℝ => 2 * t * d y) (2 * d y) t := by
        simpa using ((hasDerivAt_id t).const_mul 2).mul_const (d y)
      exact (h1.sub h2).add h3)
  have t1 := above_tangent he hmono (x := y) (y := y + ξ) (by linarith) (by linarith [hξ.1]) (by linarith [hξ.1])
  have t2 := above_tangent he hmono (x := y) (y := y - ξ) (by linarith) (by linarith [hξ.2]) (by linarith [hξ.1])
  have hneg : -(d (y + ξ)) - (-(-(d (y - ξ)))) + 2 * d y < 0 := by linarith
  rw [hs, div_lt_iff₀ (by linarith)] at hneg
  simp only [add_zero, sub_zero] at hneg
  linarith

theorem weightedSum_curvature (s ref : PyDate) (τ : PyDate → ℚ) {f : Nat} (hf : (0 : ℝ) < f) (l : List BondPayment) (x : ℝ) :
    weightedSum (fun p => s ≤ p.unadjusted) (fun p => ((τ p.date - τ ref : ℚ) : ℝ) * (((τ p.date - τ ref : ℚ) : ℝ) + 1 / f) *
        (p.amount : ℝ) / x ^ (((τ p.date - τ ref : ℚ) : ℝ) * f + 2)) l =
      discountedSlope ((receivedPairs s ref τ f l).map fun ae => (ae.2 * ae.1, ae.2 + 1)) x / f / f := by
  induction l with
  | nil => simp [weightedSum, receivedPairs, discountedSlope]
  | cons p ps ih =>
    by_cases hp : s ≤ p.unadjusted
    · have : receivedPairs s ref τ f (p :: ps) = ((p.amount : ℝ), ((τ p.date - τ ref : ℚ) : ℝ) * f) :: receivedPairs s ref τ f ps := by
        simp [receivedPairs, hp]
      have e : discountedSlope ((receivedPairs s ref τ f (p :: ps)).map fun ae => (ae.2 * ae.1, ae.2 + 1)) x / f / f =
          ((τ p.date - τ ref : ℚ) : ℝ) * (((τ p.date - τ ref : ℚ) : ℝ) + 1 / f) * (p.amount : ℝ) /
            x ^ (((τ p.date - τ ref : ℚ) : ℝ) * f + 2) +
            discountedSlope ((receivedPairs s ref τ f ps).map fun ae => (ae.2 * ae.1, ae.2 + 1)) x / f / f := by
        rw [this]
        simp only [discountedSlope, List.map_cons, List.sum_cons]
        rw [show ((τ p.date - τ ref : ℚ) : ℝ) * (f : ℝ) + 1 + 1 = ((τ p.date - τ ref : ℚ) : ℝ) * f + 2 by ring]
        generalize x ^ (((τ p.date - τ ref : ℚ) : ℝ) * (f : ℝ) + 2) = X
        rw [add_div, add_div]
        congr 1
        rcases eq_or_ne X 0 with e0 | e0
        · simp [e0]
        · field_simp
      rw [e, ← ih]
      simp [weightedSum, hp]
    · have : receivedPairs s ref τ f (p :: ps) = receivedPairs s ref τ f ps := by simp [receivedPairs, hp]
      rw [this, ← ih]
      simp [weightedSum, hp]

/-- C118. Let `v` be the fixed-rate value of a bond on its purchase date, as returned by `discount_by_fixed_rate`, for rates above
`-f`. Then `v` is strictly convex; it lies strictly above the straight line drawn from any yield with the exact sensitivity
there, so a duration estimate of the value after a rate change is always too low; a fall of the yield gains more than a rise of
the same size loses; and the sensitivity has derivative minus `curvature`, the exact second derivative of the value, which is
positive. -/
theorem C118_convex (t : BondTerms) (b : Bond) (k : Int) (hk : couponMonths t.frequency = some k)
    (h : Bond.create t = .ok b) (τ : PyDate → ℚ) (s : PyDate)
    (hτ : MeasuresFrom t.dcc t.purchaseDate s τ) (hs : addBusinessDays t.calendar t.purchaseDate 1 = .ok s) (hm : s ≤ t.maturityDate)
    (hrate : 0 ≤ t.couponRate) (hpr : 0 < t.principal) :
    ∃ v : ℝ → ℝ,
      (∀ r, -(t.frequency.value : ℝ) < r → b.discountByFixedRate r none = .ok (v r)) ∧
      StrictConvexOn ℝ (Set.Ioi (-(t.frequency.value : ℝ))) v ∧
      (∀ x y, -(t.frequency.value : ℝ) < x → -(t.frequency.value : ℝ) < y → x ≠ y →
        v x - sensitivity s t.purchaseDate τ t.frequency.value (b.coupons ++ b.principalPayments) x * (y - x) < v y) ∧
      (∀ x δ, -(t.frequency.value : ℝ) < x - δ → 0 < δ → v x - v (x + δ) < v (x - δ) - v x) ∧
      (∀ r, -(t.frequency.value : ℝ) < r →
        HasDerivAt (sensitivity s t.purchaseDate τ t.frequency.value (b.coupons ++ b.principalPayments))
          (-(curvature s t.purchaseDate τ t.frequency.value (b.coupons ++ b.principalPayments) r)) r) ∧
      (∀ r, -(t.frequency.value : ℝ) < r →
        0 < curvature s t.purchaseDate τ t.frequency.value (b.coupons ++ b.principalPayments) r) ∧
      StrictAntiOn (curvature s t.purchaseDate τ t.frequency.value (b.coupons ++ b.principalPayments))
        (Set.Ioi (-(t.frequency.value : ℝ))) := by
  obtain ⟨v, hv, hanti, hpos, -⟩ := C82_derivative t b k hk h τ s hτ hs hm hrate hpr
  obtain ⟨-, hkpos, hk12⟩ := increment_months hk
  have hfpos : 0 < t.frequency.value := by
    rcases Nat.eq_zero_or_pos t.frequency.value with e | e
    · rw [e] at hk12; simp at hk12
    · exact e
  have hfR : (0 : ℝ) < t.frequency.value := by exact_mod_cast hfpos
  have hbase : ∀ r : ℝ, -(t.frequency.value : ℝ) < r → 0 < 1 + r / t.frequency.value := by
    intro r hr
    have : -1 < r / t.frequency.value := by rw [lt_div_iff₀ hfR]; linarith
    linarith
  obtain ⟨hall, hex⟩ := receivedPairs_facts hk h hτ hs hrate hpr hm
  set L := receivedPairs s t.purchaseDate τ t.frequency.value (b.coupons ++ b.principalPayments) with hL
  have hsens : ∀ r, sensitivity s t.purchaseDate τ t.frequency.value (b.coupons ++ b.principalPayments) r =
      discountedSum (L.map fun ae => (ae.2 * ae.1, ae.2 + 1)) (1 + r / t.frequency.value) / t.frequency.value := fun r => by
    rw [← discountedSlope_eq]; exact weightedSum_slope _ _ _ hfR _ _
  have hcurv : ∀ r, curvature s t.purchaseDate τ t.frequency.value (b.coupons ++ b.principalPayments) r =
      discountedSlope (L.map fun ae => (ae.2 * ae.1, ae.2 + 1)) (1 + r / t.frequency.value) / t.frequency.value /
        t.frequency.value := fun r => weightedSum_curvature _ _ _ hfR _ _
  have hd := fun r hr => (hv r hr).2
  have hmono : StrictMonoOn (fun r => -(sensitivity s t.purchaseDate τ t.frequency.value (b.coupons ++ b.principalPayments) r))
      (Set.Ioi (-(t.frequency.value : ℝ))) := fun x hx y hy hxy => neg_lt_neg (hanti hx hy hxy)
  have hpairs : (∀ a ∈ (L.map fun ae => (ae.2 * ae.1, ae.2 + 1)).map fun ae => (ae.2 * ae.1, ae.2 + 1), 0 ≤ a.1 ∧ 0 ≤ a.2) ∧
      ∃ a ∈ (L.map fun ae => (ae.2 * ae.1, ae.2 + 1)).map fun ae => (ae.2 * ae.1, ae.2 + 1), 0 < a.1 ∧ 0 < a.2 := by
    rw [List.map_map]
    constructor
    · intro a ha
      obtain ⟨c, hc, rfl⟩ := List.mem_map.1 ha
      obtain ⟨c1, c2⟩ := hall c hc
      refine ⟨mul_nonneg ?_ (mul_nonneg c2.le c1), ?_⟩ <;> dsimp only [Function.comp] <;> linarith
    · obtain ⟨c, hc, hc1⟩ := hex
      obtain ⟨-, c2⟩ := hall c hc
      refine ⟨_, List.mem_map.2 ⟨c, hc, rfl⟩, mul_pos ?_ (mul_pos c2 hc1), ?_⟩ <;> dsimp only [Function.comp] <;> linarith
  refine ⟨v, fun r hr => (hv r hr).1, ?_, ?_, ?_, ?_, ?_, ?_⟩
  · refine StrictMonoOn.strictConvexOn_of_deriv (convex_Ioi _)
      (fun r hr => (hd r hr).continuousAt.continuousWithinAt) ?_
    rw [interior_Ioi]
    intro x hx y hy hxy
    rw [(hd x hx).deriv, (hd y hy).deriv]
    exact hmono hx hy hxy
  · intro x y hx hy hne
    have := above_tangent hd hmono hx hy hne
    linarith
  · intro x δ hx hδ
    have t1 := above_tangent hd hmono (x := x) (y := x + δ) (by linarith) (by linarith) (by linarith)
    have t2 := above_tangent hd hmono (x := x) (y := x - δ) (by linarith) (by linarith) (by linarith)
    linarith
  · intro r hr
    have h1 : HasDerivAt (fun r : ℝ => 1 + r / (t.frequency.value : ℝ)) (1 / (t.frequency.value : ℝ)) r :=
      ((hasDerivAt_id r).div_const _).const_add 1
    have h2 := ((discountedSum_hasDerivAt (L.map fun ae => (ae.2 * ae.1, ae.2 + 1)) (hbase r hr)).comp r h1).div_const
      (t.frequency.value : ℝ)
    have e : sensitivity s t.purchaseDate τ t.frequency.value (b.coupons ++ b.principalPayments) =
      fun r => discountedSum (L.map fun ae => (ae.2 * ae.1, ae.2 + 1)) (1 + r / t.frequency.value) / t.frequency.value := by
      funext r; exact hsens r
    rw [e, hcurv]
    refine h2.congr_deriv ?_
    ring
  · intro r hr
    rw [hcurv, discountedSlope_eq]
    refine div_pos (div_pos ?_ hfR) hfR
    obtain ⟨a, ha, ha1, -⟩ := hpairs.2
    unfold discountedSum
    refine lt_of_lt_of_le (b := 1 / (1 + r / (t.frequency.value : ℝ)) ^ a.2 * a.1) ?_ ?_
    · have := Real.rpow_pos_of_pos (hbase r hr) a.2
      positivity
    · refine List.single_le_sum ?_ _ (List.mem_map.2 ⟨a, ha, rfl⟩)
      intro y hy
      obtain ⟨c, hc, rfl⟩ := List.mem_map.1 hy
      have := Real.rpow_pos_of_pos (hbase r hr) c.2
      have := (hpairs.1 c hc).1
      positivity
  · intro x hx y hy hxy
    rw [hcurv, hcurv, discountedSlope_eq, discountedSlope_eq]
    refine div_lt_div_of_pos_right (div_lt_div_of_pos_right ?_ hfR) hfR
    refine discountedSum_strictAnti hpairs.1 hpairs.2 (hbase x hx) ?_
    have := div_lt_div_of_pos_right hxy hfR
    linarith

/-- C118. `pv_deriv` is strictly increasing in the yield, so the reported sensitivity (its negative) falls as the yield rises;
and it always overstates the exact sensitivity: it is strictly below the derivative of the value at the yield, by at most the
change of the derivative over half a basis point. -/
theorem C118_pv_deriv (t : BondTerms) (b : Bond) (k : Int) (hk : couponMonths t.frequency = some k)
    (h : Bond.create t = .ok b) (τ : PyDate → ℚ) (s : PyDate)
    (hτ : MeasuresFrom t.dcc t.purchaseDate s τ) (hs : addBusinessDays t.calendar t.purchaseDate 1 = .ok s) (hm : s ≤ t.maturityDate)
    (hrate : 0 ≤ t.couponRate) (hpr : 0 < t.principal) :
    ∃ g : ℝ → ℝ,
      (∀ ytm, -(t.frequency.value : ℝ) + 1 / 20000 < ytm → b.pvDeriv 0 ytm = .ok (g ytm)) ∧
      StrictMonoOn g (Set.Ioi (-(t.frequency.value : ℝ) + 1 / 20000)) ∧
      ∀ ytm, -(t.frequency.value : ℝ) + 1 / 20000 < ytm →
        g ytm < -(sensitivity s t.purchaseDate τ t.frequency.value (b.coupons ++ b.principalPayments) ytm) ∧
        -(sensitivity s t.purchaseDate τ t.frequency.value (b.coupons ++ b.principalPayments) ytm) - g ytm <
          curvature s t.purchaseDate τ t.frequency.value (b.coupons ++ b.principalPayments) (ytm - 1 / 20000) / 20000 := by
  obtain ⟨v, hv, hanti, hpos, hξ⟩ := C82_derivative t b k hk h τ s hτ hs hm hrate hpr
  obtain ⟨v', hv', -, -, -, hcd, hcpos, hcanti⟩ := C118_convex t b k hk h τ s hτ hs hm hrate hpr
  have hbp : (oneBasisPoint : ℝ) = 1 / 10000 := by norm_num [oneBasisPoint]
  have hd := fun r hr => (hv r hr).2
  have hmono : StrictMonoOn (fun r => -(sensitivity s t.purchaseDate τ t.frequency.value (b.coupons ++ b.principalPayments) r))
      (Set.Ioi (-(t.frequency.value : ℝ))) := fun x hx y hy hxy => neg_lt_neg (hanti hx hy hxy)
  have hcmono : StrictMonoOn (fun r => -(curvature s t.purchaseDate τ t.frequency.value (b.coupons ++ b.principalPayments) r))
      (Set.Ioi (-(t.frequency.value : ℝ))) := fun x hx y hy hxy => neg_lt_neg (hcanti hx hy hxy)
  have hval : ∀ ytm, -(t.frequency.value : ℝ) + 1 / 20000 < ytm →
      b.pvDeriv 0 ytm = .ok ((v (ytm + 1 / 20000) - v (ytm - 1 / 20000)) / (1 / 10000)) := by
    intro ytm hy
    unfold Bond.pvDeriv
    rw [hbp, show ytm + 0 + 1 / 10000 / 2 = ytm + 1 / 20000 by ring, show ytm + 0 - 1 / 10000 / 2 = ytm - 1 / 20000 by ring,
      (hv _ (by linarith)).1, ok_bind, (hv _ (by linarith)).1, ok_bind]
  refine ⟨fun ytm => (v (ytm + 1 / 20000) - v (ytm - 1 / 20000)) / (1 / 10000), hval, ?_, ?_⟩
  · intro x hx y hy hxy
    have := chord_mono hd hmono (x := x) (y := y) (h := 1 / 20000) (by have := Set.mem_Ioi.1 hx; linarith) (by norm_num) hxy
    exact div_lt_div_of_pos_right this (by norm_num)
  · intro ytm hy
    have hc := central_overstates hd hcd hcmono (y := ytm) (h := 1 / 20000) (by linarith) (by norm_num)
    refine ⟨?_, ?_⟩
    · rw [div_lt_iff₀ (by norm_num)]; linarith
    · obtain ⟨ξ, hξ1, hξ2⟩ := hξ ytm hy
      rw [hval ytm hy] at hξ2
      injection hξ2 with hξ2
      show _ - ((v (ytm + 1 / 20000) - v (ytm - 1 / 20000)) / (1 / 10000)) < _
      rw [hξ2]
      rw [abs_lt] at hξ1
      have hlt : ξ < ytm := by
        by_contra hge
        rcases eq_or_lt_of_le (not_lt.1 hge) with e | e
        · have : (v (ytm + 1 / 20000) - v (ytm - 1 / 20000)) / (1 / 10000) <
              -(sensitivity s t.purchaseDate τ t.frequency.value (b.coupons ++ b.principalPayments) ytm) := by
            rw [div_lt_iff₀ (by norm_num)]; linarith
          rw [hξ2, ← e] at this
          exact lt_irrefl _ this
        · have h1 := hmono (Set.mem_Ioi.2 (by linarith)) (Set.mem_Ioi.2 (by linarith)) e
          have : (v (ytm + 1 / 20000) - v (ytm - 1 / 20000)) / (1 / 10000) <
              -(sensitivity s t.purchaseDate τ t.frequency.value (b.coupons ++ b.principalPayments) ytm) := by
            rw [div_lt_iff₀ (by norm_num)]; linarith
          rw [hξ2] at this
          exact lt_irrefl _ (lt_trans h1 this)
      obtain ⟨η, hη, he⟩ := exists_hasDerivAt_eq_slope _ _ hlt
        (fun r hr => (hcd r (by linarith [hr.1])).continuousAt.continuousWithinAt) (fun r hr => hcd r (by linarith [hr.1]))
      have hcη := hcanti (Set.mem_Ioi.2 (show -(t.frequency.value : ℝ) < ytm - 1 / 20000 by linarith))
        (Set.mem_Ioi.2 (by linarith [hη.1])) (show ytm - 1 / 20000 < η by linarith [hη.1, hξ1.1])
      have hηpos := hcpos η (by linarith [hη.1])
      have hdiff := (eq_div_iff (by linarith : ytm - ξ ≠ 0)).1 he
      have : curvature s t.purchaseDate τ t.frequency.value (b.coupons ++ b.principalPayments) η * (ytm - ξ) <
          curvature s t.purchaseDate τ t.frequency.value (b.coupons ++ b.principalPayments) (ytm - 1 / 20000) * (1 / 20000) := by
        refine lt_of_lt_of_le (mul_lt_mul_of_pos_right hcη (by linarith)) ?_
        refine mul_le_mul_of_nonneg_left (by linarith [hξ1.1]) (lt_trans hηpos hcη).le
      linarith

/-- C118. The second-order estimate of the value from the sensitivity and curvature at a yield `x` is too high after a rise of
the yield and too low after a fall. -/
theorem C118_second_order (t : BondTerms) (b : Bond) (k : Int) (hk : couponMonths t.frequency = some k)
    (h : Bond.create t = .ok b) (τ : PyDate → ℚ) (s : PyDate)
    (hτ : MeasuresFrom t.dcc t.purchaseDate s τ) (hs : addBusinessDays t.calendar t.purchaseDate 1 = .ok s) (hm : s ≤ t.maturityDate)
    (hrate : 0 ≤ t.couponRate) (hpr : 0 < t.principal) (x y vx vy : ℝ) (hx : -(t.frequency.value : ℝ) < x)
    (hy : -(t.frequency.value : ℝ) < y) (hvx : b.discountByFixedRate x none = .ok vx) (hvy : b.discountByFixedRate y none = .ok vy) :
    (x < y → vy < vx - sensitivity s t.purchaseDate τ t.frequency.value (b.coupons ++ b.principalPayments) x * (y - x) +
      curvature s t.purchaseDate τ t.frequency.value (b.coupons ++ b.principalPayments) x / 2 * (y - x) ^ 2) ∧
    (y < x → vx - sensitivity s t.purchaseDate τ t.frequency.value (b.coupons ++ b.principalPayments) x * (y - x) +
      curvature s t.purchaseDate τ t.frequency.value (b.coupons ++ b.principalPayments) x / 2 * (y - x) ^ 2 < vy) := by
  obtain ⟨v, hv, -⟩ := C82_derivative t b k hk h τ s hτ hs hm hrate hpr
  obtain ⟨-, -, -, -, -, hcd, hcpos, hcanti⟩ := C118_convex t b k hk h τ s hτ hs hm hrate hpr
  rw [(hv x hx).1] at hvx
  rw [(hv y hy).1] at hvy
  injection hvx with hvx
  injection hvy with hvy
  subst hvx hvy
  have hcmono : StrictMonoOn (fun r => -(curvature s t.purchaseDate τ t.frequency.value (b.coupons ++ b.principalPayments) r))
      (Set.Ioi (-(t.frequency.value : ℝ))) := fun x hx y hy hxy => neg_lt_neg (hcanti hx hy hxy)
  set S := sensitivity s t.purchaseDate τ t.frequency.value (b.coupons ++ b.principalPayments) with hS
  set C := curvature s t.purchaseDate τ t.frequency.value (b.coupons ++ b.principalPayments) with hC
  have hg : ∀ r, -(t.frequency.value : ℝ) < r → HasDerivAt (fun r => v r + S x * (r - x) - C x / 2 * (r - x) ^ 2)
      (-(S r) + S x - C x * (r - x)) r := by
    intro r hr
    have h1 : HasDerivAt (fun r : ℝ => r - x) 1 r := (hasDerivAt_id r).sub_const x
    refine (((hv r hr).2.add (h1.const_mul (S x))).sub ((h1.pow 2).const_mul (C x / 2))).congr_deriv ?_
    simp only [Nat.cast_ofNat]
    ring
  constructor
  · intro hxy
    obtain ⟨ξ, hξ, he⟩ := exists_hasDerivAt_eq_slope _ _ hxy
      (fun r hr => (hg r (lt_of_lt_of_le hx hr.1)).continuousAt.continuousWithinAt) (fun r hr => hg r (lt_trans hx hr.1))
    have ht := above_tangent hcd hcmono (x := x) (y := ξ) hx (lt_trans hx hξ.1) hξ.1.ne
    have hneg : -(S ξ) + S x - C x * (ξ - x) < 0 := by linarith
    rw [he, div_lt_iff₀ (by linarith)] at hneg
    simp only [sub_self] at hneg
    linarith
  · intro hyx
    obtain ⟨ξ, hξ, he⟩ := exists_hasDerivAt_eq_slope _ _ hyx
      (fun r hr => (hg r (lt_of_lt_of_le hy hr.1)).continuousAt.continuousWithinAt) (fun r hr => hg r (lt_trans hy hr.1))
    have ht := above_tangent hcd hcmono (x := x) (y := ξ) hx (lt_trans hy hξ.1) hξ.2.ne'
    have hneg : -(S ξ) + S x - C x * (ξ - x) < 0 := by linarith
    rw [he, div_lt_iff₀ (by linarith)] at hneg
    simp only [sub_self] at hneg
    linarith

/-- Concrete case for C118: the example note. -/
example : ∃ b, Bond.create exTerms = .ok b ∧ couponMonths exTerms.frequency = some 6 ∧
    timeAxis exTerms.dcc = some yearCoord ∧ AxisOk exTerms.dcc exTerms.purchaseDate ∧
    addBusinessDays exTerms.calendar exTerms.purchaseDate 1 = .ok (D 2023 6 2) ∧ D 2023 6 2 ≤ exTerms.maturityDate ∧
    0 ≤ exTerms.couponRate ∧ 0 < exTerms.principal ∧ ∃ vx vy : ℝ, b.discountByFixedRate 0 none = .ok vx ∧
      b.discountByFixedRate (1 / 20) none = .ok vy ∧ vy < vx := by
  obtain ⟨b, h, -⟩ := exTerms_create
  have hf : (exTerms.frequency.value : ℝ) = 2 := by norm_num [show exTerms.frequency.value = 2 from rfl]
  have hs : addBusinessDays exTerms.calendar exTerms.purchaseDate 1 = .ok (D 2023 6 2) := by decide +kernel
  obtain ⟨v, hv, hanti, hpos, -⟩ := C82_derivative exTerms b 6 (by decide +kernel) h yearCoord (D 2023 6 2)
    (measures_axis rfl (by decide +kernel) hs) hs (by decide +kernel) (by decide +kernel) (by decide +kernel)
  have ht := above_tangent (fun r hr => (hv r hr).2)
    (fun x hx y hy hxy => neg_lt_neg (hanti hx hy hxy)) (x := 1 / 20) (y := 0) (by rw [hf]; norm_num) (by rw [hf]; norm_num) (by norm_num)
  refine ⟨b, h, by decide +kernel, rfl, by decide +kernel, hs, by decide +kernel, by decide +kernel, by decide +kernel, v 0, v (1 / 20),
    (hv 0 (by rw [hf]; norm_num)).1, (hv (1 / 20) (by rw [hf]; norm_num)).1, ?_⟩
  have := hpos (1 / 20) (by rw [hf]; norm_num)
  linarith

end Verif.Props
