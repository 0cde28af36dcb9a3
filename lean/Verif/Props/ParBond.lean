/- Property C115: a bond discounted at its coupon rate is worth par. -/
import Verif.Props.Yields

namespace Verif.Props
open Verif Verif.Spec Verif.DayCount Verif.Scheduler

/-! ### Annuities with nearly periodic times -/

theorem near_lower {R ε x y : ℝ} (hR : 1 ≤ R) (h : |x - y| ≤ ε) : R ^ (-ε) * R ^ (-y) ≤ 1 / R ^ x := by
  have hR0 : 0 < R := by linarith
  rw [← Real.rpow_add hR0, one_div, ← Real.rpow_neg hR0.le]
  exact Real.rpow_le_rpow_of_exponent_le hR (by have := (abs_le.1 h).2; linarith)

theorem near_upper {R ε x y : ℝ} (hR : 1 ≤ R) (h : |x - y| ≤ ε) : 1 / R ^ x ≤ R ^ ε * R ^ (-y) := by
  have hR0 : 0 < R := by linarith
  rw [← Real.rpow_add hR0, one_div, ← Real.rpow_neg hR0.le]
  exact Real.rpow_le_rpow_of_exponent_le hR (by have := (abs_le.1 h).1; linarith)

/-- The interest `R - 1` per period at nearly periodic times from `m` on is worth the difference of two nearly discounted units. -/
theorem annuity_near_par {R ε : ℝ} (hR : 1 ≤ R) {α : Type} (x : α → ℝ) : ∀ (l : List α) (m : ℝ),
    (∀ (j : Nat) p, l[j]? = some p → |x p - (m + j)| ≤ ε) →
    R ^ (-ε) * (R ^ (1 - m) - R ^ (1 - m - l.length)) ≤ (R - 1) * (l.map fun p => 1 / R ^ x p).sum ∧
    (R - 1) * (l.map fun p => 1 / R ^ x p).sum ≤ R ^ ε * (R ^ (1 - m) - R ^ (1 - m - l.length))
  | [], m, _ => by simp
  | p :: l, m, h => by
    have hR0 : 0 < R := by linarith
    obtain ⟨i1, i2⟩ := annuity_near_par hR x l (m + 1) (fun j q hq => by
      have := h (j + 1) q (by simpa using hq)
      push_cast at this
      rwa [show m + 1 + (j : ℝ) = m + (j + 1) by ring])
    have h0 := h 0 p (by simp)
    simp only [Nat.cast_zero, add_zero] at h0
    have e1 := near_lower hR h0
    have e2 := near_upper hR h0
    have hstep : (R - 1) * R ^ (-m) = R ^ (1 - m) - R ^ (1 - (m + 1)) := by
      rw [show (1 : ℝ) - (m + 1) = -m by ring, show (1 : ℝ) - m = 1 + -m by ring, Real.rpow_add hR0, Real.rpow_one]; ring
    have hl : (1 : ℝ) - (m + 1) - l.length = 1 - m - (p :: l).length := by
      rw [List.length_cons]; push_cast; ring
    rw [hl] at i1 i2
    rw [List.map_cons, List.sum_cons, mul_add]
    have hq : 0 ≤ R - 1 := by linarith
    have a1 := mul_le_mul_of_nonneg_left e1 hq
    have a2 := mul_le_mul_of_nonneg_left e2 hq
    have b1 : (R - 1) * (R ^ (-ε) * R ^ (-m)) = R ^ (-ε) * (R ^ (1 - m) - R ^ (1 - (m + 1))) := by rw [← hstep]; ring
    have b2 : (R - 1) * (R ^ ε * R ^ (-m)) = R ^ ε * (R ^ (1 - m) - R ^ (1 - (m + 1))) := by rw [← hstep]; ring
    rw [b1] at a1
    rw [b2] at a2
    constructor <;> nlinarith

theorem weightedSum_filter {s : PyDate} (w : BondPayment → ℝ) (l : List BondPayment) :
    weightedSum (fun p => s ≤ p.unadjusted) w l = ((l.filter fun p => decide (s ≤ p.unadjusted)).map w).sum := by
  unfold weightedSum
  induction l with
  | nil => rfl
  | cons p l ih => by_cases hp : s ≤ p.unadjusted <;> simp [hp, ih]

/-! ### C115 -/

/-- The payments still due at `s`, the first of them `w` coupon periods after `ref` and the others one period apart, up to `ε` periods;
the principal is repaid with the last coupon, up to `ε` periods (times along the axis `τ` in years, `f` periods a year). -/
structure NearlyPeriodic (b : Bond) (τ : PyDate → ℚ) (f : Nat) (ref s : PyDate) (w ε : ℚ) : Prop where
  some_due : (b.coupons.filter fun p => decide (s ≤ p.unadjusted)) ≠ []
  coupons : ∀ (j : Nat) p, (b.coupons.filter fun p => decide (s ≤ p.unadjusted))[j]? = some p →
    |f * (τ p.date - τ ref) - (w + j)| ≤ ε
  principal : ∀ p ∈ b.principalPayments,
    |f * (τ p.date - τ ref) - (w + ((b.coupons.filter fun p => decide (s ≤ p.unadjusted)).length - 1))| ≤ ε

/-- C115. Discounted at a nonnegative rate of at most its coupon rate, a bond is worth at least par compounded since the last coupon;
at a rate of at least its coupon rate, at most that; in both cases up to the compounding over `ε` periods, the largest deviation of a
payment time from the regular one. -/
theorem C115_premium_discount (t : BondTerms) (b : Bond) (k : Int) (hk : couponMonths t.frequency = some k)
    (h : Bond.create t = .ok b) (τ : PyDate → ℚ) (ref s : PyDate)
    (hτ : MeasuresFrom t.dcc ref s τ) (hs : addBusinessDays t.calendar ref 1 = .ok s) (hm : s ≤ t.maturityDate)
    (hrate : 0 ≤ t.couponRate) (hpr : 0 < t.principal) (w ε : ℚ) (hper : NearlyPeriodic b τ t.frequency.value ref s w ε)
    (r : ℝ) (hr : 0 ≤ r) :
    ∃ v, b.discountByFixedRate r (some ref) = .ok v ∧
      (r ≤ t.couponRate / 100 → t.principal * (1 + r / t.frequency.value) ^ (1 - (w : ℝ) - ε) ≤ v) ∧
      ((t.couponRate : ℝ) / 100 ≤ r → v ≤ t.principal * (1 + r / t.frequency.value) ^ (1 - (w : ℝ) + ε)) := by
  obtain ⟨v, hv, -, -, -⟩ := C37_yield_unique t b k hk h τ ref s hτ hs hm hrate hpr
  obtain ⟨ht, -, hc, hp, -⟩ := create_ok h
  obtain ⟨-, hkpos, hk12⟩ := increment_months hk
  have hfpos : 0 < t.frequency.value := by
    rcases Nat.eq_zero_or_pos t.frequency.value with e | e
    · rw [e] at hk12; simp at hk12
    · exact e
  have hfR : (0 : ℝ) < t.frequency.value := by exact_mod_cast hfpos
  obtain ⟨hv1, hv2⟩ := hv r (by linarith)
  refine ⟨v r, hv1, ?_⟩
  obtain ⟨stop, L, -, -, -, -, hamt⟩ := couponCashflow_spec hk hc
  obtain ⟨a, -, hpp⟩ := principalCashflow_ok hp
  have hcp : t.couponPayment = t.principal * t.couponRate / (100 * t.frequency.value) := by
    unfold BondTerms.couponPayment
    cases hf : t.frequency <;> simp [hf, couponMonths] at hk ⊢
  rw [hv2, weightedSum_append, annuity_amounts (fun p hp => (hamt p hp).1), annuity_amounts (x := t.principal) (by rw [hpp]; simp), hcp]
  have hR : 1 ≤ 1 + r / t.frequency.value := by
    have : 0 ≤ r / t.frequency.value := div_nonneg hr hfR.le
    linarith
  have hR0 : 0 < 1 + r / t.frequency.value := by linarith
  have hRr : r = (1 + r / t.frequency.value - 1) * t.frequency.value := by field_simp; ring
  unfold annuity
  rw [weightedSum_filter, weightedSum_filter, hpp]
  have hfil : ([(⟨t.maturityDate, a, t.principal⟩ : BondPayment)].filter fun p => decide (s ≤ p.unadjusted)) =
      [⟨t.maturityDate, a, t.principal⟩] := by simp [hm]
  rw [hfil]
  simp only [List.map_cons, List.map_nil, List.sum_cons, List.sum_nil, add_zero]
  obtain ⟨n1, n2, n3⟩ := hper
  have n3 := n3 ⟨t.maturityDate, a, t.principal⟩ (by rw [hpp]; simp)
  generalize hR' : 1 + r / (t.frequency.value : ℝ) = R at *
  generalize (b.coupons.filter fun p => decide (s ≤ p.unadjusted)) = due at *
  have n2' : ∀ (j : Nat) p, due[j]? = some p → |((τ p.date - τ ref : ℚ) : ℝ) * t.frequency.value - ((w : ℝ) + j)| ≤ (ε : ℝ) := by
    intro j p hj
    have := n2 j p hj
    rw [mul_comm]
    exact_mod_cast this
  have n3' : |((τ a - τ ref : ℚ) : ℝ) * t.frequency.value - ((w : ℝ) + (due.length - 1))| ≤ (ε : ℝ) := by
    rw [mul_comm]
    exact_mod_cast n3
  obtain ⟨A1, A2⟩ := annuity_near_par hR (fun p : BondPayment => ((τ p.date - τ ref : ℚ) : ℝ) * t.frequency.value) due w n2'
  have P1 := near_lower hR n3'
  have P2 := near_upper hR n3'
  have hexp : -((w : ℝ) + (due.length - 1)) = 1 - w - due.length := by ring
  rw [hexp] at P1 P2
  have hprR : (0 : ℝ) < t.principal := by exact_mod_cast hpr
  have hS : 0 ≤ (due.map fun p : BondPayment => 1 / R ^ (((τ p.date - τ ref : ℚ) : ℝ) * t.frequency.value)).sum := by
    refine List.sum_nonneg fun y hy => ?_
    obtain ⟨p, -, rfl⟩ := List.mem_map.1 hy
    exact div_nonneg zero_le_one (Real.rpow_nonneg hR0.le _)
  generalize (due.map fun p : BondPayment => 1 / R ^ (((τ p.date - τ ref : ℚ) : ℝ) * t.frequency.value)).sum = S at *
  generalize 1 / R ^ (((τ a - τ ref : ℚ) : ℝ) * (t.frequency.value : ℝ)) = Q at *
  have hamount : ((t.principal * t.couponRate / (100 * t.frequency.value) : ℚ) : ℝ) =
      t.principal * (t.couponRate / 100 / t.frequency.value) := by push_cast; field_simp
  rw [hamount]
  have el : R ^ (1 - (w : ℝ) - ε) = R ^ (-(ε : ℝ)) * R ^ (1 - (w : ℝ)) := by rw [← Real.rpow_add hR0]; ring_nf
  have eu : R ^ (1 - (w : ℝ) + ε) = R ^ (ε : ℝ) * R ^ (1 - (w : ℝ)) := by rw [← Real.rpow_add hR0]; ring_nf
  constructor
  · intro hle
    have hq : R - 1 ≤ t.couponRate / 100 / t.frequency.value := by
      rw [le_div_iff₀ hfR]; rw [hRr] at hle; exact hle
    have := mul_le_mul_of_nonneg_right hq hS
    rw [el]
    nlinarith
  · intro hle
    have hq : t.couponRate / 100 / t.frequency.value ≤ R - 1 := by
      rw [div_le_iff₀ hfR]; rw [hRr] at hle; exact hle
    have := mul_le_mul_of_nonneg_right hq hS
    rw [eu]
    nlinarith

/-- C115. Discounted at its own coupon rate a bond with exactly periodic payment times is worth par on a coupon date, and par compounded
since the last coupon otherwise. -/
theorem C115_par (t : BondTerms) (b : Bond) (k : Int) (hk : couponMonths t.frequency = some k)
    (h : Bond.create t = .ok b) (τ : PyDate → ℚ) (ref s : PyDate)
    (hτ : MeasuresFrom t.dcc ref s τ) (hs : addBusinessDays t.calendar ref 1 = .ok s) (hm : s ≤ t.maturityDate)
    (hrate : 0 ≤ t.couponRate) (hpr : 0 < t.principal) (w : ℚ) (hper : NearlyPeriodic b τ t.frequency.value ref s w 0) :
    b.discountByFixedRate (t.couponRate / 100 : ℝ) (some ref) =
      .ok (t.principal * (1 + t.couponRate / 100 / t.frequency.value) ^ (1 - (w : ℝ))) ∧
    (w = 1 → b.discountByFixedRate (t.couponRate / 100 : ℝ) (some ref) = .ok (t.principal : ℝ)) := by
  have hr : (0 : ℝ) ≤ t.couponRate / 100 := by have : (0 : ℝ) ≤ t.couponRate := by exact_mod_cast hrate
                                               positivity
  obtain ⟨v, hv, h1, h2⟩ := C115_premium_discount t b k hk h τ ref s hτ hs hm hrate hpr w 0 hper _ hr
  have h1 := h1 le_rfl
  have h2 := h2 le_rfl
  simp only [Rat.cast_zero, sub_zero, add_zero] at h1 h2
  have e := le_antisymm h2 h1
  refine ⟨by rw [hv, e], fun hw => ?_⟩
  rw [hv, e, hw]
  simp

/-- C115. With exactly periodic times, seen from a coupon date, the yield to maturity is below the coupon rate exactly when the full
price is above 100, above it exactly when the price is below, and equal to it exactly at 100. -/
theorem C115_yield (t : BondTerms) (b : Bond) (k : Int) (hk : couponMonths t.frequency = some k)
    (h : Bond.create t = .ok b) (τ : PyDate → ℚ) (ref s : PyDate)
    (hτ : MeasuresFrom t.dcc ref s τ) (hs : addBusinessDays t.calendar ref 1 = .ok s) (hm : s ≤ t.maturityDate)
    (hrate : 0 ≤ t.couponRate) (hpr : 0 < t.principal) (hper : NearlyPeriodic b τ t.frequency.value ref s 1 0)
    (r : ℝ) (hr : -(t.frequency.value : ℝ) < r) (hy : b.diffFromFullPrice (some ref) r = .ok 0) :
    (r < t.couponRate / 100 ↔ 100 < b.fullPrice) ∧ ((t.couponRate : ℝ) / 100 < r ↔ b.fullPrice < 100) ∧
    (r = t.couponRate / 100 ↔ b.fullPrice = 100) := by
  obtain ⟨v, hv, hanti, -, -⟩ := C37_yield_unique t b k hk h τ ref s hτ hs hm hrate hpr
  have ht := (create_ok h).1
  obtain ⟨-, hpar⟩ := C115_par t b k hk h τ ref s hτ hs hm hrate hpr 1 hper
  have hpar := hpar rfl
  have hcr : (0 : ℝ) ≤ t.couponRate := by exact_mod_cast hrate
  have hf0 : (0 : ℝ) ≤ t.frequency.value := Nat.cast_nonneg _
  obtain ⟨-, hkpos, hk12⟩ := increment_months hk
  have hfpos : 0 < t.frequency.value := by
    rcases Nat.eq_zero_or_pos t.frequency.value with e | e
    · rw [e] at hk12; simp at hk12
    · exact e
  have hfR : (0 : ℝ) < t.frequency.value := by exact_mod_cast hfpos
  have hc : -(t.frequency.value : ℝ) < t.couponRate / 100 := by
    have : (0 : ℝ) ≤ t.couponRate / 100 := by positivity
    linarith
  rw [(hv _ hc).1] at hpar
  injection hpar with hpar
  unfold Bond.diffFromFullPrice at hy
  simp only [Option.getD_some] at hy
  rw [(hv r hr).1, ok_bind, ht] at hy
  injection hy with hy
  have hval : v r = b.fullPrice / 100 * t.principal := by push_cast at hy; linarith
  have hprR : (0 : ℝ) < t.principal := by exact_mod_cast hpr
  have key1 : (r < t.couponRate / 100 ↔ 100 < b.fullPrice) := by
    rw [← hanti.lt_iff_gt hc hr, hpar, hval]
    rw [show (100 < b.fullPrice) ↔ ((100 : ℝ) < b.fullPrice) by exact_mod_cast Iff.rfl]
    constructor <;> intro hh <;> nlinarith
  have key2 : ((t.couponRate : ℝ) / 100 < r ↔ b.fullPrice < 100) := by
    rw [← hanti.lt_iff_gt hr hc, hpar, hval]
    rw [show (b.fullPrice < 100) ↔ ((b.fullPrice : ℝ) < 100) by exact_mod_cast Iff.rfl]
    constructor <;> intro hh <;> nlinarith
  refine ⟨key1, key2, ?_⟩
  constructor
  · intro e
    rcases lt_trichotomy b.fullPrice 100 with hl | hl | hl
    · exact absurd (key2.2 hl) (by rw [e]; exact lt_irrefl _)
    · exact hl
    · exact absurd (key1.2 hl) (by rw [e]; exact lt_irrefl _)
  · intro e
    rcases lt_trichotomy r (t.couponRate / 100) with hl | hl | hl
    · exact absurd (key1.1 hl) (by rw [e]; exact lt_irrefl _)
    · exact hl
    · exact absurd (key2.1 hl) (by rw [e]; exact lt_irrefl _)

/-- A two-year annual note bought on its dated date, 15 March 2021; no leap day and no holiday falls into its schedule. -/
def exPar : BondTerms := { exTerms with frequency := .annual, couponRate := 5, purchaseDate := D 2021 3 15, maturityDate := D 2023 3 15 }

theorem exPar_create : ∃ b, Bond.create exPar = .ok b ∧
    b.coupons = [⟨D 2022 3 15, D 2022 3 15, 5⟩, ⟨D 2023 3 15, D 2023 3 15, 5⟩] ∧
    b.principalPayments = [⟨D 2023 3 15, D 2023 3 15, 100⟩] := by
  have h1 : exPar.datedDate = .ok (D 2021 3 15) := by decide +kernel
  have hc : exPar.couponCashflow (D 2021 3 15) = .ok [⟨D 2022 3 15, D 2022 3 15, 5⟩, ⟨D 2023 3 15, D 2023 3 15, 5⟩] := by decide +kernel
  have h2 : exPar.principalCashflow = .ok [⟨D 2023 3 15, D 2023 3 15, 100⟩] := by decide +kernel
  have h3 : calculateSettlementDate exPar.calendar exPar.purchaseDate exPar.settlementConvention = .ok (D 2021 3 16) := by decide +kernel
  have h4 : Bond.accruedInterestOf exPar (D 2021 3 15) [⟨D 2022 3 15, D 2022 3 15, 5⟩, ⟨D 2023 3 15, D 2023 3 15, 5⟩]
      (D 2021 3 16) none = .ok (5 / 365) := by decide +kernel
  have h5 : pyDiv (5 / 365) exPar.principal = .ok (5 / 365 / 100) := pyDiv_of_ne (by decide +kernel)
  exact ⟨_, by
    unfold Bond.create
    rw [h1, ok_bind, hc, ok_bind, h2, ok_bind, h3, ok_bind, h4, ok_bind, h5, ok_bind], rfl, rfl⟩

/-- Concrete case for C115_par and C115_yield: the annual note at 5% is worth exactly 100. -/
example : ∃ b, Bond.create exPar = .ok b ∧ NearlyPeriodic b yearCoord exPar.frequency.value (D 2021 3 15) (D 2021 3 16) 1 0 ∧
    b.discountByFixedRate (5 / 100) (some (D 2021 3 15)) = .ok 100 := by
  obtain ⟨b, hb, h1, h2⟩ := exPar_create
  have hper : NearlyPeriodic b yearCoord exPar.frequency.value (D 2021 3 15) (D 2021 3 16) 1 0 := by
    have hf : (b.coupons.filter fun p => decide (D 2021 3 16 ≤ p.unadjusted)) =
        [⟨D 2022 3 15, D 2022 3 15, 5⟩, ⟨D 2023 3 15, D 2023 3 15, 5⟩] := by rw [h1]; decide +kernel
    refine ⟨by rw [hf]; simp, ?_, ?_⟩
    · rw [hf]
      intro j p hj
      rcases j with _ | _ | j
      · simp only [List.getElem?_cons_zero, Option.some.injEq] at hj
        subst hj; decide +kernel
      · simp only [List.getElem?_cons_succ, List.getElem?_cons_zero, Option.some.injEq] at hj
        subst hj; decide +kernel
      · simp at hj
    · rw [hf, h2]
      intro p hp
      simp only [List.mem_singleton] at hp
      subst hp; decide +kernel
  refine ⟨b, hb, hper, ?_⟩
  have := (C115_par exPar b 12 (by decide +kernel) hb yearCoord (D 2021 3 15) (D 2021 3 16)
    (measures_axis (cal := exPar.calendar) rfl (by decide +kernel) (by decide +kernel)) (by decide +kernel)
    (by decide +kernel) (by decide +kernel) (by decide +kernel) 1 hper).2 rfl
  simpa [exPar, exTerms] using this

/-- Concrete case for C115_premium_discount: the semiannual example note, seen from its purchase date; no payment is more than a tenth
of a period off. -/
example : ∃ b, Bond.create exTerms = .ok b ∧
    NearlyPeriodic b yearCoord exTerms.frequency.value (D 2023 6 1) (D 2023 6 2) (150 / 365) (1 / 10) := by
  obtain ⟨b, hb, -, -, h1, h2, -⟩ := exTerms_create
  have hf : (b.coupons.filter fun p => decide (D 2023 6 2 ≤ p.unadjusted)) =
      [⟨D 2023 8 15, D 2023 8 15, 2⟩, ⟨D 2024 2 15, D 2024 2 15, 2⟩, ⟨D 2024 8 15, D 2024 8 15, 2⟩,
        ⟨D 2025 2 15, D 2025 2 18, 2⟩] := by rw [h1]; decide +kernel
  refine ⟨b, hb, by rw [hf]; simp, ?_, ?_⟩
  · rw [hf]
    intro j p hj
    rcases j with _ | _ | _ | _ | j <;> simp only [List.getElem?_cons_zero, List.getElem?_cons_succ, Option.some.injEq] at hj
    all_goals first | (subst hj; decide +kernel) | (simp at hj)
  · rw [hf, h2]
    intro p hp
    simp only [List.mem_singleton] at hp
    subst hp; decide +kernel

end Verif.Props
