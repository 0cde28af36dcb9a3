/- Property C128, continued: the link to the exact model, double precision, and examples. -/
import Verif.Props.RoundedRisk
import Verif.Props.CurveFactory

namespace Verif.Props
open Verif Verif.Spec Verif.DayCount Verif.KeyRateCollection

/-! ## Exact arithmetic -/

theorem rounded_interpolate_id {values : List Knot} {dcc : DayCountConvention} {ref : PyDate} (h : CurveInput values dcc ref)
    (linear : Bool) {left right : EndBehavior} {c : Curve}
    (hc : Curve.create values (if linear then .linear else .previous) dcc (some ref) left right = .ok c) (adj : Adjustment)
    (d : PyDate) (hd : right = .error ∨ ∃ k ∈ values, d ≤ k.date) :
    Rounded.interpolate id values dcc ref linear left (fun d => adj (.date d)) d = c.interpolate d adj := by
  obtain ⟨τ, hτ⟩ := h.axis
  rw [create_curve hτ h.refOk h.notBefore] at hc
  injection hc with hc
  subst hc
  have hgrid : Rounded.makeGrid id ref dcc (pySorted Knot.date values) = Curve.makeGrid ref dcc (pySorted Knot.date values) := by
    unfold Rounded.makeGrid Curve.makeGrid Curve.axis
    simp only [rounded_accrual_id]
  unfold Rounded.interpolate Curve.interpolate
  rw [hgrid, makeGrid_axis hτ h.refOk (fun k hk => h.notBefore k ((pySorted_perm Knot.date values).mem_iff.1 hk)), rounded_accrual_id]
  obtain ⟨first, last, hf, hla, -, -, -, hmax⟩ := first_knot h.nonempty h.distinct
  simp only [hf, hla, ok_bind]
  by_cases h1 : d < first.date
  · rw [if_pos h1, if_pos h1]; cases left <;> simp only [id]
  · rw [if_neg h1, if_neg h1]
    by_cases h2 : last.date < d
    · rw [if_pos h2, if_pos h2]
      rcases hd with rfl | ⟨k, hk, hkd⟩
      · rfl
      · exact absurd (le_trans hkd (hmax k hk)) (not_le.2 h2)
    · rw [if_neg h2, if_neg h2]
      cases linear
      · simp only [Bool.false_eq_true, if_false, Curve.interpolator, Curve.axis, id]
      · simp only [if_true, rounded_linear_id, Curve.interpolator, Curve.axis, id]

/-- Key-rate risk with exact arithmetic, for any way of computing values. -/
theorem pv01Of_exact {exp : ℚ → ℚ} {yc yc' : YieldCurve} (hs : Settings exp yc) (hu : Used exp yc yc') (asset : PresentValueable)
    (value : (PyDate → Except PyErr ℚ) → Except PyErr ℚ)
    (hv : ∀ adj : Adjustment, (yc.presentValue exp asset adj).1 = value (fun d => adj (.date d))) (k : KeyRate) :
    (yc'.pv01Risk exp asset k).1 = (Rounded.pv01Of id value k).map (fun r => ⟨k.keyDate, r, .usTreasury⟩) := by
  have hd := (keyRateDeriv_eq hs hu asset k)
  have hb : ∀ b, bumpedValue exp yc asset k b =
      value (Rounded.keyRateCall id (k.setBumpVal b)) := by
    intro b
    unfold bumpedValue
    rw [← (presentValue_used hs Used.start asset _).1, hv]
    congr 1
    funext d
    exact (C95_exact.2.1 _ _).symm
  have h1 := hd.1
  have h2 := hd.2.2.2
  have hbp : oneBasisPoint ≠ 0 := by norm_num [oneBasisPoint]
  rw [hb, hb] at h1
  unfold YieldCurve.pv01Risk Rounded.pv01Of
  simp only [id]
  rcases hr : yc'.keyRateDeriv exp asset k with ⟨r, y1, k1⟩
  rw [hr] at h1 h2
  simp only at h1 h2 ⊢
  have hdiv : ∀ x, Rounded.div id x oneBasisPoint = .ok (x / oneBasisPoint) := fun x => Rounded.div_of_ne hbp
  generalize value
      (Rounded.keyRateCall id (k.setBumpVal (-oneBasisPoint / 2))) = A at h1 ⊢
  generalize value
      (Rounded.keyRateCall id (k.setBumpVal (oneBasisPoint / 2))) = B at h1 ⊢
  cases A with
  | error e => rw [error_bind] at h1; subst h1; rfl
  | ok down =>
    cases B with
    | error e => rw [ok_bind, error_bind] at h1; subst h1; rfl
    | ok up =>
      rw [ok_bind, ok_bind, pyDiv, if_neg hbp] at h1
      subst h1
      have hk1 := h2 _ rfl
      subst hk1
      rw [ok_bind, ok_bind, hdiv, ok_bind]
      rfl

/-- C128. With exact arithmetic the rounded pricing and risk functions are the exact ones the other properties are about, whatever the
curve was used for before, and whatever the adjustment. -/
theorem C128_exact (exp : ℚ → ℚ) (values : List Knot) (dcc : DayCountConvention) (ref : PyDate) (linear : Bool)
    (left right : EndBehavior) (h : CurveInput values dcc ref) (yc yc' : YieldCurve)
    (hyc : YieldCurve.create values [] (if linear then .linear else .previous) dcc .continuouslyCompoundedYield ref left right = .ok yc)
    (hu : Used exp yc yc') (schedule : List Payment) :
    (∀ adj : Adjustment, (yc'.presentValue exp (Cashflow.presentValue schedule) adj).1 =
      Rounded.yieldPresentValue id exp values dcc ref linear left schedule (fun d => adj (.date d))) ∧
    ∀ k : KeyRate, (yc'.pv01Risk exp (Cashflow.presentValue schedule) k).1 =
      (Rounded.pv01 id exp values dcc ref linear left schedule k).map (fun r => ⟨k.keyDate, r, .usTreasury⟩) := by
  obtain ⟨hs, base, hbase, rfl⟩ := settings_create (exp := exp) hyc
  obtain ⟨τ, hτ⟩ := h.axis
  have hcc := hbase
  rw [create_curve hτ h.refOk h.notBefore] at hcc
  injection hcc with hcc
  obtain ⟨first, last, hf, hla, -, hlm, -, hmax⟩ := first_knot h.nonempty h.distinct
  have value : ∀ (yc'' : YieldCurve), Used exp ⟨base, .continuouslyCompoundedYield, none⟩ yc'' → ∀ adj : Adjustment,
      (yc''.presentValue exp (Cashflow.presentValue schedule) adj).1 =
      Rounded.yieldPresentValue id exp values dcc ref linear left schedule (fun d => adj (.date d)) := by
    intro yc'' hu adj
    have hpu := presentValue_used hs hu (Cashflow.presentValue schedule) adj
    rw [hpu.1]
    obtain ⟨dates, hdates, hnodup, hmem⟩ := dateRange_ok ref last.date (h.notBefore last hlm)
    have hk : YieldCurve.yieldKnots exp ⟨base, .continuouslyCompoundedYield, none⟩ adj =
        Rounded.yieldKnots id exp values dcc ref linear left (fun d => adj (.date d)) := by
      unfold YieldCurve.yieldKnots Rounded.yieldKnots
      have e1 : base.knots.getLast? = some last := by rw [← hcc]; exact hla
      have e2 : base.referenceDate = ref := by rw [← hcc]
      have e3 : base.dcc = dcc := by rw [← hcc]
      simp only [e1, e2, e3, hla, hdates, ok_bind]
      have e4 : (fun d => Rounded.accrual id ref d dcc) = Curve.axis ref dcc := by
        funext d; rw [rounded_accrual_id]; rfl
      rw [e4, collect_congr_mem (g := fun d => base.interpolate d adj) (fun d hd => rounded_interpolate_id h linear hbase adj d
        (Or.inr ⟨last, hlm, ((hmem d).1 hd).2⟩))]
      rfl
    unfold YieldCurve.presentValue YieldCurve.toDiscountCurve Rounded.yieldPresentValue
    rw [← hk]
    cases hx : YieldCurve.yieldKnots exp ⟨base, .continuouslyCompoundedYield, none⟩ adj with
    | error e => simp only [error_bind]
    | ok knots =>
      have hmap : knots.map Knot.date = dates := by
        have e1 : base.knots.getLast? = some last := by rw [← hcc]; exact hla
        have e2 : base.referenceDate = ref := by rw [← hcc]
        unfold YieldCurve.yieldKnots at hx
        simp only [e1, e2, hdates, ok_bind] at hx
        rw [bind_ok] at hx; obtain ⟨as, has, hx⟩ := hx
        rw [bind_ok] at hx; obtain ⟨ys, hys, hx⟩ := hx
        injection hx with hx
        have la := collect_length has
        have ly := collect_length hys
        subst hx
        refine List.ext_getElem (by simp [la, ly]) fun i h1 h2 => ?_
        simp
      have hin : CurveInput knots dcc ref := by
        refine ⟨h.convention, h.refOk, ?_, by rw [hmap]; exact hnodup, fun k hk => ?_⟩
        · rintro rfl
          have := (hmem ref).2 ⟨le_refl _, h.notBefore last hlm⟩
          rw [← hmap] at this
          simp at this
        · have : k.date ∈ dates := by rw [← hmap]; exact List.mem_map_of_mem hk
          exact ((hmem _).1 this).1
      have e2 : base.referenceDate = ref := by rw [← hcc]
      have e3 : base.dcc = dcc := by rw [← hcc]
      obtain ⟨dc, hdc, -⟩ := (C27_builds knots .linear dcc .error .error).1 ref hin
      have href : dc.referenceDate = ref := by
        rw [create_curve hτ hin.refOk hin.notBefore] at hdc
        injection hdc with hdc
        rw [← hdc]
      simp only [YieldCurve.storeDiscount, e2, e3, hdc, ok_bind]
      rw [C95_exact.2.2.2.1]
      congr 1
      unfold Curve.toDiscountFn
      rw [href]
      congr 1
      funext d
      exact (rounded_interpolate_id hin true hdc noAdjustment d (Or.inl rfl)).symm
  refine ⟨value yc' hu, fun k => ?_⟩
  exact pv01Of_exact hs hu _ _ (value _ Used.start) k

/-! ## Double precision -/

/-- There is a float exponential function that is accurate to a few units in the last place. -/
theorem exists_floatExp : ∃ exp, FloatExp nearest53 exp (1 / 2 ^ 50) := by
  have hq : ∀ x : ℚ, ∃ q : ℚ, Real.exp x < q ∧ (q : ℝ) < Real.exp x + 1 / 2 ^ 60 := fun x =>
    exists_rat_btwn (by have : (0 : ℝ) < 1 / 2 ^ 60 := by positivity
                        linarith)
  choose q h1 h2 using hq
  refine ⟨fun x => nearest53 (q x), fun x => rounding_nearest53.idem _, fun x hx => ?_, by norm_num⟩
  have q0 : (0 : ℝ) < q x := lt_trans (Real.exp_pos _) (h1 x)
  have q0' : 0 < q x := by exact_mod_cast q0
  have hx1 : (x : ℝ) ≤ 1 := by exact_mod_cast hx
  have he : Real.exp x ≤ 3 := le_trans (Real.exp_le_exp.2 hx1) (by have := Real.exp_one_lt_d9; linarith)
  have h60 : (1 : ℝ) / 2 ^ 60 ≤ 1 := by norm_num
  have hq4 : (q x : ℝ) ≤ 4 := by have := h2 x; linarith
  have e1 := rounding_nearest53.abs_err (q x)
  rw [abs_of_pos q0'] at e1
  have e2 := (Rat.cast_le (K := ℝ)).2 e1
  push_cast at e2
  have ht := (Rat.cast_le (K := ℝ)).2 rounding_nearest53.tiny_small
  push_cast at ht
  have e3 : |(nearest53 (q x) : ℝ) - Real.exp x| ≤ |(nearest53 (q x) : ℝ) - q x| + |(q x : ℝ) - Real.exp x| := abs_sub_le _ _ _
  have e4 : |(q x : ℝ) - Real.exp x| ≤ 1 / 2 ^ 60 := by
    rw [abs_of_pos (by have := h1 x; linarith)]; have := h2 x; linarith
  have e5 : (1 : ℝ) / 2 ^ 53 * q x ≤ 1 / 2 ^ 53 * 4 := mul_le_mul_of_nonneg_left hq4 (by positivity)
  have e6 : (1 : ℝ) / 2 ^ 53 * 4 + 2 * (1 / 2 ^ 100) + 1 / 2 ^ 60 ≤ 1 / 2 ^ 50 := by norm_num
  push_cast
  linarith

theorem nearest53_two_zpow (e : ℤ) : nearest53 ((2 : ℚ) ^ e) = (2 : ℚ) ^ e := by
  rw [nearest53_of_pos (by positivity), near53_two_zpow]

theorem totalSize_nonneg (ref : PyDate) (schedule : List Payment) : 0 ≤ totalSize ref schedule := by
  refine List.sum_nonneg fun x hx => ?_
  obtain ⟨p, -, rfl⟩ := List.mem_map.1 hx
  unfold countedSize
  cases p.amount with
  | none => exact le_refl _
  | some a => dsimp only; split_ifs <;> [exact abs_nonneg _; exact le_refl _]

theorem tiny_double : (10000 : ℚ) * (1 / 2 ^ 1022) ≤ 1 / 10 ^ 70 := by
  have h1 : (1 : ℚ) / 2 ^ 1022 ≤ 1 / 2 ^ 250 :=
    one_div_le_one_div_of_le (by positivity) (pow_le_pow_right₀ (by norm_num) (by norm_num))
  have h2 : (10000 : ℚ) * (1 / 2 ^ 250) ≤ 1 / 10 ^ 70 := by norm_num
  linarith

theorem valueError_double {A : ℚ} (hA : 0 ≤ A) {n : Nat} (hn : n ≤ 1000) :
    valueError (1 / 2 ^ 53) (1 / 2 ^ 1022) (1 / 2 ^ 50) 40 (1 / 8) A n ≤ 3 / 10 ^ 9 * A + 1 / 10 ^ 70 := by
  have hn' : (n : ℚ) ≤ 1000 := by exact_mod_cast hn
  have ht := tiny_double
  have t0 : (0 : ℚ) < 1 / 2 ^ 1022 := by positivity
  have ts : (1 : ℚ) / 2 ^ 1022 ≤ 1 / 2 ^ 250 :=
    one_div_le_one_div_of_le (by positivity) (pow_le_pow_right₀ (by norm_num) (by norm_num))
  unfold valueError scheduleError factorError
  generalize (1 : ℚ) / 2 ^ 1022 = t at *
  have e1 : 121000 * (40 : ℚ) ^ 2 * (1 / 8) * (1 / 2 ^ 53) + 2 ^ 67 * 40 * t + 1 / 2 ^ 50 + (8 * n + 3) * (1 / 2 ^ 53) ≤ 3 / 10 ^ 9 := by
    have : (8 * (n : ℚ) + 3) * (1 / 2 ^ 53) ≤ (8 * 1000 + 3) * (1 / 2 ^ 53) := mul_le_mul_of_nonneg_right (by linarith) (by norm_num)
    have e2 : 121000 * (40 : ℚ) ^ 2 * (1 / 8) * (1 / 2 ^ 53) + 2 ^ 67 * 40 * (1 / 2 ^ 250) + 1 / 2 ^ 50 + (8 * 1000 + 3) * (1 / 2 ^ 53) ≤ 3 / 10 ^ 9 := by
      norm_num
    linarith
  have e3 := mul_le_mul_of_nonneg_left e1 hA
  have e4 : (n : ℚ) * t ≤ 1000 * t := mul_le_mul_of_nonneg_right hn' t0.le
  linarith

/-- C128. In double precision, with an exponential function accurate to four units in the last place, on a curve of yields up to 12.5%
and up to 40 years long, the value of at most 1000 payments is accurate to three billionths of their total size. -/
theorem C128_double {exp : ℚ → ℚ} (E : FloatExp nearest53 exp (1 / 2 ^ 50)) (values : List Knot) (dcc : DayCountConvention)
    (ref : PyDate) (τ : PyDate → ℚ) (left right : EndBehavior) (h : YieldInput nearest53 values dcc ref τ left 40 (1 / 8))
    (linear : Bool) (c : Curve) (hc : Curve.create values (if linear then .linear else .previous) dcc (some ref) left right = .ok c)
    (y : PyDate → ℚ) (hy : ∀ d, ref ≤ d → (∃ k ∈ values, d ≤ k.date) → c.call d = .ok (y d))
    (schedule : List Payment) (hn : schedule.length ≤ 1000)
    (hin : ∀ p ∈ schedule, p.amount ≠ none → ref ≤ p.date → ∃ k ∈ values, p.date ≤ k.date) :
    (∃ w, Rounded.yieldPresentValue nearest53 exp values dcc ref linear left schedule (fun _ => .ok 0) = .ok w ∧
      |(w : ℝ) - continuousValue ref (fun d => (y d : ℝ)) (fun d => ((τ d - τ ref : ℚ) : ℝ)) schedule| ≤
        3 / 10 ^ 9 * totalSize ref schedule + 1 / 10 ^ 70) ∧
    ∀ (k : KeyRate), Neighboured k → ∀ (up down : PyDate → ℚ), (∀ d, (k.setBumpVal (1 / 20000)).call d = .ok (up d)) →
      (∀ d, (k.setBumpVal (-1 / 20000)).call d = .ok (down d)) →
      ∃ r, Rounded.pv01 nearest53 exp values dcc ref linear left schedule k = .ok r ∧
        ∀ D, D = continuousValue ref (fun d => ((y d + up d : ℚ) : ℝ)) (fun d => ((τ d - τ ref : ℚ) : ℝ)) schedule -
            continuousValue ref (fun d => ((y d + down d : ℚ) : ℝ)) (fun d => ((τ d - τ ref : ℚ) : ℝ)) schedule →
          |(r : ℝ) - D| ≤ 1 / 10 ^ 8 * totalSize ref schedule + 1 / 10 ^ 15 * |D| + 1 / 10 ^ 69 := by
  have hnu : (schedule.length : ℚ) * (1 / 2 ^ 53) ≤ 1 / 2 := by
    have : (schedule.length : ℚ) ≤ 1000 := by exact_mod_cast hn
    have h2 := mul_le_mul_of_nonneg_right this (show (0 : ℚ) ≤ 1 / 2 ^ 53 by norm_num)
    have : (1000 : ℚ) * (1 / 2 ^ 53) ≤ 1 / 2 := by norm_num
    linarith
  have hA := totalSize_nonneg ref schedule
  have hv := (Rat.cast_le (K := ℝ)).2 (valueError_double hA hn)
  have hAR : (0 : ℝ) ≤ totalSize ref schedule := by exact_mod_cast hA
  constructor
  · obtain ⟨w, hw, he⟩ := C128_value rounding_nearest53 E values dcc ref τ left right 40 (1 / 8) h linear c hc y hy (fun _ => .ok 0)
      (fun _ => 0) (fun _ => 0) (fun _ => rfl) (fun _ => by norm_num) (fun _ => by norm_num) schedule hnu hin
    refine ⟨w, hw, ?_⟩
    simp only [add_zero] at he
    generalize totalSize ref schedule = A at *
    refine le_trans he (le_trans hv (le_of_eq ?_))
    push_cast
    ring
  · intro k hk up down hup hdown
    obtain ⟨r, hr, he⟩ := C128_pv01 rounding_nearest53 E values dcc ref τ left right 40 (1 / 8) h linear c hc y hy k hk up down hup hdown
      schedule hnu hin
    refine ⟨r, hr, fun D hD => ?_⟩
    have he := he D hD
    generalize totalSize ref schedule = A at *
    have ht := (Rat.cast_le (K := ℝ)).2 tiny_double
    have t0 : (0 : ℚ) < 1 / 2 ^ 1022 := by positivity
    have h70 : (4 : ℝ) * (1 / 10 ^ 70) ≤ 1 / 10 ^ 69 := by norm_num
    have h53 : 4 * ((1 / 2 ^ 53 : ℚ) : ℝ) * |D| ≤ 1 / 10 ^ 15 * |D| :=
      mul_le_mul_of_nonneg_right (by norm_num) (abs_nonneg D)
    generalize (1 : ℚ) / 2 ^ 1022 = t at *
    have t0R : (0 : ℝ) < t := by exact_mod_cast t0
    push_cast at hv ht
    linarith

/-! ## An example -/

/-- A curve of yields of 3.125% in a year and 6.25% in three. -/
def doubleKnots : List Knot := [⟨D 2024 6 1, 1/32⟩, ⟨D 2026 6 1, 1/16⟩]

theorem doubleKnots_input : YieldInput nearest53 doubleKnots .act360 (D 2023 6 1) (fun d => (d.ord : ℚ) / 360) .constant
    40 (1 / 8) where
  input := ⟨by decide, by decide +kernel, by decide, by decide +kernel, by decide +kernel⟩
  axis := rfl
  defined := Or.inl rfl
  one_le := by norm_num
  horizon := by norm_num
  low := by norm_num
  high := by norm_num
  times := by decide +kernel
  yields := by decide +kernel
  floats := by
    intro k hk
    simp only [doubleKnots, List.mem_cons, List.not_mem_nil, or_false] at hk
    rcases hk with rfl | rfl
    · have := nearest53_two_zpow (-5); norm_num at this ⊢; exact this
    · have := nearest53_two_zpow (-4); norm_num at this ⊢; exact this

/-- All hypotheses together: two coupons and a redemption on that curve, and a key rate between its knots. -/
example : ∃ exp c, FloatExp nearest53 exp (1 / 2 ^ 50) ∧
    Curve.create doubleKnots .linear .act360 (some (D 2023 6 1)) .constant .constant = .ok c ∧
    (∃ y : PyDate → ℚ, ∀ d, D 2023 6 1 ≤ d → (∃ k ∈ doubleKnots, d ≤ k.date) → c.call d = .ok (y d)) ∧
    Neighboured exKey ∧
    (∃ up : PyDate → ℚ, ∀ d, (exKey.setBumpVal (1 / 20000)).call d = .ok (up d)) ∧
    totalSize (D 2023 6 1) [⟨D 2024 1 1, some 5⟩, ⟨D 2024 7 1, some 5⟩, ⟨D 2025 6 1, some 105⟩] = 115 ∧
    ∀ p ∈ ([⟨D 2024 1 1, some 5⟩, ⟨D 2024 7 1, some 5⟩, ⟨D 2025 6 1, some 105⟩] : List Payment), p.amount ≠ none →
      D 2023 6 1 ≤ p.date → ∃ k ∈ doubleKnots, p.date ≤ k.date := by
  obtain ⟨exp, E⟩ := exists_floatExp
  have hin := doubleKnots_input.input
  obtain ⟨c, hc, -⟩ := (C27_builds doubleKnots .linear .act360 .constant .constant).1 _ hin
  have hk : Neighboured exKey :=
    ⟨by decide, by decide, by rintro p ⟨⟩; decide +kernel, by rintro p ⟨⟩; decide +kernel, by decide +kernel⟩
  have hy : ∀ d, ∃ y, D 2023 6 1 ≤ d → (∃ k ∈ doubleKnots, d ≤ k.date) → c.call d = .ok y := by
    intro d
    by_cases hd : ∃ k ∈ doubleKnots, d ≤ k.date
    · obtain ⟨y, hy⟩ := curve_defined (Or.inl rfl) hin hc (d := d) (Or.inl rfl) hd
      exact ⟨y, fun _ _ => hy⟩
    · exact ⟨0, fun _ h => absurd h hd⟩
  choose y hy using hy
  obtain ⟨w, hw, -⟩ := keyRate_weight exKey hk
  refine ⟨exp, c, E, hc, ⟨y, hy⟩, hk, ⟨fun d => 1 / 20000 * w d, hw _⟩, by decide +kernel, ?_⟩
  intro p hp _ _
  refine ⟨⟨D 2026 6 1, 1/16⟩, by simp [doubleKnots], ?_⟩
  revert p
  decide +kernel

end Verif.Props
