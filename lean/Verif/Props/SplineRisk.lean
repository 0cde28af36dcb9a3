/- Properties C126, continued, and C127: what splines do to values and risks. -/
import Verif.Props.LadderSum
import Verif.Props.KeyRateSign
import Verif.Props.NoArbitrage
import Verif.Props.CurveFactory

namespace Verif.Props
open Verif Verif.Spec Verif.DayCount Verif.CurveFactory Polynomial

/-- C126. In DISCOUNT_FACTOR space with a spline method, a unit payment is worth the value at its time of the spline through the
knots moved by the adjustment, after any use of the curve. -/
theorem C126_discount_factors (exp : ℚ → ℚ) (kind : SplineKind) (bonds ks : List Knot)
    (hlen : (match kind with | .quadratic => 3 | .cubic => 4) ≤ bonds.length)
    (dcc : DayCountConvention) (ref : PyDate) (l r : EndBehavior) (h : CurveInput bonds dcc ref) (τ : PyDate → ℚ)
    (hτ : timeAxis dcc = some τ) (yc yc' : YieldCurve)
    (hyc : YieldCurve.create bonds [] kind.method dcc .discountFactor ref l r = .ok yc) (hu : Used exp yc yc')
    (adj : Adjustment) (a : PyDate → ℚ) (ha : ∀ k ∈ bonds, adj (.date k.date) = .ok (a k.date))
    (hperm : ks.Perm bonds) (hs : ks.Pairwise (fun a b => a.date < b.date)) (s : ℚ → ℚ)
    (hsp : match kind with
      | .quadratic => IsQuadraticSpline (ks.length - 1) (knotTime τ ref ks)
          (fun i => knotValue ks i + a (ks.getD i ⟨ref, 0⟩).date) s
      | .cubic => IsCubicSpline (ks.length - 1) (knotTime τ ref ks)
          (fun i => knotValue ks i + a (ks.getD i ⟨ref, 0⟩).date) s)
    (d : PyDate) (h1 : ∃ k ∈ bonds, k.date ≤ d) (h2 : ∃ k ∈ bonds, d ≤ k.date) :
    (yc'.presentValue exp (ZeroCoupon.presentValue d) adj).1 = .ok (s (τ d - τ ref)) := by
  have hsp' : kind.IsSpline (ks.length - 1) (knotTime τ ref ks) (fun i => knotValue ks i + a (ks.getD i ⟨ref, 0⟩).date) s := by
    cases kind <;> exact hsp
  have hlen' : kind.degree < bonds.length := by cases kind <;> exact hlen
  have hm : Interpolates (.spline kind.fn) bonds.length := by
    cases kind
    · exact Or.inr (Or.inr (Or.inl ⟨rfl, hlen⟩))
    · exact Or.inr (Or.inr (Or.inr ⟨rfl, hlen⟩))
  rw [SplineKind.method_eq] at hyc
  obtain ⟨hset, base, hbase, rfl⟩ := settings_create (exp := exp) hyc
  obtain ⟨hs', hb', hsp''⟩ := used_inv hset hu
  rw [(presentValue_eq hs' _ _).1, hb', hsp'']
  obtain ⟨values', c, hto, hpe, hcin, hc, href⟩ := discountFactor_curve (exp := exp) hm h hbase adj a ha
  unfold YieldCurve.presentValue
  simp only [hto]
  have hpk : (ks.map (fun k => (⟨k.date, k.value + a k.date⟩ : Knot))).Perm values' := (hperm.map _).trans hpe.symm
  have hsk : (ks.map (fun k => (⟨k.date, k.value + a k.date⟩ : Knot))).Pairwise (fun a b => a.date < b.date) := by
    rw [List.pairwise_map]; exact hs
  have hl : values'.length = bonds.length := by rw [hpe.length_eq, List.length_map]
  refine (C19_zero_coupon d c.toDiscountFn).1 ?_ _ ?_
  · show c.referenceDate ≤ d
    rw [href]
    obtain ⟨k, hk, hkd⟩ := h1
    exact (h.notBefore k hk).trans hkd
  · show c.call d = _
    refine spline_call kind (by omega) hcin hτ hpk hsk hc ?_ ?_ ?_
    · rw [List.length_map]
      have hkl := hperm.length_eq
      refine spline_congr_y (spline_congr_x (by omega) hsp' (fun i hi => ?_)) (fun i hi => ?_)
      · have hi' : i < ks.length := by omega
        rw [knotTime_get τ ref hi', knotTime_get τ ref (by rw [List.length_map]; exact hi')]
        simp
      · have hi' : i < ks.length := by omega
        rw [knotValue_get hi', knotValue_get (by rw [List.length_map]; exact hi')]
        simp [List.getD_eq_getElem?_getD, hi']
    · obtain ⟨k, hk, hkd⟩ := h1
      exact ⟨_, hpe.mem_iff.2 (List.mem_map.2 ⟨k, hk, rfl⟩), hkd⟩
    · obtain ⟨k, hk, hkd⟩ := h2
      exact ⟨_, hpe.mem_iff.2 (List.mem_map.2 ⟨k, hk, rfl⟩), hkd⟩

/-- Four yearly knots, at the times 0, 1, 2 and 3 of an ACT/365 axis. -/
def yearly (v0 v1 v2 v3 : ℚ) : List Knot :=
  [⟨D 2023 1 1, v0⟩, ⟨D 2024 1 1, v1⟩, ⟨D 2024 12 31, v2⟩, ⟨D 2025 12 31, v3⟩]

theorem yearly_input (v0 v1 v2 v3 : ℚ) : CurveInput (yearly v0 v1 v2 v3) .act365 (D 2023 1 1) := by
  refine ⟨by decide, by decide +kernel, by simp [yearly], ?_, ?_⟩
  · show [D 2023 1 1, D 2024 1 1, D 2024 12 31, D 2025 12 31].Nodup
    decide +kernel
  · intro k hk
    simp only [yearly, List.mem_cons, List.not_mem_nil, or_false] at hk
    rcases hk with rfl | rfl | rfl | rfl
    · show D 2023 1 1 ≤ D 2023 1 1; decide +kernel
    · show D 2023 1 1 ≤ D 2024 1 1; decide +kernel
    · show D 2023 1 1 ≤ D 2024 12 31; decide +kernel
    · show D 2023 1 1 ≤ D 2025 12 31; decide +kernel

theorem yearly_sorted (v0 v1 v2 v3 : ℚ) : (yearly v0 v1 v2 v3).Pairwise (fun a b => a.date < b.date) := by
  rw [← List.pairwise_map (f := Knot.date) (R := (· < ·))]
  show [D 2023 1 1, D 2024 1 1, D 2024 12 31, D 2025 12 31].Pairwise (· < ·)
  decide +kernel

theorem yearly_times : (fun d : PyDate => (d.ord : ℚ) / 365) (D 2023 1 1) - (fun d : PyDate => (d.ord : ℚ) / 365) (D 2023 1 1) = 0 ∧
    (fun d : PyDate => (d.ord : ℚ) / 365) (D 2024 1 1) - (fun d : PyDate => (d.ord : ℚ) / 365) (D 2023 1 1) = 1 ∧
    (fun d : PyDate => (d.ord : ℚ) / 365) (D 2024 12 31) - (fun d : PyDate => (d.ord : ℚ) / 365) (D 2023 1 1) = 2 ∧
    (fun d : PyDate => (d.ord : ℚ) / 365) (D 2025 12 31) - (fun d : PyDate => (d.ord : ℚ) / 365) (D 2023 1 1) = 3 ∧
    (fun d : PyDate => (d.ord : ℚ) / 365) (D 2023 7 2) - (fun d : PyDate => (d.ord : ℚ) / 365) (D 2023 1 1) = 182 / 365 ∧
    (fun d : PyDate => (d.ord : ℚ) / 365) (D 2025 7 2) - (fun d : PyDate => (d.ord : ℚ) / 365) (D 2023 1 1) = 913 / 365 := by
  decide +kernel

/-- The cubic through the four values, in Newton's form. -/
noncomputable def newton (v0 v1 v2 v3 : ℚ) : ℚ[X] :=
  C v0 + C (v1 - v0) * X + C ((v2 - 2 * v1 + v0) / 2) * (X * (X - C 1)) +
    C ((v3 - 3 * v2 + 3 * v1 - v0) / 6) * (X * (X - C 1) * (X - C 2))

theorem newton_degree (v0 v1 v2 v3 : ℚ) : (newton v0 v1 v2 v3).natDegree ≤ 3 := by
  unfold newton
  compute_degree

theorem newton_eval (v0 v1 v2 v3 t : ℚ) : (newton v0 v1 v2 v3).eval t =
    v0 + (v1 - v0) * t + (v2 - 2 * v1 + v0) / 2 * (t * (t - 1)) + (v3 - 3 * v2 + 3 * v1 - v0) / 6 * (t * (t - 1) * (t - 2)) := by
  simp [newton]

theorem yearly_values (v0 v1 v2 v3 : ℚ) : ∀ k ∈ yearly v0 v1 v2 v3, k.value = (newton v0 v1 v2 v3).eval
    ((fun d : PyDate => (d.ord : ℚ) / 365) k.date - (fun d : PyDate => (d.ord : ℚ) / 365) (D 2023 1 1)) := by
  obtain ⟨t0, t1, t2, t3, -, -⟩ := yearly_times
  intro k hk
  simp only [yearly, List.mem_cons, List.not_mem_nil, or_false] at hk
  rcases hk with rfl | rfl | rfl | rfl
  · rw [t0, newton_eval]; ring
  · rw [t1, newton_eval]; ring
  · rw [t2, newton_eval]; ring
  · rw [t3, newton_eval]; ring

/-- A cubic spline curve through four yearly knots is the cubic through them. -/
theorem yearly_call (v0 v1 v2 v3 : ℚ) {l r : EndBehavior} {c : Curve}
    (hc : Curve.create (yearly v0 v1 v2 v3) SplineKind.cubic.method .act365 (some (D 2023 1 1)) l r = .ok c) {d : PyDate}
    (h1 : D 2023 1 1 ≤ d) (h2 : d ≤ D 2025 12 31) : c.call d = .ok ((newton v0 v1 v2 v3).eval
      ((fun d : PyDate => (d.ord : ℚ) / 365) d - (fun d : PyDate => (d.ord : ℚ) / 365) (D 2023 1 1))) :=
  poly_call .cubic (show 3 < (yearly v0 v1 v2 v3).length by simp [yearly]) (yearly_input v0 v1 v2 v3) rfl (newton_degree v0 v1 v2 v3) (yearly_values v0 v1 v2 v3) hc
    ⟨_, List.mem_cons_self .., h1⟩ ⟨⟨D 2025 12 31, v3⟩, by simp [yearly], h2⟩

/-- C127 (failure): the shape of the knots is lost.  Knot discount factors between 0 and 1 that fall with maturity, interpolated with
a cubic spline, value a unit payment half a year away at more than 1, more than one today (contrast `C90_no_arbitrage`). -/
theorem C127_shape_false (exp : ℚ → ℚ) :
    ∃ yc v, YieldCurve.create (yearly 1 (99 / 100) (1 / 2) (49 / 100)) [] SplineKind.cubic.method .act365 .discountFactor
        (D 2023 1 1) .error .error = .ok yc ∧
      (∀ b ∈ yearly 1 (99 / 100) (1 / 2) (49 / 100), 0 < b.value ∧ b.value ≤ 1) ∧
      (yearly 1 (99 / 100) (1 / 2) (49 / 100)).Pairwise (fun a b => b.value < a.value) ∧
      (yc.presentValue exp (ZeroCoupon.presentValue (D 2023 7 2)) noAdjustment).1 = .ok v ∧ 111 / 100 < v := by
  obtain ⟨c, hc, -⟩ := (C27_builds (yearly 1 (99 / 100) (1 / 2) (49 / 100)) SplineKind.cubic.method .act365 .error .error).1 _
    (yearly_input _ _ _ _)
  have hyc := yieldCurve_create (sp := .discountFactor) hc
  refine ⟨_, (newton 1 (99 / 100) (1 / 2) (49 / 100)).eval (182 / 365), hyc, ?_, ?_, ?_, ?_⟩
  · intro b hb
    simp only [yearly, List.mem_cons, List.not_mem_nil, or_false] at hb
    rcases hb with rfl | rfl | rfl | rfl <;> norm_num
  · simp only [yearly, List.pairwise_cons, List.mem_cons, List.not_mem_nil, or_false, forall_eq_or_imp, forall_eq]
    norm_num
  · have := C126_discount_factors exp .cubic (yearly 1 (99 / 100) (1 / 2) (49 / 100)) _ le_rfl .act365 (D 2023 1 1) .error .error
      (yearly_input 1 (99 / 100) (1 / 2) (49 / 100)) _ rfl _ _ hyc .start noAdjustment (fun _ => 0) (fun _ _ => rfl)
      (List.Perm.refl _) (yearly_sorted _ _ _ _) (fun t => (newton 1 (99 / 100) (1 / 2) (49 / 100)).eval t) (by
        refine spline_congr_y (kind := .cubic) (spline_poly .cubic _ _ (newton_degree _ _ _ _)) (fun i hi => ?_)
        have hi' : i < (yearly 1 (99 / 100) (1 / 2) (49 / 100)).length := by
          have : i ≤ 4 - 1 := hi
          show i < 4
          omega
        rw [knotTime_get _ _ hi', knotValue_get hi', add_zero]
        exact (yearly_values _ _ _ _ _ (List.getElem_mem hi')).symm) (D 2023 7 2)
      ⟨_, List.mem_cons_self .., by decide +kernel⟩ ⟨⟨D 2025 12 31, 49 / 100⟩, by simp [yearly], by decide +kernel⟩
    rw [this]
    congr 2
    exact yearly_times.2.2.2.2.1
  · rw [newton_eval]; norm_num

/-- C127 (failure): a curve of nonnegative yields interpolated with a cubic spline takes a negative yield between two knots, and a
unit payment there is worth more than 1 today (contrast `C91_bounds`). -/
theorem C127_yields_false (exp : ℚ → ℚ) (hexp : StrictMono exp) (h0 : exp 0 = 1) :
    ∃ yc y v, YieldCurve.create (yearly (51 / 1000) (5 / 100) (1 / 1000) 0) [] SplineKind.cubic.method .act365
        .continuouslyCompoundedYield (D 2023 1 1) .constant .error = .ok yc ∧
      (∀ k ∈ yearly (51 / 1000) (5 / 100) (1 / 1000) 0, 0 ≤ k.value) ∧
      yc.base.call (D 2025 7 2) = .ok y ∧ y < -1 / 100 ∧
      (yc.presentValue exp (ZeroCoupon.presentValue (D 2025 7 2)) noAdjustment).1 = .ok v ∧ 1 < v := by
  obtain ⟨c, hc, -⟩ := (C27_builds (yearly (51 / 1000) (5 / 100) (1 / 1000) 0) SplineKind.cubic.method .act365 .constant .error).1 _
    (yearly_input _ _ _ _)
  have hyc := yieldCurve_create (sp := .continuouslyCompoundedYield) hc
  have hcall := yearly_call _ _ _ _ hc (d := D 2025 7 2) (by decide +kernel) (by decide +kernel)
  rw [yearly_times.2.2.2.2.2, newton_eval] at hcall
  obtain ⟨y, hy, hpv⟩ := yieldSpace_value exp (yearly (51 / 1000) (5 / 100) (1 / 1000) 0) SplineKind.cubic.method
    (Or.inr (Or.inr (Or.inr ⟨rfl, le_rfl⟩))) .act365 (D 2023 1 1) .constant .error (yearly_input _ _ _ _) (Or.inl rfl) _ rfl _ _ hyc
    .start (D 2025 7 2) (by decide +kernel) ⟨⟨D 2025 12 31, 0⟩, by simp [yearly], by decide +kernel⟩
  have hneg : y < -1 / 100 := by
    have := hy.symm.trans hcall
    injection this with this
    rw [this]; norm_num
  refine ⟨_, y, _, hyc, ?_, hy, hneg, hpv, ?_⟩
  · intro b hb
    simp only [yearly, List.mem_cons, List.not_mem_nil, or_false] at hb
    rcases hb with rfl | rfl | rfl | rfl <;> norm_num
  · rw [← h0]
    apply hexp
    rw [yearly_times.2.2.2.2.2]
    linarith

/-- C127 (failure): risks have the wrong sign and reach beyond their neighbours.  On every curve of discount factors interpolated with a
cubic spline through four yearly knots, a unit payment in the middle of the first year has a negative sensitivity to the key rate of
the third knot, although that key rate moves nothing before the second one (contrast `C123_discount_space`). -/
theorem C127_key_rate_sign_false (exp : ℚ → ℚ) (v0 v1 v2 v3 : ℚ) :
    ∃ yc x, YieldCurve.create (yearly v0 v1 v2 v3) [] SplineKind.cubic.method .act365 .discountFactor (D 2023 1 1) .error .error =
        .ok yc ∧
      (yc.pv01Risk exp (ZeroCoupon.presentValue (D 2023 7 2))
        (KeyRate.create .act365 (D 2024 12 31) (some (D 2024 1 1)) (some (D 2025 12 31)))).1 = .ok ⟨D 2024 12 31, x, .usTreasury⟩ ∧
      x < 0 := by
  obtain ⟨c, hc, -⟩ := (C27_builds (yearly v0 v1 v2 v3) SplineKind.cubic.method .act365 .error .error).1 _ (yearly_input _ _ _ _)
  have hyc := yieldCurve_create (sp := .discountFactor) hc
  obtain ⟨t0, t1, t2, t3, t4, -⟩ := yearly_times
  have hval : ∀ b : ℚ, ((⟨c, .discountFactor, none⟩ : YieldCurve).presentValue exp (ZeroCoupon.presentValue (D 2023 7 2))
      ((KeyRate.create .act365 (D 2024 12 31) (some (D 2024 1 1)) (some (D 2025 12 31))).setBumpVal b).asAdjustment).1 =
      .ok ((newton v0 v1 (v2 + b) v3).eval (182 / 365)) := by
    intro b
    have := C126_discount_factors exp .cubic (yearly v0 v1 v2 v3) _ le_rfl .act365 (D 2023 1 1) .error .error
      (yearly_input v0 v1 v2 v3) _ rfl _ _ hyc .start
      ((KeyRate.create .act365 (D 2024 12 31) (some (D 2024 1 1)) (some (D 2025 12 31))).setBumpVal b).asAdjustment
      (fun d => b * hat (fun d => (d.ord : ℚ) / 365) (D 2024 1 1) (D 2024 12 31) (D 2025 12 31) d)
      (fun k _ => C22_hat .act365 _ rfl _ _ _ (by decide +kernel) (by decide +kernel) (by decide +kernel) b k.date)
      (List.Perm.refl _) (yearly_sorted _ _ _ _) (fun t => (newton v0 v1 (v2 + b) v3).eval t) (by
        refine spline_congr_y (kind := .cubic) (spline_poly .cubic _ _ (newton_degree _ _ _ _)) (fun i hi => ?_)
        have hi' : i < 4 := by
          have : i ≤ 4 - 1 := hi
          omega
        have w0 : hat (fun d => (d.ord : ℚ) / 365) (D 2024 1 1) (D 2024 12 31) (D 2025 12 31) (D 2023 1 1) = 0 := by decide +kernel
        have w1 : hat (fun d => (d.ord : ℚ) / 365) (D 2024 1 1) (D 2024 12 31) (D 2025 12 31) (D 2024 1 1) = 0 := by decide +kernel
        have w2 : hat (fun d => (d.ord : ℚ) / 365) (D 2024 1 1) (D 2024 12 31) (D 2025 12 31) (D 2024 12 31) = 1 := by decide +kernel
        have w3 : hat (fun d => (d.ord : ℚ) / 365) (D 2024 1 1) (D 2024 12 31) (D 2025 12 31) (D 2025 12 31) = 0 := by decide +kernel
        have hx := yearly_values v0 v1 (v2 + b) v3
        simp only [yearly, List.mem_cons, List.not_mem_nil, or_false, forall_eq_or_imp, forall_eq] at hx
        obtain ⟨x0, x1, x2, x3⟩ := hx
        interval_cases i
        · show (newton v0 v1 (v2 + b) v3).eval _ = v0 + b * hat _ _ _ _ (D 2023 1 1)
          rw [w0, mul_zero, add_zero]; exact x0.symm
        · show (newton v0 v1 (v2 + b) v3).eval _ = v1 + b * hat _ _ _ _ (D 2024 1 1)
          rw [w1, mul_zero, add_zero]; exact x1.symm
        · show (newton v0 v1 (v2 + b) v3).eval _ = v2 + b * hat _ _ _ _ (D 2024 12 31)
          rw [w2, mul_one]; exact x2.symm
        · show (newton v0 v1 (v2 + b) v3).eval _ = v3 + b * hat _ _ _ _ (D 2025 12 31)
          rw [w3, mul_zero, add_zero]; exact x3.symm) (D 2023 7 2)
      ⟨_, List.mem_cons_self .., show D 2023 1 1 ≤ D 2023 7 2 by decide +kernel⟩
      ⟨⟨D 2025 12 31, v3⟩, by simp [yearly], show D 2023 7 2 ≤ D 2025 12 31 by decide +kernel⟩
    rw [this]
    congr 2
  have hpv := (C30_central_difference exp _ _ .act365 .discountFactor (D 2023 1 1) .error .error _ _ hyc Used.start
    (ZeroCoupon.presentValue (D 2023 7 2)) (KeyRate.create .act365 (D 2024 12 31) (some (D 2024 1 1)) (some (D 2025 12 31)))
    (KeyRate.create .act365 (D 2024 12 31) (some (D 2024 1 1)) (some (D 2025 12 31))).bump _ _ (hval _) (hval _)).2
  refine ⟨_, _, hyc, hpv, ?_⟩
  rw [newton_eval, newton_eval]
  ring_nf
  norm_num

/-- C127 (partial). Whatever the interpolation method, splines included, bootstrapping zero-coupon bonds given in order of maturity
reprices them: on the curve returned, and after any use of it, each is worth its price plus the last value its search has seen.
Missing: instruments that pay between knots, see `C127_bootstrap_false` (for linear interpolation, `C73_reprices_partial`). -/
theorem C127_zero_coupons_partial (exp : ℚ → ℚ) (dates : List PyDate) (price : PyDate → ℚ) (m : InterpolationMethod)
    (hm : Interpolates m dates.length) (ref : PyDate) (points : Nat → List ℚ)
    (h : CurveInput (dates.map (fun d => ⟨d, price d⟩)) .actAct ref) (hsorted : dates.Pairwise (· < ·))
    (yc yc' : YieldCurve) (vss : List (List ℚ))
    (hb : bootstrapYieldCurve exp (dates.map (fun d => zeroInstrument d (price d))) m ref points = .ok (yc, vss))
    (hu : Used exp yc yc') (i : Nat) (d : PyDate) (hd : dates[i]? = some d) :
    ∃ vs v, vss[i]? = some vs ∧ vs.getLast? = some v ∧
      (yc'.presentValue exp (ZeroCoupon.presentValue d) noAdjustment).1 = .ok (price d + v) := by
  obtain ⟨τ, hτ⟩ := h.axis
  have hk : collect FactoryInstrument.knotValue (dates.map (fun d => zeroInstrument d (price d))) =
      .ok (dates.map (fun d => (⟨d, price d⟩ : Knot))) := by
    clear hsorted hb hd hm h
    induction dates with
    | nil => rfl
    | cons e es ih =>
      simp only [List.map_cons, collect, ih]
      rfl
  have hs : (dates.map (fun d => (⟨d, price d⟩ : Knot))).Pairwise (fun a b => a.date < b.date) := by
    rw [List.pairwise_map]; exact hsorted
  obtain ⟨hst, hlen, hlog⟩ := bootstrap_spec hk h hb
  rw [pySorted_knots hs] at hst hlog
  obtain ⟨hil, hdi⟩ := List.getElem?_eq_some_iff.1 hd
  have hiv : i < vss.length := by rw [hlen, List.length_map]; exact hil
  have hall := hlog i (zeroInstrument d (price d)) vss[i] (by rw [List.getElem?_map, hd]; rfl) (List.getElem?_eq_getElem hiv)
  generalize hvs : vss[i] = vs at hall
  have hvl : vs.length = (0 :: points i).length := hall.length_eq.symm
  have hne : vs ≠ [] := by intro h0; rw [h0] at hvl; simp at hvl
  refine ⟨vs, vs.getLast hne, by rw [List.getElem?_eq_getElem hiv, hvs], List.getLast?_eq_some_getLast hne, ?_⟩
  have hlast : newCurveValue exp m ref (stageKnots points (dates.map (fun d => (⟨d, price d⟩ : Knot))) i (lastPoint points i))
      (ZeroCoupon.presentValue d) = .ok (price d + vs.getLast hne) := by
    have hn : vs.length - 1 < vs.length := Nat.sub_lt (List.length_pos_iff.2 hne) one_pos
    have := (List.forall₂_iff_get.1 hall).2 (vs.length - 1) (by rw [← hvl]; exact hn) hn
    simp only [List.get_eq_getElem] at this
    rw [List.getLast_eq_getElem hne, lastPoint, List.getLast_eq_getElem]
    simp only [← hvl]
    exact this
  -- both are the value at the bond's own knot
  have hval : ∀ g : Nat → Knot → ℚ, g i ⟨d, price d⟩ = lastPoint points i →
      newCurveValue exp m ref ((dates.map (fun d => (⟨d, price d⟩ : Knot))).mapIdx fun j k => (⟨k.date, g j k⟩ : Knot))
        (ZeroCoupon.presentValue d) = .ok (exp (-(lastPoint points i) * (τ d - τ ref))) := by
    intro g hg
    have hd' := map_date_mapIdx g (dates.map (fun d => (⟨d, price d⟩ : Knot)))
    have hin := h.of_dates hd'
    have hm' := hm.congr (show ((dates.map (fun d => (⟨d, price d⟩ : Knot))).mapIdx fun j k => (⟨k.date, g j k⟩ : Knot)).length =
      dates.length by simp)
    have hmem : (⟨d, lastPoint points i⟩ : Knot) ∈
        (dates.map (fun d => (⟨d, price d⟩ : Knot))).mapIdx fun j k => (⟨k.date, g j k⟩ : Knot) := by
      refine List.mem_mapIdx.2 ⟨i, by simpa using hil, ?_⟩
      simp only [List.getElem_map, hdi, hg]
    generalize (dates.map (fun d => (⟨d, price d⟩ : Knot))).mapIdx (fun j k => (⟨k.date, g j k⟩ : Knot)) = ws at hin hm' hmem
    obtain ⟨c, f, y, hc, hf1, hf2, -, hf4⟩ := newCurve_discount (exp := exp) hm' hin hτ
    have href : ref ≤ d := hin.notBefore ⟨d, lastPoint points i⟩ hmem
    obtain ⟨a1, a2⟩ := hf2 d href ⟨⟨d, lastPoint points i⟩, hmem, le_rfl⟩
    have a3 := C27_knots ws m hm' .actAct ref .constant .constant hin c hc ⟨d, lastPoint points i⟩ hmem
    rw [a3] at a1
    injection a1 with a1
    rw [← a1] at a2
    rw [hf4]
    exact (C19_zero_coupon d f).1 (by rw [hf1]; exact href) _ a2
  rw [((hst.used hu).value _).1, ← hlast]
  rw [show finalKnots points (dates.map (fun d => (⟨d, price d⟩ : Knot))) =
    (dates.map (fun d => (⟨d, price d⟩ : Knot))).mapIdx fun j k => (⟨k.date, lastPoint points j⟩ : Knot) from rfl,
    hval (fun j _ => lastPoint points j) rfl]
  exact (hval (fun j k => if j < i then lastPoint points j else if j = i then lastPoint points i else k.value)
    (by simp)).symm

/-- A concrete case: four zero-coupon bonds and a cubic spline. -/
example : ∃ yc vss, bootstrapYieldCurve (fun x => 1 + x)
      ([D 2024 1 1, D 2025 1 1, D 2026 1 1, D 2027 1 1].map (fun d => zeroInstrument d (99 / 100))) SplineKind.cubic.method (D 2023 1 1)
      (fun _ => [1 / 100]) = .ok (yc, vss) ∧ ∃ vs v, vss[1]? = some vs ∧ vs.getLast? = some v ∧
    (yc.presentValue (fun x => 1 + x) (ZeroCoupon.presentValue (D 2025 1 1)) noAdjustment).1 = .ok (99 / 100 + v) := by
  have hin : CurveInput ([D 2024 1 1, D 2025 1 1, D 2026 1 1, D 2027 1 1].map (fun d => (⟨d, 99 / 100⟩ : Knot))) .actAct (D 2023 1 1) :=
    ⟨by decide, by decide +kernel, by simp, by decide +kernel, by decide +kernel⟩
  have hm : Interpolates SplineKind.cubic.method 4 := Or.inr (Or.inr (Or.inr ⟨rfl, le_rfl⟩))
  obtain ⟨yc, vss, hb⟩ := C73_builds (fun x => 1 + x)
    ([D 2024 1 1, D 2025 1 1, D 2026 1 1, D 2027 1 1].map (fun d => zeroInstrument d (99 / 100))) SplineKind.cubic.method (D 2023 1 1)
    (fun _ => [1 / 100]) ([D 2024 1 1, D 2025 1 1, D 2026 1 1, D 2027 1 1].map (fun d => (⟨d, 99 / 100⟩ : Knot))) hm rfl hin ⟨D 2027 1 1, 99 / 100⟩ (by simp) (by
      intro a ha
      simp only [List.map_cons, List.map_nil, List.mem_cons, List.not_mem_nil, or_false] at ha
      rcases ha with rfl | rfl | rfl | rfl <;> exact zeroCoupon_priceable (by decide +kernel))
  exact ⟨yc, vss, hb, C127_zero_coupons_partial _ [D 2024 1 1, D 2025 1 1, D 2026 1 1, D 2027 1 1] (fun _ => 99 / 100) _ hm _ _ hin (by decide +kernel) yc yc vss hb .start 1
    (D 2025 1 1) rfl⟩

/-- Four instruments with knots one to four years away; the third one, maturing after three years, pays in the middle of its last
year. -/
def midInstruments (p1 p2 p3 p4 : ℚ) : List FactoryInstrument :=
  [zeroInstrument (D 2024 1 1) p1, zeroInstrument (D 2025 1 1) p2,
    ⟨p3, .ok ⟨D 2026 1 1, p3⟩, ZeroCoupon.presentValue (D 2025 7 2)⟩, zeroInstrument (D 2027 1 1) p4]

/-- C127 (failure): bootstrapping with splines does not reprice.  The instruments meet the hypotheses of `C73_reprices_partial` (knots in
order, no dependence beyond the own knot), but with a cubic spline moving the fourth knot moves the curve before the third: the third
instrument's value on the curve returned is not the one its search has seen last. -/
theorem C127_bootstrap_false (exp : ℚ → ℚ) (hexp : StrictMono exp) (p1 p2 p3 p4 : ℚ) (hp : p4 ≠ 0) :
    (∀ a ∈ midInstruments p1 p2 p3 p4, ∀ k, a.knotValue = .ok k → FixedUpTo k.date a.value) ∧
    ∃ yc vss vs v x, bootstrapYieldCurve exp (midInstruments p1 p2 p3 p4) SplineKind.cubic.method (D 2023 1 1) (fun _ => []) =
        .ok (yc, vss) ∧ vss[2]? = some vs ∧ vs.getLast? = some v ∧
      (yc.presentValue exp (ZeroCoupon.presentValue (D 2025 7 2)) noAdjustment).1 = .ok x ∧ x ≠ p3 + v := by
  have hfix : ∀ {d e : PyDate}, d ≤ e → FixedUpTo e (ZeroCoupon.presentValue d) := by
    intro d e hde f g hr hfg
    unfold ZeroCoupon.presentValue Cashflow.presentValue pySum
    rw [hr]
    congr 1
    apply collect_congr_mem
    intro x hx
    obtain ⟨p, hp, hx⟩ := List.mem_filterMap.1 hx
    simp only [ZeroCoupon.cashflow, Cashflow.create, pySorted, List.foldr_cons, List.foldr_nil, pyInsert, List.mem_singleton] at hp
    subst hp
    simp only at hx
    split at hx
    · simp only [Option.some.injEq] at hx
      subst hx
      simp only [hfg d hde]
    · cases hx
  refine ⟨?_, ?_⟩
  · intro a ha k hk
    simp only [midInstruments, List.mem_cons, List.not_mem_nil, or_false] at ha
    rcases ha with rfl | rfl | rfl | rfl <;> (injection hk with hk; subst hk)
    · exact hfix le_rfl
    · exact hfix le_rfl
    · exact hfix (show D 2025 7 2 ≤ D 2026 1 1 by decide +kernel)
    · exact hfix le_rfl
  · let ks : ℚ → ℚ → ℚ → ℚ → List Knot := fun v1 v2 v3 v4 =>
      [⟨D 2024 1 1, v1⟩, ⟨D 2025 1 1, v2⟩, ⟨D 2026 1 1, v3⟩, ⟨D 2027 1 1, v4⟩]
    have hin : ∀ v1 v2 v3 v4, CurveInput (ks v1 v2 v3 v4) .actAct (D 2023 1 1) := by
      intro v1 v2 v3 v4
      refine ⟨by decide, by decide +kernel, by simp [ks], ?_, ?_⟩
      · show [D 2024 1 1, D 2025 1 1, D 2026 1 1, D 2027 1 1].Nodup
        decide +kernel
      · intro k hk
        simp only [ks, List.mem_cons, List.not_mem_nil, or_false] at hk
        rcases hk with rfl | rfl | rfl | rfl
        · show D 2023 1 1 ≤ D 2024 1 1; decide +kernel
        · show D 2023 1 1 ≤ D 2025 1 1; decide +kernel
        · show D 2023 1 1 ≤ D 2026 1 1; decide +kernel
        · show D 2023 1 1 ≤ D 2027 1 1; decide +kernel
    have hsort : ∀ v1 v2 v3 v4, (ks v1 v2 v3 v4).Pairwise (fun a b => a.date < b.date) := by
      intro v1 v2 v3 v4
      rw [← List.pairwise_map (f := Knot.date) (R := (· < ·))]
      show [D 2024 1 1, D 2025 1 1, D 2026 1 1, D 2027 1 1].Pairwise (· < ·)
      decide +kernel
    have hk : collect FactoryInstrument.knotValue (midInstruments p1 p2 p3 p4) = .ok (ks p1 p2 p3 p4) := rfl
    obtain ⟨τ, hτ⟩ : ∃ τ, timeAxis .actAct = some τ := ⟨_, rfl⟩
    have l1 := axis_strictMono hτ (show D 2024 1 1 < D 2025 1 1 by decide +kernel)
    have l2 := axis_strictMono hτ (show D 2025 1 1 < D 2025 7 2 by decide +kernel)
    have l3 := axis_strictMono hτ (show D 2025 7 2 < D 2026 1 1 by decide +kernel)
    have l4 := axis_strictMono hτ (show D 2026 1 1 < D 2027 1 1 by decide +kernel)
    have l0 := axis_strictMono hτ (show D 2023 1 1 < D 2024 1 1 by decide +kernel)
    obtain ⟨t1, ht1⟩ : ∃ t, t = τ (D 2024 1 1) - τ (D 2023 1 1) := ⟨_, rfl⟩
    obtain ⟨t2, ht2⟩ : ∃ t, t = τ (D 2025 1 1) - τ (D 2023 1 1) := ⟨_, rfl⟩
    obtain ⟨t3, ht3⟩ : ∃ t, t = τ (D 2026 1 1) - τ (D 2023 1 1) := ⟨_, rfl⟩
    obtain ⟨t4, ht4⟩ : ∃ t, t = τ (D 2027 1 1) - τ (D 2023 1 1) := ⟨_, rfl⟩
    obtain ⟨t, ht⟩ : ∃ t, t = τ (D 2025 7 2) - τ (D 2023 1 1) := ⟨_, rfl⟩
    have hK : (t - t1) * (t - t2) * (t - t3) / ((t4 - t1) * (t4 - t2) * (t4 - t3)) * t ≠ 0 := by
      have a1 : t - t1 ≠ 0 := ne_of_gt (by rw [ht, ht1]; linarith)
      have a2 : t - t2 ≠ 0 := ne_of_gt (by rw [ht, ht2]; linarith)
      have a3 : t - t3 ≠ 0 := ne_of_lt (by rw [ht, ht3]; linarith)
      have a4 : t4 - t1 ≠ 0 := ne_of_gt (by rw [ht4, ht1]; linarith)
      have a5 : t4 - t2 ≠ 0 := ne_of_gt (by rw [ht4, ht2]; linarith)
      have a6 : t4 - t3 ≠ 0 := ne_of_gt (by rw [ht4, ht3]; linarith)
      have a7 : t ≠ 0 := ne_of_gt (by rw [ht]; linarith)
      exact mul_ne_zero (div_ne_zero (mul_ne_zero (mul_ne_zero a1 a2) a3) (mul_ne_zero (mul_ne_zero a4 a5) a6)) a7
    -- the value of the payment when only the last knot is not zero
    have hval : ∀ q : ℚ, newCurveValue exp SplineKind.cubic.method (D 2023 1 1) (ks 0 0 0 q) (ZeroCoupon.presentValue (D 2025 7 2)) =
        .ok (exp (-(q * ((t - t1) * (t - t2) * (t - t3) / ((t4 - t1) * (t4 - t2) * (t4 - t3)) * t)))) := by
      intro q
      obtain ⟨c, f, y, hc, hf1, hf2, -, hf4⟩ := newCurve_discount (exp := exp) (m := SplineKind.cubic.method)
        (Or.inr (Or.inr (Or.inr ⟨rfl, le_rfl⟩))) (hin 0 0 0 q) hτ
      obtain ⟨a1, a2⟩ := hf2 (D 2025 7 2) (by decide +kernel)
        ⟨⟨D 2027 1 1, q⟩, by simp [ks], show D 2025 7 2 ≤ D 2027 1 1 by decide +kernel⟩
      have hcall := poly_call .cubic (values := ks 0 0 0 q) (show 3 < 4 by omega) (hin 0 0 0 q) hτ
        (p := C (q / ((t4 - t1) * (t4 - t2) * (t4 - t3))) * ((X - C t1) * (X - C t2) * (X - C t3)))
        (by show _ ≤ 3; compute_degree) (by
          intro k hk
          simp only [ks, List.mem_cons, List.not_mem_nil, or_false] at hk
          rcases hk with rfl | rfl | rfl | rfl
          · simp only [← ht1]; simp
          · simp only [← ht2]; simp
          · simp only [← ht3]; simp
          · simp only [← ht4]; simp
            have a4 : t4 - t1 ≠ 0 := ne_of_gt (by rw [ht4, ht1]; linarith)
            have a5 : t4 - t2 ≠ 0 := ne_of_gt (by rw [ht4, ht2]; linarith)
            have a6 : t4 - t3 ≠ 0 := ne_of_gt (by rw [ht4, ht3]; linarith)
            field_simp) hc (d := D 2025 7 2)
        ⟨⟨D 2024 1 1, 0⟩, by simp [ks], show D 2024 1 1 ≤ D 2025 7 2 by decide +kernel⟩
        ⟨⟨D 2027 1 1, q⟩, by simp [ks], show D 2025 7 2 ≤ D 2027 1 1 by decide +kernel⟩
      rw [← ht] at hcall a2
      have hy : y (D 2025 7 2) = q * ((t - t1) * (t - t2) * (t - t3) / ((t4 - t1) * (t4 - t2) * (t4 - t3))) := by
        have := a1.symm.trans hcall
        injection this with this
        rw [this]
        simp
        ring
      rw [hy] at a2
      rw [hf4]
      refine (C19_zero_coupon _ f).1 (by rw [hf1]; decide +kernel) _ (a2.trans ?_)
      congr 2
      ring
    obtain ⟨yc, vss, hb⟩ := C73_builds exp (midInstruments p1 p2 p3 p4) SplineKind.cubic.method (D 2023 1 1) (fun _ => [])
      (ks p1 p2 p3 p4) (Or.inr (Or.inr (Or.inr ⟨rfl, le_rfl⟩))) hk (hin _ _ _ _) ⟨D 2027 1 1, p4⟩ (by simp [ks]) (by
        intro a ha
        simp only [midInstruments, List.mem_cons, List.not_mem_nil, or_false] at ha
        rcases ha with rfl | rfl | rfl | rfl
        · exact zeroCoupon_priceable (show D 2024 1 1 ≤ D 2027 1 1 by decide +kernel)
        · exact zeroCoupon_priceable (show D 2025 1 1 ≤ D 2027 1 1 by decide +kernel)
        · exact zeroCoupon_priceable (show D 2025 7 2 ≤ D 2027 1 1 by decide +kernel)
        · exact zeroCoupon_priceable (show D 2027 1 1 ≤ D 2027 1 1 by decide +kernel))
    obtain ⟨hst, hlen, hlog⟩ := bootstrap_spec hk (hin _ _ _ _) hb
    rw [pySorted_knots (hsort _ _ _ _)] at hst hlog
    have h2 : 2 < vss.length := by rw [hlen]; show 2 < 4; omega
    have hl := hlog 2 _ vss[2] rfl (List.getElem?_eq_getElem h2)
    generalize hvs : vss[2] = vs at hl
    obtain ⟨v, hv⟩ : ∃ v, vs = [v] := by
      have := hl.length_eq
      match vs, this with
      | [v], _ => exact ⟨v, rfl⟩
    subst hv
    have hv1 : newCurveValue exp SplineKind.cubic.method (D 2023 1 1) (ks 0 0 0 p4) (ZeroCoupon.presentValue (D 2025 7 2)) =
        .ok (p3 + v) := by
      cases hl with
      | cons h _ => exact h
    refine ⟨yc, vss, [v], v, _, hb, by rw [List.getElem?_eq_getElem h2, hvs], rfl, ((hst.used .start).value _).1.trans (hval 0), ?_⟩
    rw [hval p4] at hv1
    injection hv1 with hv1
    rw [← hv1]
    intro he
    have := hexp.injective he
    rw [zero_mul, neg_zero, eq_comm, neg_eq_zero] at this
    exact (mul_ne_zero hp hK) this

/-- C126 at work: a cubic spline through five knots, given out of order. -/
example : CurveInput [⟨D 2025 12 31, 3 / 100⟩, ⟨D 2023 1 1, 1 / 100⟩, ⟨D 2027 1 1, 4 / 100⟩, ⟨D 2024 1 1, 2 / 100⟩, ⟨D 2024 12 31, 1 / 50⟩]
    .act365 (D 2023 1 1) ∧
    ([⟨D 2023 1 1, 1 / 100⟩, ⟨D 2024 1 1, 2 / 100⟩, ⟨D 2024 12 31, 1 / 50⟩, ⟨D 2025 12 31, 3 / 100⟩, ⟨D 2027 1 1, 4 / 100⟩] :
      List Knot).Pairwise (fun a b => a.date < b.date) ∧
    ([⟨D 2023 1 1, 1 / 100⟩, ⟨D 2024 1 1, 2 / 100⟩, ⟨D 2024 12 31, 1 / 50⟩, ⟨D 2025 12 31, 3 / 100⟩, ⟨D 2027 1 1, 4 / 100⟩] :
      List Knot).Perm
      [⟨D 2025 12 31, 3 / 100⟩, ⟨D 2023 1 1, 1 / 100⟩, ⟨D 2027 1 1, 4 / 100⟩, ⟨D 2024 1 1, 2 / 100⟩, ⟨D 2024 12 31, 1 / 50⟩] :=
  ⟨⟨by decide, by decide +kernel, by simp, by decide +kernel, by decide +kernel⟩, by decide +kernel, by decide +kernel⟩

end Verif.Props
