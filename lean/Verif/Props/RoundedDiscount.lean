/- Property C129: prices and key-rate risk on a curve of discount factors in floating point. -/
import Verif.Props.RoundedRiskDouble
import Verif.Props.LadderSum

namespace Verif.Props
open Verif Verif.Spec Verif.DayCount Verif.KeyRateCollection

variable {rnd exp : ℚ → ℚ} {u tiny : ℚ}

/-- The hypotheses on a curve of discount factors in floating point: knots up to the time `T` after the reference date, discount factors
between -3/2 and 3/2 that are floats. -/
structure DiscountInput (rnd : ℚ → ℚ) (values : List Knot) (dcc : DayCountConvention) (ref : PyDate) (τ : PyDate → ℚ) (T : ℚ) : Prop where
  input : CurveInput values dcc ref
  axis : timeAxis dcc = some τ
  one_le : 1 ≤ T
  horizon : T ≤ 20000
  times : ∀ k ∈ values, τ k.date - τ ref ≤ T
  factors : ∀ k ∈ values, |k.value| ≤ 3 / 2
  floats : ∀ k ∈ values, rnd k.value = k.value

/-- The error of an interpolated discount factor. -/
def discountError (u tiny T : ℚ) : ℚ := 80003 * T * u + 2 ^ 65 * tiny

theorem discountError_bounds (R : Rounding rnd u tiny) {T : ℚ} (hT1 : 1 ≤ T) (hT2 : T ≤ 20000) :
    0 ≤ discountError u tiny T ∧ discountError u tiny T ≤ 1 := by
  have u0 := R.u_nonneg
  have us := R.u_small
  have t0 := R.tiny_pos
  have ts := R.tiny_small
  unfold discountError
  refine ⟨by positivity, ?_⟩
  have h1 : T * u ≤ 20000 * (1 / 2 ^ 40) := mul_le_mul hT2 us u0 (by norm_num)
  have h2 : (80003 * (20000 * (1 / 2 ^ 40)) + 2 ^ 65 * (1 / 2 ^ 100) : ℚ) ≤ 1 := by norm_num
  linarith

/-- Knot values as a function of the date. -/
theorem knot_function {values : List Knot} (hd : (values.map Knot.date).Nodup) : ∃ f : PyDate → ℚ, ∀ k ∈ values, f k.date = k.value := by
  have h : ∀ d, ∃ q, ∀ k ∈ values, k.date = d → k.value = q := by
    intro d
    by_cases hk : ∃ k ∈ values, k.date = d
    · obtain ⟨k, hk, rfl⟩ := hk
      refine ⟨k.value, fun k' hk' he => ?_⟩
      rw [List.inj_on_of_nodup_map hd hk' hk he]
    · exact ⟨0, fun k hk' he => absurd ⟨k, hk', he⟩ hk⟩
  choose f hf using h
  exact ⟨f, fun k hk => (hf k.date k hk rfl).symm⟩

/-- The discount curve in floating point: near the exact one at every date between the first and the last knot. -/
theorem rounded_discounts (R : Rounding rnd u tiny) {values : List Knot} {dcc : DayCountConvention} {ref : PyDate} {τ : PyDate → ℚ}
    {T : ℚ} (h : DiscountInput rnd values dcc ref τ T) (linear : Bool) (left : EndBehavior)
    (adj : PyDate → Except PyErr ℚ) (a a' : PyDate → ℚ) (hadj : ∀ d, adj d = .ok (a' d)) (ha : ∀ d, |a' d - a d| ≤ u / 1000)
    (haM : ∀ d, |a d| ≤ 1 / 4) :
    ∃ knots, Rounded.discountFactorKnots rnd values dcc ref linear left adj = .ok knots ∧
      ∀ (values' : List Knot) (c : Curve), values'.Perm (values.map (fun k => (⟨k.date, k.value + a k.date⟩ : Knot))) →
        CurveInput values' dcc ref →
        Curve.create values' (if linear then .linear else .previous) dcc (some ref) .error .error = .ok c →
        ∀ d, (∃ k ∈ values, k.date ≤ d) → (∃ k ∈ values, d ≤ k.date) →
          ∃ I y, Rounded.interpolate rnd knots dcc ref linear .error (fun _ => .ok 0) d = .ok I ∧ c.call d = .ok y ∧
            |I - y| ≤ discountError u tiny T ∧ |y| ≤ 2 := by
  obtain ⟨hin, hτ, hT1, hT2, hT, hM, hrep⟩ := h
  have u0 := R.u_nonneg
  have us := R.u_small
  have t0 := R.tiny_pos
  have ts := R.tiny_small
  have us' : u ≤ 1 / 1000 := le_trans us (by norm_num)
  have ts' : tiny ≤ 1 / 1000 := le_trans ts (by norm_num)
  have hm : (if linear then InterpolationMethod.linear else .previous) = .linear ∨
      (if linear then InterpolationMethod.linear else .previous) = .previous := by cases linear <;> simp
  have hp := pySorted_perm Knot.date values
  obtain ⟨f, hf⟩ := knot_function hin.distinct
  obtain ⟨first, last, hfi, hla, -, -, hfmin, hlmax⟩ := first_knot hin.nonempty hin.distinct
  -- the knots the code computes
  have hknot : ∀ k ∈ values, Rounded.interpolate rnd values dcc ref linear left adj k.date = .ok (rnd (k.value + a' k.date)) := by
    intro k hk
    obtain ⟨grid, x, y, e1, e2, e3, e4⟩ := curveValue_parts (C95_knots R values dcc ref hin linear k hk (hrep k hk))
    have hyr : rnd y = y := by
      have hgrep : ∀ p ∈ grid, rnd p.2 = p.2 := by
        intro p hp'
        unfold Rounded.makeGrid at e1
        obtain ⟨k', hk', hkp⟩ := (collect_mem e1 p).1 hp'
        rw [bind_ok] at hkp; obtain ⟨_, _, hkp⟩ := hkp
        injection hkp with hkp
        rw [← hkp]
        exact hrep k' (hp.mem_iff.1 hk')
      cases linear
      · exact previous_rep rnd grid hgrep x y (by simpa using e3)
      · exact rounded_linear_rep R grid hgrep x y (by simpa using e3)
    rw [add_zero, hyr] at e4
    unfold Rounded.interpolate
    simp only [hfi, hla, if_neg (not_lt.2 (hfmin k hk)), if_neg (not_lt.2 (hlmax k hk))]
    rw [e1, ok_bind, e2, ok_bind]
    cases linear
    · simp only [Bool.false_eq_true, if_false] at e3 ⊢
      rw [e3, ok_bind, hadj, ok_bind, e4]
    · simp only [if_true] at e3 ⊢
      rw [e3, ok_bind, hadj, ok_bind, e4]
  set b : PyDate → ℚ := fun d => rnd (f d + a' d) - f d with hb
  have hbk : ∀ k ∈ values, k.value + b k.date = rnd (k.value + a' k.date) := by
    intro k hk
    simp only [hb, hf k hk]; ring
  have hsize : ∀ k ∈ values, |k.value + a' k.date| ≤ 2 ∧ |k.value + a k.date| ≤ 7 / 4 := by
    intro k hk
    have q1 := hM k hk
    have q2 := haM k.date
    have q3 := ha k.date
    have q4 := abs_add_le k.value (a k.date)
    have q5 : k.value + a' k.date = (k.value + a k.date) + (a' k.date - a k.date) := by ring
    have q6 := abs_add_le (k.value + a k.date) (a' k.date - a k.date)
    rw [← q5] at q6
    exact ⟨by linarith, by linarith⟩
  have hberr : ∀ k ∈ values, |b k.date - a k.date| ≤ 3 * u + 2 * tiny ∧ |k.value + b k.date| ≤ 2 := by
    intro k hk
    have e1 := R.abs_err (k.value + a' k.date)
    have e2 : u * |k.value + a' k.date| ≤ u * 2 := mul_le_mul_of_nonneg_left (hsize k hk).1 u0
    rw [← hbk k hk] at e1
    have e3 : b k.date - a k.date = (k.value + b k.date - (k.value + a' k.date)) + (a' k.date - a k.date) := by ring
    have e4 := abs_add_le (k.value + b k.date - (k.value + a' k.date)) (a' k.date - a k.date)
    rw [← e3] at e4
    have e5 := ha k.date
    refine ⟨by linarith, ?_⟩
    have e6 : k.value + b k.date = (b k.date - a k.date) + (k.value + a k.date) := by ring
    have e7 := abs_add_le (b k.date - a k.date) (k.value + a k.date)
    rw [← e6] at e7
    have e8 := (hsize k hk).2
    linarith
  set knots := (pySorted Knot.date values).map (fun k => (⟨k.date, k.value + b k.date⟩ : Knot)) with hkn
  have hperm : knots.Perm (values.map (fun k => (⟨k.date, k.value + b k.date⟩ : Knot))) := hp.map _
  have hmemk : ∀ x ∈ knots, ∃ k ∈ values, x = ⟨k.date, k.value + b k.date⟩ := by
    intro x hx
    obtain ⟨k, hk, rfl⟩ := List.mem_map.1 hx
    exact ⟨k, hp.mem_iff.1 hk, rfl⟩
  have hmemv : ∀ k ∈ values, (⟨k.date, k.value + b k.date⟩ : Knot) ∈ knots := fun k hk =>
    List.mem_map.2 ⟨k, hp.mem_iff.2 hk, rfl⟩
  have hkin : CurveInput knots dcc ref := by
    refine ⟨hin.convention, hin.refOk, ?_, ?_, ?_⟩
    · intro hh
      rw [hkn, List.map_eq_nil_iff] at hh
      rw [hh] at hp
      exact hin.nonempty (List.Perm.eq_nil hp.symm)
    · rw [hkn, List.map_map]
      show ((pySorted Knot.date values).map Knot.date).Nodup
      exact ((hp.map Knot.date).nodup_iff).2 hin.distinct
    · intro x hx
      obtain ⟨k, hk, rfl⟩ := hmemk x hx
      exact hin.notBefore k hk
  refine ⟨knots, ?_, ?_⟩
  · unfold Rounded.discountFactorKnots
    apply collect_eq_map
    intro k hk
    have hk' := hp.mem_iff.1 hk
    rw [hknot k hk', ok_bind, hbk k hk']
  · intro values' c hvp hvin hc d h1 h2
    obtain ⟨c', hc', -⟩ := (C27_builds knots (if linear then .linear else .previous) dcc .error .error).1 ref hkin
    obtain ⟨α, β, x, y, hx, hy, hα, hβ, hαβ, hw⟩ := curve_weights hm hin h1 h2
    have r1 := hw a values' c hvp hvin hc
    have r2 := hw b knots c' hperm hkin hc'
    obtain ⟨y', I, e1, e2, -, e3, e4⟩ := rounded_interpolate R hkin hτ linear hT1 hT2 (M := 2)
      (fun q hq => by obtain ⟨k, hk, rfl⟩ := hmemk q hq; exact hT k hk)
      (fun q hq => by obtain ⟨k, hk, rfl⟩ := hmemk q hq; exact (hberr k hk).2)
      (fun q hq => by obtain ⟨k, hk, rfl⟩ := hmemk q hq; show rnd (k.value + b k.date) = _; rw [hbk k hk]; exact R.idem _) hc'
      (left := .error) (d := d)
      (Or.inr (by obtain ⟨k, hk, hkd⟩ := h1; exact ⟨_, hmemv k hk, hkd⟩))
      (by obtain ⟨k, hk, hkd⟩ := h2; exact ⟨_, hmemv k hk, hkd⟩)
    rw [r2] at e1
    injection e1 with e1
    refine ⟨I, _, by rw [e4, ok_bind, add_zero, e3], r1, ?_, ?_⟩
    · set Y := α * (x.value + a x.date) + β * (y.value + a y.date) with hY
      have d1 : y' - Y = α * (b x.date - a x.date) + β * (b y.date - a y.date) := by rw [← e1, hY]; ring
      have d2 : |y' - Y| ≤ 3 * u + 2 * tiny := by
        rw [d1]
        refine le_trans (abs_add_le _ _) ?_
        rw [abs_mul, abs_mul, abs_of_nonneg hα, abs_of_nonneg hβ]
        have g1 := mul_le_mul_of_nonneg_left (hberr x hx).1 hα
        have g2 := mul_le_mul_of_nonneg_left (hberr y hy).1 hβ
        have g3 : α * (3 * u + 2 * tiny) + β * (3 * u + 2 * tiny) = 3 * u + 2 * tiny := by rw [← add_mul, hαβ, one_mul]
        linarith
      have d3 : I - Y = (I - y') + (y' - Y) := by ring
      rw [d3]
      refine le_trans (abs_add_le _ _) ?_
      unfold discountError
      have d4 : u ≤ T * u := le_mul_of_one_le_left u0 hT1
      linarith
    · refine le_trans (abs_add_le _ _) ?_
      rw [abs_mul, abs_mul, abs_of_nonneg hα, abs_of_nonneg hβ]
      have g1 := mul_le_mul_of_nonneg_left (hsize x hx).2 hα
      have g2 := mul_le_mul_of_nonneg_left (hsize y hy).2 hβ
      have g3 : α * (7 / 4) + β * (7 / 4) = 7 / 4 := by rw [← add_mul, hαβ, one_mul]
      linarith

/-! ## The exact values -/

/-- Values on a curve of discount factors, in exact arithmetic: amounts times interpolated discount factors, which depend on the adjustment
without amplifying it. -/
theorem discount_values {values : List Knot} {m : InterpolationMethod} (hm : m = .linear ∨ m = .previous) {dcc : DayCountConvention}
    {ref : PyDate} {left right : EndBehavior} (h : CurveInput values dcc ref) {yc yc' : YieldCurve}
    (hyc : YieldCurve.create values [] m dcc .discountFactor ref left right = .ok yc) (hu : Used exp yc yc') :
    ∃ W : (PyDate → ℚ) → PyDate → ℚ,
      (∀ (a b : PyDate → ℚ) (B : ℚ), (∀ d, |a d - b d| ≤ B) → ∀ d, |W a d - W b d| ≤ B) ∧
      (∀ (a : PyDate → ℚ) (values' : List Knot) (c : Curve),
        values'.Perm (values.map (fun k => (⟨k.date, k.value + a k.date⟩ : Knot))) → CurveInput values' dcc ref →
        Curve.create values' m dcc (some ref) .error .error = .ok c →
        ∀ d, (∃ k ∈ values, k.date ≤ d) → (∃ k ∈ values, d ≤ k.date) → c.call d = .ok (W a d)) ∧
      ∀ schedule : List Payment,
        (∀ p ∈ schedule, p.amount ≠ none → ref ≤ p.date → (∃ k ∈ values, k.date ≤ p.date) ∧ ∃ k ∈ values, p.date ≤ k.date) →
        ∀ (adj : Adjustment) (a : PyDate → ℚ), (∀ d, adj (.date d) = .ok (a d)) →
          (yc'.presentValue exp (Cashflow.presentValue schedule) adj).1 =
            .ok ((countedPairs ref schedule).map (fun pa => pa.2 * W a pa.1)).sum := by
  have hW : ∀ d, ∃ V : (PyDate → ℚ) → ℚ,
      (∀ (a b : PyDate → ℚ) (B : ℚ), (∀ d, |a d - b d| ≤ B) → |V a - V b| ≤ B) ∧
      ∀ (a : PyDate → ℚ) (values' : List Knot) (c : Curve),
        values'.Perm (values.map (fun k => (⟨k.date, k.value + a k.date⟩ : Knot))) → CurveInput values' dcc ref →
        Curve.create values' m dcc (some ref) .error .error = .ok c →
        (∃ k ∈ values, k.date ≤ d) → (∃ k ∈ values, d ≤ k.date) → c.call d = .ok (V a) := by
    intro d
    by_cases hd : (∃ k ∈ values, k.date ≤ d) ∧ ∃ k ∈ values, d ≤ k.date
    · obtain ⟨α, β, x, y, hx, hy, hα, hβ, hαβ, hw⟩ := curve_weights hm h hd.1 hd.2
      refine ⟨fun a => α * (x.value + a x.date) + β * (y.value + a y.date), ?_, fun a values' c h1 h2 h3 _ _ => hw a values' c h1 h2 h3⟩
      intro a b B hB
      have e1 : α * (x.value + a x.date) + β * (y.value + a y.date) - (α * (x.value + b x.date) + β * (y.value + b y.date)) =
        α * (a x.date - b x.date) + β * (a y.date - b y.date) := by ring
      show |α * (x.value + a x.date) + β * (y.value + a y.date) - (α * (x.value + b x.date) + β * (y.value + b y.date))| ≤ B
      rw [e1]
      refine le_trans (abs_add_le _ _) ?_
      rw [abs_mul, abs_mul, abs_of_nonneg hα, abs_of_nonneg hβ]
      have g1 := mul_le_mul_of_nonneg_left (hB x.date) hα
      have g2 := mul_le_mul_of_nonneg_left (hB y.date) hβ
      have g3 : α * B + β * B = B := by rw [← add_mul, hαβ, one_mul]
      linarith
    · refine ⟨fun _ => 0, fun a b B hB => ?_, fun a values' c _ _ _ h1 h2 => absurd ⟨h1, h2⟩ hd⟩
      simpa using le_trans (abs_nonneg _) (hB d)
  choose V hV1 hV2 using hW
  refine ⟨fun a d => V d a, fun a b B hB d => hV1 d a b B hB, fun a values' c h1 h2 h3 d h4 h5 => hV2 d a values' c h1 h2 h3 h4 h5, ?_⟩
  intro schedule hin adj a ha
  obtain ⟨hs, base, hbase, rfl⟩ := settings_create (exp := exp) hyc
  rw [(presentValue_used hs hu (Cashflow.presentValue schedule) adj).1]
  obtain ⟨values', c, e1, e2, e3, e4, e5⟩ := discountFactor_curve (exp := exp) (.basic hm _) h hbase adj a (fun k _ => ha k.date)
  unfold YieldCurve.presentValue
  rw [e1]
  show Cashflow.presentValue schedule c.toDiscountFn = _
  have hpv := C95_exact.2.2.2.1 schedule c.toDiscountFn
  rw [← hpv]
  unfold Curve.toDiscountFn
  rw [e5]
  unfold Rounded.presentValue
  show (do
    let xs ← collect (fun (pa : PyDate × ℚ) => do
      let df ← c.call pa.1
      .ok (id (df * pa.2))) (countedPairs ref schedule)
    .ok (Rounded.sum id xs)) = _
  rw [collect_eq_map (g := fun pa => pa.2 * V pa.1 a) (fun pa hpa => by
    obtain ⟨h1, p, hp, h2, h3⟩ := countedPairs_mem hpa
    obtain ⟨h4, h5⟩ := hin p hp (by rw [h2]; simp) (by rw [h3]; exact h1)
    rw [h3] at h4 h5
    rw [hV2 pa.1 a values' c e2 e3 e4 h4 h5, ok_bind]
    show (Except.ok (V pa.1 a * pa.2) : Except PyErr ℚ) = _
    rw [mul_comm]), ok_bind]
  congr 1
  unfold Rounded.sum
  simp only [id]
  rw [List.sum_eq_foldl]

/-- C129. In floating point the value of any schedule of payments on a curve of discount factors, under any adjustment, is the value in
exact arithmetic up to an error of a few units of rounding relative to the total size of the payments. -/
theorem C129_value (R : Rounding rnd u tiny) (values : List Knot) (dcc : DayCountConvention) (ref : PyDate) (τ : PyDate → ℚ) (T : ℚ)
    (h : DiscountInput rnd values dcc ref τ T) (linear : Bool) (left right : EndBehavior) (yc yc' : YieldCurve)
    (hyc : YieldCurve.create values [] (if linear then .linear else .previous) dcc .discountFactor ref left right = .ok yc)
    (hu : Used exp yc yc') (adj : PyDate → Except PyErr ℚ) (exact : Adjustment) (a a' : PyDate → ℚ) (hadj : ∀ d, adj d = .ok (a' d))
    (hexact : ∀ d, exact (.date d) = .ok (a d)) (ha : ∀ d, |a' d - a d| ≤ u / 1000) (haM : ∀ d, |a d| ≤ 1 / 4)
    (schedule : List Payment) (hn : (schedule.length : ℚ) * u ≤ 1 / 2)
    (hin : ∀ p ∈ schedule, p.amount ≠ none → ref ≤ p.date → (∃ k ∈ values, k.date ≤ p.date) ∧ ∃ k ∈ values, p.date ≤ k.date) :
    ∃ w V, Rounded.discountPresentValue rnd values dcc ref linear left schedule adj = .ok w ∧
      (yc'.presentValue exp (Cashflow.presentValue schedule) exact).1 = .ok V ∧
      |w - V| ≤ scheduleError u tiny (discountError u tiny T) (totalSize ref schedule) schedule.length := by
  have hm : (if linear then InterpolationMethod.linear else .previous) = .linear ∨
      (if linear then InterpolationMethod.linear else .previous) = .previous := by cases linear <;> simp
  obtain ⟨W, -, hW, hval⟩ := discount_values hm h.input hyc hu
  obtain ⟨knots, hk, hI⟩ := rounded_discounts R h linear left adj a a' hadj ha haM
  obtain ⟨he0, he1⟩ := discountError_bounds R h.one_le h.horizon
  set values' := values.map (fun k => (⟨k.date, k.value + a k.date⟩ : Knot)) with hv'
  have hvin : CurveInput values' dcc ref := by
    refine ⟨h.input.convention, h.input.refOk, ?_, ?_, ?_⟩
    · intro hh
      rw [hv', List.map_eq_nil_iff] at hh
      exact h.input.nonempty hh
    · rw [hv', List.map_map]
      exact h.input.distinct
    · intro x hx
      obtain ⟨k, hk, rfl⟩ := List.mem_map.1 hx
      exact h.input.notBefore k hk
  obtain ⟨c, hc, -⟩ := (C27_builds values' (if linear then .linear else .previous) dcc .error .error).1 ref hvin
  have hd : ∀ d, ∃ I, (∃ k ∈ values, k.date ≤ d) → (∃ k ∈ values, d ≤ k.date) →
      Rounded.interpolate rnd knots dcc ref linear .error (fun _ => .ok 0) d = .ok I ∧ |I - W a d| ≤ discountError u tiny T ∧
        |W a d| ≤ 2 := by
    intro d
    by_cases hd : (∃ k ∈ values, k.date ≤ d) ∧ ∃ k ∈ values, d ≤ k.date
    · obtain ⟨I, y, e1, e2, e3, e4⟩ := hI values' c (List.Perm.refl _) hvin hc d hd.1 hd.2
      rw [hW a values' c (List.Perm.refl _) hvin hc d hd.1 hd.2] at e2
      injection e2 with e2
      subst e2
      exact ⟨I, fun _ _ => ⟨e1, e3, e4⟩⟩
    · exact ⟨0, fun h1 h2 => absurd ⟨h1, h2⟩ hd⟩
  choose I hI' using hd
  obtain ⟨w, hw, hwe⟩ := rounded_schedule R he0 he1 I (fun d => ((W a d : ℚ) : ℝ)) hn
    (call := Rounded.interpolate rnd knots dcc ref linear .error (fun _ => .ok 0)) (ref := ref) (schedule := schedule) (fun pa hpa => by
    obtain ⟨h1, p, hp, h2, h3⟩ := countedPairs_mem hpa
    obtain ⟨h4, h5⟩ := hin p hp (by rw [h2]; simp) (by rw [h3]; exact h1)
    rw [h3] at h4 h5
    obtain ⟨i1, i2, i3⟩ := hI' pa.1 h4 h5
    exact ⟨i1, by exact_mod_cast i2, by exact_mod_cast i3⟩)
  refine ⟨w, _, ?_, hval schedule hin exact a hexact, ?_⟩
  · unfold Rounded.discountPresentValue
    rw [hk, ok_bind, hw]
  · have hcast : (((countedPairs ref schedule).map (fun pa => pa.2 * W a pa.1)).sum : ℝ) =
        ((countedPairs ref schedule).map (fun pa => (pa.2 : ℝ) * ((W a pa.1 : ℚ) : ℝ))).sum := by
      generalize countedPairs ref schedule = L
      induction L with
      | nil => simp
      | cons pa L ih =>
        simp only [List.map_cons, List.sum_cons]
        rw [Rat.cast_add, ih]
        push_cast
        rfl
    rw [← hcast] at hwe
    generalize ((countedPairs ref schedule).map (fun pa => pa.2 * W a pa.1)).sum = V at hwe ⊢
    exact_mod_cast hwe

/-! ## Key-rate risk -/

theorem countedPairs_size (ref : PyDate) (schedule : List Payment) :
    totalSize ref schedule = ((countedPairs ref schedule).map (fun pa => |pa.2|)).sum :=
  (countedPairs_sum ref (fun _ => 0) (fun _ => 0) schedule).2.1

/-- C129. In floating point the one-basis-point risk of any schedule of payments to a key rate, on a curve of discount factors, is the risk
in exact arithmetic, up to a few units of rounding relative to the total size of the payments; the risk itself is at most a basis point of
that size. -/
theorem C129_pv01 (R : Rounding rnd u tiny) (values : List Knot) (dcc : DayCountConvention) (ref : PyDate) (τ : PyDate → ℚ) (T : ℚ)
    (h : DiscountInput rnd values dcc ref τ T) (linear : Bool) (left right : EndBehavior) (yc yc' : YieldCurve)
    (hyc : YieldCurve.create values [] (if linear then .linear else .previous) dcc .discountFactor ref left right = .ok yc)
    (hu : Used exp yc yc') (k : KeyRate) (hk : Neighboured k)
    (schedule : List Payment) (hn : (schedule.length : ℚ) * u ≤ 1 / 2)
    (hin : ∀ p ∈ schedule, p.amount ≠ none → ref ≤ p.date → (∃ k ∈ values, k.date ≤ p.date) ∧ ∃ k ∈ values, p.date ≤ k.date) :
    ∃ r D, Rounded.discountPv01 rnd values dcc ref linear left schedule k = .ok r ∧
      (yc'.pv01Risk exp (Cashflow.presentValue schedule) k).1 = .ok ⟨k.keyDate, D, .usTreasury⟩ ∧
      |D| ≤ totalSize ref schedule / 10000 ∧
      |r - D| ≤ 3 * scheduleError u tiny (discountError u tiny T) (totalSize ref schedule) schedule.length +
        u * totalSize ref schedule + 8 * tiny := by
  have u0 := R.u_nonneg
  have hm : (if linear then InterpolationMethod.linear else .previous) = .linear ∨
      (if linear then InterpolationMethod.linear else .previous) = .previous := by cases linear <;> simp
  obtain ⟨w, hw, hwb⟩ := keyRate_weight k hk
  obtain ⟨W, hlip, -, hval⟩ := discount_values hm h.input hyc (Used.start (exp := exp))
  set up : PyDate → ℚ := fun d => 1 / 20000 * w d with hupd
  set down : PyDate → ℚ := fun d => -1 / 20000 * w d with hdownd
  have hup : ∀ d, (k.setBumpVal (1 / 20000)).call d = .ok (up d) := fun d => hw _ d
  have hdown : ∀ d, (k.setBumpVal (-1 / 20000)).call d = .ok (down d) := fun d => hw _ d
  set VU := ((countedPairs ref schedule).map (fun pa => pa.2 * W up pa.1)).sum with hVU
  set VL := ((countedPairs ref schedule).map (fun pa => pa.2 * W down pa.1)).sum with hVL
  have eU : (yc.presentValue exp (Cashflow.presentValue schedule) (k.setBumpVal (1 / 20000)).asAdjustment).1 = .ok VU :=
    hval schedule hin _ up hup
  have eL : (yc.presentValue exp (Cashflow.presentValue schedule) (k.setBumpVal (-1 / 20000)).asAdjustment).1 = .ok VL :=
    hval schedule hin _ down hdown
  have hrisk := (C30_central_difference exp values _ dcc .discountFactor ref left right yc yc' hyc hu (Cashflow.presentValue schedule) k
    k.bump VU VL eU eL).2
  rw [show k.setBumpVal k.bump = k from rfl] at hrisk
  have quarter : ∀ f : PyDate → ℚ, (∀ d, |f d| ≤ 1 / 20000) → ∀ d, |f d| ≤ 1 / 4 := fun f hf d => le_trans (hf d) (by norm_num)
  have hA : 0 ≤ totalSize ref schedule := totalSize_nonneg ref schedule
  have hD : |VU - VL| ≤ totalSize ref schedule / 10000 := by
    have hlip' := hlip up down (1 / 10000) (fun d => by
      have : up d - down d = 1 / 10000 * w d := by simp only [hupd, hdownd]; ring
      rw [this, abs_of_nonneg (by have := (hwb d).1; positivity)]
      have := (hwb d).2.1
      linarith)
    rw [hVU, hVL, countedPairs_size]
    generalize countedPairs ref schedule = L
    induction L with
    | nil => simp
    | cons pa L ih =>
      simp only [List.map_cons, List.sum_cons]
      have e1 : |pa.2 * (W up pa.1 - W down pa.1)| ≤ |pa.2| * (1 / 10000) := by
        rw [abs_mul]; exact mul_le_mul_of_nonneg_left (hlip' pa.1) (abs_nonneg _)
      have e2 : pa.2 * W up pa.1 + (L.map (fun pa => pa.2 * W up pa.1)).sum -
          (pa.2 * W down pa.1 + (L.map (fun pa => pa.2 * W down pa.1)).sum) =
          pa.2 * (W up pa.1 - W down pa.1) +
          ((L.map (fun pa => pa.2 * W up pa.1)).sum - (L.map (fun pa => pa.2 * W down pa.1)).sum) := by ring
      rw [e2]
      refine le_trans (abs_add_le _ _) ?_
      linarith
  obtain ⟨r, hr, hre⟩ := rounded_pv01Of R k hk up down hup hdown
    (Rounded.discountPresentValue rnd values dcc ref linear left schedule) (VU := (VU : ℝ)) (VL := (VL : ℝ))
    (e := scheduleError u tiny (discountError u tiny T) (totalSize ref schedule) schedule.length)
    (fun hs adj g hadj hg => by
      obtain ⟨U, V, i1, i2, i3⟩ := C129_value R values dcc ref τ T h linear left right yc yc hyc (Used.start (exp := exp)) adj
        (k.setBumpVal (1 / 20000)).asAdjustment up g hadj hup hg (quarter up hs) schedule hn hin
      rw [eU] at i2
      injection i2 with i2
      subst i2
      exact ⟨U, i1, by exact_mod_cast i3⟩)
    (fun hs adj g hadj hg => by
      obtain ⟨U, V, i1, i2, i3⟩ := C129_value R values dcc ref τ T h linear left right yc yc hyc (Used.start (exp := exp)) adj
        (k.setBumpVal (-1 / 20000)).asAdjustment down g hadj hdown hg (quarter down hs) schedule hn hin
      rw [eL] at i2
      injection i2 with i2
      subst i2
      exact ⟨U, i1, by exact_mod_cast i3⟩)
  refine ⟨r, VU - VL, hr, hrisk, hD, ?_⟩
  have hre' : |r - (VU - VL)| ≤ 3 * scheduleError u tiny (discountError u tiny T) (totalSize ref schedule) schedule.length +
      4 * u * |VU - VL| + 8 * tiny := by exact_mod_cast hre
  have e1 : u * |VU - VL| ≤ u * (totalSize ref schedule / 10000) := mul_le_mul_of_nonneg_left hD u0
  have e2 : 0 ≤ u * totalSize ref schedule := mul_nonneg u0 hA
  linarith

/-- The members of a collection of two or more key rates have neighbours. -/
theorem collection_neighboured (h : KRHeap) (ids : List Nat) (c : KeyRateCollection) (h' : KRHeap)
    (hc : create h ids = (.ok c, h')) (hlen : 2 ≤ ids.length) (dcc : DayCountConvention)
    (hdcc : dcc ≠ .thirty360 ∧ dcc ≠ .unknown) (hall : ∀ i ∈ ids, (h i).dcc = dcc ∧ AxisOk dcc (h i).keyDate) :
    ∀ i ∈ c.keyRates, Neighboured (h' i) := by
  obtain ⟨hp, hs, hw, hsame, _⟩ := C23_construction h ids c h' hc
  have hall' : ∀ i ∈ c.keyRates, (h' i).dcc = dcc ∧ AxisOk dcc (h' i).keyDate := by
    intro i hi
    have := hall i (hp.mem_iff.1 hi)
    rw [(hsame i).1, (hsame i).2.1]
    exact this
  intro i hi
  obtain ⟨k, hk⟩ := List.getElem?_of_mem hi
  have hklt : k < c.keyRates.length := by
    rcases Nat.lt_or_ge k c.keyRates.length with h | h
    · exact h
    · rw [List.getElem?_eq_none h] at hk; cases hk
  have hgood := dateSorted_iff.1 (show DateSorted (fun j => (h' j).keyDate) c.keyRates from hs) k hklt
  obtain ⟨hpr, hn⟩ := hw k i hk
  have hlen' : 2 ≤ c.keyRates.length := by rw [hp.length_eq]; exact hlen
  refine ⟨by rw [(hall' i hi).1]; exact hdcc, ?_, ?_, ?_, by rw [(hall' i hi).1]; exact (hall' i hi).2⟩
  · by_cases h0 : k = 0
    · right
      subst h0
      obtain ⟨a, ha⟩ : ∃ a, c.keyRates[0 + 1]? = some a := ⟨_, List.getElem?_eq_getElem (by omega)⟩
      rw [hn, ha]; simp
    · left
      obtain ⟨a, ha⟩ : ∃ a, c.keyRates[k - 1]? = some a := ⟨_, List.getElem?_eq_getElem (by omega)⟩
      rw [hpr, if_neg h0, ha]; simp
  · intro p hp'
    rw [hpr] at hp'
    by_cases h0 : k = 0
    · rw [if_pos h0] at hp'; cases hp'
    · rw [if_neg h0] at hp'
      obtain ⟨a, ha, rfl⟩ := Option.map_eq_some_iff.1 hp'
      refine ⟨hgood.2 a i (by omega) ha hk, ?_⟩
      rw [(hall' i hi).1]
      exact (hall' a (List.mem_of_getElem? ha)).2
  · intro n hn'
    rw [hn] at hn'
    obtain ⟨a, ha, rfl⟩ := Option.map_eq_some_iff.1 hn'
    exact hgood.1 i a hk ha

theorem sum_near {B : ℚ} : ∀ (is : List Nat) (r D : Nat → ℚ), (∀ i ∈ is, |r i - D i| ≤ B) →
    |(is.map r).sum - (is.map D).sum| ≤ is.length * B
  | [], _, _, _ => by simp
  | i :: is, r, D, h => by
    have h1 := h i (by simp)
    have h2 := sum_near is r D (fun j hj => h j (by simp [hj]))
    simp only [List.map_cons, List.sum_cons, List.length_cons]
    have : r i + (is.map r).sum - (D i + (is.map D).sum) = (r i - D i) + ((is.map r).sum - (is.map D).sum) := by ring
    rw [this]
    refine le_trans (abs_add_le _ _) ?_
    push_cast
    linarith

/-- C129. The floating-point risks of a ladder over a collection of key rates add up to one basis point of the payments still to come, up to
the sum of their errors. -/
theorem C129_ladder (R : Rounding rnd u tiny) (values : List Knot) (dcc : DayCountConvention) (ref : PyDate) (τ : PyDate → ℚ) (T : ℚ)
    (h : DiscountInput rnd values dcc ref τ T) (linear : Bool) (left : EndBehavior)
    (payments : List Payment) (hn : (payments.length : ℚ) * u ≤ 1 / 2)
    (hin : ∀ p ∈ payments, p.amount ≠ none → ref ≤ p.date → (∃ k ∈ values, k.date ≤ p.date) ∧ ∃ k ∈ values, p.date ≤ k.date)
    (heap heap' : KRHeap) (ids : List Nat) (c : KeyRateCollection) (hc : create heap ids = (.ok c, heap'))
    (hlen : 2 ≤ ids.length) (kdcc : DayCountConvention) (hk : kdcc ≠ .thirty360 ∧ kdcc ≠ .unknown)
    (hall : ∀ i ∈ ids, (heap i).dcc = kdcc ∧ AxisOk kdcc (heap i).keyDate) :
    ∃ rs, Rounded.discountLadder rnd values dcc ref linear left (Cashflow.create payments) heap' c = .ok rs ∧
      rs.length = ids.length ∧
      |rs.sum - 1 / 10000 * countedTotal ref payments| ≤ ids.length *
        (3 * scheduleError u tiny (discountError u tiny T) (totalSize ref payments) payments.length +
          u * totalSize ref payments + 8 * tiny) := by
  have hm : (if linear then InterpolationMethod.linear else .previous) = .linear ∨
      (if linear then InterpolationMethod.linear else .previous) = .previous := by cases linear <;> simp
  obtain ⟨base, hbase, -⟩ := (C27_builds values (if linear then .linear else .previous) dcc left .error).1 ref h.input
  have hyc : YieldCurve.create values [] (if linear then .linear else .previous) dcc .discountFactor ref left .error =
      .ok ⟨base, .discountFactor, none⟩ := by
    unfold YieldCurve.create
    cases values with
    | nil => exact absurd rfl h.input.nonempty
    | cons k ks => simp only [hbase, ok_bind]
  have hperm : (Cashflow.create payments).Perm payments := pySorted_perm Payment.date payments
  have hsize : totalSize ref (Cashflow.create payments) = totalSize ref payments := (hperm.map _).sum_eq
  have hlen' : (Cashflow.create payments).length = payments.length := hperm.length_eq
  have hnb := collection_neighboured heap ids c heap' hc hlen kdcc hk hall
  have hp := (C23_construction heap ids c heap' hc).1
  have hone : ∀ i, ∃ r D, i ∈ c.keyRates →
      Rounded.discountPv01 rnd values dcc ref linear left (Cashflow.create payments) (heap' i) = .ok r ∧
      (YieldCurve.pv01Risk id ⟨base, .discountFactor, none⟩ (Cashflow.presentValue (Cashflow.create payments)) (heap' i)).1 =
        .ok ⟨(heap' i).keyDate, D, .usTreasury⟩ ∧
      |r - D| ≤ 3 * scheduleError u tiny (discountError u tiny T) (totalSize ref payments) payments.length +
        u * totalSize ref payments + 8 * tiny := by
    intro i
    by_cases hi : i ∈ c.keyRates
    · obtain ⟨r, D, e1, e2, -, e4⟩ := C129_pv01 R values dcc ref τ T h linear left .error _ _ hyc (Used.start (exp := id)) (heap' i)
        (hnb i hi) (Cashflow.create payments) (by rw [hlen']; exact hn) (fun p hp' => hin p (hperm.mem_iff.1 hp'))
      rw [hsize, hlen'] at e4
      exact ⟨r, D, fun _ => ⟨e1, e2, e4⟩⟩
    · exact ⟨0, 0, fun hi' => absurd hi' hi⟩
  choose r D hrD using hone
  obtain ⟨risks, up, down, t1, -, -, -, -, t2⟩ := C107_ladder_total id values _ (.basic hm _) dcc ref left .error h.input _ _ hyc Used.start
    payments hin heap heap' ids c hc hlen kdcc hk hall
  have hlad := (C30_ladder id values _ dcc .discountFactor ref left .error _ _ hyc Used.start
    (Cashflow.presentValue (Cashflow.create payments)) heap' c (fun i => ⟨(heap' i).keyDate, D i, .usTreasury⟩)
    (fun i hi => (hrD i hi).2.1)).1
  rw [hlad] at t1
  injection t1 with t1
  subst t1
  rw [List.map_map] at t2
  refine ⟨c.keyRates.map r, ?_, by rw [List.length_map, hp.length_eq], ?_⟩
  · unfold Rounded.discountLadder
    exact collect_eq_map (fun i hi => (hrD i hi).1)
  · rw [← t2, ← hp.length_eq]
    exact sum_near c.keyRates r D (fun i hi => (hrD i hi).2.2)

/-! ## Exact arithmetic -/

theorem collect_preserves {α β γ : Type} {f : α → Except PyErr β} {p : α → γ} {q : β → γ} {l : List α} {r : List β}
    (h : collect f l = .ok r) (hf : ∀ a b, f a = .ok b → q b = p a) : r.map q = l.map p := by
  have := collect_ok.1 h
  clear h
  induction this with
  | nil => rfl
  | cons hab _ ih => rw [List.map_cons, List.map_cons, ih, hf _ _ hab]

/-- C129. With exact arithmetic the rounded pricing and risk functions are the exact ones the other properties are about, whatever the
curve was used for before, and whatever the adjustment, including those that raise. -/
theorem C129_exact (exp : ℚ → ℚ) (values : List Knot) (dcc : DayCountConvention) (ref : PyDate) (linear : Bool) (left right : EndBehavior)
    (h : CurveInput values dcc ref) (yc yc' : YieldCurve)
    (hyc : YieldCurve.create values [] (if linear then .linear else .previous) dcc .discountFactor ref left right = .ok yc)
    (hu : Used exp yc yc') (schedule : List Payment) :
    (∀ adj : Adjustment, (yc'.presentValue exp (Cashflow.presentValue schedule) adj).1 =
      Rounded.discountPresentValue id values dcc ref linear left schedule (fun d => adj (.date d))) ∧
    ∀ k : KeyRate, (yc'.pv01Risk exp (Cashflow.presentValue schedule) k).1 =
      (Rounded.discountPv01 id values dcc ref linear left schedule k).map (fun r => ⟨k.keyDate, r, .usTreasury⟩) := by
  obtain ⟨hs, base, hbase, rfl⟩ := settings_create (exp := exp) hyc
  obtain ⟨τ, hτ⟩ := h.axis
  have hcc := hbase
  rw [create_curve hτ h.refOk h.notBefore] at hcc
  injection hcc with hcc
  have hp := pySorted_perm Knot.date values
  have value : ∀ (yc'' : YieldCurve), Used exp ⟨base, .discountFactor, none⟩ yc'' → ∀ adj : Adjustment,
      (yc''.presentValue exp (Cashflow.presentValue schedule) adj).1 =
      Rounded.discountPresentValue id values dcc ref linear left schedule (fun d => adj (.date d)) := by
    intro yc'' hu adj
    rw [(presentValue_used hs hu (Cashflow.presentValue schedule) adj).1]
    have e0 : base.knots = pySorted Knot.date values := by rw [← hcc]
    have e1 : base.method = (if linear then .linear else .previous) := by rw [← hcc]
    have e2 : base.referenceDate = ref := by rw [← hcc]
    have e3 : base.dcc = dcc := by rw [← hcc]
    have hk : YieldCurve.discountFactorKnots ⟨base, .discountFactor, none⟩ adj =
        Rounded.discountFactorKnots id values dcc ref linear left (fun d => adj (.date d)) := by
      unfold YieldCurve.discountFactorKnots Rounded.discountFactorKnots
      simp only [e0]
      refine collect_congr_mem (fun k hk => ?_)
      rw [rounded_interpolate_id h linear hbase adj k.date (Or.inr ⟨k, hp.mem_iff.1 hk, le_refl _⟩)]
    unfold YieldCurve.presentValue YieldCurve.toDiscountCurve Rounded.discountPresentValue
    rw [← hk]
    cases hx : YieldCurve.discountFactorKnots ⟨base, .discountFactor, none⟩ adj with
    | error e => simp only [error_bind]
    | ok knots =>
      have hmap : knots.map Knot.date = (pySorted Knot.date values).map Knot.date := by
        unfold YieldCurve.discountFactorKnots at hx
        simp only [e0] at hx
        exact collect_preserves hx (fun k y hy => by
          rw [bind_ok] at hy
          obtain ⟨v, -, hy⟩ := hy
          injection hy with hy
          rw [← hy])
      have hin : CurveInput knots dcc ref := by
        refine ⟨h.convention, h.refOk, ?_, by rw [hmap]; exact ((hp.map Knot.date).nodup_iff).2 h.distinct, fun k hk => ?_⟩
        · rintro rfl
          rw [List.map_nil] at hmap
          have := List.map_eq_nil_iff.1 hmap.symm
          rw [this] at hp
          exact h.nonempty (List.Perm.eq_nil hp.symm)
        · have : k.date ∈ (pySorted Knot.date values).map Knot.date := by rw [← hmap]; exact List.mem_map_of_mem hk
          obtain ⟨k', hk', he⟩ := List.mem_map.1 this
          rw [← he]
          exact h.notBefore k' (hp.mem_iff.1 hk')
      obtain ⟨dc, hdc, href⟩ := (C27_builds knots (if linear then .linear else .previous) dcc .error .error).1 ref hin
      simp only [YieldCurve.storeDiscount, e1, e2, e3, hdc, ok_bind]
      rw [C95_exact.2.2.2.1]
      congr 1
      unfold Curve.toDiscountFn
      rw [href]
      congr 1
      funext d
      exact (rounded_interpolate_id hin linear hdc noAdjustment d (Or.inl rfl)).symm
  exact ⟨value yc' hu, fun k => pv01Of_exact hs hu _ _ (value _ Used.start) k⟩

/-! ## Double precision -/

theorem scheduleError_double {A : ℚ} (hA : 0 ≤ A) {n : Nat} (hn : n ≤ 1000) :
    scheduleError (1 / 2 ^ 53) (1 / 2 ^ 1022) (discountError (1 / 2 ^ 53) (1 / 2 ^ 1022) 40) A n ≤ 4 / 10 ^ 10 * A + 1 / 10 ^ 70 := by
  have hn' : (n : ℚ) ≤ 1000 := by exact_mod_cast hn
  have ht := tiny_double
  have t0 : (0 : ℚ) < 1 / 2 ^ 1022 := by positivity
  have ts : (1 : ℚ) / 2 ^ 1022 ≤ 1 / 2 ^ 250 :=
    one_div_le_one_div_of_le (by positivity) (pow_le_pow_right₀ (by norm_num) (by norm_num))
  unfold scheduleError discountError
  generalize (1 : ℚ) / 2 ^ 1022 = t at *
  have e1 : 80003 * 40 * (1 / 2 ^ 53) + 2 ^ 65 * t + (8 * n + 3) * (1 / 2 ^ 53) ≤ (4 / 10 ^ 10 : ℚ) := by
    have : (8 * (n : ℚ) + 3) * (1 / 2 ^ 53) ≤ (8 * 1000 + 3) * (1 / 2 ^ 53) := mul_le_mul_of_nonneg_right (by linarith) (by norm_num)
    have e2 : 80003 * 40 * (1 / 2 ^ 53) + 2 ^ 65 * (1 / 2 ^ 250) + (8 * 1000 + 3) * (1 / 2 ^ 53) ≤ (4 / 10 ^ 10 : ℚ) := by norm_num
    linarith
  have e3 := mul_le_mul_of_nonneg_left e1 hA
  have e4 : (n : ℚ) * t ≤ 1000 * t := mul_le_mul_of_nonneg_right hn' t0.le
  linarith

/-- C129. In double precision, on a curve of discount factors up to 40 years long, the value of at most 1000 payments is accurate to four
ten-billionths of their total size, and so are a basis point's key-rate risks up to a factor of three. -/
theorem C129_double (values : List Knot) (dcc : DayCountConvention) (ref : PyDate) (τ : PyDate → ℚ)
    (h : DiscountInput nearest53 values dcc ref τ 40) (linear : Bool) (left right : EndBehavior) (yc yc' : YieldCurve)
    (hyc : YieldCurve.create values [] (if linear then .linear else .previous) dcc .discountFactor ref left right = .ok yc)
    (hu : Used exp yc yc') (schedule : List Payment) (hn : schedule.length ≤ 1000)
    (hin : ∀ p ∈ schedule, p.amount ≠ none → ref ≤ p.date → (∃ k ∈ values, k.date ≤ p.date) ∧ ∃ k ∈ values, p.date ≤ k.date) :
    (∃ w V, Rounded.discountPresentValue nearest53 values dcc ref linear left schedule (fun _ => .ok 0) = .ok w ∧
      (yc'.presentValue exp (Cashflow.presentValue schedule) noAdjustment).1 = .ok V ∧
      |w - V| ≤ 4 / 10 ^ 10 * totalSize ref schedule + 1 / 10 ^ 70) ∧
    ∀ k : KeyRate, Neighboured k → ∃ r D, Rounded.discountPv01 nearest53 values dcc ref linear left schedule k = .ok r ∧
      (yc'.pv01Risk exp (Cashflow.presentValue schedule) k).1 = .ok ⟨k.keyDate, D, .usTreasury⟩ ∧
      |r - D| ≤ 13 / 10 ^ 10 * totalSize ref schedule + 1 / 10 ^ 69 := by
  have hnu : (schedule.length : ℚ) * (1 / 2 ^ 53) ≤ 1 / 2 := by
    have : (schedule.length : ℚ) ≤ 1000 := by exact_mod_cast hn
    have h2 := mul_le_mul_of_nonneg_right this (show (0 : ℚ) ≤ 1 / 2 ^ 53 by norm_num)
    have : (1000 : ℚ) * (1 / 2 ^ 53) ≤ 1 / 2 := by norm_num
    linarith
  have hA := totalSize_nonneg ref schedule
  have hv := scheduleError_double hA hn
  constructor
  · obtain ⟨w, V, h1, h2, h3⟩ := C129_value rounding_nearest53 values dcc ref τ 40 h linear left right yc yc' hyc hu (fun _ => .ok 0)
      noAdjustment (fun _ => 0) (fun _ => 0) (fun _ => rfl) (fun _ => rfl) (fun _ => by norm_num) (fun _ => by norm_num) schedule hnu hin
    exact ⟨w, V, h1, h2, le_trans h3 hv⟩
  · intro k hk
    obtain ⟨r, D, h1, h2, -, h3⟩ := C129_pv01 rounding_nearest53 values dcc ref τ 40 h linear left right yc yc' hyc hu k hk schedule hnu hin
    refine ⟨r, D, h1, h2, le_trans h3 ?_⟩
    generalize scheduleError (1 / 2 ^ 53) (1 / 2 ^ 1022) (discountError (1 / 2 ^ 53) (1 / 2 ^ 1022) 40) (totalSize ref schedule)
      schedule.length = e at hv ⊢
    have ht := tiny_double
    have t0 : (0 : ℚ) < 1 / 2 ^ 1022 := by positivity
    have h70 : (4 : ℚ) * (1 / 10 ^ 70) ≤ 1 / 10 ^ 69 := by norm_num
    generalize (1 : ℚ) / 2 ^ 1022 = t at *
    have h53 : (1 / 2 ^ 53 : ℚ) * totalSize ref schedule ≤ 1 / 10 ^ 10 * totalSize ref schedule :=
      mul_le_mul_of_nonneg_right (by norm_num) hA
    linarith

/-! ## An example -/

/-- Discount factors of 1 today, 31/32 in a year and 7/8 in three. -/
def doubleFactors : List Knot := [⟨D 2023 6 1, 1⟩, ⟨D 2024 6 1, 31/32⟩, ⟨D 2026 6 1, 7/8⟩]

theorem nearest53_half_power (n : ℤ) (k : ℕ) (h0 : 0 < n) (h1 : n < 2 ^ 53) : nearest53 ((n : ℚ) / 2 ^ k) = (n : ℚ) / 2 ^ k := by
  have hn := nearest53_int n h0 h1
  have hq : (0 : ℚ) < n := by exact_mod_cast h0
  have hx : (0 : ℚ) < (n : ℚ) / 2 ^ k := by positivity
  rw [nearest53_of_pos hq] at hn
  rw [nearest53_of_pos hx]
  obtain ⟨f1, f2, -, -, -⟩ := near53_facts hq
  have hk : (2 : ℚ) ^ k = 2 ^ (k : ℤ) := (zpow_natCast _ _).symm
  have hlog : Int.log 2 ((n : ℚ) / 2 ^ k) = Int.log 2 (n : ℚ) - k := by
    refine log_eq_of ?_ ?_
    · rw [zpow_sub₀ (by norm_num), hk]
      exact div_le_div_of_nonneg_right f1 (by positivity)
    · rw [show Int.log 2 (n : ℚ) - k + 1 = (Int.log 2 (n : ℚ) + 1) - k by ring, zpow_sub₀ (by norm_num), hk]
      exact div_lt_div_of_pos_right f2 (by positivity)
  unfold near53 at hn ⊢
  rw [hlog]
  have e1 : (n : ℚ) / 2 ^ k * 2 ^ (52 - (Int.log 2 (n : ℚ) - k)) = n * 2 ^ (52 - Int.log 2 (n : ℚ)) := by
    rw [show 52 - (Int.log 2 (n : ℚ) - k) = (52 - Int.log 2 (n : ℚ)) + k by ring, zpow_add₀ (by norm_num), hk]
    field_simp
  have e2 : (2 : ℚ) ^ (Int.log 2 (n : ℚ) - k - 52) = 2 ^ (Int.log 2 (n : ℚ) - 52) / 2 ^ k := by
    rw [show Int.log 2 (n : ℚ) - k - 52 = (Int.log 2 (n : ℚ) - 52) - k by ring, zpow_sub₀ (by norm_num), hk]
  rw [e1, e2, ← mul_div_assoc, hn]

theorem doubleFactors_input : DiscountInput nearest53 doubleFactors .act360 (D 2023 6 1) (fun d => (d.ord : ℚ) / 360) 40 where
  input := ⟨by decide, by decide +kernel, by decide, by decide +kernel, by decide +kernel⟩
  axis := rfl
  one_le := by norm_num
  horizon := by norm_num
  times := by decide +kernel
  factors := by decide +kernel
  floats := by
    intro k hk
    simp only [doubleFactors, List.mem_cons, List.not_mem_nil, or_false] at hk
    rcases hk with rfl | rfl | rfl
    · exact_mod_cast nearest53_int 1 (by norm_num) (by norm_num)
    · have := nearest53_half_power 31 5 (by norm_num) (by norm_num); norm_num at this ⊢; exact this
    · have := nearest53_half_power 7 3 (by norm_num) (by norm_num); norm_num at this ⊢; exact this

/-- All hypotheses together: two coupons and a redemption on that curve, a key rate between its knots, and a collection of three. -/
example : (∃ yc, YieldCurve.create doubleFactors [] .linear .act360 .discountFactor (D 2023 6 1) .error .error = .ok yc) ∧
    Neighboured exKey ∧
    (∀ p ∈ ([⟨D 2024 1 1, some 5⟩, ⟨D 2024 7 1, some 5⟩, ⟨D 2025 6 1, some 105⟩] : List Payment), p.amount ≠ none →
      D 2023 6 1 ≤ p.date → (∃ k ∈ doubleFactors, k.date ≤ p.date) ∧ ∃ k ∈ doubleFactors, p.date ≤ k.date) ∧
    countedTotal (D 2023 6 1) [⟨D 2024 1 1, some 5⟩, ⟨D 2024 7 1, some 5⟩, ⟨D 2025 6 1, some 105⟩] = 115 ∧
    (∃ c h', create exampleHeap [0, 1, 2] = (.ok c, h')) ∧
    (∀ i ∈ [0, 1, 2], (exampleHeap i).dcc = .act360 ∧ AxisOk .act360 (exampleHeap i).keyDate) := by
  obtain ⟨c, hc, -⟩ := (C27_builds doubleFactors .linear .act360 .error .error).1 _ doubleFactors_input.input
  obtain ⟨c', hc'⟩ := (C23_raises_iff exampleHeap [0, 1, 2]).2.2 (by decide +kernel)
  refine ⟨⟨⟨c, .discountFactor, none⟩, ?_⟩,
    ⟨by decide, by decide, by rintro p ⟨⟩; decide +kernel, by rintro p ⟨⟩; decide +kernel, by decide +kernel⟩,
    by decide +kernel, by decide +kernel, ⟨c', _, Prod.ext hc' rfl⟩, by decide +kernel⟩
  show (do let base ← Curve.create doubleFactors .linear .act360 (some (D 2023 6 1)) .error .error
           .ok ⟨base, .discountFactor, none⟩ : Except PyErr YieldCurve) = _
  rw [hc, ok_bind]

end Verif.Props
