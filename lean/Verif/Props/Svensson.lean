/- The Svensson yield curve of the example: C137. -/
import Verif.Model.Examples
import Verif.Spec.Examples
import Mathlib.Analysis.SpecialFunctions.Integrals.Basic
import Mathlib.Analysis.SpecialFunctions.ExpDeriv
import Mathlib.MeasureTheory.Integral.IntervalIntegral.FundThmCalculus
import Mathlib.Analysis.Calculus.Deriv.Slope

namespace Verif.Props
open Verif.Spec Verif.Examples Filter Topology

/-- Antiderivative of the forward rate. -/
theorem svensson_deriv (b0 b1 b2 b3 : ℝ) {tau1 tau2 : ℝ} (h1 : tau1 ≠ 0) (h2 : tau2 ≠ 0) (x : ℝ) :
    HasDerivAt (fun x => b0 * x - b1 * tau1 * Real.exp (-x / tau1) - b2 * (x + tau1) * Real.exp (-x / tau1)
      - b3 * (x + tau2) * Real.exp (-x / tau2)) (svenssonForward b0 b1 b2 b3 tau1 tau2 x) x := by
  have e : ∀ tau : ℝ, HasDerivAt (fun x => Real.exp (-x / tau)) (Real.exp (-x / tau) * (-1 / tau)) x := by
    intro tau
    exact ((hasDerivAt_id x).neg.div_const tau).exp
  have p : ∀ b tau : ℝ, HasDerivAt (fun x => b * (x + tau)) (b * 1) x := fun b tau => ((hasDerivAt_id x).add_const tau).const_mul b
  have h := ((((hasDerivAt_id x).const_mul b0).sub ((e tau1).const_mul (b1 * tau1))).sub ((p b2 tau1).mul (e tau1))).sub ((p b3 tau2).mul (e tau2))
  refine h.congr_deriv ?_
  unfold svenssonForward
  field_simp
  ring

theorem svensson_zero (b0 b1 b2 b3 : ℝ) {tau1 tau2 t : ℝ} (h1 : tau1 ≠ 0) (h2 : tau2 ≠ 0) (ht : t ≠ 0) :
    zeroYield (svenssonForward b0 b1 b2 b3 tau1 tau2) t = b0 + b1 * (1 - Real.exp (-t / tau1)) / (t / tau1)
      + b2 * ((1 - Real.exp (-t / tau1)) / (t / tau1) - Real.exp (-t / tau1))
      + b3 * ((1 - Real.exp (-t / tau2)) / (t / tau2) - Real.exp (-t / tau2)) := by
  unfold zeroYield
  have hc : Continuous (svenssonForward b0 b1 b2 b3 tau1 tau2) := by
    unfold svenssonForward; fun_prop
  rw [intervalIntegral.integral_eq_sub_of_hasDerivAt (fun x _ => svensson_deriv b0 b1 b2 b3 h1 h2 x) (hc.intervalIntegrable _ _)]
  simp only [neg_zero, zero_div, Real.exp_zero]
  field_simp
  ring

/-- C137. The curve of the example is the zero-coupon yield of Svensson's forward curve plus an error: `exp(t / tau)` is written for `exp(-t / tau)`. -/
theorem C137_error (b0 b1 b2 b3 : ℝ) {tau1 tau2 t : ℝ} (h1 : tau1 ≠ 0) (h2 : tau2 ≠ 0) (ht : t ≠ 0) :
    yieldCurve b0 b1 b2 b3 tau1 tau2 t = zeroYield (svenssonForward b0 b1 b2 b3 tau1 tau2) t
      - b2 * (Real.exp (t / tau1) - Real.exp (-t / tau1)) - b3 * (Real.exp (t / tau2) - Real.exp (-t / tau2)) := by
  rw [svensson_zero b0 b1 b2 b3 h1 h2 ht]
  unfold yieldCurve
  dsimp only
  ring

/-- C137. Without the two hump terms the example's curve is the zero-coupon yield of the forward curve, at every maturity. -/
theorem C137_no_hump_partial (b0 b1 : ℝ) {tau1 tau2 t : ℝ} (h1 : tau1 ≠ 0) (h2 : tau2 ≠ 0) (ht : t ≠ 0) :
    yieldCurve b0 b1 0 0 tau1 tau2 t = zeroYield (svenssonForward b0 b1 0 0 tau1 tau2) t := by
  rw [C137_error b0 b1 0 0 h1 h2 ht]; ring

theorem one_sub_exp_div_tendsto {tau : ℝ} (h : 0 < tau) : Tendsto (fun t : ℝ => (1 - Real.exp (-t / tau)) / (t / tau)) (𝓝[>] 0) (𝓝 1) := by
  have hd : HasDerivAt (fun t : ℝ => -Real.exp (-t / tau)) (-(Real.exp (-0 / tau) * (-1 / tau))) 0 :=
    (((hasDerivAt_id (0 : ℝ)).neg.div_const tau).exp).neg
  have hs := hd.tendsto_slope.mono_left (nhdsWithin_mono (0 : ℝ) (show Set.Ioi (0 : ℝ) ⊆ {0}ᶜ from fun x hx => ne_of_gt hx))
  have := hs.const_mul tau
  have e : tau * (-(Real.exp (-0 / tau) * (-1 / tau))) = 1 := by
    simp; field_simp
  rw [e] at this
  refine this.congr fun t => ?_
  rw [slope_def_field]
  simp only [neg_zero, zero_div, Real.exp_zero, sub_zero]
  by_cases ht : t = 0
  · subst ht; simp
  · field_simp; ring

/-- C137. At the short end the curve is right: it tends to `BETA0 + BETA1`, the forward rate at maturity zero. -/
theorem C137_short_end (b0 b1 b2 b3 : ℝ) {tau1 tau2 : ℝ} (h1 : 0 < tau1) (h2 : 0 < tau2) :
    Tendsto (yieldCurve b0 b1 b2 b3 tau1 tau2) (𝓝[>] 0) (𝓝 (svenssonForward b0 b1 b2 b3 tau1 tau2 0)) := by
  have e : ∀ tau : ℝ, Tendsto (fun t : ℝ => Real.exp (t / tau)) (𝓝[>] 0) (𝓝 1) := by
    intro tau
    have : Continuous fun t : ℝ => Real.exp (t / tau) := by fun_prop
    have := (this.tendsto 0).mono_left (nhdsWithin_le_nhds (s := Set.Ioi (0 : ℝ)))
    simpa using this
  have q1 := one_sub_exp_div_tendsto h1
  have q2 := one_sub_exp_div_tendsto h2
  have h := (((tendsto_const_nhds (x := b0)).add (q1.const_mul b1)).add ((q1.sub (e tau1)).const_mul b2)).add ((q2.sub (e tau2)).const_mul b3)
  have hv : b0 + b1 * 1 + b2 * (1 - 1) + b3 * (1 - 1) = svenssonForward b0 b1 b2 b3 tau1 tau2 0 := by
    unfold svenssonForward; simp
  rw [hv] at h
  refine h.congr fun t => ?_
  unfold yieldCurve
  dsimp only
  rw [mul_div_assoc]

theorem one_sub_exp_div_tendsto_top {tau : ℝ} (h : 0 < tau) : Tendsto (fun t : ℝ => (1 - Real.exp (-t / tau)) / (t / tau)) atTop (𝓝 0) := by
  have ht : Tendsto (fun t : ℝ => t / tau) atTop atTop := tendsto_id.atTop_div_const h
  have he : Tendsto (fun t : ℝ => Real.exp (-t / tau)) atTop (𝓝 0) := by
    refine (Real.tendsto_exp_neg_atTop_nhds_zero.comp ht).congr fun t => ?_
    simp [neg_div]
  have := (he.const_sub 1).div_atTop ht
  simpa using this

theorem exp_neg_div_tendsto {tau : ℝ} (h : 0 < tau) : Tendsto (fun t : ℝ => Real.exp (-t / tau)) atTop (𝓝 0) := by
  have ht : Tendsto (fun t : ℝ => t / tau) atTop atTop := tendsto_id.atTop_div_const h
  refine (Real.tendsto_exp_neg_atTop_nhds_zero.comp ht).congr fun t => ?_
  simp [neg_div]

/-- C137. At the long end it is wrong: the zero-coupon yield tends to `BETA0`, the example's curve to minus infinity as soon as the hump
coefficients are nonnegative and not both zero (to plus infinity if they are nonpositive and not both zero). -/
theorem C137_long_end_false (b0 b1 b2 b3 : ℝ) {tau1 tau2 : ℝ} (h1 : 0 < tau1) (h2 : 0 < tau2) :
    Tendsto (zeroYield (svenssonForward b0 b1 b2 b3 tau1 tau2)) atTop (𝓝 b0) ∧
    (0 ≤ b2 → 0 ≤ b3 → 0 < b2 + b3 → Tendsto (yieldCurve b0 b1 b2 b3 tau1 tau2) atTop atBot) ∧
    (b2 ≤ 0 → b3 ≤ 0 → b2 + b3 < 0 → Tendsto (yieldCurve b0 b1 b2 b3 tau1 tau2) atTop atTop) := by
  have q1 := one_sub_exp_div_tendsto_top h1
  have q2 := one_sub_exp_div_tendsto_top h2
  have hz : Tendsto (zeroYield (svenssonForward b0 b1 b2 b3 tau1 tau2)) atTop (𝓝 b0) := by
    have h := (((tendsto_const_nhds (x := b0)).add (q1.const_mul b1)).add ((q1.sub (exp_neg_div_tendsto h1)).const_mul b2)).add
      ((q2.sub (exp_neg_div_tendsto h2)).const_mul b3)
    have hv : b0 + b1 * 0 + b2 * (0 - 0) + b3 * (0 - 0) = b0 := by ring
    rw [hv] at h
    refine h.congr' ?_
    filter_upwards [eventually_gt_atTop 0] with t ht
    rw [svensson_zero b0 b1 b2 b3 h1.ne' h2.ne' ht.ne', mul_div_assoc]
  have g : ∀ tau : ℝ, 0 < tau → Tendsto (fun t : ℝ => Real.exp (t / tau) - Real.exp (-t / tau)) atTop atTop := by
    intro tau h
    have ht : Tendsto (fun t : ℝ => t / tau) atTop atTop := tendsto_id.atTop_div_const h
    have := (Real.tendsto_exp_atTop.comp ht).atTop_add ((exp_neg_div_tendsto h).neg)
    exact this.congr fun t => by simp [sub_eq_add_neg]
  -- for nonnegative coefficients, not both zero, the error grows without bound
  have key : ∀ c2 c3 : ℝ, 0 ≤ c2 → 0 ≤ c3 → 0 < c2 + c3 → Tendsto (fun t : ℝ => c2 * (Real.exp (t / tau1) - Real.exp (-t / tau1)) +
      c3 * (Real.exp (t / tau2) - Real.exp (-t / tau2))) atTop atTop := by
    intro c2 c3 hc2 hc3 hc
    have nn : ∀ tau : ℝ, 0 < tau → ∀ᶠ t : ℝ in atTop, 0 ≤ Real.exp (t / tau) - Real.exp (-t / tau) :=
      fun tau h => (g tau h).eventually_ge_atTop 0
    rcases hc2.lt_or_eq with hp | rfl
    · refine tendsto_atTop_mono' _ ?_ ((g tau1 h1).const_mul_atTop hp)
      filter_upwards [nn tau2 h2] with t ht
      have := mul_nonneg hc3 ht
      linarith
    · have hp : 0 < c3 := by linarith
      refine tendsto_atTop_mono' _ ?_ ((g tau2 h2).const_mul_atTop hp)
      filter_upwards with t
      simp
  refine ⟨hz, fun hb2 hb3 hb => ?_, fun hb2 hb3 hb => ?_⟩
  · have := hz.add_atBot (tendsto_neg_atTop_atBot.comp (key b2 b3 hb2 hb3 hb))
    refine this.congr' ?_
    filter_upwards [eventually_gt_atTop 0] with t ht
    rw [C137_error b0 b1 b2 b3 h1.ne' h2.ne' ht.ne']
    simp only [Function.comp]
    ring
  · have := hz.add_atTop (key (-b2) (-b3) (by linarith) (by linarith) (by linarith))
    refine this.congr' ?_
    filter_upwards [eventually_gt_atTop 0] with t ht
    rw [C137_error b0 b1 b2 b3 h1.ne' h2.ne' ht.ne']
    ring

/-- Non-vacuity: BETA0 = 4, BETA1 = -2, BETA2 = 1, BETA3 = 3, TAU1 = 1, TAU2 = 10. -/
example : Tendsto (yieldCurve 4 (-2) 1 3 1 10) atTop atBot ∧ Tendsto (yieldCurve 4 (-2) 1 3 1 10) (𝓝[>] 0) (𝓝 (4 + -2)) :=
  ⟨(C137_long_end_false 4 (-2) 1 3 (by norm_num) (by norm_num)).2.1 (by norm_num) (by norm_num) (by norm_num), by
    have := C137_short_end 4 (-2) 1 3 (tau1 := 1) (tau2 := 10) (by norm_num) (by norm_num)
    simpa [svenssonForward] using this⟩

end Verif.Props
