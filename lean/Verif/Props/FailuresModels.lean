/- C102, continued: short-rate models without a path, or with a zero speed. -/
import Verif.Props.FailuresMore
import Verif.Props.ShortRate
import Verif.Props.PathCurve
import Verif.Props.Vasicek

namespace Verif.Props
open Verif Verif.DayCount

/-- C102. A short-rate model that has no path: integrating the path, the discount curve and the accrual curve are ValueErrors, with
given datetimes or with the default ones, and the model is left as it was. -/
theorem C102_no_path {p : Nat} (m : ShortRateModel p) (h : m.path = none) (ts : Option (List PyDatetime)) :
    m.generateIntegratedPath ts = (.error .valueError, m) ∧ m.createDiscountCurve ts = (.error .valueError, m) ∧
    m.accrualCurve ts = .error .valueError := by
  have h1 : m.integratedValues ts = .error .valueError := by
    unfold ShortRateModel.integratedValues; rw [h]; rfl
  refine ⟨?_, ?_, ?_⟩
  · unfold ShortRateModel.generateIntegratedPath; rw [h1]
  · have : m.discountKnots ts = (.error .valueError, m) := by
      unfold ShortRateModel.discountKnots; rw [h]
    unfold ShortRateModel.createDiscountCurve; rw [this]
  · have : m.accrualKnots ts = .error .valueError := by
      unfold ShortRateModel.accrualKnots; rw [h]
    unfold ShortRateModel.accrualCurve; rw [this]; rfl

/-- Concrete case for C102: a model that has just been made, and one whose step has just been changed. -/
example (dt : DtIncrement) : (unitModel.setDt dt).generateIntegratedPath none = (.error .valueError, unitModel.setDt dt) :=
  (C102_no_path _ rfl none).1
example {p : Nat} (f : Vec p → ℝ) (d : Diffusion p) (b : BrownianMotion p) :
    (ShortRateModel.new f d b).accrualCurve none = .error .valueError := (C102_no_path _ rfl none).2.2

/-- C102. No Vasicek model has the speed zero: its constructor divides by the squared speed. -/
theorem C102_vasicek_zero_speed (mean vol : ℝ) (bm : BrownianMotion 1) (dt : DtIncrement) (garbage : ℝ) :
    Vasicek.create mean 0 vol bm dt garbage = .error .zeroDivisionError ∧
    ∀ speed, speed ≠ 0 → ∃ v, Vasicek.create mean speed vol bm dt garbage = .ok v ∧ v.speed = speed ∧ v.mean = mean ∧ v.vol = vol := by
  refine ⟨?_, fun speed hs => ?_⟩
  · unfold Vasicek.create floatDiv
    rw [if_pos (by simp)]; rfl
  · unfold Vasicek.create floatDiv
    rw [if_neg (by simpa using hs)]
    exact ⟨_, rfl, rfl, rfl, rfl⟩

/-- C102. A calibration dictionary can still set the speed to zero: from then on the variance, the price, the yield and the yield
convexity of every maturity whose distance from the start can be computed divide by zero. -/
theorem C102_vasicek_speed_set_to_zero (v : Vasicek) (hs : v.params.volatility[1]? = some 0) :
    let w := v.setVolatilityFromDict.2
    w.speed = 0 ∧ ∀ (maturity : PyDatetime) (x : ℚ), dtAccrual v.core.bm.start maturity v.core.bm.dcc = .ok x →
      w.shortRateVariance maturity none = .error .zeroDivisionError ∧ w.zeroCouponBondPrice maturity none = .error .zeroDivisionError ∧
      w.zeroCouponYield maturity none = .error .zeroDivisionError ∧ w.yieldConvexity maturity = .error .zeroDivisionError := by
  have hw := ((C102_vasicek_setters v).1).2
  rw [hs] at hw
  rw [hw]
  refine ⟨rfl, fun maturity x hx => ?_⟩
  generalize hw0 : (⟨v.mean, (some (0 : ℝ)).getD v.speed, (v.params.volatility[0]?).getD v.vol, v.convexityLimit, v.core, v.params,
    v.startingShortRate⟩ : Vasicek) = w
  have hsp : w.speed = 0 := by rw [← hw0]; rfl
  have hcore : w.core = v.core := by rw [← hw0]
  have htime : w.time (w.purchase none) maturity = .ok x := by
    unfold Vasicek.time Vasicek.purchase; rw [hcore]; exact hx
  have htime' : w.time w.core.bm.start maturity = .ok x := by
    unfold Vasicek.time; rw [hcore]; exact hx
  have hz : ∀ a b : ℝ, b = 0 → floatDiv a b = .error .zeroDivisionError := fun a b hb => by unfold floatDiv; rw [if_pos hb]
  have hpc : w.priceCoeffs maturity none = .error .zeroDivisionError := by
    unfold Vasicek.priceCoeffs
    rw [htime, ok_bind, hz _ _ hsp]; rfl
  refine ⟨?_, ?_, ?_, ?_⟩
  · unfold Vasicek.shortRateVariance
    rw [htime, ok_bind, hz _ _ (by rw [hsp]; simp)]; rfl
  · unfold Vasicek.zeroCouponBondPrice; rw [hpc]; rfl
  · unfold Vasicek.zeroCouponYield Vasicek.yieldCoeffs
    rw [htime', ok_bind, hz _ _ hsp]; rfl
  · unfold Vasicek.yieldConvexity
    rw [htime', ok_bind, hpc]; rfl

/-- Concrete case for C102: a dictionary with volatility one and speed zero. -/
example (v : Vasicek) (h : v.params.volatility = [1, 0]) : v.setVolatilityFromDict.2.speed = 0 :=
  (C102_vasicek_speed_set_to_zero v (by rw [h]; rfl)).1

/-- C102. The yield, its volatility and its convexity to the start of the model divide by a zero time. -/
theorem C102_vasicek_yield_at_start (v : Vasicek) (hd : v.core.bm.dcc ≠ .thirty360) (hs : v.speed ≠ 0) (x : ℚ)
    (hx : dtAccrual v.core.bm.start v.core.bm.start v.core.bm.dcc = .ok x) (q : Option PyDatetime) :
    v.zeroCouponYield v.core.bm.start q = .error .zeroDivisionError ∧
    v.yieldVolatility v.core.bm.start = .error .zeroDivisionError ∧ v.yieldConvexity v.core.bm.start = .error .zeroDivisionError := by
  have h0 := dtAccrual_self hd hx
  subst h0
  have hz : ∀ a b : ℝ, b = 0 → floatDiv a b = .error .zeroDivisionError := fun a b hb => by unfold floatDiv; rw [if_pos hb]
  have hn : ∀ a b : ℝ, b ≠ 0 → floatDiv a b = .ok (a / b) := fun a b hb => by unfold floatDiv; rw [if_neg hb]
  have ht : v.time v.core.bm.start v.core.bm.start = .ok 0 := hx
  have ht' : v.time (v.purchase none) v.core.bm.start = .ok 0 := hx
  have hpc : ∃ c, v.priceCoeffs v.core.bm.start none = .ok c := by
    unfold Vasicek.priceCoeffs
    rw [ht', ok_bind, hn _ _ hs, ok_bind, hn _ _ (by simpa using hs)]
    exact ⟨_, rfl⟩
  obtain ⟨c, hc⟩ := hpc
  refine ⟨?_, ?_, ?_⟩
  · unfold Vasicek.zeroCouponYield Vasicek.yieldCoeffs
    rw [ht, ok_bind, hn _ _ hs, ok_bind, hn _ _ (by simpa using hs), ok_bind]
    dsimp only
    rw [hz _ _ (by simp : ((0 : ℚ) : ℝ) = 0)]; rfl
  · unfold Vasicek.yieldVolatility
    rw [ht, ok_bind, hc, ok_bind, hz _ _ (by simp)]; rfl
  · unfold Vasicek.yieldConvexity
    rw [ht, ok_bind, hc, ok_bind, hn _ _ (by simpa using hs), ok_bind, hn _ _ (by simpa using hs), ok_bind, hz _ _ (by simp)]; rfl

/-- Concrete case for C102: under actual/365 no time passes from a datetime to itself. -/
example : dtAccrual (T 2023 1 1) (T 2023 1 1) .act365 = .ok 0 := by decide +kernel

end Verif.Props
