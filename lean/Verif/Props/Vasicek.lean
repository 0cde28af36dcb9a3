/- C47: the one-factor Vasicek model. -/
import Verif.Model.Vasicek
import Verif.Spec.Vasicek
import Verif.Props.ShortRate
import Mathlib.Analysis.SpecialFunctions.ExpDeriv
import Mathlib.Analysis.Calculus.MeanValue
import Mathlib.Tactic.FieldSimp
import Mathlib.Tactic.Linarith

namespace Verif.Props
open Verif.Spec MeasureTheory

/-- `v` is a Vasicek model made with these parameters, after any number of path generations. -/
def MadeVasicek (θ k σ : ℝ) (v : Vasicek) : Prop :=
  ∃ bm dt garbage v0, ∃ ops : List (Vec 1 × Bool × (Nat → Vec 1)), Vasicek.create θ k σ bm dt garbage = .ok v0 ∧
    v = ops.foldl (fun v op => (v.generatePath op.1 op.2.1 op.2.2).2) v0

theorem floatDiv_ok {a b x : ℝ} : floatDiv a b = .ok x ↔ b ≠ 0 ∧ x = a / b := by
  unfold floatDiv
  split_ifs with h
  · simp [h]
  · simp [h, eq_comm]

theorem floatDiv_of_ne {a b : ℝ} (h : b ≠ 0) : floatDiv a b = .ok (a / b) := floatDiv_ok.2 ⟨h, rfl⟩

theorem MadeVasicek.params {θ k σ : ℝ} {v : Vasicek} (h : MadeVasicek θ k σ v) :
    v.mean = θ ∧ v.speed = k ∧ v.vol = σ ∧ k ≠ 0 ∧ v.convexityLimit = -σ ^ 2 / (2 * k ^ 2) := by
  obtain ⟨bm, dt, g, v0, ops, h0, rfl⟩ := h
  have hv0 : v0.mean = θ ∧ v0.speed = k ∧ v0.vol = σ ∧ k ≠ 0 ∧ v0.convexityLimit = -σ ^ 2 / (2 * k ^ 2) := by
    unfold Vasicek.create at h0
    simp only at h0
    rw [bind_ok] at h0
    obtain ⟨c, hc, h0⟩ := h0
    rw [floatDiv_ok] at hc
    injection h0 with h0
    subst h0
    refine ⟨rfl, rfl, rfl, ?_, hc.2⟩
    rintro rfl
    exact hc.1 (by simp)
  clear h0
  induction ops generalizing v0 with
  | nil => exact hv0
  | cons op ops ih =>
    rw [List.foldl_cons]
    apply ih
    exact hv0

theorem MadeVasicek.dynamics {θ k σ : ℝ} {v : Vasicek} (h : MadeVasicek θ k σ v) :
    v.core.process.coords = (fun _ => Vasicek.driftDiffusion θ k σ) ∧ v.core.transform = fun x => x 0 := by
  obtain ⟨bm, dt, g, v0, ops, h0, rfl⟩ := h
  have hv0 : v0.core.process.coords = (fun _ => Vasicek.driftDiffusion θ k σ) ∧ v0.core.transform = fun x => x 0 := by
    unfold Vasicek.create at h0
    simp only at h0
    rw [bind_ok] at h0
    obtain ⟨c, hc, h0⟩ := h0
    injection h0 with h0
    subst h0
    exact ⟨rfl, rfl⟩
  clear h0
  induction ops generalizing v0 with
  | nil => exact hv0
  | cons op ops ih =>
    rw [List.foldl_cons]
    apply ih
    unfold Vasicek.generatePath ShortRateModel.generatePath
    simp only
    rcases hg : v0.core.process.generatePath v0.core.bm op.1 op.2.1 op.2.2 with ⟨r, d, b⟩
    have hd : d.coords = v0.core.process.coords := by
      unfold Diffusion.generatePath at hg
      split at hg
      · simp only [Prod.mk.injEq] at hg; rw [← hg.2.1]
      · simp only [Prod.mk.injEq] at hg
        rw [← hg.2.1]
        split <;> rfl
    cases r with
    | error e => exact ⟨hd.trans hv0.1, hv0.2⟩
    | ok path =>
      simp only
      rcases hp : d.path with _ | cols
      · exact ⟨hd.trans hv0.1, hv0.2⟩
      · exact ⟨hd.trans hv0.1, hv0.2⟩

/-- Generating and keeping a path of a short-rate model: the state variables follow the Euler scheme, the short rate is read from
them, and the model reads back its short-rate path on the grid. -/
theorem shortRate_generate {p : Nat} (m m' : ShortRateModel p) (hf : Forward m.process.dt) (hle : m.bm.start ≤ m.bm.stop) (x0 : Vec p)
    (normals : Nat → Vec p) (h : m.generatePath x0 true normals = (.ok (), m')) :
    ∃ (grid : List PyDatetime) (dts : List ℚ) (xs : List (Vec p)), BrownianMotion.makeGrid m.bm.start m.bm.stop m.process.dt = .ok grid ∧
      StepLengths m.bm.dcc grid dts ∧ xs.length = grid.length ∧ xs.head? = some x0 ∧
      (∀ k (h1 : k < dts.length) (h2 : k + 1 < xs.length),
        xs[k + 1] = fun i => xs[k] i + ((m.process.coords i).drift (elapsed dts k) xs[k] * dts[k] +
          ∑ j, (m.process.coords i).diffusion (elapsed dts k) xs[k] j * shock m.bm.chol normals dts k h1 j)) ∧
      m' = { m with process := { m.process with path := some xs }, bm := { m.bm with grid := some grid },
                    path := some (xs.map m.transform) } ∧
      (∀ k (h1 : k < grid.length) (h2 : k < xs.length), m'.process.call m'.bm grid[k] = .ok xs[k]) := by
  unfold ShortRateModel.generatePath at h
  rcases hg : m.process.generatePath m.bm x0 true normals with ⟨r, d, b⟩
  rw [hg] at h
  cases r with
  | error e => simp at h
  | ok path =>
    obtain ⟨grid, dts, e1, e2, e3, e4, e5, e6, e7⟩ := C45_euler _ _ _ _ _ _ _ _ hg
    obtain ⟨grid', f1, f2, f3⟩ := C58_read_back _ _ _ _ hf hle _ _ _ hg
    rw [e3] at f1
    injection f1 with f1
    subst f1
    rw [if_pos rfl] at e4
    have hdp : d.path = some path := by rw [e4]
    simp only [hdp, Prod.mk.injEq, true_and] at h
    refine ⟨grid, dts, path, e1, e2, e5, e6, e7, ?_, ?_⟩
    · rw [← h, e3, e4]
    · rw [← h]
      exact f3

/-! ## Calculus -/

section Formulas
variable (k θ σ : ℝ)

/-- Coefficient of the log price. -/
noncomputable def vB (T : ℝ) : ℝ := -(1 - Real.exp (-k * T)) / k

/-- Intercept of the log price. -/
noncomputable def vA (T : ℝ) : ℝ :=
  -((θ + -σ ^ 2 / (2 * k ^ 2)) * (vB k T + T)) - σ ^ 2 / (4 * k) * vB k T ^ 2

theorem hasDerivAt_exp_neg (T : ℝ) : HasDerivAt (fun T => Real.exp (-k * T)) (-k * Real.exp (-k * T)) T := by
  have h : HasDerivAt (fun T : ℝ => -k * T) (-k) T := by simpa using (hasDerivAt_id T).const_mul (-k)
  have := h.exp
  rwa [mul_comm] at this

variable {k}

theorem hasDerivAt_vB (hk : k ≠ 0) (T : ℝ) : HasDerivAt (vB k) (-Real.exp (-k * T)) T := by
  have h := (((hasDerivAt_exp_neg k T).const_sub 1).neg).div_const k
  refine HasDerivAt.congr_deriv (f := vB k) h ?_
  field_simp

theorem hasDerivAt_vA (hk : k ≠ 0) (T : ℝ) :
    HasDerivAt (vA k θ σ) (k * θ * vB k T + σ ^ 2 / 2 * vB k T ^ 2) T := by
  have hB := hasDerivAt_vB hk T
  have h1 := ((hB.add (hasDerivAt_id T)).const_mul (θ + -σ ^ 2 / (2 * k ^ 2))).neg
  have h2 := (hB.pow 2).const_mul (σ ^ 2 / (4 * k))
  have h := h1.sub h2
  refine HasDerivAt.congr_deriv (f := vA k θ σ) h ?_
  have e : Real.exp (-k * T) = 1 + k * vB k T := by unfold vB; field_simp; ring
  rw [e]
  simp
  field_simp
  ring

theorem vB_zero : vB k 0 = 0 := by simp [vB]
theorem vA_zero : vA k θ σ 0 = 0 := by simp [vA, vB_zero]

theorem vB_neg (hk : k ≠ 0) {T : ℝ} (hT : 0 < T) : vB k T < 0 := by
  unfold vB
  rcases lt_or_gt_of_ne hk with h | h
  · have : 1 < Real.exp (-k * T) := by rw [Real.one_lt_exp_iff]; nlinarith
    apply div_neg_of_pos_of_neg _ h
    linarith
  · have : Real.exp (-k * T) < 1 := by rw [Real.exp_lt_one_iff]; nlinarith
    apply div_neg_of_neg_of_pos _ h
    linarith

/-- The expected rate. -/
noncomputable def vMean (k θ r s : ℝ) : ℝ := Real.exp (-k * s) * r + (1 - Real.exp (-k * s)) * θ

theorem vMean_spec (k θ r : ℝ) : IsExpectedRate k θ r (vMean k θ r) := by
  refine ⟨by simp [vMean], fun s => ?_⟩
  have h := ((hasDerivAt_exp_neg k s).mul_const r).add (((hasDerivAt_exp_neg k s).const_sub 1).mul_const θ)
  refine HasDerivAt.congr_deriv (f := vMean k θ r) h ?_
  unfold vMean
  ring

/-- The expected rate is unique. -/
theorem expectedRate_unique {k θ r : ℝ} {m : ℝ → ℝ} (h : IsExpectedRate k θ r m) : m = vMean k θ r := by
  have h2 := vMean_spec k θ r
  have hd : ∀ s, HasDerivAt (fun s => (m s - vMean k θ r s) * Real.exp (-(-k) * s)) 0 s := by
    intro s
    have := ((h.2 s).sub (h2.2 s)).mul (hasDerivAt_exp_neg (-k) s)
    refine HasDerivAt.congr_deriv this ?_
    simp only [Pi.sub_apply]
    ring
  have hc := is_const_of_deriv_eq_zero (fun s => (hd s).differentiableAt) (fun s => (hd s).deriv)
  funext s
  have := hc s 0
  simp only [h.1, h2.1, sub_self, zero_mul] at this
  rcases mul_eq_zero.1 this with h3 | h3
  · linarith
  · exact absurd h3 (Real.exp_pos _).ne'

/-- The variance of the rate. -/
noncomputable def vVar (k σ s : ℝ) : ℝ := σ ^ 2 / (2 * k) * (1 - Real.exp (-2 * k * s))

theorem vVar_spec {k σ : ℝ} (hk : k ≠ 0) : IsRateVariance k σ (vVar k σ) := by
  refine ⟨by simp [vVar], fun s => ?_⟩
  have e : ∀ s, Real.exp (-2 * k * s) = Real.exp (-(2 * k) * s) := fun s => by congr 1; ring
  have h := ((hasDerivAt_exp_neg (2 * k) s).const_sub 1).const_mul (σ ^ 2 / (2 * k))
  have h' : vVar k σ = fun s => σ ^ 2 / (2 * k) * (1 - Real.exp (-(2 * k) * s)) := by
    funext s; unfold vVar; rw [e]
  rw [h']
  refine HasDerivAt.congr_deriv h ?_
  field_simp
  ring

theorem rateVariance_unique {k σ : ℝ} (hk : k ≠ 0) {w : ℝ → ℝ} (h : IsRateVariance k σ w) : w = vVar k σ := by
  have h2 := vVar_spec (σ := σ) hk
  have hd : ∀ s, HasDerivAt (fun s => (w s - vVar k σ s) * Real.exp (-(-(2 * k)) * s)) 0 s := by
    intro s
    have := ((h.2 s).sub (h2.2 s)).mul (hasDerivAt_exp_neg (-(2 * k)) s)
    refine HasDerivAt.congr_deriv this ?_
    simp only [Pi.sub_apply]
    ring
  have hc := is_const_of_deriv_eq_zero (fun s => (hd s).differentiableAt) (fun s => (hd s).deriv)
  funext s
  have := hc s 0
  simp only [h.1, h2.1, sub_self, zero_mul] at this
  rcases mul_eq_zero.1 this with h3 | h3
  · linarith
  · exact absurd h3 (Real.exp_pos _).ne'

theorem continuous_exp_mul (a : ℝ) : Continuous fun s : ℝ => Real.exp (a * s) := by fun_prop

/-- The integral of the expected rate. -/
theorem integral_vMean (hk : k ≠ 0) (r T : ℝ) : ∫ s in (0 : ℝ)..T, vMean k θ r s = θ * (vB k T + T) - vB k T * r := by
  have hd : ∀ s ∈ Set.uIcc 0 T, HasDerivAt (fun s => θ * (vB k s + s) - vB k s * r) (vMean k θ r s) s := by
    intro s _
    have hB := hasDerivAt_vB hk s
    have := ((hB.add (hasDerivAt_id s)).const_mul θ).sub (hB.mul_const r)
    refine HasDerivAt.congr_deriv this ?_
    unfold vMean
    ring
  rw [intervalIntegral.integral_eq_sub_of_hasDerivAt hd]
  · simp [vB_zero]
  · apply Continuous.intervalIntegrable
    unfold vMean
    fun_prop

/-- The variance of the integral. -/
theorem integralVariance_eq (hk : k ≠ 0) (T : ℝ) :
    integralVariance k σ T = σ ^ 2 / k ^ 2 * (vB k T + T) - σ ^ 2 / (2 * k) * vB k T ^ 2 := by
  unfold integralVariance
  have hsub : ∀ s, (σ * ((1 - Real.exp (-k * (T - s))) / k)) ^ 2 = (fun u => (σ * vB k u) ^ 2) (T - s) := by
    intro s; simp only [vB]; ring
  simp only [hsub]
  rw [intervalIntegral.integral_comp_sub_left (fun u => (σ * vB k u) ^ 2) T]
  simp only [sub_self, sub_zero]
  have hd : ∀ s ∈ Set.uIcc 0 T, HasDerivAt (fun s => σ ^ 2 / k ^ 2 * (vB k s + s) - σ ^ 2 / (2 * k) * vB k s ^ 2) ((σ * vB k s) ^ 2) s := by
    intro s _
    have hB := hasDerivAt_vB hk s
    have := ((hB.add (hasDerivAt_id s)).const_mul (σ ^ 2 / k ^ 2)).sub ((hB.pow 2).const_mul (σ ^ 2 / (2 * k)))
    refine HasDerivAt.congr_deriv this ?_
    have e : Real.exp (-k * s) = 1 + k * vB k s := by unfold vB; field_simp; ring
    rw [e]
    simp
    field_simp
    ring
  rw [intervalIntegral.integral_eq_sub_of_hasDerivAt hd]
  · simp [vB_zero]
  · apply Continuous.intervalIntegrable
    unfold vB
    fun_prop

theorem integralVariance_nonneg {T : ℝ} (hT : 0 ≤ T) : 0 ≤ integralVariance k σ T :=
  intervalIntegral.integral_nonneg hT fun _ _ => sq_nonneg _

/-- The expected discount factor in closed form. -/
theorem expectedDiscount_eq (hk : k ≠ 0) (r : ℝ) {T : ℝ} (hT : 0 ≤ T) :
    expectedDiscount k σ (vMean k θ r) T = Real.exp (vA k θ σ T + vB k T * r) := by
  unfold expectedDiscount
  have hm := congrFun (ProbabilityTheory.mgf_id_gaussianReal (μ := ∫ s in (0 : ℝ)..T, vMean k θ r s)
    (v := (integralVariance k σ T).toNNReal)) (-1)
  simp only [ProbabilityTheory.mgf, id_eq, neg_one_mul] at hm
  rw [hm, Real.coe_toNNReal _ (integralVariance_nonneg σ hT), integral_vMean θ hk, integralVariance_eq σ hk]
  congr 1
  unfold vA
  field_simp
  ring

/-- The closed-form price solves the pricing equation. -/
theorem closedForm_pricing (hk : k ≠ 0) : SolvesPricing k θ σ (fun T r => Real.exp (vA k θ σ T + vB k T * r)) := by
  have h1 : ∀ T r, HasDerivAt (fun r => Real.exp (vA k θ σ T + vB k T * r))
      (vB k T * Real.exp (vA k θ σ T + vB k T * r)) r := by
    intro T r
    have := (((hasDerivAt_id r).const_mul (vB k T)).const_add (vA k θ σ T)).exp
    refine HasDerivAt.congr_deriv this ?_
    simp
    ring
  have h2 : ∀ T, deriv (fun r => Real.exp (vA k θ σ T + vB k T * r)) = fun r => vB k T * Real.exp (vA k θ σ T + vB k T * r) :=
    fun T => funext fun r => (h1 T r).deriv
  refine ⟨fun r => by simp [vA_zero, vB_zero], fun T r => ?_⟩
  simp only [h2]
  rw [((h1 T r).const_mul (vB k T)).deriv]
  have := ((hasDerivAt_vA θ σ hk T).add ((hasDerivAt_vB hk T).mul_const r)).exp
  refine HasDerivAt.congr_deriv this ?_
  have e : Real.exp (-k * T) = 1 + k * vB k T := by unfold vB; field_simp; ring
  rw [e]
  simp only [Pi.add_apply]
  ring

end Formulas

/-! ## The model's methods -/

section Api
variable {θ k σ : ℝ} {v : Vasicek}

theorem priceCoeffs_eq (h : MadeVasicek θ k σ v) (maturity : PyDatetime) (p : Option PyDatetime) (T : ℚ)
    (hT : v.time (v.purchase p) maturity = .ok T) : v.priceCoeffs maturity p = .ok (vA k θ σ T, vB k T) := by
  obtain ⟨h1, h2, h3, hk, h4⟩ := h.params
  unfold Vasicek.priceCoeffs
  rw [hT, ok_bind, h2, floatDiv_of_ne hk, ok_bind, floatDiv_of_ne (by simpa using hk), ok_bind, h1, h3, h4]
  rfl

/-- C47. Bought at the start of the simulation, a zero-coupon bond costs the expected discount factor: the expectation of the
exponential of minus the integral of the short rate, which starts at its current value `r`. -/
theorem C47_price (h : MadeVasicek θ k σ v) (maturity : PyDatetime) (T : ℚ) (r : ℝ) (m : ℝ → ℝ)
    (hT : v.time v.core.bm.start maturity = .ok T) (hT0 : 0 ≤ T) (hr : v.call v.core.bm.start = .ok r)
    (hm : IsExpectedRate k θ r m) :
    v.zeroCouponBondPrice maturity none = .ok (expectedDiscount k σ m T) := by
  have hk := h.params.2.2.2.1
  rw [expectedRate_unique hm, expectedDiscount_eq θ σ hk r (by exact_mod_cast hT0)]
  unfold Vasicek.zeroCouponBondPrice
  rw [priceCoeffs_eq h maturity none T hT, ok_bind, show v.purchase none = v.core.bm.start from rfl, hr, ok_bind]

/-- C47. The price as a function of the time to maturity and the short rate solves the Vasicek pricing equation, with one unit paid at
maturity; it is positive, and strictly decreasing in the short rate before maturity. -/
theorem C47_pricing_equation (θ k σ : ℝ) (hk : k ≠ 0) :
    ∃ P : ℝ → ℝ → ℝ, SolvesPricing k θ σ P ∧ (∀ T r m, 0 ≤ T → IsExpectedRate k θ r m → P T r = expectedDiscount k σ m T) ∧
      (∀ T r, 0 < P T r) ∧ (∀ T, 0 < T → StrictAnti (P T)) ∧
      (∀ (v : Vasicek) (maturity : PyDatetime) (T : ℚ) (r : ℝ), MadeVasicek θ k σ v → v.time v.core.bm.start maturity = .ok T →
        v.call v.core.bm.start = .ok r → v.zeroCouponBondPrice maturity none = .ok (P T r)) ∧
      (∀ (v : Vasicek) (maturity : PyDatetime) (T : ℚ) (r : ℝ), MadeVasicek θ k σ v → v.time v.core.bm.start maturity = .ok T →
        0 < T → v.call v.core.bm.start = .ok r → v.zeroCouponYield maturity none = .ok (-Real.log (P T r) / T)) ∧
      (∀ (v : Vasicek) (maturity : PyDatetime) (p : Option PyDatetime) (T : ℚ) (r : ℝ), MadeVasicek θ k σ v →
        v.time (v.purchase p) maturity = .ok T → v.call (v.purchase p) = .ok r → v.core.path ≠ none →
        ∃ f, v.instantaneousForwardRate maturity p = .ok f ∧ HasDerivAt (fun t => -Real.log (P t r)) f T) := by
  refine ⟨fun T r => Real.exp (vA k θ σ T + vB k T * r), closedForm_pricing θ σ hk, ?_, fun _ _ => Real.exp_pos _, ?_, ?_, ?_, ?_⟩
  · intro T r m hT hm
    rw [expectedRate_unique hm, expectedDiscount_eq θ σ hk r hT]
  · intro T hT a b hab
    have := vB_neg hk hT
    show Real.exp _ < Real.exp _
    rw [Real.exp_lt_exp]
    nlinarith
  · intro v maturity T r h hT hr
    unfold Vasicek.zeroCouponBondPrice
    rw [priceCoeffs_eq h maturity none T hT, ok_bind, show v.purchase none = v.core.bm.start from rfl, hr, ok_bind]
  · intro v maturity T r h hT hT0 hr
    obtain ⟨h1, h2, h3, -, h4⟩ := h.params
    have hTne : ((T : ℚ) : ℝ) ≠ 0 := by exact_mod_cast hT0.ne'
    unfold Vasicek.zeroCouponYield Vasicek.yieldCoeffs
    rw [hT, ok_bind, h2, floatDiv_of_ne hk, ok_bind, floatDiv_of_ne (by simpa using hk), ok_bind]
    simp only
    rw [floatDiv_of_ne hTne, ok_bind, floatDiv_of_ne hTne, ok_bind, ok_bind, show v.purchase none = v.core.bm.start from rfl, hr,
      ok_bind, Real.log_exp, h1, h3, h4]
    congr 1
    simp only [vA, vB]
    field_simp
    ring
  · intro v maturity p T r h hT hr hp
    obtain ⟨h1, h2, h3, -, h4⟩ := h.params
    obtain ⟨l, hl⟩ := Option.ne_none_iff_exists'.1 hp
    refine ⟨-(k * θ * vB k T + σ ^ 2 / 2 * vB k T ^ 2 + -Real.exp (-k * T) * r), ?_, ?_⟩
    rotate_left
    · have e : (fun t => -Real.log (Real.exp (vA k θ σ t + vB k t * r))) = fun t => -(vA k θ σ t + vB k t * r) := by
        funext t; rw [Real.log_exp]
      simp only [e]
      exact ((hasDerivAt_vA θ σ hk (T : ℝ)).add ((hasDerivAt_vB hk (T : ℝ)).mul_const r)).neg
    · unfold Vasicek.instantaneousForwardRate
      rw [hl]
      simp only
      unfold Vasicek.priceCoeffDerivatives
      rw [hr, ok_bind, show v.purchase (some (v.purchase p)) = v.purchase p from rfl, hT, ok_bind, ok_bind, h1, h2, h4]
      congr 1
      have e : Real.exp (-k * T) = 1 + k * vB k T := by unfold vB; field_simp; ring
      rw [e]
      field_simp
      ring

/-- C47. `expected_short_rate` and `short_rate_variance` are the mean and variance of the short rate given its value on the purchase
date, for every purchase date. -/
theorem C47_moments (h : MadeVasicek θ k σ v) (maturity : PyDatetime) (p : Option PyDatetime) (T : ℚ) (r : ℝ)
    (hT : v.time (v.purchase p) maturity = .ok T) (hr : v.call (v.purchase p) = .ok r)
    (m w : ℝ → ℝ) (hm : IsExpectedRate k θ r m) (hw : IsRateVariance k σ w) :
    v.expectedShortRate maturity p = .ok (m T) ∧ v.shortRateVariance maturity p = .ok (w T) := by
  obtain ⟨h1, h2, h3, hk, h4⟩ := h.params
  rw [expectedRate_unique hm, rateVariance_unique hk hw]
  constructor
  · unfold Vasicek.expectedShortRate
    rw [hT, ok_bind]
    simp only
    rw [hr, ok_bind, h1, h2]
    rfl
  · unfold Vasicek.shortRateVariance
    rw [hT, ok_bind]
    simp only
    rw [h2, h3, floatDiv_of_ne (by simpa using hk), ok_bind]
    rfl

/-- C47. `average_expected_short_rate` is the time average of the expected short rate, for every purchase date. -/
theorem C47_average (h : MadeVasicek θ k σ v) (maturity : PyDatetime) (p : Option PyDatetime) (T : ℚ) (r : ℝ)
    (hT : v.time (v.purchase p) maturity = .ok T) (hr : v.call (v.purchase p) = .ok r)
    (m : ℝ → ℝ) (hm : IsExpectedRate k θ r m) :
    v.averageExpectedShortRate maturity p = .ok (1 / T * ∫ s in (0 : ℝ)..T, m s) := by
  obtain ⟨h1, h2, h3, hk, h4⟩ := h.params
  rw [expectedRate_unique hm, integral_vMean θ hk]
  unfold Vasicek.averageExpectedShortRate
  have hp : v.purchase (some (v.purchase p)) = v.purchase p := rfl
  rw [priceCoeffs_eq h maturity (some (v.purchase p)) T (by rw [hp]; exact hT), ok_bind, hT, ok_bind, hr, ok_bind, h1]
  congr 1
  simp only
  ring_nf

/-- C47. The yield convexity is the yield less the average expected short rate, and minus the variance of the short rate's integral
over twice the maturity: never positive, and negative if there is volatility. -/
theorem C47_yield_convexity (h : MadeVasicek θ k σ v) (maturity : PyDatetime) (T : ℚ) (r : ℝ)
    (hT : v.time v.core.bm.start maturity = .ok T) (hT0 : 0 < T) (hr : v.call v.core.bm.start = .ok r) :
    ∃ c y a, v.yieldConvexity maturity = .ok c ∧ v.zeroCouponYield maturity none = .ok y ∧
      v.averageExpectedShortRate maturity none = .ok a ∧ c = y - a ∧ c = -(integralVariance k σ T / (2 * T)) ∧ c ≤ 0 ∧
      (σ ≠ 0 → c < 0) := by
  obtain ⟨h1, h2, h3, hk, h4⟩ := h.params
  have hTne : ((T : ℚ) : ℝ) ≠ 0 := by exact_mod_cast hT0.ne'
  have hTpos : (0 : ℝ) < T := by exact_mod_cast hT0
  have hc : v.yieldConvexity maturity = .ok (-(integralVariance k σ T / (2 * T))) := by
    unfold Vasicek.yieldConvexity
    rw [hT, ok_bind, priceCoeffs_eq h maturity none T hT, ok_bind, h2, floatDiv_of_ne (by simpa using hk), ok_bind,
      floatDiv_of_ne (by simpa using hk), ok_bind, floatDiv_of_ne hTne, ok_bind, h3, integralVariance_eq σ hk]
    congr 1
    simp only
    field_simp
    ring
  have hy : v.zeroCouponYield maturity none = .ok (-(vA k θ σ T + vB k T * r) / T) := by
    unfold Vasicek.zeroCouponYield Vasicek.yieldCoeffs
    rw [hT, ok_bind, h2, floatDiv_of_ne hk, ok_bind, floatDiv_of_ne (by simpa using hk), ok_bind]
    simp only
    rw [floatDiv_of_ne hTne, ok_bind, floatDiv_of_ne hTne, ok_bind, ok_bind, show v.purchase none = v.core.bm.start from rfl, hr,
      ok_bind, h1, h3, h4]
    congr 1
    simp only [vA, vB]
    field_simp
    ring
  have ha := C47_average h maturity none T r hT hr _ (vMean_spec k θ r)
  refine ⟨_, _, _, hc, hy, ha, ?_, rfl, ?_, ?_⟩
  · rw [integral_vMean θ hk, integralVariance_eq σ hk]
    unfold vA
    field_simp
    ring
  · have := integralVariance_nonneg (k := k) σ hTpos.le
    have : 0 ≤ integralVariance k σ T / (2 * T) := by positivity
    linarith
  · intro hs
    have : 0 < integralVariance k σ T := by
      unfold integralVariance
      apply intervalIntegral.intervalIntegral_pos_of_pos_on
      · apply Continuous.intervalIntegrable
        fun_prop
      · intro s hs'
        have hlt : 0 < (T : ℝ) - s := by linarith [hs'.2]
        have := vB_neg hk hlt
        have e : (1 - Real.exp (-k * ((T : ℝ) - s))) / k = -vB k (T - s) := by unfold vB; ring
        rw [e]
        have : σ * -vB k (T - s) ≠ 0 := mul_ne_zero hs (by linarith)
        positivity
      · exact hTpos
    have : 0 < integralVariance k σ T / (2 * T) := by positivity
    linarith

/-- C47. Yield and forward-rate volatilities are the volatility of the short rate times the sensitivity of the yield and of the
forward rate to it. -/
theorem C47_volatilities (h : MadeVasicek θ k σ v) (maturity : PyDatetime) (T : ℚ) (r : ℝ) (P : ℝ → ℝ → ℝ)
    (hT : v.time v.core.bm.start maturity = .ok T) (hT0 : 0 < T) (hP : ∀ T r m, 0 ≤ T → IsExpectedRate k θ r m → P T r = expectedDiscount k σ m T) :
    ∃ s, v.yieldVolatility maturity = .ok (σ * s) ∧ HasDerivAt (fun r => -Real.log (P T r) / T) s r ∧
    ∃ f, v.forwardRateVolatility maturity none = .ok (σ * f) ∧
      HasDerivAt (fun r => deriv (fun t => -Real.log (P t r)) T) f r := by
  obtain ⟨h1, h2, h3, hk, h4⟩ := h.params
  have hTne : ((T : ℚ) : ℝ) ≠ 0 := by exact_mod_cast hT0.ne'
  have hTpos : (0 : ℝ) < T := by exact_mod_cast hT0
  have e : ∀ t r, 0 ≤ t → -Real.log (P t r) = -(vA k θ σ t + vB k t * r) := by
    intro t r ht
    rw [hP t r _ ht (vMean_spec k θ r), expectedDiscount_eq θ σ hk r ht, Real.log_exp]
  have e2 : ∀ r, deriv (fun t => -Real.log (P t r)) (T : ℝ) = deriv (fun t => -(vA k θ σ t + vB k t * r)) (T : ℝ) := by
    intro r
    apply Filter.EventuallyEq.deriv_eq
    filter_upwards [lt_mem_nhds hTpos] with t ht
    exact e t r ht.le
  simp only [fun r => e (T : ℝ) r hTpos.le, e2]
  refine ⟨-vB k T / T, ?_, ?_, Real.exp (-k * T), ?_, ?_⟩
  · unfold Vasicek.yieldVolatility
    rw [hT, ok_bind, priceCoeffs_eq h maturity none T hT, ok_bind, floatDiv_of_ne hTne, ok_bind, h3]
    congr 1
    ring
  · have := ((((hasDerivAt_id r).const_mul (vB k T)).const_add (vA k θ σ T)).neg).div_const (T : ℝ)
    refine HasDerivAt.congr_deriv this ?_
    simp
  · unfold Vasicek.forwardRateVolatility
    rw [show v.purchase none = v.core.bm.start from rfl, hT, ok_bind, h2, h3]
    congr 2
    ring_nf
  · have hd : ∀ r, deriv (fun t => -(vA k θ σ t + vB k t * r)) (T : ℝ) =
        -(k * θ * vB k T + σ ^ 2 / 2 * vB k T ^ 2 + -Real.exp (-k * T) * r) :=
      fun r => (((hasDerivAt_vA θ σ hk (T : ℝ)).add ((hasDerivAt_vB hk (T : ℝ)).mul_const r)).neg).deriv
    simp only [hd]
    have := ((((hasDerivAt_id r).const_mul (-Real.exp (-k * T))).const_add (k * θ * vB k T + σ ^ 2 / 2 * vB k T ^ 2)).neg)
    refine HasDerivAt.congr_deriv this ?_
    simp

/-- C47. Simulated paths follow the Vasicek dynamics: starting from the given rate, each step moves the rate by `k(θ - r)dt + σ dW`, and
the model reads these values back on its grid. -/
theorem C47_simulated (h : MadeVasicek θ k σ v) (hf : Forward v.core.process.dt) (hle : v.core.bm.start ≤ v.core.bm.stop) (x0 : Vec 1)
    (normals : Nat → Vec 1) (v' : Vasicek) (hv : v.generatePath x0 true normals = (.ok (), v')) :
    ∃ (grid : List PyDatetime) (dts : List ℚ) (rs : List ℝ),
      BrownianMotion.makeGrid v.core.bm.start v.core.bm.stop v.core.process.dt = .ok grid ∧ StepLengths v.core.bm.dcc grid dts ∧
      rs.length = grid.length ∧ rs.head? = some (x0 0) ∧ v'.core.path = some rs ∧
      (∀ j (h1 : j < dts.length) (h2 : j + 1 < rs.length),
        rs[j + 1] = rs[j] + k * (θ - rs[j]) * dts[j] + σ * shock v.core.bm.chol normals dts j h1 0) ∧
      ∀ j (h1 : j < grid.length) (h2 : j < rs.length), v'.call grid[j] = .ok rs[j] := by
  obtain ⟨d1, d2⟩ := h.dynamics
  unfold Vasicek.generatePath at hv
  simp only [Prod.mk.injEq] at hv
  obtain ⟨hv1, hv2⟩ := hv
  obtain ⟨grid, dts, xs, e1, e2, e3, e4, e5, e6, e7⟩ := shortRate_generate v.core v'.core hf hle x0 normals (by
    rw [← hv2, ← hv1])
  refine ⟨grid, dts, xs.map fun x => x 0, e1, e2, by simpa using e3, ?_, ?_, ?_, ?_⟩
  · rw [List.head?_map, e4]; rfl
  · rw [e6, d2]
  · intro j h1 h2
    rw [List.length_map] at h2
    simp only [List.getElem_map]
    rw [e5 j h1 h2, d1]
    simp only [Vasicek.driftDiffusion, Finset.univ_unique, Fin.default_eq_zero, Fin.isValue, Finset.sum_singleton]
    ring
  · intro j h1 h2
    rw [List.length_map] at h2
    unfold Vasicek.call ShortRateModel.call
    rw [e7 j h1 h2, ok_bind, e6, d2, List.getElem_map]

/-- C47 fails for a later purchase date: the price uses the time from the START of the simulation to maturity with the short rate of
the purchase date, and the yield likewise. -/
theorem C47_later_purchase (h : MadeVasicek θ k σ v) (maturity q : PyDatetime) (T : ℚ) (r : ℝ) (m : ℝ → ℝ)
    (hT : v.time v.core.bm.start maturity = .ok T) (hT0 : 0 < T) (hr : v.call q = .ok r) (hm : IsExpectedRate k θ r m) :
    v.zeroCouponBondPrice maturity (some q) = .ok (expectedDiscount k σ m T) ∧
    v.zeroCouponYield maturity (some q) = .ok (-Real.log (expectedDiscount k σ m T) / T) := by
  obtain ⟨h1, h2, h3, hk, h4⟩ := h.params
  have hTne : ((T : ℚ) : ℝ) ≠ 0 := by exact_mod_cast hT0.ne'
  rw [expectedRate_unique hm, expectedDiscount_eq θ σ hk r (by exact_mod_cast hT0.le)]
  constructor
  · unfold Vasicek.zeroCouponBondPrice
    rw [priceCoeffs_eq h maturity none T hT, ok_bind, show v.purchase (some q) = q from rfl, hr, ok_bind]
  · unfold Vasicek.zeroCouponYield Vasicek.yieldCoeffs
    rw [hT, ok_bind, h2, floatDiv_of_ne hk, ok_bind, floatDiv_of_ne (by simpa using hk), ok_bind]
    simp only
    rw [floatDiv_of_ne hTne, ok_bind, floatDiv_of_ne hTne, ok_bind, ok_bind, show v.purchase (some q) = q from rfl, hr,
      ok_bind, Real.log_exp, h1, h3, h4]
    congr 1
    simp only [vA, vB]
    field_simp
    ring

/-- C47. Bought at the start, the price convexity of each bond is minus half the variance rate of the short rate times the second
derivative of the price in the rate; maturities not after the purchase date are rejected. -/
theorem C47_price_convexities (h : MadeVasicek θ k σ v) (ms : List PyDatetime) (T : PyDatetime → ℚ) (r : ℝ) (P : ℝ → ℝ → ℝ)
    (hne : ms ≠ []) (hT : ∀ m ∈ ms, v.time v.core.bm.start m = .ok (T m) ∧ 0 < T m) (hlt : ∀ m ∈ ms, v.core.bm.start < m)
    (hr : v.call v.core.bm.start = .ok r) (hP : ∀ T r m, 0 ≤ T → IsExpectedRate k θ r m → P T r = expectedDiscount k σ m T) :
    v.priceConvexities ms none = .ok (ms.map fun m => -(1 / 2) * σ ^ 2 * deriv (deriv (P (T m))) r) := by
  obtain ⟨h1, h2, h3, hk, h4⟩ := h.params
  unfold Vasicek.priceConvexities
  rw [if_neg (by
    rintro (e | ⟨m, hm, hle⟩)
    · exact hne e
    · exact absurd hle (not_le.2 (hlt m hm)))]
  have hP : ∀ T r, 0 ≤ T → P T r = Real.exp (vA k θ σ T + vB k T * r) := by
    intro t r ht
    rw [hP t r _ ht (vMean_spec k θ r), expectedDiscount_eq θ σ hk r ht]
  have hd : ∀ T r, 0 ≤ T → deriv (deriv (P T)) r = vB k T ^ 2 * P T r := by
    intro T r hT'
    have hd1 : ∀ r, HasDerivAt (P T) (vB k T * P T r) r := by
      intro r
      have := (((hasDerivAt_id r).const_mul (vB k T)).const_add (vA k θ σ T)).exp
      have e : P T = fun r => Real.exp (vA k θ σ T + vB k T * r) := funext fun r => hP T r hT'
      rw [e]
      refine HasDerivAt.congr_deriv this ?_
      simp
      ring
    have e : deriv (P T) = fun r => vB k T * P T r := funext fun r => (hd1 r).deriv
    rw [e, ((hd1 r).const_mul _).deriv]
    ring
  have key : ∀ m ∈ ms, v.priceConvexity none m = .ok (-(1 / 2) * σ ^ 2 * deriv (deriv (P (T m))) r) := by
    intro m hm
    obtain ⟨t1, t2⟩ := hT m hm
    have hTne : ((T m : ℚ) : ℝ) ≠ 0 := by exact_mod_cast t2.ne'
    unfold Vasicek.priceConvexity Vasicek.zeroCouponBondPrice Vasicek.yieldVolatility
    rw [show v.purchase none = v.core.bm.start from rfl, t1, ok_bind, priceCoeffs_eq h m none (T m) t1, ok_bind,
      show v.purchase (some v.core.bm.start) = v.core.bm.start from rfl, hr, ok_bind, ok_bind, ok_bind, ok_bind, floatDiv_of_ne hTne,
      ok_bind, ok_bind, h3, hd _ _ (by exact_mod_cast t2.le), hP _ _ (by exact_mod_cast t2.le)]
    congr 1
    field_simp
  clear hne hlt hT
  induction ms with
  | nil => rfl
  | cons m ms ih =>
    unfold collect
    rw [key m (by simp), ok_bind, ih (fun m hm => key m (by simp [hm])), ok_bind]
    rfl

theorem C47_price_convexities_rejects (ms : List PyDatetime) (p : Option PyDatetime) (m : PyDatetime) (hm : m ∈ ms)
    (hle : m ≤ v.purchase p) : v.priceConvexities ms p = .error .valueError := by
  unfold Vasicek.priceConvexities
  rw [if_pos (Or.inr ⟨m, hm, hle⟩)]

/-- C47. Without a path, forward rates are refused. -/
theorem C47_forward_needs_path (hp : v.core.path = none) (maturity : PyDatetime) (p : Option PyDatetime) :
    v.instantaneousForwardRate maturity p = .error .valueError := by
  unfold Vasicek.instantaneousForwardRate
  rw [hp]

/-- A zero reversion speed is refused by the constructor (ZeroDivisionError), and nothing else is. -/
theorem C47_constructor (θ k σ : ℝ) (bm : BrownianMotion 1) (dt : DtIncrement) (g : ℝ) :
    (k = 0 → Vasicek.create θ k σ bm dt g = .error .zeroDivisionError) ∧
    (k ≠ 0 → ∃ v, Vasicek.create θ k σ bm dt g = .ok v ∧ MadeVasicek θ k σ v ∧ v.core.path = none) := by
  constructor
  · rintro rfl
    unfold Vasicek.create floatDiv
    simp
  · intro hk
    have : ∃ v, Vasicek.create θ k σ bm dt g = .ok v ∧ v.core.path = none := by
      unfold Vasicek.create
      rw [floatDiv_of_ne (by simpa using hk)]
      exact ⟨_, rfl, rfl⟩
    obtain ⟨v, hv, hp⟩ := this
    exact ⟨v, hv, ⟨bm, dt, g, v, [], hv, rfl⟩, hp⟩

end Api

/-! ## A concrete model -/

/-- Concrete case for C47: on a three-day grid every starting rate and every draw give a model that satisfies the hypotheses; with no
volatility and the rate at its long-term mean 1, a bond bought AT maturity is priced at `exp(-2/365)` instead of 1. -/
theorem vasicek_concrete_dcc (θ k σ r : ℝ) (hk : k ≠ 0) (bm : BrownianMotion 1) (h1 : bm.start = T 2023 1 1) (h2 : bm.stop = T 2023 1 3)
    (h3 : bm.dcc = .act365) (normals : Nat → Vec 1) :
    ∃ v, v.core.bm.dcc = .act365 ∧ MadeVasicek θ k σ v ∧ v.core.bm.start = T 2023 1 1 ∧ v.core.path ≠ none ∧ v.call (T 2023 1 1) = .ok r ∧
      v.time (T 2023 1 1) (T 2023 1 3) = .ok (2 / 365) ∧ v.time (T 2023 1 3) (T 2023 1 3) = .ok 0 ∧
      (σ = 0 → r = θ → v.call (T 2023 1 3) = .ok θ) := by
  obtain ⟨v0, hc, hm0, -⟩ := (C47_constructor θ k σ bm (.timedelta 86400000000) 0).2 hk
  have hcore : v0.core.bm = bm ∧ v0.core.process.dt = .timedelta 86400000000 := by
    unfold Vasicek.create at hc
    simp only at hc
    rw [bind_ok] at hc
    obtain ⟨c, -, hc⟩ := hc
    injection hc with hc
    subst hc
    exact ⟨rfl, rfl⟩
  have hg : BrownianMotion.makeGrid v0.core.bm.start v0.core.bm.stop v0.core.process.dt =
      .ok [T 2023 1 1, T 2023 1 2, T 2023 1 3] := by
    rw [hcore.1, hcore.2, h1, h2]
    decide +kernel
  have ha : BrownianMotion.accruals v0.core.bm.dcc [T 2023 1 1, T 2023 1 2, T 2023 1 3] = .ok [1 / 365, 1 / 365] := by
    rw [hcore.1, h3]
    decide +kernel
  obtain ⟨path, d', b', hgen⟩ := C45_succeeds v0.core.process v0.core.bm (fun _ => r) true normals _ _ hg ha
  have hgp : ∃ m', v0.core.generatePath (fun _ => r) true normals = (.ok (), m') := by
    obtain ⟨grid, dts, e1, e2, e3, e4, e5, e6, e7⟩ := C45_euler _ _ _ _ _ _ _ _ hgen
    unfold ShortRateModel.generatePath
    rw [hgen]
    rw [if_pos rfl] at e4
    have : d'.path = some path := by rw [e4]
    simp only [this]
    exact ⟨_, rfl⟩
  obtain ⟨m', hm'⟩ := hgp
  have hgv : v0.generatePath (fun _ => r) true normals = (.ok (), { v0 with core := m' }) := by
    unfold Vasicek.generatePath
    rw [hm']
  have hf : Forward v0.core.process.dt := by rw [hcore.2]; unfold Forward; norm_num
  obtain ⟨grid, dts, rs, g1, g2, g3, g4, g5, g6, g7⟩ := C47_simulated hm0 hf (by rw [hcore.1, h1, h2]; decide +kernel) _ normals _ hgv
  rw [hg] at g1
  injection g1 with g1
  subst g1
  have hbm : m'.bm.start = T 2023 1 1 ∧ m'.bm.dcc = .act365 := by
    obtain ⟨_, _, _, _, _, _, _, _, e6, _⟩ := shortRate_generate v0.core m' hf (by rw [hcore.1, h1, h2]; decide +kernel) _ normals hm'
    rw [e6]
    simp only
    rw [hcore.1]
    exact ⟨h1, h3⟩
  obtain ⟨bm', dt', g', v00, ops, i1, i2⟩ := hm0
  match rs, g3, g4, g5, g6, g7 with
  | [r0, r1, r2], _, g4, g5, g6, g7 =>
    simp only [List.head?_cons, Option.some.injEq] at g4
    refine ⟨{ v0 with core := m' }, hbm.2, ⟨bm', dt', g', v00, ops ++ [(fun _ => r, true, normals)], i1, ?_⟩, hbm.1, ?_, ?_, ?_, ?_, ?_⟩
    · rw [List.foldl_append, ← i2]
      simp only [List.foldl_cons, List.foldl_nil]
      rw [hgv]
    · simp only at g5; rw [g5]; simp
    · have := g7 0 (by simp) (by simp)
      rw [g4] at this
      exact this
    · unfold Vasicek.time
      simp only
      rw [hbm.2]
      decide +kernel
    · unfold Vasicek.time
      simp only
      rw [hbm.2]
      decide +kernel
    · intro hs hr
      have hd : dts.length = 2 := by have := g2.1; simp at this; omega
      have s1 := g6 0 (by omega) (by simp)
      have s2 := g6 1 (by omega) (by simp)
      simp only [List.getElem_cons_succ, List.getElem_cons_zero] at s1 s2
      have e1 : r1 = θ := by rw [s1, g4, hr, hs]; ring
      have e2 : r2 = θ := by rw [s2, e1, hs]; ring
      rw [← e2]
      exact g7 2 (by simp) (by simp)

theorem vasicek_concrete (θ k σ r : ℝ) (hk : k ≠ 0) (bm : BrownianMotion 1) (h1 : bm.start = T 2023 1 1) (h2 : bm.stop = T 2023 1 3)
    (h3 : bm.dcc = .act365) (normals : Nat → Vec 1) :
    ∃ v, MadeVasicek θ k σ v ∧ v.core.bm.start = T 2023 1 1 ∧ v.core.path ≠ none ∧ v.call (T 2023 1 1) = .ok r ∧
      v.time (T 2023 1 1) (T 2023 1 3) = .ok (2 / 365) ∧ v.time (T 2023 1 3) (T 2023 1 3) = .ok 0 ∧
      (σ = 0 → r = θ → v.call (T 2023 1 3) = .ok θ) := by
  obtain ⟨v, -, h⟩ := vasicek_concrete_dcc θ k σ r hk bm h1 h2 h3 normals
  exact ⟨v, h⟩

theorem C47_later_purchase_false : ∃ v, MadeVasicek 1 1 0 v ∧ v.time (T 2023 1 3) (T 2023 1 3) = .ok 0 ∧
    v.zeroCouponBondPrice (T 2023 1 3) (some (T 2023 1 3)) = .ok (Real.exp (-(2 / 365))) := by
  obtain ⟨v, h1, h2, h3, h4, h5, h6, h7⟩ := vasicek_concrete 1 1 0 1 one_ne_zero
    { start := T 2023 1 1, stop := T 2023 1 3, chol := fun _ _ => 1, dcc := .act365, grid := none, path := none } rfl rfl rfl
    (fun _ _ => 0)
  refine ⟨v, h1, h6, ?_⟩
  have := (C47_later_purchase h1 (T 2023 1 3) (T 2023 1 3) (2 / 365) 1 _ (by rw [h2]; exact h5) (by norm_num) (h7 rfl rfl)
    (vMean_spec 1 1 1)).1
  rw [this, expectedDiscount_eq 1 0 one_ne_zero 1 (by norm_num)]
  congr 2
  unfold vA
  push_cast
  ring

end Verif.Props
