/- C69: the trebly mean-reverting model and the model with a stochastic market price of risk. -/
import Verif.Props.MultiConcrete

namespace Verif.Props
open Verif.Spec (Forward StepLengths shock)
open Verif.Spec.Multi Verif.Spec.MeanReverting Verif.Multi Matrix MeasureTheory

variable {p : Nat}

/-- The volatility matrix made from volatilities `σ` and a correlation matrix `c` mixes the independent draws into shocks with that
correlation, scaled by the volatilities. -/
theorem cholesky_correlates {a S c : Mat p} {σ : Vec p} (hS : IsCholesky a S) (ha : ∀ i j, a i j = σ i * σ j * c i j) (hc : ∀ i, c i i = 1) :
    Correlates c (Matrix.of fun i j => S i j / σ i) ∧ (∀ i, σ i ≠ 0) ∧
    ∀ z i, (S *ᵥ z) i = σ i * ((Matrix.of fun i j => S i j / σ i) *ᵥ z) i := by
  have hσ : ∀ i, σ i ≠ 0 := by
    intro i h0
    have h1 := congrFun (congrFun hS.2.2 i) i
    rw [ha i i, h0, Matrix.mul_apply] at h1
    simp only [Matrix.transpose_apply, zero_mul] at h1
    have h2 : S i i * S i i ≤ ∑ j, S i j * S i j :=
      Finset.single_le_sum (f := fun j => S i j * S i j) (fun j _ => mul_self_nonneg _) (Finset.mem_univ i)
    have h3 := mul_pos (hS.2.1 i) (hS.2.1 i)
    linarith
  refine ⟨?_, hσ, ?_⟩
  · unfold Correlates
    ext i j
    have h1 := congrFun (congrFun hS.2.2 i) j
    rw [ha i j, Matrix.mul_apply] at h1
    simp only [Matrix.transpose_apply] at h1
    rw [Matrix.mul_apply]
    simp only [Matrix.transpose_apply, Matrix.of_apply]
    have hi := hσ i
    have hj := hσ j
    have : ∑ k, S i k / σ i * (S j k / σ j) = (∑ k, S i k * S j k) / (σ i * σ j) := by
      rw [Finset.sum_div]
      exact Finset.sum_congr rfl fun k _ => by rw [div_mul_div_comm]
    rw [this, h1]
    field_simp
  · intro z i
    have hi := hσ i
    simp only [Matrix.mulVec, dotProduct, Matrix.of_apply, Finset.mul_sum]
    refine Finset.sum_congr rfl fun k _ => ?_
    field_simp

theorem shock_one (normals : Nat → Vec p) (dts : List ℚ) (k : Nat) (h : k < dts.length) :
    shock (1 : Mat p) normals dts k h = fun j => normals k j * Real.sqrt (dts[k] : ℝ) := by
  funext i
  unfold shock
  rw [Finset.sum_eq_single i]
  · simp
  · intro j _ hj
    rw [Matrix.one_apply_ne hj.symm, zero_mul]
  · intro hi; exact absurd (Finset.mem_univ _) hi

/-- The correlation matrix of three shocks. -/
def corr3 (a b c : ℝ) : Mat 3 := !![1, a, b; a, 1, c; b, c, 1]

/-- `v` is a model made by a (concrete subclass of) `TreblyMeanRevertingVasicek` with these parameters, after any number of path
generations, whatever numpy returned as eigenvalues and eigenvectors. -/
def BuiltTrebly (q : TreblyParams) (v : MultiVasicek 3) : Prop :=
  ∃ (start stop : PyDatetime) (dt : DtIncrement) (e : Eig 3) (v0 : MultiVasicek 3) (ops : List (Vec 3 × Bool × (Nat → Vec 3))),
    Trebly.init q start stop dt e = .ok v0 ∧ v = ops.foldl (fun v op => (v.generatePath op.1 op.2.1 op.2.2).2) v0

/-- The same for `StochasticMarketPriceOfRisk`. -/
def BuiltRiskPrice (q : RiskPriceParams) (v : MultiVasicek 3) : Prop :=
  ∃ (start stop : PyDatetime) (dt : DtIncrement) (e : Eig 3) (v0 : MultiVasicek 3) (ops : List (Vec 3 × Bool × (Nat → Vec 3))),
    RiskPrice.init q start stop dt e = .ok v0 ∧ v = ops.foldl (fun v op => (v.generatePath op.1 op.2.1 op.2.2).2) v0

theorem built_foldl {μ : ℝ} {g θ : Vec p} {K S : Mat p} (e : Eig p) (start stop : PyDatetime) (dt : DtIncrement)
    (ops : List (Vec p × Bool × (Nat → Vec p))) :
    let v := ops.foldl (fun v op => (v.generatePath op.1 op.2.1 op.2.2).2)
      (MultiVasicek.init μ g θ K S e (BrownianMotion.standard p start stop) dt)
    BuiltMulti μ g θ K S v ∧ v.core.bm.dcc = .actAct ∧ v.core.bm.chol = (1 : Mat p) := by
  intro v
  refine ⟨⟨e, _, dt, ops, rfl⟩, ?_⟩
  have : ∀ v0 : MultiVasicek p, v0.core.bm.dcc = .actAct ∧ v0.core.bm.chol = (1 : Mat p) →
      (ops.foldl (fun v op => (v.generatePath op.1 op.2.1 op.2.2).2) v0).core.bm.dcc = .actAct ∧
      (ops.foldl (fun v op => (v.generatePath op.1 op.2.1 op.2.2).2) v0).core.bm.chol = (1 : Mat p) := by
    intro v0 h0
    clear v
    induction ops generalizing v0 with
    | nil => exact h0
    | cons op ops ih =>
      rw [List.foldl_cons]
      apply ih
      have := shortRate_generate_bm v0.core op.1 op.2.1 op.2.2
      exact ⟨this.1.trans h0.1, this.2.1.trans h0.2⟩
  exact this _ ⟨rfl, rfl⟩

/-- C69. Simulated paths of the trebly mean-reverting model follow the documented equations: with `(L, R, r)` the long-term, medium and
short rate, `dL = κ_L(L∞ - L)dt + σ_L dW_L`, `dR = κ_R(L - R)dt + σ_R dW_R`, `dr = κ_r(R - r)dt + σ_r dW_r`, the shocks having the requested
correlations; the model's value on the grid is `r`. -/
theorem C69_trebly_paths_partial (q : TreblyParams) (v v' : MultiVasicek 3) (h : BuiltTrebly q v) (hf : Forward v.core.process.dt)
    (hle : v.core.bm.start ≤ v.core.bm.stop) (x0 : Vec 3) (normals : Nat → Vec 3) (hv : v.generatePath x0 true normals = (.ok (), v')) :
    ∃ (grid : List PyDatetime) (dts : List ℚ) (xs : List (Vec 3)) (M : Mat 3),
      Correlates (corr3 q.mediumLong q.shortLong q.shortMedium) M ∧
      BrownianMotion.makeGrid v.core.bm.start v.core.bm.stop v.core.process.dt = .ok grid ∧ StepLengths .actAct grid dts ∧
      xs.length = grid.length ∧ xs.head? = some x0 ∧
      (∀ k (h1 : k < dts.length) (h2 : k + 1 < xs.length),
        let dW : Vec 3 := M *ᵥ fun j => normals k j * Real.sqrt (dts[k] : ℝ)
        xs[k + 1] 0 = xs[k] 0 + q.longSpeed * (q.mean - xs[k] 0) * dts[k] + q.longVol * dW 0 ∧
        xs[k + 1] 1 = xs[k] 1 + q.mediumSpeed * (xs[k] 0 - xs[k] 1) * dts[k] + q.mediumVol * dW 1 ∧
        xs[k + 1] 2 = xs[k] 2 + q.shortSpeed * (xs[k] 1 - xs[k] 2) * dts[k] + q.shortVol * dW 2) ∧
      ∀ k (h1 : k < grid.length) (h2 : k < xs.length), v'.state grid[k] = .ok xs[k] ∧ v'.call grid[k] = .ok (xs[k] 2) := by
  obtain ⟨start, stop, dt, e, v0, ops, h0, rfl⟩ := h
  unfold Trebly.init at h0
  rw [bind_ok] at h0
  obtain ⟨S, hS, h0⟩ := h0
  injection h0 with h0
  subst h0
  have hS := npCholesky_ok.1 hS
  obtain ⟨hb, hdcc, hchol⟩ := built_foldl (μ := 0) (g := ![0, 0, 1]) (θ := Trebly.level q) (K := Trebly.reversion q) (S := S) e start stop dt ops
  generalize (ops.foldl (fun v op => (v.generatePath op.1 op.2.1 op.2.2).2)
    (MultiVasicek.init 0 ![0, 0, 1] (Trebly.level q) (Trebly.reversion q) S e (BrownianMotion.standard 3 start stop) dt)) = v at *
  obtain ⟨grid, dts, xs, e1, e2, e3, e4, e5, e6, e7, e8⟩ := multi_simulated hb hf hle x0 normals v' hv
  obtain ⟨c1, c2, c3⟩ := cholesky_correlates (σ := ![q.longVol, q.mediumVol, q.shortVol])
    (c := corr3 q.mediumLong q.shortLong q.shortMedium) hS
    (by intro i j; fin_cases i <;> fin_cases j <;> simp [-mul_eq_mul_right_iff, -mul_eq_mul_left_iff, Trebly.variance, corr3] <;> ring)
    (by intro i; fin_cases i <;> simp [corr3])
  refine ⟨grid, dts, xs, _, c1, e1, hdcc ▸ e2, e3, e4, ?_, ?_⟩
  · intro k h1 h2
    have := e5 k h1 h2
    intro dW
    rw [hchol, shock_one] at this
    have hi : ∀ i, xs[k + 1] i = xs[k] i + (dts[k] : ℝ) * (Trebly.reversion q *ᵥ (Trebly.level q - xs[k])) i +
        ![q.longVol, q.mediumVol, q.shortVol] i * dW i := by
      intro i
      rw [this]
      simp only [Pi.add_apply, Pi.smul_apply, smul_eq_mul, c3, dW]
    clear_value dW
    refine ⟨?_, ?_, ?_⟩
    · rw [hi 0]
      simp [Matrix.mulVec, dotProduct, Fin.sum_univ_three, Trebly.reversion, Trebly.level]
      ring
    · rw [hi 1]
      simp [Matrix.mulVec, dotProduct, Fin.sum_univ_three, Trebly.reversion, Trebly.level]
      ring
    · rw [hi 2]
      simp [Matrix.mulVec, dotProduct, Fin.sum_univ_three, Trebly.reversion, Trebly.level]
      ring
  · intro k h1 h2
    obtain ⟨a1, a2⟩ := e7 k h1 h2
    refine ⟨a1, ?_⟩
    rw [a2]
    simp [dotProduct, Fin.sum_univ_three]

/-- C69. Simulated paths of the model with a stochastic market price of risk follow the documented equations: with `(λ, θ, r)` the market
price of risk, the medium-term rate and the short rate, `dλ = κ_λ(λ∞ - λ)dt + σ_λ dW_λ`, `dθ = κ_θ(Θ∞ - θ)dt + λσ_θ dt + σ_θ dW_θ`,
`dr = κ_r(θ - r)dt + σ_r dW_r`, the shocks having the requested correlations; the model's value on the grid is `r`. -/
theorem C69_risk_price_paths_partial (q : RiskPriceParams) (v v' : MultiVasicek 3) (h : BuiltRiskPrice q v) (hf : Forward v.core.process.dt)
    (hle : v.core.bm.start ≤ v.core.bm.stop) (x0 : Vec 3) (normals : Nat → Vec 3) (hv : v.generatePath x0 true normals = (.ok (), v')) :
    ∃ (grid : List PyDatetime) (dts : List ℚ) (xs : List (Vec 3)) (M : Mat 3),
      Correlates (corr3 q.mediumRisk q.shortRisk q.shortMedium) M ∧
      BrownianMotion.makeGrid v.core.bm.start v.core.bm.stop v.core.process.dt = .ok grid ∧ StepLengths .actAct grid dts ∧
      xs.length = grid.length ∧ xs.head? = some x0 ∧
      (∀ k (h1 : k < dts.length) (h2 : k + 1 < xs.length),
        let dW : Vec 3 := M *ᵥ fun j => normals k j * Real.sqrt (dts[k] : ℝ)
        xs[k + 1] 0 = xs[k] 0 + q.riskSpeed * (q.riskMean - xs[k] 0) * dts[k] + q.riskVol * dW 0 ∧
        xs[k + 1] 1 = xs[k] 1 + q.mediumSpeed * (q.mediumMean - xs[k] 1) * dts[k] + xs[k] 0 * q.mediumVol * dts[k] + q.mediumVol * dW 1 ∧
        xs[k + 1] 2 = xs[k] 2 + q.shortSpeed * (xs[k] 1 - xs[k] 2) * dts[k] + q.shortVol * dW 2) ∧
      ∀ k (h1 : k < grid.length) (h2 : k < xs.length), v'.state grid[k] = .ok xs[k] ∧ v'.call grid[k] = .ok (xs[k] 2) := by
  obtain ⟨start, stop, dt, e, v0, ops, h0, rfl⟩ := h
  unfold RiskPrice.init at h0
  rw [bind_ok] at h0
  obtain ⟨avg, havg, h0⟩ := h0
  obtain ⟨hne, havg⟩ := floatDiv_ok.1 havg
  simp only at h0
  rw [bind_ok] at h0
  obtain ⟨S, hS, h0⟩ := h0
  injection h0 with h0
  subst h0
  have hS := npCholesky_ok.1 hS
  obtain ⟨hb, hdcc, hchol⟩ := built_foldl (μ := 0) (g := ![0, 0, 1]) (θ := ![q.riskMean, q.mediumMean + avg, q.mediumMean + avg])
    (K := RiskPrice.reversion q) (S := S) e start stop dt ops
  generalize (ops.foldl (fun v op => (v.generatePath op.1 op.2.1 op.2.2).2)
    (MultiVasicek.init 0 ![0, 0, 1] ![q.riskMean, q.mediumMean + avg, q.mediumMean + avg] (RiskPrice.reversion q) S e
      (BrownianMotion.standard 3 start stop) dt)) = v at *
  obtain ⟨grid, dts, xs, e1, e2, e3, e4, e5, e6, e7, e8⟩ := multi_simulated hb hf hle x0 normals v' hv
  obtain ⟨c1, c2, c3⟩ := cholesky_correlates (σ := ![q.riskVol, q.mediumVol, q.shortVol])
    (c := corr3 q.mediumRisk q.shortRisk q.shortMedium) hS
    (by intro i j; fin_cases i <;> fin_cases j <;> simp [-mul_eq_mul_right_iff, -mul_eq_mul_left_iff, RiskPrice.variance, corr3] <;> ring)
    (by intro i; fin_cases i <;> simp [corr3])
  refine ⟨grid, dts, xs, _, c1, e1, hdcc ▸ e2, e3, e4, ?_, ?_⟩
  · intro k h1 h2
    have := e5 k h1 h2
    intro dW
    rw [hchol, shock_one] at this
    have hi : ∀ i, xs[k + 1] i = xs[k] i + (dts[k] : ℝ) * (RiskPrice.reversion q *ᵥ (![q.riskMean, q.mediumMean + avg, q.mediumMean + avg] - xs[k])) i +
        ![q.riskVol, q.mediumVol, q.shortVol] i * dW i := by
      intro i
      rw [this]
      simp only [Pi.add_apply, Pi.smul_apply, smul_eq_mul, c3, dW]
    clear_value dW
    refine ⟨?_, ?_, ?_⟩
    · rw [hi 0]
      simp [Matrix.mulVec, dotProduct, Fin.sum_univ_three, RiskPrice.reversion]
      ring
    · rw [hi 1]
      simp [Matrix.mulVec, dotProduct, Fin.sum_univ_three, RiskPrice.reversion]
      rw [havg]
      field_simp
      ring
    · rw [hi 2]
      simp [Matrix.mulVec, dotProduct, Fin.sum_univ_three, RiskPrice.reversion]
      ring
  · intro k h1 h2
    obtain ⟨a1, a2⟩ := e7 k h1 h2
    refine ⟨a1, ?_⟩
    rw [a2]
    simp [dotProduct, Fin.sum_univ_three]

/-- Concrete case for C69: with unit volatilities and no correlations both models are made for all speeds and levels, and generate a path
on three days of 2023 from every state. -/
theorem three_factor_concrete (a b c m n : ℝ) (hb : b ≠ 0) (x0 : Vec 3) (normals : Nat → Vec 3) :
    (∃ v v', BuiltTrebly ⟨a, 1, b, 1, m, c, 1, 0, 0, 0⟩ v ∧ Forward v.core.process.dt ∧ v.core.bm.start ≤ v.core.bm.stop ∧
      v.generatePath x0 true normals = (.ok (), v')) ∧
    (∃ v v', BuiltRiskPrice ⟨a, 1, b, 1, m, c, 1, n, 0, 0, 0⟩ v ∧ Forward v.core.process.dt ∧ v.core.bm.start ≤ v.core.bm.stop ∧
      v.generatePath x0 true normals = (.ok (), v')) := by
  have h1 : npCholesky (Trebly.variance ⟨a, 1, b, 1, m, c, 1, 0, 0, 0⟩) = .ok 1 := by
    have : Trebly.variance ⟨a, 1, b, 1, m, c, 1, 0, 0, 0⟩ = 1 := by
      ext i j; fin_cases i <;> fin_cases j <;> simp [Trebly.variance]
    rw [this]; exact npCholesky_ok.2 isCholesky_one
  have h2 : npCholesky (RiskPrice.variance ⟨a, 1, b, 1, m, c, 1, n, 0, 0, 0⟩) = .ok 1 := by
    have : RiskPrice.variance ⟨a, 1, b, 1, m, c, 1, n, 0, 0, 0⟩ = 1 := by
      ext i j; fin_cases i <;> fin_cases j <;> simp [RiskPrice.variance]
    rw [this]; exact npCholesky_ok.2 isCholesky_one
  have hf : Forward (.timedelta 86400000000) := by unfold Forward; norm_num
  have hle : T 2023 1 1 ≤ T 2023 1 3 := by decide +kernel
  constructor
  · have h0 : ∃ v0, Trebly.init ⟨a, 1, b, 1, m, c, 1, 0, 0, 0⟩ (T 2023 1 1) (T 2023 1 3) (.timedelta 86400000000) ⟨0, 0, 0⟩ = .ok v0 ∧
        (∃ θ K S, BuiltMulti 0 ![0, 0, 1] θ K S v0) ∧ v0.core.bm.start = T 2023 1 1 ∧ v0.core.bm.stop = T 2023 1 3 ∧
        v0.core.bm.dcc = .actAct ∧ v0.core.process.dt = .timedelta 86400000000 := by
      unfold Trebly.init
      rw [h1, ok_bind]
      exact ⟨_, rfl, ⟨_, _, _, _, _, _, [], rfl⟩, rfl, rfl, rfl, rfl⟩
    obtain ⟨v0, e0, ⟨θ, K, S, hb⟩, e1, e2, e3, e4⟩ := h0
    obtain ⟨v', g1, -⟩ := multi_concrete_built hb e1 e2 e3 e4 x0 normals
    exact ⟨v0, v', ⟨_, _, _, _, v0, [], e0, rfl⟩, e4 ▸ hf, by rw [e1, e2]; exact hle, g1⟩
  · have h0 : ∃ v0, RiskPrice.init ⟨a, 1, b, 1, m, c, 1, n, 0, 0, 0⟩ (T 2023 1 1) (T 2023 1 3) (.timedelta 86400000000) ⟨0, 0, 0⟩ = .ok v0 ∧
        (∃ θ K S, BuiltMulti 0 ![0, 0, 1] θ K S v0) ∧ v0.core.bm.start = T 2023 1 1 ∧ v0.core.bm.stop = T 2023 1 3 ∧
        v0.core.bm.dcc = .actAct ∧ v0.core.process.dt = .timedelta 86400000000 := by
      unfold RiskPrice.init
      rw [floatDiv_of_ne hb, ok_bind]
      simp only
      rw [h2, ok_bind]
      exact ⟨_, rfl, ⟨_, _, _, _, _, _, [], rfl⟩, rfl, rfl, rfl, rfl⟩
    obtain ⟨v0, e0, ⟨θ, K, S, hb⟩, e1, e2, e3, e4⟩ := h0
    obtain ⟨v', g1, -⟩ := multi_concrete_built hb e1 e2 e3 e4 x0 normals
    exact ⟨v0, v', ⟨_, _, _, _, v0, [], e0, rfl⟩, e4 ▸ hf, by rw [e1, e2]; exact hle, g1⟩

end Verif.Props
