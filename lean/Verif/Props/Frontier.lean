/- Properties of the solved portfolio problems: C84 (minimum variance and the frontier), C85 (maximum utility). -/
import Verif.Props.Optimizer
import Mathlib.Topology.Order.Compact
import Mathlib.Algebra.QuadraticDiscriminant

namespace Verif.Props
open Verif Matrix Finset Optimizer

/-! ## Specification -/

/-- Weights sum to one and, unless short positions are allowed, lie between 0 and 1. -/
def Portfolio {n : Nat} (allowShort : Bool) (w : Fin n → ℝ) : Prop :=
  ∑ i, w i = 1 ∧ (allowShort = false → ∀ i, 0 ≤ w i ∧ w i ≤ 1)

/-- Mean return of the weights. -/
def meanReturn {n : Nat} (o : Optimizer n) (w : Fin n → ℝ) : ℝ := ∑ i, w i * o.mean i

/-- Variance of the weights. -/
def portfolioVariance {n : Nat} (o : Optimizer n) (w : Fin n → ℝ) : ℝ := ∑ i, ∑ j, w i * o.cov i j * w j

/-- A covariance matrix: symmetric, no negative variances. -/
def IsCovariance {n : Nat} (o : Optimizer n) : Prop := o.cov.IsSymm ∧ ∀ v, 0 ≤ portfolioVariance o v

/-- `w` is a portfolio with the target return and no other such portfolio has a smaller variance. -/
def MinimumVariance {n : Nat} (o : Optimizer n) (allowShort : Bool) (target : ℝ) (w : Fin n → ℝ) : Prop :=
  Portfolio allowShort w ∧ meanReturn o w = target ∧
    ∀ v, Portfolio allowShort v → meanReturn o v = target → portfolioVariance o w ≤ portfolioVariance o v

/-! ## Lemmas -/

theorem variance_eq {n : Nat} (o : Optimizer n) (w : Fin n → ℝ) : o.varianceObjective w = portfolioVariance o w := by
  simp only [Optimizer.varianceObjective, portfolioVariance, dotProduct, mulVec, Finset.mul_sum, mul_assoc]

theorem return_eq {n : Nat} (o : Optimizer n) (w : Fin n → ℝ) : o.mean ⬝ᵥ w = meanReturn o w := by
  simp only [meanReturn, dotProduct, mul_comm]

theorem return_eq' {n : Nat} (o : Optimizer n) (w : Fin n → ℝ) : w ⬝ᵥ o.mean = meanReturn o w := by
  simp only [meanReturn, dotProduct]

theorem sum_eq {n : Nat} (w : Fin n → ℝ) : (fun _ => (1 : ℝ)) ⬝ᵥ w = ∑ i, w i := by simp [dotProduct]

theorem variance_smul {n : Nat} (o : Optimizer n) (c : ℝ) (v : Fin n → ℝ) :
    o.varianceObjective (c • v) = c ^ 2 * o.varianceObjective v := by
  simp only [Optimizer.varianceObjective, mulVec_smul, smul_dotProduct, dotProduct_smul, smul_eq_mul]
  ring

theorem return_add {n : Nat} (o : Optimizer n) (v w : Fin n → ℝ) : meanReturn o (v + w) = meanReturn o v + meanReturn o w := by
  simp [meanReturn, add_mul, Finset.sum_add_distrib]

theorem return_smul {n : Nat} (o : Optimizer n) (c : ℝ) (v : Fin n → ℝ) : meanReturn o (c • v) = c * meanReturn o v := by
  simp [meanReturn, Finset.mul_sum, mul_assoc]

theorem portfolio_mix {n : Nat} {s : Bool} {v w : Fin n → ℝ} (hv : Portfolio s v) (hw : Portfolio s w) {a b : ℝ} (ha : 0 ≤ a)
    (hb : 0 ≤ b) (hab : a + b = 1) : Portfolio s (a • v + b • w) := by
  refine ⟨?_, fun hs i => ?_⟩
  · simp only [Pi.add_apply, Pi.smul_apply, smul_eq_mul, Finset.sum_add_distrib, ← Finset.mul_sum, hv.1, hw.1]
    linarith
  · obtain ⟨v0, v1⟩ := hv.2 hs i
    obtain ⟨w0, w1⟩ := hw.2 hs i
    simp only [Pi.add_apply, Pi.smul_apply, smul_eq_mul]
    constructor
    · positivity
    · nlinarith

theorem admitted_iff {n : Nat} (s : Bool) (w : Fin n → ℝ) :
    ((∀ i, (∀ lo ∈ (bounds s).1, lo ≤ w i) ∧ (∀ hi ∈ (bounds s).2, w i ≤ hi))) ↔ (s = false → ∀ i, 0 ≤ w i ∧ w i ≤ 1) := by
  rw [C50_bounds]
  cases s <;> simp

/-- If a quadratic in `t` with nonnegative leading coefficient is nonnegative on (0,1], so is its slope at 0. -/
theorem slope_nonneg {g q : ℝ} (hq : 0 ≤ q) (h : ∀ t : ℝ, 0 < t → t ≤ 1 → 0 ≤ t * g + t ^ 2 * q) : 0 ≤ g := by
  by_contra hg
  push Not at hg
  by_cases hc : q ≤ -g
  · by_cases hq0 : q = 0
    · have := h 1 one_pos le_rfl; nlinarith
    · have := h (1 / 2) (by norm_num) (by norm_num); nlinarith
  · push Not at hc
    have hq0 : 0 < q := by linarith
    have ht : 0 < -g / (2 * q) := div_pos (by linarith) (by linarith)
    have := h (-g / (2 * q)) ht (by rw [div_le_one (by linarith)]; linarith)
    have e : -g / (2 * q) * g + (-g / (2 * q)) ^ 2 * q = -g ^ 2 / (4 * q) := by field_simp; ring
    rw [e] at this
    have hneg : -g ^ 2 / (4 * q) < 0 := div_neg_of_neg_of_pos (by nlinarith) (by linarith)
    linarith

/-- Cauchy–Schwarz for a covariance matrix. -/
theorem variance_cauchy {n : Nat} (o : Optimizer n) (h : IsCovariance o) (u v : Fin n → ℝ) :
    (o.varianceGradient u ⬝ᵥ v) ^ 2 ≤ 4 * o.varianceObjective u * o.varianceObjective v := by
  have key : ∀ t : ℝ, 0 ≤ o.varianceObjective v * (t * t) + (o.varianceGradient u ⬝ᵥ v) * t + o.varianceObjective u := by
    intro t
    have h0 := h.2 (u + t • v)
    rw [← variance_eq, variance_expand o h.1, variance_smul, dotProduct_smul, smul_eq_mul] at h0
    nlinarith
  have := discrim_le_zero key
  unfold discrim at this
  nlinarith

/-- The volatility is subadditive. -/
theorem volatility_add {n : Nat} (o : Optimizer n) (h : IsCovariance o) (u v : Fin n → ℝ) :
    Real.sqrt (portfolioVariance o (u + v)) ≤ Real.sqrt (portfolioVariance o u) + Real.sqrt (portfolioVariance o v) := by
  have hu := h.2 u
  have hv := h.2 v
  have hc := variance_cauchy o h u v
  rw [variance_eq, variance_eq] at hc
  have hsq : o.varianceGradient u ⬝ᵥ v ≤ 2 * (Real.sqrt (portfolioVariance o u) * Real.sqrt (portfolioVariance o v)) := by
    have h1 : 2 * (Real.sqrt (portfolioVariance o u) * Real.sqrt (portfolioVariance o v)) =
        Real.sqrt (4 * portfolioVariance o u * portfolioVariance o v) := by
      rw [Real.sqrt_mul (by linarith), Real.sqrt_mul (by norm_num), show (4 : ℝ) = 2 ^ 2 by norm_num, Real.sqrt_sq (by norm_num)]
      ring
    rw [h1]
    exact Real.le_sqrt_of_sq_le hc
  rw [Real.sqrt_le_left (by positivity)]
  have e := variance_expand o h.1 u v
  rw [variance_eq, variance_eq, variance_eq] at e
  rw [e, add_sq, Real.sq_sqrt hu, Real.sq_sqrt hv]
  linarith

theorem volatility_smul {n : Nat} (o : Optimizer n) {c : ℝ} (hc : 0 ≤ c) (v : Fin n → ℝ) :
    Real.sqrt (portfolioVariance o (c • v)) = c * Real.sqrt (portfolioVariance o v) := by
  rw [← variance_eq, variance_smul, variance_eq, Real.sqrt_mul (sq_nonneg c), Real.sqrt_sq hc]

/-! ## C84 -/

/-- C84. What `find_minimum_variance_portfolio` asks the solver for is exactly a portfolio of the target return with minimal
variance. -/
theorem C84_problem {n : Nat} (o : Optimizer n) (allowShort : Bool) (target : ℝ) (w : Fin n → ℝ) :
    o.SolvesVariance allowShort target w ↔ MinimumVariance o allowShort target w := by
  have key : ∀ v, (o.returnConstraint target v = (0, 0) ∧ (allowShort = false → ∀ i, 0 ≤ v i) ∧
      (∀ i, (∀ lo ∈ (bounds allowShort).1, lo ≤ v i) ∧ (∀ hi ∈ (bounds allowShort).2, v i ≤ hi))) ↔
      Portfolio allowShort v ∧ meanReturn o v = target := by
    intro v
    rw [admitted_iff]
    simp only [Optimizer.returnConstraint, Prod.mk.injEq, sum_eq, return_eq, sub_eq_zero, Portfolio]
    constructor
    · rintro ⟨⟨h1, h2⟩, _, h3⟩; exact ⟨⟨h1, h3⟩, h2⟩
    · rintro ⟨⟨h1, h3⟩, h2⟩; exact ⟨⟨h1, h2⟩, fun hs i => (h3 hs i).1, h3⟩
  unfold Optimizer.SolvesVariance MinimumVariance
  simp only [key, variance_eq]
  constructor
  · rintro ⟨⟨h1, h2⟩, h3⟩; exact ⟨h1, h2, fun v a b => h3 v ⟨a, b⟩⟩
  · rintro ⟨h1, h2, h3⟩; exact ⟨⟨h1, h2⟩, fun v a => h3 v a.1 a.2⟩

/-- C84. A portfolio is minimal exactly if no admissible change of weights has a negative slope of the gradient passed to the
solver: there are no false local minima, with or without short positions. -/
theorem C84_variational {n : Nat} (o : Optimizer n) (h : IsCovariance o) (allowShort : Bool) (target : ℝ) (w : Fin n → ℝ)
    (hw : Portfolio allowShort w) (hr : meanReturn o w = target) :
    MinimumVariance o allowShort target w ↔
      ∀ v, Portfolio allowShort v → meanReturn o v = target → 0 ≤ o.varianceGradient w ⬝ᵥ (v - w) := by
  constructor
  · rintro ⟨_, _, hm⟩ v hv hvr
    refine slope_nonneg (h.2 (v - w)) (fun t t0 t1 => ?_)
    have hmix : w + t • (v - w) = (1 - t) • w + t • v := by
      funext i; simp only [Pi.add_apply, Pi.smul_apply, Pi.sub_apply, smul_eq_mul]; ring
    have h1 := hm (w + t • (v - w)) (by rw [hmix]; exact portfolio_mix hw hv (by linarith) t0.le (by ring)) (by
      rw [hmix, return_add, return_smul, return_smul, hr, hvr]; ring)
    rw [← variance_eq, ← variance_eq, variance_expand o h.1, variance_smul, dotProduct_smul, smul_eq_mul, variance_eq o (v - w)] at h1
    linarith
  · intro hg
    refine ⟨hw, hr, fun v hv hvr => ?_⟩
    have e := variance_expand o h.1 w (v - w)
    rw [add_sub_cancel, variance_eq, variance_eq, variance_eq] at e
    have := hg v hv hvr
    have := h.2 (v - w)
    linarith

/-- C84. The Kuhn–Tucker conditions of the problem without short positions suffice: multipliers of the two equations, and
nonnegative ones of the bounds that vanish where the bound is not met. -/
theorem C84_kuhn_tucker {n : Nat} (o : Optimizer n) (h : IsCovariance o) (target a b : ℝ) (w lower upper : Fin n → ℝ)
    (hw : Portfolio false w) (hr : meanReturn o w = target)
    (hl : ∀ i, 0 ≤ lower i ∧ (w i ≠ 0 → lower i = 0)) (hu : ∀ i, 0 ≤ upper i ∧ (w i ≠ 1 → upper i = 0))
    (hst : ∀ i, o.varianceGradient w i = a + b * o.mean i + lower i - upper i) : MinimumVariance o false target w := by
  rw [C84_variational o h false target w hw hr]
  intro v hv hvr
  have e : o.varianceGradient w ⬝ᵥ (v - w) = a * (∑ i, v i - ∑ i, w i) + b * (meanReturn o v - meanReturn o w) +
      ∑ i, (lower i - upper i) * (v i - w i) := by
    simp only [dotProduct, hst, Pi.sub_apply, meanReturn, ← Finset.sum_sub_distrib, Finset.mul_sum, ← Finset.sum_add_distrib]
    refine Finset.sum_congr rfl fun i _ => ?_
    ring
  rw [e, hv.1, hw.1, hvr, hr, sub_self, sub_self, mul_zero, mul_zero, zero_add, zero_add]
  refine Finset.sum_nonneg fun i _ => ?_
  obtain ⟨v0, v1⟩ := hv.2 rfl i
  have h1 : 0 ≤ lower i * (v i - w i) := by
    by_cases hz : w i = 0
    · rw [hz, sub_zero]; exact mul_nonneg (hl i).1 v0
    · rw [(hl i).2 hz, zero_mul]
  have h2 : 0 ≤ upper i * (w i - v i) := by
    by_cases hz : w i = 1
    · rw [hz]; exact mul_nonneg (hu i).1 (by linarith)
    · rw [(hu i).2 hz, zero_mul]
  nlinarith

theorem variance_continuous {n : Nat} (o : Optimizer n) : Continuous (portfolioVariance o) := by
  unfold portfolioVariance
  refine continuous_finsetSum _ fun i _ => continuous_finsetSum _ fun j _ => ?_
  exact ((continuous_apply i).mul continuous_const).mul (continuous_apply j)

theorem portfolio_compact {n : Nat} : IsCompact {w : Fin n → ℝ | Portfolio false w} := by
  have h1 : IsCompact (Set.Icc (0 : Fin n → ℝ) 1) := isCompact_Icc
  have hs : Continuous fun w : Fin n → ℝ => ∑ i, w i := continuous_finsetSum _ fun i _ => continuous_apply i
  have hset : {w : Fin n → ℝ | Portfolio false w} = Set.Icc (0 : Fin n → ℝ) 1 ∩ {w | ∑ i, w i = 1} := by
    ext w
    simp only [Set.mem_setOf_eq, Set.mem_inter_iff, Set.mem_Icc, Portfolio, Pi.le_def, Pi.zero_apply, Pi.one_apply, true_implies]
    constructor
    · rintro ⟨a, b⟩; exact ⟨⟨fun i => (b i).1, fun i => (b i).2⟩, a⟩
    · rintro ⟨⟨a, b⟩, c⟩; exact ⟨c, fun i => ⟨a i, b i⟩⟩
  rw [hset]
  exact h1.inter_right (isClosed_eq hs continuous_const)

theorem return_continuous {n : Nat} (o : Optimizer n) : Continuous (meanReturn o) := by
  unfold meanReturn
  exact continuous_finsetSum _ fun i _ => (continuous_apply i).mul continuous_const

/-- C84. Without short positions every default target of the frontier has a minimum variance portfolio. -/
theorem C84_exists {n : Nat} (o : Optimizer n) (i j : Fin n) (hij : o.mean i < o.mean j) (increment : ℝ) (hi0 : 0 < increment) (x : ℝ)
    (hx : x ∈ frontierReturns (o.mean i) (o.mean j) none none increment) : ∃ w, MinimumVariance o false x w := by
  obtain ⟨w0, h1, h2⟩ := C61_feasible o i j hij increment hi0 x hx
  simp only [Optimizer.returnConstraint, Prod.mk.injEq, sum_eq, return_eq, sub_eq_zero] at h1
  have hc : IsCompact ({w : Fin n → ℝ | Portfolio false w} ∩ {w | meanReturn o w = x}) :=
    portfolio_compact.inter_right (isClosed_eq (return_continuous o) continuous_const)
  obtain ⟨w, hw, hm⟩ := hc.exists_isMinOn ⟨w0, ⟨h1.1, fun _ k => h2 k⟩, h1.2⟩ (variance_continuous o).continuousOn
  exact ⟨w, hw.1, hw.2, fun v hv hvr => hm ⟨hv, hvr⟩⟩

/-- C84. If no nonzero position is riskless, the minimum variance portfolio is unique. -/
theorem C84_unique {n : Nat} (o : Optimizer n) (hs : o.cov.IsSymm) (hpos : ∀ v, v ≠ 0 → 0 < portfolioVariance o v) (s : Bool)
    (target : ℝ) (v w : Fin n → ℝ) (hv : MinimumVariance o s target v) (hw : MinimumVariance o s target w) : v = w := by
  have hcov : IsCovariance o := ⟨hs, fun u => by
    by_cases hu : u = 0
    · subst hu; simp [portfolioVariance]
    · exact (hpos u hu).le⟩
  by_contra hne
  have h1 := (C84_variational o hcov s target w hw.1 hw.2.1).1 hw v hv.1 hv.2.1
  have e := variance_expand o hs w (v - w)
  rw [add_sub_cancel, variance_eq, variance_eq, variance_eq] at e
  have h2 := hpos (v - w) (sub_ne_zero.2 hne)
  have h3 := hv.2.2 w hw.1 hw.2.1
  linarith

/-- C84. Allowing short positions never increases the minimal variance. -/
theorem C84_short {n : Nat} (o : Optimizer n) (target : ℝ) (v w : Fin n → ℝ) (hv : MinimumVariance o true target v)
    (hw : MinimumVariance o false target w) : portfolioVariance o v ≤ portfolioVariance o w :=
  hv.2.2 w ⟨hw.1.1, fun h => by cases h⟩ hw.2.1

/-- C84. The frontier reports for each target the volatility of the weights in the same place, in order. -/
theorem C84_frontier {n : Nat} (o : Optimizer n) (solve : ℝ → Fin n → ℝ) (returns : List ℝ) :
    (o.frontier solve returns).1 = returns ∧ (o.frontier solve returns).2.1.length = returns.length ∧
    (o.frontier solve returns).2.2.length = returns.length ∧
    ∀ k (h : k < returns.length), ∃ v w, (o.frontier solve returns).2.1[k]? = some v ∧ (o.frontier solve returns).2.2[k]? = some w ∧
      w = solve returns[k] ∧ v = Real.sqrt (portfolioVariance o w) := by
  refine ⟨rfl, by simp [Optimizer.frontier], by simp [Optimizer.frontier], fun k h => ⟨_, _, ?_, ?_, rfl, rfl⟩⟩
  · simp only [Optimizer.frontier, List.getElem?_map, List.getElem?_eq_getElem h, Option.map_some]
    rw [← variance_eq]; rfl
  · simp only [Optimizer.frontier, List.getElem?_map, List.getElem?_eq_getElem h, Option.map_some]

theorem minimum_convex {n : Nat} (o : Optimizer n) (h : IsCovariance o) {s : Bool} {x y a b : ℝ} {u v w : Fin n → ℝ} (ha : 0 ≤ a)
    (hb : 0 ≤ b) (hab : a + b = 1) (hu : MinimumVariance o s x u) (hv : MinimumVariance o s y v)
    (hw : MinimumVariance o s (a * x + b * y) w) :
    Real.sqrt (portfolioVariance o w) ≤ a * Real.sqrt (portfolioVariance o u) + b * Real.sqrt (portfolioVariance o v) := by
  have h1 := hw.2.2 (a • u + b • v) (portfolio_mix hu.1 hv.1 ha hb hab) (by
    rw [return_add, return_smul, return_smul, hu.2.1, hv.2.1])
  refine (Real.sqrt_le_sqrt h1).trans ((volatility_add o h _ _).trans ?_)
  rw [volatility_smul o ha, volatility_smul o hb]

/-- C84. If the solver solves its problems, the frontier is convex: between any two targets the volatility lies on or below the
chord (with or without short positions). -/
theorem C84_frontier_convex {n : Nat} (o : Optimizer n) (h : IsCovariance o) (s : Bool) (solve : ℝ → Fin n → ℝ) (returns : List ℝ)
    (hsolve : ∀ x ∈ returns, o.SolvesVariance s x (solve x)) (i j k : Nat) (x y z σx σy σz : ℝ)
    (hx : (o.frontier solve returns).1[i]? = some x) (hy : (o.frontier solve returns).1[j]? = some y)
    (hz : (o.frontier solve returns).1[k]? = some z) (hσx : (o.frontier solve returns).2.1[i]? = some σx)
    (hσy : (o.frontier solve returns).2.1[j]? = some σy) (hσz : (o.frontier solve returns).2.1[k]? = some σz)
    (hxy : x ≤ y) (hyz : y ≤ z) : (z - x) * σy ≤ (z - y) * σx + (y - x) * σz := by
  have vol : ∀ (m : Nat) (r σ : ℝ), (o.frontier solve returns).1[m]? = some r → (o.frontier solve returns).2.1[m]? = some σ →
      ∃ w, MinimumVariance o s r w ∧ σ = Real.sqrt (portfolioVariance o w) := by
    intro m r σ h1 h2
    simp only [Optimizer.frontier, List.getElem?_map] at h1 h2
    rw [h1] at h2
    simp only [Option.map_some, Option.some.injEq] at h2
    refine ⟨solve r, (C84_problem o s r _).1 (hsolve r (List.mem_of_getElem? h1)), ?_⟩
    rw [← h2, ← variance_eq]; rfl
  obtain ⟨u, hu, rfl⟩ := vol i x σx hx hσx
  obtain ⟨w, hw, rfl⟩ := vol j y σy hy hσy
  obtain ⟨v, hv, rfl⟩ := vol k z σz hz hσz
  rcases eq_or_lt_of_le (le_trans hxy hyz) with he | hlt
  · have h1 : x = y := by linarith
    have h2 : y = z := by linarith
    subst h1; subst h2; simp
  · have hd : 0 < z - x := by linarith
    have := minimum_convex o h (a := (z - y) / (z - x)) (b := (y - x) / (z - x)) (div_nonneg (by linarith) hd.le)
      (div_nonneg (by linarith) hd.le) (by field_simp; ring) hu hv (by
        have : (z - y) / (z - x) * x + (y - x) / (z - x) * z = y := by field_simp; ring
        rw [this]; exact hw)
    calc (z - x) * Real.sqrt (portfolioVariance o w)
        ≤ (z - x) * ((z - y) / (z - x) * Real.sqrt (portfolioVariance o u) + (y - x) / (z - x) * Real.sqrt (portfolioVariance o v)) :=
          mul_le_mul_of_nonneg_left this hd.le
      _ = _ := by field_simp

/-- C84. `sharpe_ratio` divides each excess return by the volatility in the same place; on a solved frontier no portfolio with the
same return and positive volatility does better, as long as the return is not below the risk-free rate. -/
theorem C84_sharpe {n : Nat} (o : Optimizer n) (s : Bool) (solve : ℝ → Fin n → ℝ) (returns : List ℝ) (riskFree : ℝ)
    (hsolve : ∀ x ∈ returns, o.SolvesVariance s x (solve x)) (k : Nat) (x : ℝ) (hx : returns[k]? = some x) :
    ∃ q σ, (sharpeRatio (o.frontier solve returns).1 (o.frontier solve returns).2.1 riskFree)[k]? = some q ∧
      (o.frontier solve returns).2.1[k]? = some σ ∧ q = (x - riskFree) / σ ∧
      ∀ v, Portfolio s v → meanReturn o v = x → 0 < σ → riskFree ≤ x → (x - riskFree) / Real.sqrt (portfolioVariance o v) ≤ q := by
  refine ⟨_, Real.sqrt (portfolioVariance o (solve x)), ?_, ?_, rfl, ?_⟩
  · simp only [sharpeRatio, Optimizer.frontier, List.getElem?_zipWith, List.getElem?_map, hx, Option.map_some]
    rw [← variance_eq]; rfl
  · simp only [Optimizer.frontier, List.getElem?_map, hx, Option.map_some]
    rw [← variance_eq]; rfl
  · intro v hv hr hpos hle
    have hm := (C84_problem o s x _).1 (hsolve x (List.mem_of_getElem? hx))
    exact div_le_div_of_nonneg_left (by linarith) hpos (Real.sqrt_le_sqrt (hm.2.2 v hv hr))

/-! ## C85: the maximum utility portfolio -/

/-- `w` is a portfolio with the largest `mean - (param * wealth / 2) * variance`. -/
def MaximumUtility {n : Nat} (o : Optimizer n) (wealth param : ℝ) (allowShort : Bool) (w : Fin n → ℝ) : Prop :=
  Portfolio allowShort w ∧ ∀ v, Portfolio allowShort v →
    meanReturn o v - param * wealth / 2 * portfolioVariance o v ≤ meanReturn o w - param * wealth / 2 * portfolioVariance o w

/-- C85. What `find_maximum_utility_portfolio` asks the solver for is exactly the portfolio that maximizes mean return minus
`param * wealth / 2` times variance, as documented. -/
theorem C85_problem {n : Nat} (o : Optimizer n) (wealth param : ℝ) (allowShort : Bool) (w : Fin n → ℝ) :
    o.SolvesUtility wealth param allowShort w ↔ MaximumUtility o wealth param allowShort w := by
  have key : ∀ v : Fin n → ℝ, (weightConstraint v = 0 ∧
      (∀ i, (∀ lo ∈ (bounds allowShort).1, lo ≤ v i) ∧ (∀ hi ∈ (bounds allowShort).2, v i ≤ hi))) ↔ Portfolio allowShort v := by
    intro v
    rw [admitted_iff]
    simp only [weightConstraint, sum_eq, sub_eq_zero, Portfolio]
  have obj : ∀ v, o.utilityObjective wealth param v = -(meanReturn o v - param * wealth / 2 * portfolioVariance o v) := by
    intro v
    unfold Optimizer.utilityObjective
    rw [show v ⬝ᵥ (o.cov *ᵥ v) = portfolioVariance o v from variance_eq o v, return_eq']
    ring
  unfold Optimizer.SolvesUtility MaximumUtility
  simp only [key, obj, neg_le_neg_iff]

/-- C85. For nonnegative risk aversion a portfolio is optimal exactly if no admissible change of weights has a negative slope of
the gradient passed to the solver. -/
theorem C85_variational {n : Nat} (o : Optimizer n) (h : IsCovariance o) (wealth param : ℝ) (hpw : 0 ≤ param * wealth) (s : Bool)
    (w : Fin n → ℝ) (hw : Portfolio s w) :
    MaximumUtility o wealth param s w ↔ ∀ v, Portfolio s v → 0 ≤ o.utilityGradient wealth param w ⬝ᵥ (v - w) := by
  have ge : ∀ v, o.utilityGradient wealth param w ⬝ᵥ v =
      -meanReturn o v + param * wealth / 2 * (o.varianceGradient w ⬝ᵥ v) := by
    intro v
    simp only [Optimizer.utilityGradient, Optimizer.varianceGradient, add_dotProduct, neg_dotProduct, smul_dotProduct, smul_eq_mul, return_eq]
    ring
  have expand : ∀ v, portfolioVariance o (w + v) = portfolioVariance o w + o.varianceGradient w ⬝ᵥ v + portfolioVariance o v := by
    intro v; have e := variance_expand o h.1 w v; rwa [variance_eq, variance_eq, variance_eq] at e
  constructor
  · rintro ⟨_, hm⟩ v hv
    refine slope_nonneg (q := param * wealth / 2 * portfolioVariance o (v - w)) (mul_nonneg (by linarith) (h.2 _)) (fun t t0 t1 => ?_)
    have hmix : w + t • (v - w) = (1 - t) • w + t • v := by
      funext i; simp only [Pi.add_apply, Pi.smul_apply, Pi.sub_apply, smul_eq_mul]; ring
    have h1 := hm (w + t • (v - w)) (by rw [hmix]; exact portfolio_mix hw hv (by linarith) t0.le (by ring))
    have hv2 : portfolioVariance o (t • (v - w)) = t ^ 2 * portfolioVariance o (v - w) := by
      rw [← variance_eq, variance_smul, variance_eq]
    rw [expand, return_add, return_smul, dotProduct_smul, smul_eq_mul, hv2] at h1
    rw [ge]
    nlinarith
  · intro hg
    refine ⟨hw, fun v hv => ?_⟩
    have h1 := hg v hv
    have e := expand (v - w)
    rw [add_sub_cancel] at e
    have hr : meanReturn o v = meanReturn o w + meanReturn o (v - w) := by rw [← return_add, add_sub_cancel]
    rw [ge] at h1
    rw [e, hr]
    have : 0 ≤ param * wealth / 2 * portfolioVariance o (v - w) := mul_nonneg (by linarith) (h.2 _)
    nlinarith

/-- C85. Without short positions an optimal portfolio exists (for at least one asset). -/
theorem C85_exists {n : Nat} (hn : 0 < n) (o : Optimizer n) (wealth param : ℝ) : ∃ w, MaximumUtility o wealth param false w := by
  have hc : ContinuousOn (fun w => meanReturn o w - param * wealth / 2 * portfolioVariance o w) {w : Fin n → ℝ | Portfolio false w} :=
    ((return_continuous o).sub (continuous_const.mul (variance_continuous o))).continuousOn
  obtain ⟨h1, h2⟩ := C50_starting_weights hn
  have hne : (startingWeights (n := n)) ∈ {w : Fin n → ℝ | Portfolio false w} := by
    refine ⟨?_, fun _ => h2⟩
    simpa only [weightConstraint, sum_eq, sub_eq_zero] using h1
  obtain ⟨w, hw, hm⟩ := portfolio_compact.exists_isMaxOn ⟨_, hne⟩ hc
  exact ⟨w, hw, fun v hv => hm hv⟩

/-- C85. With positive risk aversion the optimal portfolio is on the frontier: it has minimal variance for its own return. -/
theorem C85_efficient {n : Nat} (o : Optimizer n) (wealth param : ℝ) (hpw : 0 < param * wealth) (s : Bool) (w : Fin n → ℝ)
    (hw : MaximumUtility o wealth param s w) : MinimumVariance o s (meanReturn o w) w := by
  refine ⟨hw.1, rfl, fun v hv hr => ?_⟩
  have := hw.2 v hv
  rw [hr] at this
  nlinarith

/-- C85. More risk aversion (or more wealth) never means more risk, nor more return. -/
theorem C85_risk_aversion {n : Nat} (o : Optimizer n) (s : Bool) (wealth param wealth' param' : ℝ) (h0 : 0 ≤ param * wealth)
    (hlt : param * wealth < param' * wealth') (w w' : Fin n → ℝ) (hw : MaximumUtility o wealth param s w)
    (hw' : MaximumUtility o wealth' param' s w') :
    portfolioVariance o w' ≤ portfolioVariance o w ∧ meanReturn o w' ≤ meanReturn o w := by
  have h1 := hw.2 w' hw'.1
  have h2 := hw'.2 w hw.1
  have hv : portfolioVariance o w' ≤ portfolioVariance o w := by nlinarith
  exact ⟨hv, by nlinarith⟩

/-- Two uncorrelated assets of unit variance with means 1 and 2. -/
def twoAssets : Optimizer 2 := ⟨![1, 2], !![1, 0; 0, 1]⟩

theorem twoAssets_variance (v : Fin 2 → ℝ) : portfolioVariance twoAssets v = v 0 ^ 2 + v 1 ^ 2 := by
  simp [portfolioVariance, twoAssets, Fin.sum_univ_two]; ring

theorem twoAssets_covariance : IsCovariance twoAssets := by
  refine ⟨?_, fun v => ?_⟩
  · ext i j; fin_cases i <;> fin_cases j <;> simp [twoAssets]
  · rw [twoAssets_variance]; positivity

/-- The hypotheses of C84 are met: equal weights satisfy the Kuhn–Tucker conditions (all multipliers of the bounds zero), and a
target at the end of the range meets a bound. -/
example : MinimumVariance twoAssets false (3 / 2) ![1 / 2, 1 / 2] := by
  refine C84_kuhn_tucker twoAssets twoAssets_covariance (3 / 2) 1 0 _ 0 0 ?_ ?_ (fun i => ⟨le_rfl, fun _ => rfl⟩)
    (fun i => ⟨le_rfl, fun _ => rfl⟩) ?_
  · refine ⟨by norm_num [Fin.sum_univ_two], fun _ i => ?_⟩
    fin_cases i <;> norm_num
  · norm_num [meanReturn, Fin.sum_univ_two, twoAssets]
  · intro i
    fin_cases i <;> norm_num [Optimizer.varianceGradient, twoAssets, mulVec, dotProduct, Fin.sum_univ_two]

example : MinimumVariance twoAssets false 2 ![0, 1] := by
  refine C84_kuhn_tucker twoAssets twoAssets_covariance 2 (-4) 3 _ ![1, 0] 0 ?_ ?_ ?_ (fun i => ⟨le_rfl, fun _ => rfl⟩) ?_
  · refine ⟨by norm_num [Fin.sum_univ_two], fun _ i => ?_⟩
    fin_cases i <;> norm_num
  · norm_num [meanReturn, Fin.sum_univ_two, twoAssets]
  · intro i; fin_cases i <;> norm_num
  · intro i
    fin_cases i <;> norm_num [Optimizer.varianceGradient, twoAssets, mulVec, dotProduct, Fin.sum_univ_two]

/-- Of the two assets, risk aversion 1 takes equal weights plus half a unit of the difference of the means: only the second asset
is held. -/
example : MaximumUtility twoAssets 1 1 false ![0, 1] := by
  refine ⟨⟨by norm_num [Fin.sum_univ_two], fun _ i => by fin_cases i <;> norm_num⟩, fun v hv => ?_⟩
  rw [twoAssets_variance, twoAssets_variance]
  have h1 := hv.1
  rw [Fin.sum_univ_two] at h1
  have h0 := hv.2 rfl 0
  simp only [meanReturn, Fin.sum_univ_two, twoAssets]
  norm_num
  have : v 1 = 1 - v 0 := by linarith
  rw [this]
  nlinarith

end Verif.Props
