/- Properties of the portfolio optimizations: C50, C61. -/
import Verif.Model.Optimizer
import Mathlib.Analysis.Calculus.FDeriv.Mul
import Mathlib.Analysis.Calculus.FDeriv.Pi
import Mathlib.Analysis.Convex.Function
import Mathlib.LinearAlgebra.Matrix.PosDef
import Mathlib.LinearAlgebra.Matrix.Symmetric
import Mathlib.Probability.Distributions.Gaussian.Real
import Mathlib.Tactic.Positivity

namespace Verif.Props
open Verif Matrix Finset Optimizer

/-- The linear map `v ↦ g · v`: a function has gradient `g` if this is its derivative. -/
noncomputable def gradientMap {n : Nat} (g : Fin n → ℝ) : (Fin n → ℝ) →L[ℝ] ℝ := ∑ i, g i • ContinuousLinearMap.proj (R := ℝ) (φ := fun _ : Fin n => ℝ) i

theorem gradientMap_apply {n : Nat} (g v : Fin n → ℝ) : gradientMap g v = g ⬝ᵥ v := by
  simp [gradientMap, dotProduct, ContinuousLinearMap.sum_apply]

theorem gradientMap_injective {n : Nat} {g g' : Fin n → ℝ} (h : gradientMap g = gradientMap g') : g = g' := by
  funext i
  have := congrArg (fun L => L (Pi.single i 1)) h
  simpa [gradientMap_apply] using this

/-- The derivative of a quadratic form, in general. -/
theorem quadratic_derivative {n : Nat} (A : Matrix (Fin n) (Fin n) ℝ) (w : Fin n → ℝ) :
    HasFDerivAt (fun w : Fin n → ℝ => w ⬝ᵥ (A *ᵥ w)) (gradientMap (A *ᵥ w + Aᵀ *ᵥ w)) w := by
  have hproj : ∀ i, HasFDerivAt (fun w : Fin n → ℝ => w i) (ContinuousLinearMap.proj (R := ℝ) (φ := fun _ : Fin n => ℝ) i) w :=
    fun i => hasFDerivAt_apply i w
  have h : HasFDerivAt (fun w : Fin n → ℝ => ∑ i, w i * ∑ j, A i j * w j)
      (∑ i, (w i • (∑ j, A i j • ContinuousLinearMap.proj (R := ℝ) (φ := fun _ : Fin n => ℝ) j) +
        (∑ j, A i j * w j) • ContinuousLinearMap.proj (R := ℝ) (φ := fun _ : Fin n => ℝ) i)) w := by
    refine HasFDerivAt.fun_sum (fun i _ => ?_)
    exact (hproj i).fun_mul (HasFDerivAt.fun_sum (fun j _ => (hproj j).const_mul (A i j)))
  refine h.congr_fderiv ?_
  ext v
  rw [gradientMap_apply]
  simp only [ContinuousLinearMap.sum_apply, ContinuousLinearMap.add_apply, ContinuousLinearMap.smul_apply,
    ContinuousLinearMap.proj_apply, smul_eq_mul, dotProduct, mulVec, Pi.add_apply, transpose_apply, Finset.sum_add_distrib,
    add_mul, Finset.sum_mul, Finset.mul_sum]
  rw [add_comm]
  congr 1
  rw [Finset.sum_comm]
  refine Finset.sum_congr rfl fun i _ => Finset.sum_congr rfl fun j _ => ?_
  ring

/-- C50. The gradient passed to the solver for the minimum variance problem is the derivative of the objective at every weight
vector, exactly when the covariance matrix is symmetric. -/
theorem C50_variance_gradient {n : Nat} (o : Optimizer n) :
    (∀ w, HasFDerivAt o.varianceObjective (gradientMap (o.varianceGradient w)) w) ↔ o.cov.IsSymm := by
  constructor
  · intro h
    have key : ∀ w, (2 : ℝ) • (o.cov *ᵥ w) = o.cov *ᵥ w + o.covᵀ *ᵥ w := fun w =>
      gradientMap_injective ((h w).unique (quadratic_derivative o.cov w))
    ext i j
    have := congrFun (key (Pi.single j 1)) i
    simp [mulVec_single_one] at this
    rw [transpose_apply]
    linarith
  · intro hs w
    have := quadratic_derivative o.cov w
    rw [hs.eq, ← two_smul ℝ] at this
    exact this

/-- C50. The same for the utility problem (with a symmetric covariance matrix). -/
theorem C50_utility_gradient {n : Nat} (o : Optimizer n) (hs : o.cov.IsSymm) (wealth param : ℝ) (w : Fin n → ℝ) :
    HasFDerivAt (o.utilityObjective wealth param) (gradientMap (o.utilityGradient wealth param w)) w := by
  have h1 := (C50_variance_gradient o).2 hs w
  have h2 : HasFDerivAt (fun w : Fin n → ℝ => w ⬝ᵥ o.mean) (gradientMap o.mean) w := by
    have : (fun w : Fin n → ℝ => w ⬝ᵥ o.mean) = fun w => gradientMap o.mean w := by
      funext w; rw [gradientMap_apply, dotProduct_comm]
    rw [this]
    exact (gradientMap o.mean).hasFDerivAt
  have h := h2.neg.add (h1.mul_const (param * wealth / 2))
  refine h.congr_fderiv ?_
  ext v
  simp only [ContinuousLinearMap.add_apply, ContinuousLinearMap.neg_apply, ContinuousLinearMap.smul_apply, gradientMap_apply,
    Optimizer.utilityGradient, Optimizer.varianceGradient, add_dotProduct, neg_dotProduct, smul_dotProduct, smul_eq_mul]
  ring

/-- Exact expansion of a symmetric quadratic form. -/
theorem variance_expand {n : Nat} (o : Optimizer n) (hs : o.cov.IsSymm) (w v : Fin n → ℝ) :
    o.varianceObjective (w + v) = o.varianceObjective w + o.varianceGradient w ⬝ᵥ v + o.varianceObjective v := by
  have hc : w ⬝ᵥ (o.cov *ᵥ v) = v ⬝ᵥ (o.cov *ᵥ w) := by
    rw [dotProduct_mulVec, ← mulVec_transpose, hs.eq, dotProduct_comm]
  simp only [Optimizer.varianceObjective, Optimizer.varianceGradient, mulVec_add, add_dotProduct, dotProduct_add, smul_dotProduct,
    smul_eq_mul, hc]
  rw [dotProduct_comm (o.cov *ᵥ w) v]
  ring

/-- C50. With a positive semidefinite covariance matrix the variance objective is convex. -/
theorem C50_convex {n : Nat} (o : Optimizer n) (hs : o.cov.IsSymm) (hp : ∀ v, 0 ≤ o.varianceObjective v) :
    ConvexOn ℝ Set.univ o.varianceObjective := by
  refine ⟨convex_univ, ?_⟩
  intro x _ y _ a b ha hb hab
  have hsm : ∀ (c : ℝ) v, o.varianceObjective (c • v) = c ^ 2 * o.varianceObjective v := by
    intro c v
    simp only [Optimizer.varianceObjective, mulVec_smul, smul_dotProduct, dotProduct_smul, smul_eq_mul]
    ring
  have e := variance_expand o hs (a • x) (b • y)
  have hd := hp (x - y)
  have e2 := variance_expand o hs x (-y)
  have hn : o.varianceObjective (-y) = o.varianceObjective y := by
    have := hsm (-1) y; simp at this; exact this
  rw [← sub_eq_add_neg] at e2
  have g1 : o.varianceGradient (a • x) ⬝ᵥ (b • y) = a * b * (o.varianceGradient x ⬝ᵥ y) := by
    simp only [Optimizer.varianceGradient, mulVec_smul, smul_dotProduct, dotProduct_smul, smul_eq_mul]; ring
  have g2 : o.varianceGradient x ⬝ᵥ (-y) = -(o.varianceGradient x ⬝ᵥ y) := by rw [dotProduct_neg]
  rw [e, hsm, hsm, g1]
  rw [e2, g2, hn] at hd
  simp only [smul_eq_mul]
  have hb' : b = 1 - a := by linarith
  subst hb'
  nlinarith [mul_nonneg ha hb]

/-- C50. A feasible point of the minimum variance problem at which the passed gradient is a combination of the constraint
gradients has the smallest variance of all feasible points (no short-selling bounds). -/
theorem C50_stationary_is_minimal {n : Nat} (o : Optimizer n) (hs : o.cov.IsSymm) (hp : ∀ v, 0 ≤ o.varianceObjective v)
    (target a b : ℝ) (w : Fin n → ℝ) (hw : o.returnConstraint target w = (0, 0))
    (hst : o.varianceGradient w = fun i => a * 1 + b * o.mean i) (v : Fin n → ℝ) (hv : o.returnConstraint target v = (0, 0)) :
    o.varianceObjective w ≤ o.varianceObjective v := by
  have e := variance_expand o hs w (v - w)
  rw [add_sub_cancel] at e
  simp only [Optimizer.returnConstraint, Prod.mk.injEq] at hw hv
  have h0 : o.varianceGradient w ⬝ᵥ (v - w) = 0 := by
    have : o.varianceGradient w ⬝ᵥ (v - w) =
        a * ((fun _ => (1 : ℝ)) ⬝ᵥ v - (fun _ => (1 : ℝ)) ⬝ᵥ w) + b * (o.mean ⬝ᵥ v - o.mean ⬝ᵥ w) := by
      rw [hst]
      simp only [dotProduct, Pi.sub_apply, mul_sub, Finset.sum_sub_distrib, Finset.mul_sum, one_mul, add_mul, Finset.sum_add_distrib]
      simp only [mul_one, mul_assoc]
      ring
    rw [this]
    have h1 : (fun _ => (1 : ℝ)) ⬝ᵥ v = (fun _ => (1 : ℝ)) ⬝ᵥ w := by linarith [hw.1, hv.1]
    have h2 : o.mean ⬝ᵥ v = o.mean ⬝ᵥ w := by linarith [hw.2, hv.2]
    rw [h1, h2]; ring
  rw [e, h0]
  linarith [hp (v - w)]

/-- C50. The utility objective stands for expected exponential utility: if the portfolio return is normal with the mean and
variance of the weights, the expected utility of final wealth is `1 - exp(-param * wealth * (1 - objective))`, so for positive
`param * wealth` a smaller objective is exactly a larger expected utility. -/
theorem C50_expected_utility {n : Nat} (o : Optimizer n) (wealth param : ℝ) (w : Fin n → ℝ)
    (hv : 0 ≤ o.varianceObjective w) :
    ∫ x, (1 - Real.exp (-param * (wealth * (1 + x)))) ∂(ProbabilityTheory.gaussianReal (w ⬝ᵥ o.mean) ⟨o.varianceObjective w, hv⟩) =
      1 - Real.exp (-(param * wealth) * (1 - o.utilityObjective wealth param w)) := by
  obtain ⟨s, hs⟩ : ∃ s : NNReal, s = ⟨o.varianceObjective w, hv⟩ := ⟨_, rfl⟩
  have hsv : (s : ℝ) = o.varianceObjective w := by rw [hs]; rfl
  rw [← hs]
  have hm := congrFun (ProbabilityTheory.mgf_id_gaussianReal (μ := w ⬝ᵥ o.mean) (v := s)) (-(param * wealth))
  have hi : MeasureTheory.Integrable (fun x => Real.exp (-(param * wealth) * x))
      (ProbabilityTheory.gaussianReal (w ⬝ᵥ o.mean) s) :=
    ProbabilityTheory.integrable_exp_mul_gaussianReal _
  have e : ∀ x, 1 - Real.exp (-param * (wealth * (1 + x))) =
      1 - Real.exp (-(param * wealth)) * Real.exp (-(param * wealth) * x) := by
    intro x; rw [← Real.exp_add]; congr 2; ring
  simp only [e]
  rw [MeasureTheory.integral_sub (MeasureTheory.integrable_const _) (hi.const_mul _), MeasureTheory.integral_const_mul]
  simp only [ProbabilityTheory.mgf, id_eq] at hm
  rw [hm]
  simp only [MeasureTheory.integral_const, MeasureTheory.probReal_univ, smul_eq_mul, mul_one, ← Real.exp_add]
  congr 2
  unfold Optimizer.utilityObjective
  rw [hsv]
  unfold Optimizer.varianceObjective
  ring

/-- C50. Hence for positive `param * wealth` minimizing the objective is maximizing expected utility. -/
theorem C50_utility_order {n : Nat} (o : Optimizer n) (wealth param : ℝ) (hpw : 0 < param * wealth) (w v : Fin n → ℝ)
    (hw : 0 ≤ o.varianceObjective w) (hv : 0 ≤ o.varianceObjective v) :
    o.utilityObjective wealth param w ≤ o.utilityObjective wealth param v ↔
      ∫ x, (1 - Real.exp (-param * (wealth * (1 + x)))) ∂(ProbabilityTheory.gaussianReal (v ⬝ᵥ o.mean) ⟨o.varianceObjective v, hv⟩) ≤
      ∫ x, (1 - Real.exp (-param * (wealth * (1 + x)))) ∂(ProbabilityTheory.gaussianReal (w ⬝ᵥ o.mean) ⟨o.varianceObjective w, hw⟩) := by
  rw [C50_expected_utility, C50_expected_utility, sub_le_sub_iff_left, Real.exp_le_exp]
  constructor
  · intro h; nlinarith
  · intro h; by_contra hc; push Not at hc; nlinarith

/-- C50. Weights are admitted by the solver's bounds exactly if short positions are allowed or every weight is between 0 and 1. -/
theorem C50_bounds {n : Nat} (allowShort : Bool) (w : Fin n → ℝ) :
    (∀ i, (∀ lo ∈ (bounds allowShort).1, lo ≤ w i) ∧ (∀ hi ∈ (bounds allowShort).2, w i ≤ hi)) ↔
      (allowShort = true ∨ ∀ i, 0 ≤ w i ∧ w i ≤ 1) := by
  cases allowShort <;> simp [bounds]

/-- C50. The starting weights satisfy the budget constraint and the no-short bounds. -/
theorem C50_starting_weights {n : Nat} (hn : 0 < n) :
    weightConstraint (startingWeights (n := n)) = 0 ∧
    ∀ i, (0 : ℝ) ≤ startingWeights (n := n) i ∧ startingWeights (n := n) i ≤ 1 := by
  have h1 : (1 : ℝ) ≤ n := by exact_mod_cast hn
  constructor
  · simp [weightConstraint, startingWeights, dotProduct]
    field_simp
    ring
  · intro i
    unfold startingWeights
    exact ⟨by positivity, by rw [div_le_one (by positivity)]; exact h1⟩

/-- Concrete case for C50: two assets with correlation 1/2. -/
example : (!![(1 : ℝ), 1 / 2; 1 / 2, 1]).IsSymm ∧
    ∀ v : Fin 2 → ℝ, 0 ≤ (Optimizer.mk ![1, 2] !![(1 : ℝ), 1 / 2; 1 / 2, 1]).varianceObjective v := by
  constructor
  · ext i j; fin_cases i <;> fin_cases j <;> simp
  · intro v
    simp [Optimizer.varianceObjective, dotProduct, mulVec, Fin.sum_univ_two]
    nlinarith [sq_nonneg (v 0 + v 1), sq_nonneg (v 0), sq_nonneg (v 1)]

/-! ## C61: the efficient frontier -/

theorem mem_arange {start stop step x : ℝ} (hs : 0 < step) (h : x ∈ arange start stop step) : start ≤ x ∧ x < stop := by
  unfold arange at h
  rw [List.mem_map] at h
  obtain ⟨k, hk, rfl⟩ := h
  rw [List.mem_range] at hk
  have hk' : (k : ℤ) < ⌈(stop - start) / step⌉ := by omega
  rw [Int.lt_ceil] at hk'
  have h2 : (k : ℝ) < (stop - start) / step := by exact_mod_cast hk'
  rw [lt_div_iff₀ hs] at h2
  have h0 : 0 ≤ (k : ℝ) * step := by positivity
  constructor <;> linarith

/-- C61. By default every target return of the efficient frontier lies strictly between the smallest and the largest mean return. -/
theorem C61_default_targets (lo hi increment : ℝ) (hi0 : 0 < increment) (x : ℝ)
    (hx : x ∈ frontierReturns lo hi none none increment) : lo < x ∧ x < hi := by
  obtain ⟨h1, h2⟩ := mem_arange hi0 hx
  simp only [Option.getD_none] at h1 h2
  constructor <;> linarith

/-- C61. So each default target is attained by weights without short positions: the constraints handed to the solver can be met. -/
theorem C61_feasible {n : Nat} (o : Optimizer n) (i j : Fin n) (hij : o.mean i < o.mean j) (increment : ℝ) (hi0 : 0 < increment) (x : ℝ)
    (hx : x ∈ frontierReturns (o.mean i) (o.mean j) none none increment) :
    ∃ w : Fin n → ℝ, o.returnConstraint x w = (0, 0) ∧ ∀ k, 0 ≤ w k ∧ w k ≤ 1 := by
  obtain ⟨h1, h2⟩ := C61_default_targets _ _ _ hi0 x hx
  have hd : 0 < o.mean j - o.mean i := by linarith
  have hne : i ≠ j := by rintro rfl; exact lt_irrefl _ hij
  set t := (x - o.mean i) / (o.mean j - o.mean i) with ht
  have t0 : 0 ≤ t := div_nonneg (by linarith) hd.le
  have t1 : t ≤ 1 := by rw [ht, div_le_one hd]; linarith
  refine ⟨fun k => if k = i then 1 - t else if k = j then t else 0, ?_, ?_⟩
  · have hsum : ∀ f : Fin n → ℝ, f ⬝ᵥ (fun k => if k = i then 1 - t else if k = j then t else 0) = f i * (1 - t) + f j * t := by
      intro f
      have e : ∀ k, f k * (if k = i then 1 - t else if k = j then t else 0) =
          (if k = i then f k * (1 - t) else 0) + (if k = j then f k * t else 0) := by
        intro k
        by_cases h : k = i
        · subst h; simp [hne]
        · by_cases h' : k = j
          · subst h'; simp [hne.symm]
          · simp [h, h']
      simp only [dotProduct, e, Finset.sum_add_distrib, Finset.sum_ite_eq', Finset.mem_univ, if_true]
    unfold Optimizer.returnConstraint
    rw [hsum, hsum]
    simp only [Prod.mk.injEq]
    constructor
    · ring
    · rw [ht]; field_simp; ring
  · intro k
    simp only
    split_ifs
    · constructor <;> linarith
    · exact ⟨t0, t1⟩
    · constructor <;> norm_num

/-- C61. Targets are one increment apart, starting at the lower return; the last one reaches the upper return, and passes it by
less than an increment. -/
theorem C61_spacing (lo hi : ℝ) (lower upper increment : ℝ) (hi0 : 0 < increment) (hle : lower ≤ upper) :
    (∀ k (h : k < (frontierReturns lo hi (some lower) (some upper) increment).length),
      (frontierReturns lo hi (some lower) (some upper) increment)[k] = lower + k * increment) ∧
    ∃ x, (frontierReturns lo hi (some lower) (some upper) increment).getLast? = some x ∧ upper ≤ x ∧ x < upper + increment := by
  have hd : frontierReturns lo hi (some lower) (some upper) increment = arange lower (upper + increment) increment := rfl
  rw [hd]
  constructor
  · intro k h
    simp [arange]
  · have hc : 1 ≤ ⌈(upper + increment - lower) / increment⌉ := by
      rw [Int.one_le_ceil_iff]
      apply div_pos _ hi0
      linarith
    obtain ⟨m, hm⟩ : ∃ m : Nat, ⌈(upper + increment - lower) / increment⌉ = (m : ℤ) + 1 :=
      ⟨(⌈(upper + increment - lower) / increment⌉ - 1).toNat, by omega⟩
    have hlen : Int.toNat ⌈(upper + increment - lower) / increment⌉ = m + 1 := by omega
    refine ⟨lower + m * increment, ?_, ?_, ?_⟩
    · unfold arange
      rw [hlen, List.range_succ, List.map_append]
      simp
    · have := Int.le_ceil ((upper + increment - lower) / increment)
      rw [hm] at this
      push_cast at this
      rw [div_le_iff₀ hi0] at this
      linarith
    · have : (m : ℤ) < ⌈(upper + increment - lower) / increment⌉ := by omega
      rw [Int.lt_ceil] at this
      have h2 : (m : ℝ) < (upper + increment - lower) / increment := by exact_mod_cast this
      rw [lt_div_iff₀ hi0] at h2
      linarith

/-- Concrete case for C61: with returns from 1 to 2 in steps of 3/10 the last target is 2.2, past the upper return. -/
example : (frontierReturns 0 3 (some 1) (some 2) (3 / 10)).length = 5 := by
  have : ⌈((2 : ℝ) + 3 / 10 - 1) / (3 / 10)⌉ = 5 := by
    rw [Int.ceil_eq_iff]; norm_num
  simp [frontierReturns, arange, this]

end Verif.Props
