/- More of C84: with short positions two portfolios of the frontier generate all of it. -/
import Verif.Props.Frontier

namespace Verif.Props
open Verif Matrix Finset Optimizer

theorem mix_short {n : Nat} {v w : Fin n → ℝ} (hv : Portfolio true v) (hw : Portfolio true w) {a b : ℝ} (hab : a + b = 1) :
    Portfolio true (a • v + b • w) := by
  refine ⟨?_, fun h => by cases h⟩
  simp only [Pi.add_apply, Pi.smul_apply, smul_eq_mul, Finset.sum_add_distrib, ← Finset.mul_sum, hv.1, hw.1]
  linarith

/-- C84. With short positions a portfolio is minimal exactly if the gradient passed to the solver is orthogonal to every change of
weights that keeps the sum and the mean return: the first-order condition the solver looks for is the whole condition. -/
theorem C84_short_stationary {n : Nat} (o : Optimizer n) (h : IsCovariance o) (target : ℝ) (w : Fin n → ℝ)
    (hw : ∑ i, w i = 1) (hr : meanReturn o w = target) :
    MinimumVariance o true target w ↔
      ∀ d : Fin n → ℝ, ∑ i, d i = 0 → meanReturn o d = 0 → o.varianceGradient w ⬝ᵥ d = 0 := by
  have hp : Portfolio true w := ⟨hw, fun h => by cases h⟩
  rw [C84_variational o h true target w hp hr]
  constructor
  · intro hg d hd hm
    have h1 := hg (w + d) ⟨by simp only [Pi.add_apply, Finset.sum_add_distrib, hw, hd, add_zero], fun h => by cases h⟩
      (by rw [return_add, hr, hm, add_zero])
    have h2 := hg (w + (-1 : ℝ) • d) ⟨by
      simp only [Pi.add_apply, Pi.smul_apply, smul_eq_mul, Finset.sum_add_distrib, ← Finset.mul_sum, hw, hd, mul_zero, add_zero],
      fun h => by cases h⟩ (by rw [return_add, return_smul, hr, hm, mul_zero, add_zero])
    rw [add_sub_cancel_left] at h1 h2
    rw [dotProduct_smul, smul_eq_mul] at h2
    linarith
  · intro hg v hv hvr
    refine le_of_eq (hg (v - w) ?_ ?_).symm
    · simp only [Pi.sub_apply, Finset.sum_sub_distrib, hv.1, hw, sub_self]
    · simp only [meanReturn, Pi.sub_apply, sub_mul, Finset.sum_sub_distrib]
      simp only [meanReturn] at hvr hr
      rw [hvr, hr, sub_self]

/-- C84. The two-fund theorem: with short positions, every combination of two minimum variance portfolios whose coefficients sum to
one is a minimum variance portfolio, for the same combination of the targets, also outside the range between them. -/
theorem C84_two_fund {n : Nat} (o : Optimizer n) (h : IsCovariance o) (x y a b : ℝ) (hab : a + b = 1) (v w : Fin n → ℝ)
    (hv : MinimumVariance o true x v) (hw : MinimumVariance o true y w) :
    MinimumVariance o true (a * x + b * y) (a • v + b • w) := by
  have hm := mix_short hv.1 hw.1 hab
  refine (C84_short_stationary o h _ _ hm.1 (by rw [return_add, return_smul, return_smul, hv.2.1, hw.2.1])).2 ?_
  intro d hd hr
  have h1 := (C84_short_stationary o h x v hv.1.1 hv.2.1).1 hv d hd hr
  have h2 := (C84_short_stationary o h y w hw.1.1 hw.2.1).1 hw d hd hr
  simp only [Optimizer.varianceGradient, mulVec_add, mulVec_smul, smul_add, add_dotProduct, smul_dotProduct, smul_eq_mul] at h1 h2 ⊢
  linear_combination a * h1 + b * h2

theorem minimum_variance_value {n : Nat} {o : Optimizer n} {s : Bool} {x : ℝ} {v w : Fin n → ℝ} (hv : MinimumVariance o s x v)
    (hw : MinimumVariance o s x w) : portfolioVariance o v = portfolioVariance o w :=
  le_antisymm (hv.2.2 w hw.1 hw.2.1) (hw.2.2 v hv.1 hv.2.1)

theorem variance_mix {n : Nat} (o : Optimizer n) (h : IsCovariance o) (a b : ℝ) (v w : Fin n → ℝ) :
    portfolioVariance o (a • v + b • w) =
      a ^ 2 * portfolioVariance o v + a * b * (o.varianceGradient v ⬝ᵥ w) + b ^ 2 * portfolioVariance o w := by
  rw [← variance_eq, ← variance_eq, ← variance_eq, variance_expand o h.1, variance_smul, variance_smul]
  simp only [Optimizer.varianceGradient, mulVec_smul, smul_dotProduct, dotProduct_smul, smul_eq_mul]
  ring

/-- C84. With short positions the squared volatilities that `mean_standard_deviation_frontier` reports lie on one parabola in the
target, whichever minimal portfolios the solver picks, and it opens upwards. -/
theorem C84_short_parabola {n : Nat} (o : Optimizer n) (h : IsCovariance o) (solve : ℝ → Fin n → ℝ) (returns : List ℝ)
    (hsolve : ∀ x ∈ returns, o.SolvesVariance true x (solve x)) :
    ∃ a b c : ℝ, 0 ≤ a ∧ ∀ (k : Nat) (x σ : ℝ), (o.frontier solve returns).1[k]? = some x →
      (o.frontier solve returns).2.1[k]? = some σ → σ ^ 2 = a * x ^ 2 + b * x + c := by
  have vol : ∀ (k : Nat) (x σ : ℝ), (o.frontier solve returns).1[k]? = some x → (o.frontier solve returns).2.1[k]? = some σ →
      x ∈ returns ∧ σ ^ 2 = portfolioVariance o (solve x) := by
    intro m r σ h1 h2
    simp only [Optimizer.frontier, List.getElem?_map] at h1 h2
    rw [h1] at h2
    simp only [Option.map_some, Option.some.injEq] at h2
    refine ⟨List.mem_of_getElem? h1, ?_⟩
    rw [← h2, ← variance_eq]
    exact Real.sq_sqrt (le_of_le_of_eq (h.2 _) (variance_eq o _).symm)
  have hmin : ∀ x ∈ returns, MinimumVariance o true x (solve x) := fun x hx => (C84_problem o true x _).1 (hsolve x hx)
  by_cases hc : ∃ x ∈ returns, ∃ y ∈ returns, x ≠ y
  · obtain ⟨x, hx, y, hy, hxy⟩ := hc
    have hd : x - y ≠ 0 := sub_ne_zero.2 hxy
    set V := portfolioVariance o (solve x) with hV
    set W := portfolioVariance o (solve y) with hW
    set G := o.varianceGradient (solve x) ⬝ᵥ solve y with hG
    refine ⟨(V - G + W) / (x - y) ^ 2, (-2 * y * V + (x + y) * G - 2 * x * W) / (x - y) ^ 2,
      (y ^ 2 * V - x * y * G + x ^ 2 * W) / (x - y) ^ 2, ?_, ?_⟩
    · refine div_nonneg ?_ (sq_nonneg _)
      have h0 := h.2 ((1 : ℝ) • solve x + (-1 : ℝ) • solve y)
      rw [variance_mix o h] at h0
      linarith
    · intro k z σ hz hσ
      obtain ⟨hzm, e⟩ := vol k z σ hz hσ
      have h2 := C84_two_fund o h x y ((z - y) / (x - y)) ((x - z) / (x - y)) (by field_simp; ring) _ _ (hmin x hx) (hmin y hy)
      rw [show (z - y) / (x - y) * x + (x - z) / (x - y) * y = z by field_simp; ring] at h2
      rw [e, minimum_variance_value (hmin z hzm) h2, variance_mix o h, ← hV, ← hW, ← hG]
      field_simp
      ring
  · push Not at hc
    cases returns with
    | nil => exact ⟨0, 0, 0, le_rfl, fun k x σ hx hσ => absurd (vol k x σ hx hσ).1 (List.not_mem_nil)⟩
    | cons r rs =>
      refine ⟨0, 0, portfolioVariance o (solve r), le_rfl, fun k x σ hx hσ => ?_⟩
      obtain ⟨hm, e⟩ := vol k x σ hx hσ
      rw [e, hc x hm r (List.mem_cons_self)]
      ring

/-! ## Examples -/

theorem twoAssets_short (x : ℝ) : MinimumVariance twoAssets true x ![2 - x, x - 1] := by
  refine ⟨⟨by simp [Fin.sum_univ_two]; ring, fun h => by cases h⟩, ?_, fun v hv hr => ?_⟩
  · simp [meanReturn, twoAssets, Fin.sum_univ_two]; ring_nf
  · have h1 := hv.1
    simp only [meanReturn, twoAssets, Fin.sum_univ_two, Matrix.cons_val_zero, Matrix.cons_val_one] at h1 hr
    rw [twoAssets_variance, twoAssets_variance]
    have e1 : v 1 = x - 1 := by linarith
    have e0 : v 0 = 2 - x := by linarith
    simp [e0, e1]

/-- The hypotheses are met: from the portfolios for the targets 1 and 2 the one for the target 4 holds three times the second asset,
short two of the first. -/
example : MinimumVariance twoAssets true ((-2) * 1 + 3 * 2) ((-2 : ℝ) • ![2 - 1, 1 - 1] + (3 : ℝ) • ![2 - 2, 2 - 1]) :=
  C84_two_fund twoAssets twoAssets_covariance 1 2 (-2) 3 (by norm_num) _ _ (twoAssets_short 1) (twoAssets_short 2)

/-- The solver that returns these portfolios solves its problems, and the parabola is `2x² - 6x + 5`. -/
example (x : ℝ) : twoAssets.SolvesVariance true x ![2 - x, x - 1] ∧
    portfolioVariance twoAssets ![2 - x, x - 1] = 2 * x ^ 2 + (-6) * x + 5 :=
  ⟨(C84_problem _ _ _ _).2 (twoAssets_short x), by rw [twoAssets_variance]; simp; ring⟩

/-- Without short positions the statement is false: at the target 4 there is no portfolio. -/
example : ¬ ∃ w, MinimumVariance twoAssets false 4 w := by
  rintro ⟨w, hw, hr, _⟩
  have h0 := hw.2 rfl 0
  have h1 := hw.2 rfl 1
  simp only [meanReturn, twoAssets, Fin.sum_univ_two, Matrix.cons_val_zero, Matrix.cons_val_one] at hr
  linarith [h0.1, h0.2, h1.1, h1.2]

end Verif.Props
