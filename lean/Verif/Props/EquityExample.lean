/- Beta and risk decomposition of the equity example: C139. -/
import Verif.Model.Examples
import Verif.Spec.Examples
import Mathlib.Tactic.Linarith
import Mathlib.Tactic.Ring
import Mathlib.Tactic.FieldSimp
import Mathlib.Algebra.BigOperators.Fin
import Mathlib.Algebra.BigOperators.Field

namespace Verif.Props
open Verif Verif.Spec Verif.Examples

/-! ### Daily returns -/

theorem dailyReturns_length : ∀ cs : List ℝ, (dailyReturns cs).length = cs.length - 1
  | [] => rfl
  | [_] => rfl
  | _ :: c1 :: rest => by
    simp only [dailyReturns, List.length_cons]
    rw [dailyReturns_length (c1 :: rest)]
    simp

theorem dailyReturns_get : ∀ (cs : List ℝ) (i : Nat) (h : i < (dailyReturns cs).length) (h0 : i < cs.length) (h1 : i + 1 < cs.length),
    (dailyReturns cs)[i] = (cs[i + 1] - cs[i]) / cs[i + 1]
  | [], i, h, _, _ => absurd h (by simp [dailyReturns])
  | [_], i, h, _, _ => absurd h (by simp [dailyReturns])
  | c0 :: c1 :: rest, 0, _, _, _ => rfl
  | c0 :: c1 :: rest, i + 1, h, h0, h1 => by
    have := dailyReturns_get (c1 :: rest) i (by simpa [dailyReturns] using h) (by simpa using h0) (by simpa using h1)
    simpa [dailyReturns] using this

/-- C139. The daily returns of the example are not the relative changes of the price `r`, but `r / (1 + r)`: the change is divided by the new price.
For positive prices they are smaller than `r` on every day the price moves, and never reach 100 %. -/
theorem C139_returns_false (cs : List ℝ) (hpos : ∀ c ∈ cs, 0 < c) (i : Nat) (h : i + 1 < cs.length) :
    ∃ x, (dailyReturns cs)[i]? = some x ∧
      (let r := (cs[i + 1] - cs[i]) / cs[i]
       x = r / (1 + r) ∧ x < 1 ∧ x ≤ r ∧ (x = r ↔ cs[i + 1] = cs[i])) := by
  have hl : i < (dailyReturns cs).length := by rw [dailyReturns_length]; omega
  refine ⟨(dailyReturns cs)[i], List.getElem?_eq_getElem hl, ?_⟩
  rw [dailyReturns_get cs i hl (by omega) h]
  have h0 : 0 < cs[i] := hpos _ (List.getElem_mem _)
  have h1 : 0 < cs[i + 1] := hpos _ (List.getElem_mem _)
  set a := cs[i]
  set b := cs[i + 1]
  intro r
  have hr : 1 + r = b / a := by
    simp only [r]
    rw [eq_div_iff h0.ne', add_mul, div_mul_cancel₀ _ h0.ne']
    ring
  have hd : r - (b - a) / b = (b - a) ^ 2 / (a * b) := by simp only [r]; field_simp
  refine ⟨?_, ?_, ?_, ?_⟩
  · rw [hr]; simp only [r]; field_simp
  · rw [div_lt_one h1]; linarith
  · have : 0 ≤ (b - a) ^ 2 / (a * b) := by positivity
    linarith
  · constructor
    · intro e
      have : (b - a) ^ 2 / (a * b) = 0 := by rw [← hd, e]; ring
      rw [div_eq_zero_iff] at this
      rcases this with h | h
      · have := pow_eq_zero_iff (two_ne_zero) |>.1 h
        linarith
      · exact absurd h (by positivity)
    · intro e
      simp [r, e]

/-- C139. What the returns do determine: the first price is the last one times the product of `1 - return`. -/
theorem C139_compounding : ∀ (c0 : ℝ) (cs : List ℝ), (∀ c ∈ cs, 0 < c) →
    c0 = ((c0 :: cs).getLast (by simp)) * ((dailyReturns (c0 :: cs)).map fun x => 1 - x).prod
  | c0, [], _ => by simp [dailyReturns]
  | c0, c1 :: rest, h => by
    have ih := C139_compounding c1 rest fun c hc => h c (by simp [hc])
    have h1 : 0 < c1 := h c1 (by simp)
    simp only [dailyReturns, List.map_cons, List.prod_cons]
    rw [List.getLast_cons (by simp)]
    have : (1 - (c1 - c0) / c1) * c1 = c0 := by field_simp; ring
    calc c0 = (1 - (c1 - c0) / c1) * c1 := this.symm
      _ = (1 - (c1 - c0) / c1) * ((c1 :: rest).getLast (by simp) * ((dailyReturns (c1 :: rest)).map fun x => 1 - x).prod) := by rw [← ih]
      _ = _ := by ring

/-! ### The fit -/

section
variable {n : Nat} {x y : Fin n → ℝ} {alpha beta : ℝ}

theorem zero_of_quadratic {A S : ℝ} (hA : 0 ≤ A) (h : ∀ t : ℝ, 0 ≤ A * t ^ 2 - 2 * S * t) : S = 0 := by
  have h1 := h (S / (A + 1))
  have hp : 0 < A + 1 := by linarith
  have e : A * (S / (A + 1)) ^ 2 - 2 * S * (S / (A + 1)) = -(S ^ 2 * (A + 2)) / (A + 1) ^ 2 := by field_simp; ring
  rw [e] at h1
  have h2 : 0 ≤ -(S ^ 2 * (A + 2)) := by
    by_contra hneg
    push Not at hneg
    exact absurd (div_neg_of_neg_of_pos hneg (by positivity)) (not_lt.2 h1)
  have h3 : S ^ 2 * (A + 2) ≤ 0 := by linarith
  have h4 : S ^ 2 ≤ 0 := by
    by_contra hneg
    push Not at hneg
    have := mul_pos hneg (by linarith : 0 < A + 2)
    linarith
  exact pow_eq_zero_iff (two_ne_zero) |>.1 (le_antisymm h4 (sq_nonneg S))

/-- The normal equations characterise the fit. -/
theorem isFit_iff : IsFit x y alpha beta ↔
    ∑ i, (y i - (alpha + beta * x i)) = 0 ∧ ∑ i, (y i - (alpha + beta * x i)) * x i = 0 := by
  have expand : ∀ a b : ℝ, ∑ i, (y i - (a + b * x i)) ^ 2 = ∑ i, (y i - (alpha + beta * x i)) ^ 2
      + 2 * (alpha - a) * ∑ i, (y i - (alpha + beta * x i)) + 2 * (beta - b) * ∑ i, (y i - (alpha + beta * x i)) * x i
      + ∑ i, ((alpha - a) + (beta - b) * x i) ^ 2 := by
    intro a b
    rw [Finset.mul_sum, Finset.mul_sum, ← Finset.sum_add_distrib, ← Finset.sum_add_distrib, ← Finset.sum_add_distrib]
    exact Finset.sum_congr rfl fun i _ => by ring
  constructor
  · intro h
    constructor
    · refine zero_of_quadratic (A := n) (Nat.cast_nonneg n) fun t => ?_
      have := h (alpha + t) beta
      rw [expand (alpha + t) beta] at this
      simp only [sub_self, mul_zero, zero_mul, add_zero, Finset.sum_const, Finset.card_univ, Fintype.card_fin, nsmul_eq_mul] at this
      have e : alpha - (alpha + t) = -t := by ring
      rw [e] at this
      nlinarith
    · refine zero_of_quadratic (A := ∑ i, x i ^ 2) (Finset.sum_nonneg fun _ _ => sq_nonneg _) fun t => ?_
      have := h alpha (beta + t)
      rw [expand alpha (beta + t)] at this
      have e : ∑ i, ((alpha - alpha) + (beta - (beta + t)) * x i) ^ 2 = (∑ i, x i ^ 2) * t ^ 2 := by
        rw [Finset.sum_mul]
        exact Finset.sum_congr rfl fun i _ => by ring
      rw [e] at this
      simp only [sub_self, mul_zero, zero_mul, add_zero] at this
      have e2 : beta - (beta + t) = -t := by ring
      rw [e2] at this
      nlinarith
  · rintro ⟨h1, h2⟩ a b
    rw [expand a b, h1, h2]
    have : 0 ≤ ∑ i, ((alpha - a) + (beta - b) * x i) ^ 2 := Finset.sum_nonneg fun _ _ => sq_nonneg _
    linarith

/-- The mean of a series. -/
noncomputable def seriesMean {n : Nat} (x : Fin n → ℝ) : ℝ := (∑ i, x i) / n

theorem std_sq (x : Fin n → ℝ) : std x ^ 2 = (∑ i, (x i - seriesMean x) ^ 2) / n := by
  unfold std
  rw [Real.sq_sqrt]
  · rfl
  · exact div_nonneg (Finset.sum_nonneg fun _ _ => sq_nonneg _) (Nat.cast_nonneg n)

theorem std_nonneg (x : Fin n → ℝ) : 0 ≤ std x := Real.sqrt_nonneg _

theorem mean_idio (hn : 0 < n) (h : IsFit x y alpha beta) : seriesMean (idioPart beta x y) = alpha ∧ seriesMean y = alpha + beta * seriesMean x := by
  have hn' : (n : ℝ) ≠ 0 := by positivity
  have h1 := (isFit_iff.1 h).1
  have e : ∑ i, (y i - (alpha + beta * x i)) = ∑ i, y i - n * alpha - beta * ∑ i, x i := by
    simp only [Finset.sum_sub_distrib, Finset.sum_add_distrib, Finset.sum_const, Finset.card_univ, Fintype.card_fin, nsmul_eq_mul, Finset.mul_sum]
    ring
  rw [e] at h1
  have hy : ∑ i, y i = n * alpha + beta * ∑ i, x i := by linarith
  constructor
  · unfold seriesMean idioPart marketPart
    rw [Finset.sum_sub_distrib, ← Finset.mul_sum, hy]
    field_simp
    ring
  · unfold seriesMean
    rw [hy]
    field_simp

/-- C139. Risk decomposition: for any least squares fit, the squared risk of the returns is that of the market part plus that of the rest, so the
reconstructed risk is the risk; neither part exceeds it. -/
theorem C139_risk (hn : 0 < n) (h : IsFit x y alpha beta) :
    std y ^ 2 = std (marketPart beta x) ^ 2 + std (idioPart beta x y) ^ 2 ∧ reconstructedRisk beta x y = std y ∧
    std (idioPart beta x y) ≤ std y ∧ std (marketPart beta x) ≤ std y ∧ std (marketPart beta x) = |beta| * std x := by
  have hn' : (n : ℝ) ≠ 0 := by positivity
  obtain ⟨h1, h2⟩ := isFit_iff.1 h
  obtain ⟨hm, hy⟩ := mean_idio hn h
  have hmk : seriesMean (marketPart beta x) = beta * seriesMean x := by
    unfold seriesMean marketPart; rw [← Finset.mul_sum, mul_div_assoc]
  have key : std y ^ 2 = std (marketPart beta x) ^ 2 + std (idioPart beta x y) ^ 2 := by
    rw [std_sq, std_sq, std_sq, ← add_div, hm, hmk, hy, ← Finset.sum_add_distrib]
    congr 1
    have cross : ∑ i, 2 * beta * ((y i - (alpha + beta * x i)) * x i - seriesMean x * (y i - (alpha + beta * x i))) = 0 := by
      rw [← Finset.mul_sum, Finset.sum_sub_distrib, ← Finset.mul_sum, h1, h2]; ring
    rw [← add_zero (∑ i, ((marketPart beta x i - beta * seriesMean x) ^ 2 + (idioPart beta x y i - alpha) ^ 2)), ← cross, ← Finset.sum_add_distrib]
    refine Finset.sum_congr rfl fun i _ => ?_
    unfold idioPart marketPart
    ring
  refine ⟨key, ?_, ?_, ?_, ?_⟩
  · unfold reconstructedRisk
    rw [← key, Real.sqrt_sq (std_nonneg y)]
  · exact abs_le_of_sq_le_sq' (by rw [key]; linarith [sq_nonneg (std (marketPart beta x))]) (std_nonneg y) |>.2
  · exact abs_le_of_sq_le_sq' (by rw [key]; linarith [sq_nonneg (std (idioPart beta x y))]) (std_nonneg y) |>.2
  · unfold std
    have : ∑ i, (marketPart beta x i - (∑ j, marketPart beta x j) / n) ^ 2 = beta ^ 2 * ∑ i, (x i - (∑ j, x j) / n) ^ 2 := by
      rw [Finset.mul_sum]
      refine Finset.sum_congr rfl fun i _ => ?_
      have : (∑ j, marketPart beta x j) = beta * ∑ j, x j := by unfold marketPart; rw [Finset.mul_sum]
      rw [this]
      unfold marketPart
      ring
    rw [this, mul_div_assoc, Real.sqrt_mul (sq_nonneg beta), Real.sqrt_sq_eq_abs]

/-- C139. Beta is covariance over variance, whenever the market moves at all, and then alpha and beta are the only fit; the idiosyncratic part is uncorrelated
with the market and has mean alpha. -/
theorem C139_beta (hn : 0 < n) (h : IsFit x y alpha beta) (hx : ∃ i, x i ≠ seriesMean x) :
    beta = (∑ i, (x i - seriesMean x) * (y i - seriesMean y)) / ∑ i, (x i - seriesMean x) ^ 2 ∧ alpha = seriesMean y - beta * seriesMean x ∧
    (∀ a b, IsFit x y a b → a = alpha ∧ b = beta) ∧ ∑ i, (x i - seriesMean x) * (idioPart beta x y i - alpha) = 0 ∧
    seriesMean (idioPart beta x y) = alpha := by
  have hv : 0 < ∑ i, (x i - seriesMean x) ^ 2 := by
    obtain ⟨i, hi⟩ := hx
    exact Finset.sum_pos' (fun _ _ => sq_nonneg _) ⟨i, Finset.mem_univ i, by have := sub_ne_zero.2 hi; positivity⟩
  have form : ∀ a b, IsFit x y a b → b = (∑ i, (x i - seriesMean x) * (y i - seriesMean y)) / ∑ i, (x i - seriesMean x) ^ 2 ∧ a = seriesMean y - b * seriesMean x ∧
      ∑ i, (x i - seriesMean x) * (idioPart b x y i - a) = 0 := by
    intro a b hab
    obtain ⟨h1, h2⟩ := isFit_iff.1 hab
    obtain ⟨-, hy⟩ := mean_idio hn hab
    have hz : ∑ i, (x i - seriesMean x) * (idioPart b x y i - a) = 0 := by
      have e : ∀ i, (x i - seriesMean x) * (idioPart b x y i - a) = (y i - (a + b * x i)) * x i - seriesMean x * (y i - (a + b * x i)) := by
        intro i; unfold idioPart marketPart; ring
      rw [Finset.sum_congr rfl fun i _ => e i, Finset.sum_sub_distrib, ← Finset.mul_sum, h1, h2]; ring
    refine ⟨?_, by linarith, hz⟩
    rw [eq_div_iff hv.ne']
    have e : ∀ i, (x i - seriesMean x) * (y i - seriesMean y) = (x i - seriesMean x) * (idioPart b x y i - a) + b * (x i - seriesMean x) ^ 2 := by
      intro i; rw [hy]; unfold idioPart marketPart; ring
    rw [Finset.sum_congr rfl fun i _ => e i, Finset.sum_add_distrib, ← Finset.mul_sum, hz, zero_add]
  obtain ⟨f1, f2, f3⟩ := form alpha beta h
  refine ⟨f1, f2, fun a b hab => ?_, f3, (mean_idio hn h).1⟩
  obtain ⟨g1, g2, -⟩ := form a b hab
  have hb : b = beta := by rw [g1, ← f1]
  exact ⟨by rw [g2, f2, hb], hb⟩

/-- C139. Portfolios: the fit of a combination of assets is the combination of their fits; the market's own beta is 1. -/
theorem C139_portfolio {m : Nat} (ys : Fin m → Fin n → ℝ) (alphas betas w : Fin m → ℝ) (h : ∀ j, IsFit x (ys j) (alphas j) (betas j)) :
    IsFit x (fun i => ∑ j, w j * ys j i) (∑ j, w j * alphas j) (∑ j, w j * betas j) ∧ IsFit x x 0 1 := by
  have hi : ∀ i, (∑ j, w j * ys j i) - ((∑ j, w j * alphas j) + (∑ j, w j * betas j) * x i) =
      ∑ j, w j * (ys j i - (alphas j + betas j * x i)) := by
    intro i
    rw [Finset.sum_mul, ← Finset.sum_add_distrib, ← Finset.sum_sub_distrib]
    exact Finset.sum_congr rfl fun j _ => by ring
  refine ⟨isFit_iff.2 ⟨?_, ?_⟩, isFit_iff.2 ⟨by simp, by simp⟩⟩
  · rw [Finset.sum_congr rfl fun i _ => hi i, Finset.sum_comm]
    refine Finset.sum_eq_zero fun j _ => ?_
    rw [← Finset.mul_sum, (isFit_iff.1 (h j)).1, mul_zero]
  · rw [Finset.sum_congr rfl fun i _ => by rw [hi i, Finset.sum_mul], Finset.sum_comm]
    refine Finset.sum_eq_zero fun j _ => ?_
    rw [Finset.sum_congr rfl fun i _ => mul_assoc (w j) _ _, ← Finset.mul_sum, (isFit_iff.1 (h j)).2, mul_zero]

end

/-- C139. The bootstrap of the example raises IndexError at its first sample, whatever the data and the rows drawn: the name of the table of returns has been
reused for the target returns of the frontier. -/
theorem C139_bootstrap_raises (table : List (List ℝ)) (frontier : List ℝ) (indices : List Nat) :
    bootstrapSample table frontier indices = .error .indexError := rfl

/-- Non-vacuity: market returns 0, 1, 2 and asset returns 1, 2, 5: the fit is alpha = 2/3, beta = 2. -/
example : IsFit (n := 3) ![0, 1, 2] ![1, 2, 5] (2 / 3) 2 ∧ reconstructedRisk (n := 3) 2 ![0, 1, 2] ![1, 2, 5] = std (n := 3) ![1, 2, 5] ∧
    ∃ i, (![0, 1, 2] : Fin 3 → ℝ) i ≠ seriesMean (n := 3) ![0, 1, 2] := by
  have h : IsFit (n := 3) ![0, 1, 2] ![1, 2, 5] (2 / 3) 2 := by
    rw [isFit_iff]
    simp [Fin.sum_univ_three]
    norm_num
  refine ⟨h, (C139_risk (by norm_num) h).2.1, 0, ?_⟩
  simp [seriesMean, Fin.sum_univ_three]
  norm_num

/-- Non-vacuity: a price that doubles and then halves: the example's returns are 1/2 and -1, the relative changes 1 and -1/2. -/
example : dailyReturns [1, 2, 1] = [1 / 2, -1] := by
  simp [dailyReturns]; norm_num

end Verif.Props
