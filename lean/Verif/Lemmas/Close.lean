/- Numbers that agree up to a factor `exp η`. -/
import Verif.Spec.Rounded
import Verif.Lemmas.Rounded
import Mathlib.Analysis.SpecialFunctions.Pow.Real
import Mathlib.Analysis.SpecialFunctions.Exp

namespace Verif
open Verif.Spec

/-- `x` and `y` agree up to a factor `exp η`. -/
def Close (η x y : ℝ) : Prop := Real.exp (-η) * x ≤ y ∧ Real.exp (-η) * y ≤ x

namespace Close

theorem symm {η x y : ℝ} (h : Close η x y) : Close η y x := ⟨h.2, h.1⟩

theorem refl (x : ℝ) : Close 0 x x := by simp [Close]

theorem trans {η θ x y z : ℝ} (h : Close η x y) (g : Close θ y z) : Close (η + θ) x z := by
  have e : Real.exp (-(η + θ)) = Real.exp (-θ) * Real.exp (-η) := by rw [← Real.exp_add]; congr 1; ring
  have e' : Real.exp (-(η + θ)) = Real.exp (-η) * Real.exp (-θ) := by rw [← Real.exp_add]; congr 1; ring
  constructor
  · rw [e, mul_assoc]
    exact (mul_le_mul_of_nonneg_left h.1 (Real.exp_pos _).le).trans g.1
  · rw [e', mul_assoc]
    exact (mul_le_mul_of_nonneg_left g.2 (Real.exp_pos _).le).trans h.2

theorem mono {η θ x y : ℝ} (hx : 0 ≤ x) (hy : 0 ≤ y) (hle : η ≤ θ) (h : Close η x y) : Close θ x y := by
  have : Real.exp (-θ) ≤ Real.exp (-η) := Real.exp_le_exp.2 (by linarith)
  exact ⟨(mul_le_mul_of_nonneg_right this hx).trans h.1, (mul_le_mul_of_nonneg_right this hy).trans h.2⟩

theorem pos {η x y : ℝ} (hx : 0 < x) (h : Close η x y) : 0 < y := lt_of_lt_of_le (mul_pos (Real.exp_pos _) hx) h.1

theorem nonneg {η x y : ℝ} (hx : 0 ≤ x) (h : Close η x y) : 0 ≤ y := le_trans (mul_nonneg (Real.exp_pos _).le hx) h.1

theorem add {η x y x' y' : ℝ} (h : Close η x y) (g : Close η x' y') : Close η (x + x') (y + y') :=
  ⟨by rw [mul_add]; exact add_le_add h.1 g.1, by rw [mul_add]; exact add_le_add h.2 g.2⟩

theorem mul {η θ x y x' y' : ℝ} (hx : 0 ≤ x) (hx' : 0 ≤ x') (h : Close η x y) (g : Close θ x' y') : Close (η + θ) (x * x') (y * y') := by
  have e : Real.exp (-(η + θ)) = Real.exp (-η) * Real.exp (-θ) := by rw [← Real.exp_add]; congr 1; ring
  have hy := h.nonneg hx
  have hy' := g.nonneg hx'
  constructor
  · rw [e, mul_mul_mul_comm]
    exact mul_le_mul h.1 g.1 (mul_nonneg (Real.exp_pos _).le hx') hy
  · rw [e, mul_mul_mul_comm]
    exact mul_le_mul h.2 g.2 (mul_nonneg (Real.exp_pos _).le hy') hx

theorem inv {η x y : ℝ} (hx : 0 < x) (h : Close η x y) : Close η x⁻¹ y⁻¹ := by
  have hy := h.pos hx
  constructor
  · rw [le_inv_comm₀ (mul_pos (Real.exp_pos _) (inv_pos.2 hx)) hy, mul_inv, inv_inv, ← Real.exp_neg, neg_neg]
    have := mul_le_mul_of_nonneg_left h.2 (Real.exp_pos η).le
    rw [← mul_assoc, ← Real.exp_add, add_neg_cancel, Real.exp_zero, one_mul] at this
    exact this
  · rw [le_inv_comm₀ (mul_pos (Real.exp_pos _) (inv_pos.2 hy)) hx, mul_inv, inv_inv, ← Real.exp_neg, neg_neg]
    have := mul_le_mul_of_nonneg_left h.1 (Real.exp_pos η).le
    rw [← mul_assoc, ← Real.exp_add, add_neg_cancel, Real.exp_zero, one_mul] at this
    exact this

theorem rpow {η x y e : ℝ} (hx : 0 < x) (he : 0 ≤ e) (h : Close η x y) : Close (η * e) (x ^ e) (y ^ e) := by
  have hy := h.pos hx
  have key : ∀ a b : ℝ, 0 < a → 0 < b → Real.exp (-η) * a ≤ b → Real.exp (-(η * e)) * a ^ e ≤ b ^ e := by
    intro a b ha hb hab
    have h1 := Real.rpow_le_rpow (mul_nonneg (Real.exp_pos _).le ha.le) hab he
    rw [Real.mul_rpow (Real.exp_pos _).le ha.le, ← Real.exp_mul] at h1
    rw [show -(η * e) = -η * e by ring]
    exact h1
  exact ⟨key x y hx hy h.1, key y x hy hx h.2⟩

/-- Changing the exponent of a base with logarithm at most 1. -/
theorem exponent {x d e e' : ℝ} (hx : 0 < x) (hl : |Real.log x| ≤ 1) (hd : |e' - e| ≤ d) : Close d (x ^ e) (x ^ e') := by
  have key : ∀ p q : ℝ, |p - q| ≤ d → Real.exp (-d) * x ^ p ≤ x ^ q := by
    intro p q hpq
    rw [Real.rpow_def_of_pos hx, Real.rpow_def_of_pos hx, ← Real.exp_add]
    refine Real.exp_le_exp.2 ?_
    have h1 : Real.log x * (p - q) ≤ |Real.log x| * |p - q| := by rw [← abs_mul]; exact le_abs_self _
    have h2 : |Real.log x| * |p - q| ≤ 1 * d := mul_le_mul hl hpq (abs_nonneg _) zero_le_one
    linarith [mul_sub (Real.log x) p q]
  exact ⟨key e e' (by rw [abs_sub_comm]; exact hd), key e' e hd⟩

/-- From a relative error. -/
theorem of_rel {ε x y : ℝ} (hx : 0 ≤ x) (hε : 0 ≤ ε) (hε' : ε ≤ 1 / 2) (h : |y - x| ≤ ε * x) : Close (2 * ε) x y := by
  obtain ⟨h1, h2⟩ := abs_le.1 h
  have hexp : Real.exp (-(2 * ε)) ≤ 1 - ε := by
    have g := Real.abs_exp_sub_one_sub_id_le (x := -(2 * ε)) (by rw [abs_neg, abs_of_nonneg (by linarith)]; linarith)
    by_cases hh : ε ≤ 1 / 4
    · have := (abs_le.1 g).2
      nlinarith
    · have h3 : Real.exp (2 * ε) * (1 - ε) ≥ 1 := by
        have h4 := Real.quadratic_le_exp_of_nonneg (x := 2 * ε) (by linarith)
        have h5 : (1 + 2 * ε + (2 * ε) ^ 2 / 2) * (1 - ε) ≥ 1 := by nlinarith
        nlinarith
      rw [Real.exp_neg, inv_le_iff_one_le_mul₀ (Real.exp_pos _)]
      linarith
  constructor
  · calc Real.exp (-(2 * ε)) * x ≤ (1 - ε) * x := mul_le_mul_of_nonneg_right hexp hx
      _ ≤ y := by linarith
  · have hy : y ≤ (1 + ε) * x := by linarith
    have h6 : (1 - ε) * (1 + ε) ≤ 1 := by nlinarith
    calc Real.exp (-(2 * ε)) * y ≤ Real.exp (-(2 * ε)) * ((1 + ε) * x) := mul_le_mul_of_nonneg_left hy (Real.exp_pos _).le
      _ ≤ (1 - ε) * ((1 + ε) * x) := mul_le_mul_of_nonneg_right hexp (mul_nonneg (by linarith) hx)
      _ = (1 - ε) * (1 + ε) * x := by ring
      _ ≤ 1 * x := mul_le_mul_of_nonneg_right h6 hx
      _ = x := one_mul x

/-- To a relative error. -/
theorem abs_le {η x y : ℝ} (hx : 0 ≤ x) (hη : 0 ≤ η) (hη' : η ≤ 1) (h : Close η x y) : |y - x| ≤ 2 * η * x := by
  have g := Real.abs_exp_sub_one_sub_id_le (x := η) (by rw [abs_of_nonneg hη]; exact hη')
  have hexp : Real.exp η ≤ 1 + 2 * η := by
    have := (_root_.abs_le.1 g).2
    nlinarith
  have hy : y ≤ Real.exp η * x := by
    have := mul_le_mul_of_nonneg_left h.2 (Real.exp_pos η).le
    rw [← mul_assoc, ← Real.exp_add, add_neg_cancel, Real.exp_zero, one_mul] at this
    exact this
  have hlow : 1 - η ≤ Real.exp (-η) := by linarith [Real.add_one_le_exp (-η)]
  rw [_root_.abs_le]
  constructor
  · have := mul_le_mul_of_nonneg_right hlow hx
    have := mul_nonneg hη hx
    linarith [h.1]
  · have := mul_le_mul_of_nonneg_right hexp hx
    linarith

end Close

/-- Agreement up to `k` roundings. -/
theorem near_close {u : ℚ} (hu0 : 0 ≤ u) (hu : u ≤ 1 / 4) {k : Nat} {x y : ℚ} (hx : 0 ≤ x) (hy : 0 ≤ y) (h : Near u k x y) :
    Close (2 * k * (u : ℝ)) (x : ℝ) (y : ℝ) := by
  have hu0' : (0 : ℝ) ≤ u := by exact_mod_cast hu0
  have hu' : (u : ℝ) ≤ 1 / 4 := by
    have := (Rat.cast_le (K := ℝ)).2 hu
    calc (u : ℝ) ≤ ((1 / 4 : ℚ) : ℝ) := this
      _ = 1 / 4 := by norm_num
  have hexp : Real.exp (-(2 * (u : ℝ))) ≤ 1 - u := by
    have g := Real.abs_exp_sub_one_sub_id_le (x := -(2 * (u : ℝ))) (by rw [abs_neg, abs_of_nonneg (by linarith)]; linarith)
    have := (_root_.abs_le.1 g).2
    nlinarith
  have hk : Real.exp (-(2 * k * (u : ℝ))) ≤ (1 - (u : ℝ)) ^ k := by
    have : -(2 * k * (u : ℝ)) = k * (-(2 * (u : ℝ))) := by ring
    rw [this, Real.exp_nat_mul]
    exact pow_le_pow_left₀ (Real.exp_pos _).le hexp k
  have key : ∀ a b : ℚ, 0 ≤ a → (1 - u) ^ k * a ≤ b → Real.exp (-(2 * k * (u : ℝ))) * (a : ℝ) ≤ b := by
    intro a b ha hab
    have h1 : ((1 - u : ℝ)) ^ k * (a : ℝ) ≤ b := by
      have := (Rat.cast_le (K := ℝ)).2 hab
      push_cast at this
      exact this
    exact (mul_le_mul_of_nonneg_right hk (by exact_mod_cast ha)).trans h1
  exact ⟨key x y hx h.1, key y x hy h.2⟩

end Verif
