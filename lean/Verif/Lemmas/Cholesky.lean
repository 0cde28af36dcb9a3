/- Existence of Cholesky factors: a symmetric matrix has one iff it is positive definite. -/
import Verif.Lemmas.MeanReverting
import Mathlib.Analysis.Matrix.LDL
import Mathlib.LinearAlgebra.Matrix.Block

namespace Verif
open Matrix

variable {p : Nat}

/-- A lower triangular invertible square root can be given a positive diagonal. -/
theorem cholesky_of_root {a l : Mat p} (ht : ∀ i j, i < j → l i j = 0) (hd : ∀ i, l i i ≠ 0) (h : l * lᵀ = a) :
    ∃ c, IsCholesky a c := by
  let s : Vec p := fun i => if 0 < l i i then 1 else -1
  have hs : ∀ i, s i * s i = 1 := by intro i; simp only [s]; split_ifs <;> norm_num
  refine ⟨l * diagonal s, fun i j hij => ?_, fun i => ?_, ?_⟩
  · rw [Matrix.mul_diagonal, ht i j hij, zero_mul]
  · rw [Matrix.mul_diagonal]
    simp only [s]
    split_ifs with h0
    · linarith
    · have : l i i < 0 := lt_of_le_of_ne (not_lt.1 h0) (hd i)
      linarith
  · rw [Matrix.transpose_mul, Matrix.diagonal_transpose, Matrix.mul_assoc, ← Matrix.mul_assoc (diagonal s), Matrix.diagonal_mul_diagonal]
    have : (diagonal fun i => s i * s i) = (1 : Mat p) := by
      rw [← Matrix.diagonal_one]; congr 1; funext i; exact hs i
    rw [this, Matrix.one_mul, h]

/-- Every positive definite matrix has a Cholesky factor. -/
theorem cholesky_exists {a : Mat p} (h : a.PosDef) : ∃ c, IsCholesky a c := by
  have hinv : (LDL.lowerInv h).BlockTriangular (OrderDual.toDual : Fin p → (Fin p)ᵒᵈ) := by
    intro i j hij
    exact LDL.lowerInv_triangular h hij
  have hlow : (LDL.lower h).BlockTriangular (OrderDual.toDual : Fin p → (Fin p)ᵒᵈ) := by
    unfold LDL.lower
    exact blockTriangular_inv_of_blockTriangular hinv
  have hD : ∀ i, 0 ≤ LDL.diagEntries h i := by
    have : (LDL.diag h).PosSemidef := by
      rw [LDL.diag_eq_lowerInv_conj]
      exact h.posSemidef.mul_mul_conjTranspose_same _
    intro i
    have := this.diag_nonneg (i := i)
    unfold LDL.diag at this
    rwa [Matrix.diagonal_apply_eq] at this
  set d : Vec p := fun i => Real.sqrt (LDL.diagEntries h i) with hd
  have hroot : (LDL.lower h * diagonal d) * (LDL.lower h * diagonal d)ᵀ = a := by
    rw [Matrix.transpose_mul, Matrix.diagonal_transpose, Matrix.mul_assoc, ← Matrix.mul_assoc (diagonal d), Matrix.diagonal_mul_diagonal,
      ← Matrix.mul_assoc]
    have : (diagonal fun i => d i * d i) = LDL.diag h := by
      unfold LDL.diag; congr 1; funext i; exact Real.mul_self_sqrt (hD i)
    rw [this]
    exact LDL.lower_conj_diag h
  have htri : ∀ i j, i < j → (LDL.lower h * diagonal d) i j = 0 := by
    intro i j hij
    rw [Matrix.mul_diagonal, hlow hij, zero_mul]
  refine cholesky_of_root htri (fun i hi => ?_) hroot
  have hdet : (LDL.lower h * diagonal d).det = 0 := by
    rw [Matrix.det_of_lowerTriangular]
    · exact Finset.prod_eq_zero (Finset.mem_univ i) hi
    · intro i j hij; exact htri i j hij
  have : a.det = 0 := by rw [← hroot, Matrix.det_mul, hdet, zero_mul]
  exact h.det_pos.ne' this

/-- A matrix with a Cholesky factor is positive definite. -/
theorem posDef_of_cholesky {a c : Mat p} (h : IsCholesky a c) : a.PosDef := by
  obtain ⟨ht, hd, he⟩ := h
  rw [← he]
  have hdet : IsUnit c := by
    rw [Matrix.isUnit_iff_isUnit_det, Matrix.det_of_lowerTriangular c (fun i j hij => ht i j hij)]
    exact isUnit_iff_ne_zero.2 (Finset.prod_ne_zero_iff.2 fun i _ => (hd i).ne')
  have := Matrix.PosDef.mul_conjTranspose_self c (Matrix.vecMul_injective_of_isUnit hdet)
  rwa [Matrix.conjTranspose_eq_transpose_of_trivial] at this

/-- A matrix has a Cholesky factor iff it is symmetric and positive definite. -/
theorem cholesky_iff (a : Mat p) : (∃ c, IsCholesky a c) ↔ aᵀ = a ∧ ∀ x : Vec p, x ≠ 0 → 0 < ∑ i, ∑ j, x i * a i j * x j := by
  have hq : ∀ x : Vec p, ∑ i, ∑ j, x i * a i j * x j = x ⬝ᵥ a *ᵥ x := by
    intro x
    simp only [dotProduct, mulVec, Finset.mul_sum]
    exact Finset.sum_congr rfl fun i _ => Finset.sum_congr rfl fun j _ => by ring
  constructor
  · rintro ⟨c, hc⟩
    have h := posDef_of_cholesky hc
    refine ⟨?_, fun x hx => ?_⟩
    · have := h.isHermitian
      rwa [Matrix.IsHermitian, Matrix.conjTranspose_eq_transpose_of_trivial] at this
    · rw [hq]
      simpa using h.dotProduct_mulVec_pos hx
  · rintro ⟨h1, h2⟩
    refine cholesky_exists (Matrix.PosDef.of_dotProduct_mulVec_pos ?_ fun x hx => ?_)
    · rw [Matrix.IsHermitian, Matrix.conjTranspose_eq_transpose_of_trivial, h1]
    · have := h2 x hx
      rw [hq] at this
      simpa using this

end Verif
