/- Cholesky factors, and eigenvalues of lower triangular matrices. -/
import Verif.Model.MeanReverting
import Verif.Lemmas.MultiVasicek
import Verif.Lemmas.Except

namespace Verif
open Matrix

variable {p : Nat}

/-- There is at most one Cholesky factor. -/
theorem cholesky_unique {a l l' : Mat p} (h : IsCholesky a l) (h' : IsCholesky a l') : l = l' := by
  obtain ⟨t, d, e⟩ := h
  obtain ⟨t', d', e'⟩ := h'
  have key : ∀ n (hn : n < p), ∀ i, l i ⟨n, hn⟩ = l' i ⟨n, hn⟩ := by
    intro n
    induction n using Nat.strong_induction_on with
    | _ n ih =>
      intro hn i
      have single : ∀ i, ⟨n, hn⟩ ≤ i → l i ⟨n, hn⟩ * l ⟨n, hn⟩ ⟨n, hn⟩ = l' i ⟨n, hn⟩ * l' ⟨n, hn⟩ ⟨n, hn⟩ := by
        intro i hi
        have hs : ∑ k, (l i k * l ⟨n, hn⟩ k - l' i k * l' ⟨n, hn⟩ k) = 0 := by
          have h1 := congrFun (congrFun e i) ⟨n, hn⟩
          have h2 := congrFun (congrFun e' i) ⟨n, hn⟩
          simp only [Matrix.mul_apply, Matrix.transpose_apply] at h1 h2
          rw [Finset.sum_sub_distrib, h1, h2, sub_self]
        rw [Finset.sum_eq_single ⟨n, hn⟩] at hs
        · linarith
        · intro k _ hk
          rcases lt_trichotomy k ⟨n, hn⟩ with hlt | heq | hgt
          · rw [ih k.val hlt k.isLt i, ih k.val hlt k.isLt ⟨n, hn⟩, sub_self]
          · exact absurd heq hk
          · rw [t ⟨n, hn⟩ k hgt, t' ⟨n, hn⟩ k hgt]; ring
        · intro h; exact absurd (Finset.mem_univ _) h
      have hdiag : l ⟨n, hn⟩ ⟨n, hn⟩ = l' ⟨n, hn⟩ ⟨n, hn⟩ := by
        have := single ⟨n, hn⟩ le_rfl
        have h1 := d ⟨n, hn⟩
        have h2 := d' ⟨n, hn⟩
        nlinarith
      rcases lt_or_ge i ⟨n, hn⟩ with hlt | hge
      · rw [t i _ hlt, t' i _ hlt]
      · have := single i hge
        rw [hdiag] at this
        exact mul_right_cancel₀ (d' ⟨n, hn⟩).ne' this
  ext i j
  exact key j.val j.isLt i

theorem npCholesky_ok {a l : Mat p} : npCholesky a = .ok l ↔ IsCholesky a l := by
  unfold npCholesky
  constructor
  · intro h
    split at h
    · rename_i hex
      injection h with h
      rw [← h]
      exact hex.choose_spec
    · exact absurd h (by simp)
  · intro h
    have hex : ∃ l, IsCholesky a l := ⟨l, h⟩
    rw [dif_pos hex, cholesky_unique hex.choose_spec h]

theorem npCholesky_error {a : Mat p} (h : ¬ ∃ l, IsCholesky a l) : npCholesky a = .error .linAlgError := by
  unfold npCholesky
  rw [dif_neg h]

theorem isCholesky_one : IsCholesky (1 : Mat p) 1 :=
  ⟨fun i j h => by rw [Matrix.one_apply_ne h.ne], fun i => by rw [Matrix.one_apply_eq]; exact one_pos, by simp⟩

/-- Every eigenvalue of a lower triangular matrix is a diagonal entry. -/
theorem eig_of_lower {K : Mat p} {l : Vec p} {G H : Mat p} (ht : ∀ i j, i < j → K i j = 0) (h : Multi.Diagonalizes K l G H) (i : Fin p) :
    ∃ j, l i = K j j ∧ G j i ≠ 0 ∧ ∀ k, k < j → G k i = 0 := by
  have hKG : K * G = G * diagonal l := by
    rw [h.eq, Matrix.mul_assoc, h.inv', Matrix.mul_one]
  have hcol : ∃ k, G k i ≠ 0 := by
    by_contra hno
    push Not at hno
    have := congrFun (congrFun h.inv' i) i
    rw [Matrix.mul_apply, Matrix.one_apply_eq] at this
    simp [hno] at this
  classical
  have hne : (Finset.univ.filter fun k => G k i ≠ 0).Nonempty := by
    obtain ⟨k, hk⟩ := hcol
    exact ⟨k, by simp [hk]⟩
  refine ⟨(Finset.univ.filter fun k => G k i ≠ 0).min' hne, ?_⟩
  set j := (Finset.univ.filter fun k => G k i ≠ 0).min' hne with hj
  have hj1 : G j i ≠ 0 := by
    have := Finset.min'_mem _ hne
    rw [← hj] at this
    simpa using this
  have hj2 : ∀ k, k < j → G k i = 0 := by
    intro k hk
    by_contra hne'
    have := Finset.min'_le (Finset.univ.filter fun k => G k i ≠ 0) k (by simp [hne'])
    rw [← hj] at this
    exact absurd hk (not_lt.2 this)
  refine ⟨?_, hj1, hj2⟩
  have h1 := congrFun (congrFun hKG j) i
  rw [Matrix.mul_apply, Matrix.mul_diagonal, Finset.sum_eq_single j] at h1
  · have := mul_right_cancel₀ hj1 (h1.trans (mul_comm _ _))
    exact this.symm
  · intro k _ hk
    rcases lt_or_gt_of_ne hk with hlt | hgt
    · rw [hj2 k hlt, mul_zero]
    · rw [ht j k hgt, zero_mul]
  · intro h'; exact absurd (Finset.mem_univ _) h'

end Verif
