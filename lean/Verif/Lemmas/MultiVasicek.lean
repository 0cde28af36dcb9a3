/- The calculus behind the multivariate Vasicek model: closed forms in the eigenbasis of the reversion matrix. -/
import Verif.Spec.MultiVasicek
import Mathlib.Analysis.SpecialFunctions.ExpDeriv
import Mathlib.Analysis.Calculus.MeanValue
import Mathlib.LinearAlgebra.Matrix.NonsingularInverse
import Mathlib.Tactic.FieldSimp
import Mathlib.Tactic.Linarith
import Mathlib.Tactic.NoncommRing

namespace Verif.Multi
open Matrix Verif.Spec.Multi

variable {p : Nat}

/-- Entrywise derivative of a time-dependent matrix. -/
def MatDeriv (A : ℝ → Matrix (Fin p) (Fin p) ℝ) (A' : Matrix (Fin p) (Fin p) ℝ) (t : ℝ) : Prop :=
  ∀ i j, HasDerivAt (fun t => A t i j) (A' i j) t

/-- Entrywise derivative of a time-dependent vector. -/
def VecDeriv (v : ℝ → Fin p → ℝ) (v' : Fin p → ℝ) (t : ℝ) : Prop := ∀ i, HasDerivAt (fun t => v t i) (v' i) t

theorem MatDeriv.const_mul {A : ℝ → Matrix (Fin p) (Fin p) ℝ} {A' : Matrix (Fin p) (Fin p) ℝ} {t : ℝ} (h : MatDeriv A A' t)
    (M : Matrix (Fin p) (Fin p) ℝ) : MatDeriv (fun t => M * A t) (M * A') t := by
  intro i j
  simp only [Matrix.mul_apply]
  exact HasDerivAt.fun_sum fun k _ => (h k j).const_mul (M i k)

theorem MatDeriv.mul_const {A : ℝ → Matrix (Fin p) (Fin p) ℝ} {A' : Matrix (Fin p) (Fin p) ℝ} {t : ℝ} (h : MatDeriv A A' t)
    (M : Matrix (Fin p) (Fin p) ℝ) : MatDeriv (fun t => A t * M) (A' * M) t := by
  intro i j
  simp only [Matrix.mul_apply]
  exact HasDerivAt.fun_sum fun k _ => (h i k).mul_const (M k j)

theorem MatDeriv.transpose {A : ℝ → Matrix (Fin p) (Fin p) ℝ} {A' : Matrix (Fin p) (Fin p) ℝ} {t : ℝ} (h : MatDeriv A A' t) :
    MatDeriv (fun t => (A t)ᵀ) A'ᵀ t := fun i j => h j i

theorem MatDeriv.sub {A B : ℝ → Matrix (Fin p) (Fin p) ℝ} {A' B' : Matrix (Fin p) (Fin p) ℝ} {t : ℝ} (h : MatDeriv A A' t)
    (h' : MatDeriv B B' t) : MatDeriv (fun t => A t - B t) (A' - B') t := fun i j => (h i j).sub (h' i j)

theorem matDeriv_const (M : Matrix (Fin p) (Fin p) ℝ) (t : ℝ) : MatDeriv (fun _ => M) 0 t := fun i j => hasDerivAt_const t (M i j)

theorem MatDeriv.mulVec {A : ℝ → Matrix (Fin p) (Fin p) ℝ} {A' : Matrix (Fin p) (Fin p) ℝ} {t : ℝ} (h : MatDeriv A A' t)
    (x : Fin p → ℝ) : VecDeriv (fun t => A t *ᵥ x) (A' *ᵥ x) t := by
  intro i
  simp only [Matrix.mulVec, dotProduct]
  exact HasDerivAt.fun_sum fun k _ => (h i k).mul_const (x k)

theorem VecDeriv.const_mulVec {v : ℝ → Fin p → ℝ} {v' : Fin p → ℝ} {t : ℝ} (h : VecDeriv v v' t) (M : Matrix (Fin p) (Fin p) ℝ) :
    VecDeriv (fun t => M *ᵥ v t) (M *ᵥ v') t := by
  intro i
  simp only [Matrix.mulVec, dotProduct]
  exact HasDerivAt.fun_sum fun k _ => (h k).const_mul (M i k)

theorem VecDeriv.const_dot {v : ℝ → Fin p → ℝ} {v' : Fin p → ℝ} {t : ℝ} (h : VecDeriv v v' t) (g : Fin p → ℝ) :
    HasDerivAt (fun t => g ⬝ᵥ v t) (g ⬝ᵥ v') t := by
  simp only [dotProduct]
  exact HasDerivAt.fun_sum fun k _ => (h k).const_mul (g k)

theorem VecDeriv.dot_const {v : ℝ → Fin p → ℝ} {v' : Fin p → ℝ} {t : ℝ} (h : VecDeriv v v' t) (g : Fin p → ℝ) :
    HasDerivAt (fun t => v t ⬝ᵥ g) (v' ⬝ᵥ g) t := by
  simp only [dotProduct]
  exact HasDerivAt.fun_sum fun k _ => (h k).mul_const (g k)

theorem VecDeriv.sub {v w : ℝ → Fin p → ℝ} {v' w' : Fin p → ℝ} {t : ℝ} (h : VecDeriv v v' t) (h' : VecDeriv w w' t) :
    VecDeriv (fun t => v t - w t) (v' - w') t := fun i => (h i).sub (h' i)

/-- `e` diagonalizes `K`: `K = G diag(l) H` with `H` the inverse of `G`. -/
structure Diagonalizes (K : Matrix (Fin p) (Fin p) ℝ) (l : Fin p → ℝ) (G H : Matrix (Fin p) (Fin p) ℝ) : Prop where
  eq : K = G * diagonal l * H
  inv : G * H = 1

section
variable {K G H : Matrix (Fin p) (Fin p) ℝ} {l : Fin p → ℝ}

theorem Diagonalizes.inv' (h : Diagonalizes K l G H) : H * G = 1 := mul_eq_one_comm.1 h.inv

/-- The exponential of minus the time. -/
noncomputable def E (l : Fin p → ℝ) (G H : Matrix (Fin p) (Fin p) ℝ) (t : ℝ) : Matrix (Fin p) (Fin p) ℝ :=
  G * diagonal (fun i => Real.exp (-l i * t)) * H

theorem hasDerivAt_expNeg (a t : ℝ) : HasDerivAt (fun t => Real.exp (-a * t)) (-a * Real.exp (-a * t)) t := by
  have h : HasDerivAt (fun t : ℝ => -a * t) (-a) t := by simpa using (hasDerivAt_id t).const_mul (-a)
  have := h.exp
  rwa [mul_comm] at this

theorem matDeriv_diagonal {f : ℝ → Fin p → ℝ} {f' : Fin p → ℝ} {t : ℝ} (h : VecDeriv f f' t) :
    MatDeriv (fun t => diagonal (f t)) (diagonal f') t := by
  intro i j
  by_cases hij : i = j
  · subst hij; simpa using h i
  · simp only [diagonal_apply_ne _ hij]; exact hasDerivAt_const t 0

theorem E_zero (h : Diagonalizes K l G H) : E l G H 0 = 1 := by
  unfold E
  simp [h.inv]

theorem conj_mul (h : Diagonalizes K l G H) (a b : Fin p → ℝ) :
    (G * diagonal a * H) * (G * diagonal b * H) = G * diagonal (fun i => a i * b i) * H := by
  have : (G * diagonal a * H) * (G * diagonal b * H) = G * diagonal a * (H * G) * diagonal b * H := by simp only [Matrix.mul_assoc]
  rw [this, h.inv', Matrix.mul_one, Matrix.mul_assoc G, diagonal_mul_diagonal]

theorem matDeriv_E (h : Diagonalizes K l G H) (t : ℝ) : MatDeriv (E l G H) (-(K * E l G H t)) t := by
  have hd : VecDeriv (fun t i => Real.exp (-l i * t)) (fun i => -l i * Real.exp (-l i * t)) t := fun i => hasDerivAt_expNeg (l i) t
  have := ((matDeriv_diagonal hd).const_mul G).mul_const H
  have e : G * diagonal (fun i => -l i * Real.exp (-l i * t)) * H = -(K * E l G H t) := by
    unfold E
    rw [h.eq, conj_mul h, ← Matrix.neg_mul, ← Matrix.mul_neg, diagonal_neg]
    congr 3
    funext i
    simp
  rw [← e]
  exact this

theorem E_comm (h : Diagonalizes K l G H) (t : ℝ) : K * E l G H t = E l G H t * K := by
  unfold E
  rw [h.eq, conj_mul h, conj_mul h]
  simp only [mul_comm]

theorem isResponse_E (h : Diagonalizes K l G H) : IsResponse K (E l G H) := ⟨E_zero h, fun u i j => matDeriv_E h u i j⟩

/-- A solution of `y' = -a y` starting from zero stays there. -/
theorem scalar_unique {a : ℝ} {y : ℝ → ℝ} (h0 : y 0 = 0) (h : ∀ s, HasDerivAt y (-a * y s) s) : y = fun _ => 0 := by
  have hd : ∀ s, HasDerivAt (fun s => y s * Real.exp (-(-a) * s)) 0 s := by
    intro s
    refine HasDerivAt.congr_deriv ((h s).mul (hasDerivAt_expNeg (-a) s)) ?_
    ring
  have hc := is_const_of_deriv_eq_zero (fun s => (hd s).differentiableAt) (fun s => (hd s).deriv)
  funext s
  have := hc s 0
  simp only [h0, zero_mul] at this
  rcases mul_eq_zero.1 this with h3 | h3
  · exact h3
  · exact absurd h3 (Real.exp_pos _).ne'

/-- A solution of `y' = -K y` starting from zero stays there. -/
theorem vector_unique (h : Diagonalizes K l G H) {y : ℝ → Fin p → ℝ} (h0 : y 0 = 0) (hy : ∀ s, VecDeriv y (-(K *ᵥ y s)) s) :
    y = fun _ => 0 := by
  have hz : ∀ i, (fun s => (H *ᵥ y s) i) = fun _ => 0 := by
    intro i
    apply scalar_unique (a := l i)
    · simp [h0]
    · intro s
      have := (hy s).const_mulVec H i
      refine HasDerivAt.congr_deriv this ?_
      rw [h.eq, Matrix.mulVec_neg, Matrix.mulVec_mulVec, ← Matrix.mul_assoc, ← Matrix.mul_assoc, h.inv', Matrix.one_mul]
      simp only [Pi.neg_apply, ← Matrix.mulVec_mulVec, Matrix.mulVec_diagonal]
      ring
  funext s
  have : H *ᵥ y s = 0 := funext fun i => congrFun (hz i) s
  have := congrArg (G *ᵥ ·) this
  simpa [Matrix.mulVec_mulVec, h.inv] using this

theorem response_unique (h : Diagonalizes K l G H) {Φ : ℝ → Matrix (Fin p) (Fin p) ℝ} (hΦ : IsResponse K Φ) : Φ = E l G H := by
  have key : ∀ j, (fun s => fun i => Φ s i j - E l G H s i j) = fun _ => 0 := by
    intro j
    apply vector_unique h
    · funext i; simp [hΦ.1, E_zero h]
    · intro s i
      refine HasDerivAt.congr_deriv ((hΦ.2 s i j).sub (matDeriv_E h s i j)) ?_
      simp only [Matrix.neg_apply, Pi.neg_apply, Matrix.mulVec, dotProduct, Matrix.mul_apply, mul_sub, Finset.sum_sub_distrib]
      ring
  funext s
  ext i j
  have := congrFun (congrFun (key j) s) i
  simp only [Pi.zero_apply] at this
  linarith

/-- The expected state. -/
noncomputable def meanState (l : Fin p → ℝ) (G H : Matrix (Fin p) (Fin p) ℝ) (θ x : Fin p → ℝ) (s : ℝ) : Fin p → ℝ :=
  E l G H s *ᵥ x + (1 - E l G H s) *ᵥ θ

theorem meanState_spec (h : Diagonalizes K l G H) (θ x : Fin p → ℝ) : IsMean K θ x (meanState l G H θ x) := by
  refine ⟨by simp [meanState, E_zero h], fun s i => ?_⟩
  have h1 := (matDeriv_E h s).mulVec x i
  have h2 := ((matDeriv_const 1 s).sub (matDeriv_E h s)).mulVec θ i
  refine HasDerivAt.congr_deriv (h1.add h2) ?_
  have e : ((-(K * E l G H s)) *ᵥ x + (0 - -(K * E l G H s)) *ᵥ θ) = K *ᵥ (θ - meanState l G H θ x s) := by
    unfold meanState
    rw [Matrix.mulVec_sub, Matrix.mulVec_add, Matrix.mulVec_mulVec, Matrix.mulVec_mulVec, Matrix.mul_sub, Matrix.mul_one]
    simp only [Matrix.neg_mulVec, Matrix.sub_mulVec, sub_neg_eq_add, zero_add, Matrix.zero_mulVec]
    abel
  rw [← e]
  rfl

theorem mean_unique (h : Diagonalizes K l G H) {θ x : Fin p → ℝ} {m : ℝ → Fin p → ℝ} (hm : IsMean K θ x m) :
    m = meanState l G H θ x := by
  have hs := meanState_spec h θ x
  have key : (fun s => m s - meanState l G H θ x s) = fun _ => 0 := by
    apply vector_unique h
    · rw [hm.1, hs.1, sub_self]
    · intro s i
      refine HasDerivAt.congr_deriv ((hm.2 s i).sub (hs.2 s i)) ?_
      simp only [Pi.neg_apply, Matrix.mulVec_sub, Pi.sub_apply]
      ring
  funext s
  have := congrFun key s
  simpa [sub_eq_zero] using this

/-- The covariance of the state. -/
noncomputable def covState (l : Fin p → ℝ) (G H C : Matrix (Fin p) (Fin p) ℝ) (s : ℝ) : Matrix (Fin p) (Fin p) ℝ :=
  G * Matrix.of (fun i j => (H * C * Hᵀ) i j * ((1 - Real.exp (-(l i + l j) * s)) / (l i + l j))) * Gᵀ

theorem covState_spec (h : Diagonalizes K l G H) (hl : ∀ i j, l i + l j ≠ 0) (S : Matrix (Fin p) (Fin p) ℝ) :
    IsCovariance K S (covState l G H (S * Sᵀ)) := by
  constructor
  · have : (Matrix.of (fun i j => (H * (S * Sᵀ) * Hᵀ) i j * ((1 - Real.exp (-(l i + l j) * 0)) / (l i + l j))) :
        Matrix (Fin p) (Fin p) ℝ) = 0 := by ext i j; simp
    unfold covState
    rw [this]; simp
  · intro s
    set W : ℝ → Matrix (Fin p) (Fin p) ℝ := fun s =>
      Matrix.of (fun i j => (H * (S * Sᵀ) * Hᵀ) i j * ((1 - Real.exp (-(l i + l j) * s)) / (l i + l j))) with hW
    have hd : MatDeriv W (H * (S * Sᵀ) * Hᵀ - diagonal l * W s - W s * diagonal l) s := by
      intro i j
      have := (((hasDerivAt_expNeg (l i + l j) s).const_sub 1).div_const (l i + l j)).const_mul ((H * (S * Sᵀ) * Hᵀ) i j)
      refine HasDerivAt.congr_deriv this ?_
      simp only [hW, Matrix.sub_apply, diagonal_mul, mul_diagonal, Matrix.of_apply]
      have := hl i j
      field_simp
      ring
    have := (hd.const_mul G).mul_const Gᵀ
    have e : G * (H * (S * Sᵀ) * Hᵀ - diagonal l * W s - W s * diagonal l) * Gᵀ =
        S * Sᵀ - K * covState l G H (S * Sᵀ) s - covState l G H (S * Sᵀ) s * Kᵀ := by
      have ht : Hᵀ * Gᵀ = 1 := by rw [← Matrix.transpose_mul, h.inv, Matrix.transpose_one]
      have ht' : Gᵀ * Hᵀ = 1 := by rw [← Matrix.transpose_mul, h.inv', Matrix.transpose_one]
      have e1 : G * (H * (S * Sᵀ) * Hᵀ) * Gᵀ = S * Sᵀ := by
        have : G * (H * (S * Sᵀ) * Hᵀ) * Gᵀ = (G * H) * (S * Sᵀ) * (Hᵀ * Gᵀ) := by simp only [Matrix.mul_assoc]
        rw [this, h.inv, ht, Matrix.one_mul, Matrix.mul_one]
      have e2 : G * (diagonal l * W s) * Gᵀ = K * covState l G H (S * Sᵀ) s := by
        have : K * covState l G H (S * Sᵀ) s = G * diagonal l * (H * G) * W s * Gᵀ := by
          rw [h.eq]; simp only [covState, hW, Matrix.mul_assoc]
        rw [this, h.inv']; simp only [Matrix.mul_one, Matrix.mul_assoc]
      have e3 : G * (W s * diagonal l) * Gᵀ = covState l G H (S * Sᵀ) s * Kᵀ := by
        have : covState l G H (S * Sᵀ) s * Kᵀ = G * W s * (Gᵀ * Hᵀ) * diagonal l * Gᵀ := by
          rw [h.eq]; simp only [covState, hW, Matrix.mul_assoc, Matrix.transpose_mul, diagonal_transpose]
        rw [this, ht']; simp only [Matrix.mul_one, Matrix.mul_assoc]
      rw [Matrix.mul_sub, Matrix.mul_sub, Matrix.sub_mul, Matrix.sub_mul, e1, e2, e3]
    rw [← e]
    exact this

theorem covariance_unique (h : Diagonalizes K l G H) (hl : ∀ i j, l i + l j ≠ 0) {S : Matrix (Fin p) (Fin p) ℝ}
    {V : ℝ → Matrix (Fin p) (Fin p) ℝ} (hV : IsCovariance K S V) : V = covState l G H (S * Sᵀ) := by
  have hs := covState_spec h hl S
  set D : ℝ → Matrix (Fin p) (Fin p) ℝ := fun s => V s - covState l G H (S * Sᵀ) s with hD
  have hDd : ∀ s, MatDeriv D (-(K * D s) - D s * Kᵀ) s := by
    intro s i j
    refine HasDerivAt.congr_deriv ((hV.2 s i j).sub (hs.2 s i j)) ?_
    simp only [hD, Matrix.mul_sub, Matrix.sub_mul, Matrix.sub_apply, Matrix.neg_apply]
    ring
  have ht' : Gᵀ * Hᵀ = 1 := by rw [← Matrix.transpose_mul, h.inv', Matrix.transpose_one]
  have ht : Hᵀ * Gᵀ = 1 := by rw [← Matrix.transpose_mul, h.inv, Matrix.transpose_one]
  have key : ∀ i j, (fun s => (H * D s * Hᵀ) i j) = fun _ => 0 := by
    intro i j
    apply scalar_unique (a := l i + l j)
    · simp [hD, hV.1, hs.1]
    · intro s
      refine HasDerivAt.congr_deriv (((hDd s).const_mul H).mul_const Hᵀ i j) ?_
      have e2 : H * (K * D s) * Hᵀ = diagonal l * (H * D s * Hᵀ) := by
        have : H * (K * D s) * Hᵀ = (H * G) * diagonal l * (H * D s * Hᵀ) := by rw [h.eq]; simp only [Matrix.mul_assoc]
        rw [this, h.inv', Matrix.one_mul]
      have e3 : H * (D s * Kᵀ) * Hᵀ = (H * D s * Hᵀ) * diagonal l := by
        have : H * (D s * Kᵀ) * Hᵀ = (H * D s * Hᵀ) * diagonal l * (Gᵀ * Hᵀ) := by
          rw [h.eq]; simp only [Matrix.mul_assoc, Matrix.transpose_mul, diagonal_transpose]
        rw [this, ht', Matrix.mul_one]
      rw [Matrix.mul_sub, Matrix.sub_mul, Matrix.mul_neg, Matrix.neg_mul, e2, e3]
      simp only [Matrix.sub_apply, Matrix.neg_apply, diagonal_mul, mul_diagonal]
      ring
  funext s
  have h0 : H * D s * Hᵀ = 0 := by ext i j; exact congrFun (key i j) s
  have h1 : G * (H * D s * Hᵀ) * Gᵀ = D s := by
    have : G * (H * D s * Hᵀ) * Gᵀ = (G * H) * D s * (Hᵀ * Gᵀ) := by simp only [Matrix.mul_assoc]
    rw [this, h.inv, ht, Matrix.one_mul, Matrix.mul_one]
  rw [h0] at h1
  simp only [Matrix.mul_zero, Matrix.zero_mul] at h1
  have : V s - covState l G H (S * Sᵀ) s = 0 := h1.symm
  exact sub_eq_zero.1 this

end
/-! ## Price coefficients -/

section Price
variable {K G H : Matrix (Fin p) (Fin p) ℝ} {l : Fin p → ℝ}

/-- The inverse of the reversion matrix. -/
noncomputable def Rinv (l : Fin p → ℝ) (G H : Matrix (Fin p) (Fin p) ℝ) : Matrix (Fin p) (Fin p) ℝ :=
  G * diagonal (fun i => 1 / l i) * H

theorem Rinv_mul (h : Diagonalizes K l G H) (hl : ∀ i, l i ≠ 0) : Rinv l G H * K = 1 := by
  unfold Rinv
  rw [h.eq, conj_mul h]
  have : (fun i => 1 / l i * l i) = fun _ => (1 : ℝ) := by funext i; have := hl i; field_simp
  rw [this, diagonal_one, Matrix.mul_one, h.inv]

/-- Coefficients of the log price. -/
noncomputable def mB (l : Fin p → ℝ) (G H : Matrix (Fin p) (Fin p) ℝ) (g : Fin p → ℝ) (t : ℝ) : Fin p → ℝ :=
  (((E l G H t)ᵀ - 1) * (Rinv l G H)ᵀ) *ᵥ g

theorem mB_zero (h : Diagonalizes K l G H) (g : Fin p → ℝ) : mB l G H g 0 = 0 := by
  unfold mB
  rw [E_zero h, Matrix.transpose_one, sub_self, Matrix.zero_mul, Matrix.zero_mulVec]

theorem vecDeriv_mB (h : Diagonalizes K l G H) (hl : ∀ i, l i ≠ 0) (g : Fin p → ℝ) (t : ℝ) :
    VecDeriv (mB l G H g) (-((E l G H t)ᵀ *ᵥ g)) t := by
  have := (((matDeriv_E h t).transpose.sub (matDeriv_const 1 t)).mul_const (Rinv l G H)ᵀ).mulVec g
  have e : ((-(K * E l G H t))ᵀ - 0) * (Rinv l G H)ᵀ = -(E l G H t)ᵀ := by
    rw [sub_zero, ← Matrix.transpose_mul, Matrix.mul_neg, ← Matrix.mul_assoc, Rinv_mul h hl, Matrix.one_mul, Matrix.transpose_neg]
  rw [e, Matrix.neg_mulVec] at this
  exact this

/-- Riccati equation of the coefficients. -/
theorem mB_riccati (h : Diagonalizes K l G H) (hl : ∀ i, l i ≠ 0) (g : Fin p → ℝ) (t : ℝ) :
    (E l G H t)ᵀ *ᵥ g = g + Kᵀ *ᵥ mB l G H g t := by
  unfold mB
  have : Kᵀ * (((E l G H t)ᵀ - 1) * (Rinv l G H)ᵀ) = (E l G H t)ᵀ - 1 := by
    rw [← Matrix.mul_assoc, Matrix.mul_sub, Matrix.mul_one, ← Matrix.transpose_mul, ← E_comm h, Matrix.transpose_mul, Matrix.sub_mul,
      Matrix.mul_assoc, ← Matrix.transpose_mul, Rinv_mul h hl, Matrix.transpose_one, Matrix.mul_one]
  rw [Matrix.mulVec_mulVec, this, Matrix.sub_mulVec, Matrix.one_mulVec]
  abel

/-- Intercept of the log price. -/
noncomputable def mA (l : Fin p → ℝ) (G H C : Matrix (Fin p) (Fin p) ℝ) (μ : ℝ) (g θ : Fin p → ℝ) (t : ℝ) : ℝ :=
  -μ * t + g ⬝ᵥ ((G * diagonal (fun i => (1 - Real.exp (-l i * t)) / l i) * H) *ᵥ θ - t • θ) +
  ((1 / 2) * (((Rinv l G H)ᵀ *ᵥ g) ⬝ᵥ ((G * (Matrix.of fun i j => (H * C * Hᵀ) i j * (1 - Real.exp (-(l j + l i) * t)) / (l j + l i)) *
      diagonal (fun i => 1 / l i) * Gᵀ) *ᵥ g)) +
    -(1 / 2) * (((Rinv l G H)ᵀ *ᵥ g) ⬝ᵥ ((C * Hᵀ * diagonal (fun i => (1 - Real.exp (-l i * t)) / l i) * diagonal (fun i => 1 / l i) * Gᵀ) *ᵥ g)) +
    -(1 / 2) * (((Rinv l G H)ᵀ *ᵥ g) ⬝ᵥ ((G * diagonal (fun i => (1 - Real.exp (-l i * t)) / l i) * H * C) *ᵥ ((Rinv l G H)ᵀ *ᵥ g))) +
    (1 / 2) * (((Rinv l G H)ᵀ *ᵥ g) ⬝ᵥ (C *ᵥ ((Rinv l G H)ᵀ *ᵥ g))) * t)

theorem mA_zero (C : Matrix (Fin p) (Fin p) ℝ) (μ : ℝ) (g θ : Fin p → ℝ) : mA l G H C μ g θ 0 = 0 := by
  have e1 : (fun i => (1 - Real.exp (-l i * 0)) / l i) = fun _ => (0 : ℝ) := by funext i; simp
  have e2 : (Matrix.of fun i j => (H * C * Hᵀ) i j * (1 - Real.exp (-(l j + l i) * 0)) / (l j + l i)) = (0 : Matrix (Fin p) (Fin p) ℝ) := by
    ext i j; simp
  unfold mA
  rw [e1, e2]
  simp

theorem transpose_mulVec_dot (M : Matrix (Fin p) (Fin p) ℝ) (a b : Fin p → ℝ) : a ⬝ᵥ (M *ᵥ b) = (Mᵀ *ᵥ a) ⬝ᵥ b := by
  rw [Matrix.dotProduct_mulVec, Matrix.mulVec_transpose]

theorem hasDerivAt_mA (h : Diagonalizes K l G H) (hl : ∀ i, l i ≠ 0) (hl2 : ∀ i j, l i + l j ≠ 0) (C : Matrix (Fin p) (Fin p) ℝ)
    (μ : ℝ) (g θ : Fin p → ℝ) (t : ℝ) :
    HasDerivAt (mA l G H C μ g θ)
      (-μ + mB l G H g t ⬝ᵥ (K *ᵥ θ) + (1 / 2) * (mB l G H g t ⬝ᵥ (C *ᵥ mB l G H g t))) t := by
  set u := (Rinv l G H)ᵀ *ᵥ g with hu
  set ex : Matrix (Fin p) (Fin p) ℝ := diagonal (fun i => Real.exp (-l i * t)) with hex
  set Li : Matrix (Fin p) (Fin p) ℝ := diagonal (fun i => 1 / l i) with hLi
  have hD : MatDeriv (fun t => diagonal (fun i => (1 - Real.exp (-l i * t)) / l i)) ex t := by
    apply matDeriv_diagonal
    intro i
    refine HasDerivAt.congr_deriv (((hasDerivAt_expNeg (l i) t).const_sub 1).div_const (l i)) ?_
    have := hl i
    field_simp
  have hF : MatDeriv (fun t => Matrix.of fun i j => (H * C * Hᵀ) i j * (1 - Real.exp (-(l j + l i) * t)) / (l j + l i))
      (ex * (H * C * Hᵀ) * ex) t := by
    intro i j
    refine HasDerivAt.congr_deriv ((((hasDerivAt_expNeg (l j + l i) t).const_sub 1).const_mul ((H * C * Hᵀ) i j)).div_const (l j + l i)) ?_
    have := hl2 j i
    rw [hex, mul_diagonal, diagonal_mul]
    have e : Real.exp (-(l j + l i) * t) = Real.exp (-l j * t) * Real.exp (-l i * t) := by rw [← Real.exp_add]; ring_nf
    rw [e]
    field_simp
  have d1 : HasDerivAt (fun t => -μ * t) (-μ) t := by simpa using (hasDerivAt_id t).const_mul (-μ)
  have hid : VecDeriv (fun t => t • θ) θ t := by
    intro i
    simpa using (hasDerivAt_id t).mul_const (θ i)
  have d2 := ((((hD.const_mul G).mul_const H).mulVec θ).sub hid).const_dot g
  have d3a := ((((((hF.const_mul G).mul_const Li).mul_const Gᵀ).mulVec g).const_dot u).const_mul (1 / 2))
  have d3b := ((((((hD.const_mul (C * Hᵀ)).mul_const Li).mul_const Gᵀ).mulVec g).const_dot u).const_mul (-(1 / 2)))
  have d3c := ((((((hD.const_mul G).mul_const H).mul_const C).mulVec u).const_dot u).const_mul (-(1 / 2)))
  have d3d : HasDerivAt (fun t => (1 / 2) * (u ⬝ᵥ (C *ᵥ u)) * t) ((1 / 2) * (u ⬝ᵥ (C *ᵥ u))) t := by
    simpa using (hasDerivAt_id t).const_mul ((1 / 2) * (u ⬝ᵥ (C *ᵥ u)))
  have d := (d1.add d2).add (((d3a.add d3b).add d3c).add d3d)
  refine HasDerivAt.congr_deriv (f := mA l G H C μ g θ) d ?_
  -- algebra
  have hE : G * ex * H = E l G H t := rfl
  set a := (E l G H t)ᵀ *ᵥ u with ha
  have hb : mB l G H g t = a - u := by
    unfold mB
    rw [← Matrix.mulVec_mulVec, Matrix.sub_mulVec, Matrix.one_mulVec]
  have hax : (Hᵀ * ex * Li * Gᵀ) *ᵥ g = a := by
    rw [ha, hu, Matrix.mulVec_mulVec]
    congr 1
    unfold E Rinv
    rw [← hex, ← hLi, Matrix.transpose_mul, Matrix.transpose_mul, Matrix.transpose_mul, Matrix.transpose_mul]
    have t1 : exᵀ = ex := by rw [hex, diagonal_transpose]
    have t2 : Liᵀ = Li := by rw [hLi, diagonal_transpose]
    have t3 : Gᵀ * Hᵀ = 1 := by rw [← Matrix.transpose_mul, h.inv', Matrix.transpose_one]
    rw [t1, t2]
    have : Hᵀ * (ex * Gᵀ) * (Hᵀ * (Li * Gᵀ)) = Hᵀ * ex * (Gᵀ * Hᵀ) * Li * Gᵀ := by simp only [Matrix.mul_assoc]
    rw [this, t3, Matrix.mul_one]
  have q1 : (G * (ex * (H * C * Hᵀ) * ex) * Li * Gᵀ) *ᵥ g = E l G H t *ᵥ (C *ᵥ a) := by
    rw [← hax, ← hE, Matrix.mulVec_mulVec, Matrix.mulVec_mulVec]
    simp only [Matrix.mul_assoc]
  have q2 : (C * Hᵀ * ex * Li * Gᵀ) *ᵥ g = C *ᵥ a := by
    rw [← hax, Matrix.mulVec_mulVec]
    simp only [Matrix.mul_assoc]
  have q3 : (G * ex * H * C) *ᵥ u = E l G H t *ᵥ (C *ᵥ u) := by
    rw [hE, ← Matrix.mulVec_mulVec]
  have q4 : mB l G H g t ⬝ᵥ (K *ᵥ θ) = g ⬝ᵥ (E l G H t *ᵥ θ - θ) := by
    have e1 : Kᵀ *ᵥ mB l G H g t = (E l G H t)ᵀ *ᵥ g - g := by rw [mB_riccati h hl g t]; abel
    rw [transpose_mulVec_dot, e1, dotProduct_sub, transpose_mulVec_dot, sub_dotProduct]
  rw [q1, q2, q3, hE, q4, hb]
  rw [transpose_mulVec_dot (E l G H t) u, transpose_mulVec_dot (E l G H t) u, ← ha]
  simp only [sub_dotProduct, dotProduct_sub, Matrix.mulVec_sub]
  ring

/-! ## The expected discount factor -/

theorem continuous_E (i j : Fin p) : Continuous fun t => E l G H t i j := by
  unfold E
  simp only [Matrix.mul_apply, Matrix.diagonal_apply]
  refine continuous_finset_sum _ fun k _ => Continuous.mul (continuous_finset_sum _ fun k' _ => Continuous.mul continuous_const ?_) continuous_const
  split
  · fun_prop
  · exact continuous_const

theorem continuous_E_mulVec (x : Fin p → ℝ) (i : Fin p) : Continuous fun t => (E l G H t *ᵥ x) i := by
  simp only [Matrix.mulVec, dotProduct]
  exact continuous_finset_sum _ fun k _ => (continuous_E i k).mul continuous_const

theorem continuous_dot_E (g x : Fin p → ℝ) : Continuous fun t => g ⬝ᵥ (E l G H t *ᵥ x) := by
  simp only [dotProduct]
  exact continuous_finset_sum _ fun k _ => continuous_const.mul (continuous_E_mulVec x k)

theorem continuous_mB (h : Diagonalizes K l G H) (hl : ∀ i, l i ≠ 0) (g : Fin p → ℝ) : Continuous (mB l G H g) :=
  continuous_pi fun i => continuous_iff_continuousAt.2 fun t => (vecDeriv_mB h hl g t i).continuousAt

/-- Accumulated response of the short rate. -/
theorem integral_response (h : Diagonalizes K l G H) (hl : ∀ i, l i ≠ 0) (g x : Fin p → ℝ) (T : ℝ) :
    ∫ u in (0 : ℝ)..T, g ⬝ᵥ (E l G H u *ᵥ x) = -(mB l G H g T ⬝ᵥ x) := by
  have hd : ∀ u ∈ Set.uIcc 0 T, HasDerivAt (fun u => -(mB l G H g u ⬝ᵥ x)) (g ⬝ᵥ (E l G H u *ᵥ x)) u := by
    intro u _
    refine HasDerivAt.congr_deriv ((vecDeriv_mB h hl g u).dot_const x).neg ?_
    rw [transpose_mulVec_dot, neg_dotProduct, neg_neg]
  rw [intervalIntegral.integral_eq_sub_of_hasDerivAt hd ((continuous_dot_E g x).intervalIntegrable _ _), mB_zero h]
  simp

theorem integralVariance_closed (h : Diagonalizes K l G H) (hl : ∀ i, l i ≠ 0) (g : Fin p → ℝ) (S : Matrix (Fin p) (Fin p) ℝ) (T : ℝ) :
    integralVariance g S (E l G H) T = ∫ s in (0 : ℝ)..T, mB l G H g s ⬝ᵥ ((S * Sᵀ) *ᵥ mB l G H g s) := by
  unfold integralVariance
  have e : ∀ s, ∑ j, (∫ u in (0 : ℝ)..(T - s), g ⬝ᵥ ((E l G H u * S) *ᵥ Pi.single j 1)) ^ 2 =
      (fun s => mB l G H g s ⬝ᵥ ((S * Sᵀ) *ᵥ mB l G H g s)) (T - s) := by
    intro s
    simp only [← Matrix.mulVec_mulVec]
    rw [transpose_mulVec_dot]
    have : ∀ j, ∫ u in (0 : ℝ)..(T - s), g ⬝ᵥ (E l G H u *ᵥ (S *ᵥ Pi.single j 1)) = -((Sᵀ *ᵥ mB l G H g (T - s)) j) := by
      intro j
      rw [integral_response h hl, transpose_mulVec_dot, dotProduct_single, mul_one]
    simp only [this, neg_sq]
    simp only [dotProduct, sq]
  simp only [e]
  rw [intervalIntegral.integral_comp_sub_left (fun s => mB l G H g s ⬝ᵥ ((S * Sᵀ) *ᵥ mB l G H g s)) T, sub_self, sub_zero]

theorem quadratic_nonneg (S : Matrix (Fin p) (Fin p) ℝ) (b : Fin p → ℝ) : 0 ≤ b ⬝ᵥ ((S * Sᵀ) *ᵥ b) := by
  rw [← Matrix.mulVec_mulVec, transpose_mulVec_dot]
  exact Finset.sum_nonneg fun i _ => mul_self_nonneg _

theorem integralVariance_nonneg (h : Diagonalizes K l G H) (hl : ∀ i, l i ≠ 0) (g : Fin p → ℝ) (S : Matrix (Fin p) (Fin p) ℝ) {T : ℝ}
    (hT : 0 ≤ T) : 0 ≤ integralVariance g S (E l G H) T := by
  rw [integralVariance_closed h hl]
  exact intervalIntegral.integral_nonneg hT fun _ _ => quadratic_nonneg S _

theorem continuous_quadratic (h : Diagonalizes K l G H) (hl : ∀ i, l i ≠ 0) (g : Fin p → ℝ) (C : Matrix (Fin p) (Fin p) ℝ) :
    Continuous fun t => mB l G H g t ⬝ᵥ (C *ᵥ mB l G H g t) := by
  have := continuous_mB h hl g
  fun_prop

theorem continuous_meanRate (μ : ℝ) (g θ x : Fin p → ℝ) : Continuous fun s => μ + g ⬝ᵥ meanState l G H θ x s := by
  have e : (fun s => μ + g ⬝ᵥ meanState l G H θ x s) = fun s => μ + (g ⬝ᵥ (E l G H s *ᵥ x) + (g ⬝ᵥ θ - g ⬝ᵥ (E l G H s *ᵥ θ))) := by
    funext s
    unfold meanState
    rw [dotProduct_add, Matrix.sub_mulVec, Matrix.one_mulVec, dotProduct_sub]
  rw [e]
  exact continuous_const.add ((continuous_dot_E g x).add (continuous_const.sub (continuous_dot_E g θ)))

/-- Derivative of the log price in the maturity: minus the expected rate plus half the variance of the integral's growth. -/
theorem hasDerivAt_logPrice (h : Diagonalizes K l G H) (hl : ∀ i, l i ≠ 0) (hl2 : ∀ i j, l i + l j ≠ 0) (C : Matrix (Fin p) (Fin p) ℝ)
    (μ : ℝ) (g θ x : Fin p → ℝ) (t : ℝ) :
    HasDerivAt (fun t => mA l G H C μ g θ t + mB l G H g t ⬝ᵥ x)
      (-(μ + g ⬝ᵥ meanState l G H θ x t) + (1 / 2) * (mB l G H g t ⬝ᵥ (C *ᵥ mB l G H g t))) t := by
  refine HasDerivAt.congr_deriv ((hasDerivAt_mA h hl hl2 C μ g θ t).add ((vecDeriv_mB h hl g t).dot_const x)) ?_
  have e1 : Kᵀ *ᵥ mB l G H g t = (E l G H t)ᵀ *ᵥ g - g := by rw [mB_riccati h hl g t]; abel
  unfold meanState
  rw [transpose_mulVec_dot K, e1, dotProduct_add, Matrix.sub_mulVec, Matrix.one_mulVec, dotProduct_sub, sub_dotProduct,
    transpose_mulVec_dot (E l G H t), transpose_mulVec_dot (E l G H t), neg_dotProduct]
  ring

theorem logPrice_integral (h : Diagonalizes K l G H) (hl : ∀ i, l i ≠ 0) (hl2 : ∀ i j, l i + l j ≠ 0) (S : Matrix (Fin p) (Fin p) ℝ)
    (μ : ℝ) (g θ x : Fin p → ℝ) (T : ℝ) :
    mA l G H (S * Sᵀ) μ g θ T + mB l G H g T ⬝ᵥ x =
      -(∫ s in (0 : ℝ)..T, μ + g ⬝ᵥ meanState l G H θ x s) + integralVariance g S (E l G H) T / 2 := by
  have hd := fun t (_ : t ∈ Set.uIcc 0 T) => hasDerivAt_logPrice h hl hl2 (S * Sᵀ) μ g θ x t
  have c1 := continuous_meanRate (l := l) (G := G) (H := H) μ g θ x
  have c2 := continuous_quadratic h hl g (S * Sᵀ)
  have := intervalIntegral.integral_eq_sub_of_hasDerivAt hd
    ((c1.neg.add (continuous_const.mul c2)).intervalIntegrable _ _)
  rw [mA_zero, mB_zero h, zero_dotProduct, add_zero, sub_zero] at this
  rw [← this, integralVariance_closed h hl, intervalIntegral.integral_add (f := fun y => -(μ + g ⬝ᵥ meanState l G H θ x y))
    (g := fun y => 1 / 2 * mB l G H g y ⬝ᵥ (S * Sᵀ) *ᵥ mB l G H g y) (c1.neg.intervalIntegrable _ _)
    ((c2.const_mul (1 / 2)).intervalIntegrable _ _), intervalIntegral.integral_neg, intervalIntegral.integral_const_mul]
  ring

/-- The expected discount factor in closed form. -/
theorem expectedDiscount_closed (h : Diagonalizes K l G H) (hl : ∀ i, l i ≠ 0) (hl2 : ∀ i j, l i + l j ≠ 0)
    (S : Matrix (Fin p) (Fin p) ℝ) (μ : ℝ) (g θ x : Fin p → ℝ) {T : ℝ} (hT : 0 ≤ T) :
    expectedDiscount μ g S (meanState l G H θ x) (E l G H) T = Real.exp (mA l G H (S * Sᵀ) μ g θ T + mB l G H g T ⬝ᵥ x) := by
  unfold expectedDiscount
  have hm := congrFun (ProbabilityTheory.mgf_id_gaussianReal (μ := ∫ s in (0 : ℝ)..T, μ + g ⬝ᵥ meanState l G H θ x s)
    (v := (integralVariance g S (E l G H) T).toNNReal)) (-1)
  simp only [ProbabilityTheory.mgf, id_eq, neg_one_mul] at hm
  rw [hm, Real.coe_toNNReal _ (integralVariance_nonneg h hl g S hT), logPrice_integral h hl hl2]
  congr 1
  ring

/-! ## The pricing equation -/

theorem partial_expAffine (a : ℝ) (b x : Fin p → ℝ) (i : Fin p) :
    HasDerivAt (fun y => Real.exp (a + b ⬝ᵥ Function.update x i y)) (b i * Real.exp (a + b ⬝ᵥ x)) (x i) := by
  have e : ∀ y, b ⬝ᵥ Function.update x i y = b ⬝ᵥ x + b i * (y - x i) := by
    intro y
    have : Function.update x i y = x + Pi.single i (y - x i) := by
      funext j
      by_cases hj : j = i
      · subst hj; simp
      · simp [hj]
    rw [this, dotProduct_add, dotProduct_single]
  simp only [e]
  have := ((((hasDerivAt_id (x i)).sub_const (x i)).const_mul (b i)).const_add (b ⬝ᵥ x)).const_add a
  refine HasDerivAt.congr_deriv this.exp ?_
  simp
  ring

theorem partialDeriv_expAffine (a : ℝ) (b x : Fin p → ℝ) (i : Fin p) :
    partialDeriv (fun x => Real.exp (a + b ⬝ᵥ x)) i x = b i * Real.exp (a + b ⬝ᵥ x) := (partial_expAffine a b x i).deriv

theorem grad_expAffine (a : ℝ) (b x : Fin p → ℝ) : grad (fun x => Real.exp (a + b ⬝ᵥ x)) x = Real.exp (a + b ⬝ᵥ x) • b := by
  funext i
  simp only [grad, partialDeriv_expAffine, Pi.smul_apply, smul_eq_mul]
  ring

theorem partial2_expAffine (a : ℝ) (b x : Fin p → ℝ) (i j : Fin p) :
    partialDeriv (partialDeriv (fun x => Real.exp (a + b ⬝ᵥ x)) i) j x = b i * b j * Real.exp (a + b ⬝ᵥ x) := by
  have e : partialDeriv (fun x => Real.exp (a + b ⬝ᵥ x)) i = fun x => b i * Real.exp (a + b ⬝ᵥ x) :=
    funext fun x => partialDeriv_expAffine a b x i
  rw [e]
  unfold partialDeriv
  rw [((partial_expAffine a b x j).const_mul (b i)).deriv]
  ring

theorem halfTrace_expAffine (S : Matrix (Fin p) (Fin p) ℝ) (a : ℝ) (b x : Fin p → ℝ) :
    halfTrace S (fun x => Real.exp (a + b ⬝ᵥ x)) x = 1 / 2 * (b ⬝ᵥ ((S * Sᵀ) *ᵥ b)) * Real.exp (a + b ⬝ᵥ x) := by
  unfold halfTrace
  simp only [partial2_expAffine]
  generalize Real.exp (a + b ⬝ᵥ x) = ex
  simp only [dotProduct, Matrix.mulVec]
  rw [mul_assoc, Finset.sum_mul]
  congr 1
  apply Finset.sum_congr rfl
  intro i _
  rw [Finset.mul_sum, Finset.sum_mul]
  apply Finset.sum_congr rfl
  intro j _
  ring

theorem closedForm_pricing (h : Diagonalizes K l G H) (hl : ∀ i, l i ≠ 0) (hl2 : ∀ i j, l i + l j ≠ 0) (S : Matrix (Fin p) (Fin p) ℝ)
    (μ : ℝ) (g θ : Fin p → ℝ) :
    SolvesPricing μ g θ K S (fun T x => Real.exp (mA l G H (S * Sᵀ) μ g θ T + mB l G H g T ⬝ᵥ x)) := by
  refine ⟨fun x => by simp [mA_zero, mB_zero h], fun T x => ?_⟩
  rw [halfTrace_expAffine, grad_expAffine]
  refine HasDerivAt.congr_deriv ((hasDerivAt_mA h hl hl2 (S * Sᵀ) μ g θ T).add ((vecDeriv_mB h hl g T).dot_const x)).exp ?_
  rw [mB_riccati h hl g T]
  simp only [Pi.add_apply, dotProduct_smul, smul_eq_mul, neg_dotProduct, add_dotProduct]
  rw [← transpose_mulVec_dot, dotProduct_comm (K *ᵥ (θ - x)), Matrix.mulVec_sub, dotProduct_sub]
  ring

end Price
end Verif.Multi
