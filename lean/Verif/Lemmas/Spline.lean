/- Existence and uniqueness of the cubic and quadratic splines: the model's systems have exactly one solution, and describe exactly
the splines of Spec/Spline. -/
import Verif.Model.Spline
import Verif.Spec.Spline
import Mathlib.Algebra.Polynomial.Eval.Degree
import Mathlib.Algebra.Polynomial.Eval.Coeff
import Mathlib.Algebra.Polynomial.Roots
import Mathlib.LinearAlgebra.FiniteDimensional.Lemmas
import Mathlib.Algebra.CharZero.Infinite
import Mathlib.Tactic.ComputeDegree
import Mathlib.Tactic.LinearCombination
import Mathlib.Tactic.FieldSimp
import Mathlib.Tactic.Linarith
import Mathlib.Tactic.Positivity

namespace Verif
open Verif.Spec Polynomial

/-! ## Linear algebra -/

/-- If every nonzero entry is exceeded by another one, all entries are zero. -/
theorem dominated_zero (S : Finset ℕ) (M : ℕ → ℚ) (h : ∀ i ∈ S, M i ≠ 0 → ∃ j ∈ S, |M i| < |M j|) : ∀ i ∈ S, M i = 0 := by
  intro i hi
  obtain ⟨k, hk, hmax⟩ := Finset.exists_max_image S (fun i => |M i|) ⟨i, hi⟩
  have hk0 : M k = 0 := by
    by_contra hne
    obtain ⟨j, hj, hlt⟩ := h k hk hne
    exact absurd (hmax j hj) (not_le.2 hlt)
  have := hmax i hi
  simp only [hk0, abs_zero] at this
  exact abs_nonpos_iff.1 this

/-- A square homogeneous system with only the zero solution solves every right-hand side.  `row` is the left-hand side. -/
theorem square_solvable (n : ℕ) (row : (ℕ → ℚ) → ℕ → ℚ)
    (hadd : ∀ M N r, row (fun i => M i + N i) r = row M r + row N r) (hmul : ∀ (c : ℚ) M r, row (fun i => c * M i) r = c * row M r)
    (hinj : ∀ M, (∀ r ≤ n, row M r = 0) → ∀ i ≤ n, M i = 0) (b : ℕ → ℚ) : ∃ M, ∀ r ≤ n, row M r = b r := by
  classical
  let ext : (Fin (n + 1) → ℚ) → ℕ → ℚ := fun m i => if h : i < n + 1 then m ⟨i, h⟩ else 0
  let L : (Fin (n + 1) → ℚ) →ₗ[ℚ] (Fin (n + 1) → ℚ) :=
    { toFun := fun m r => row (ext m) r
      map_add' := by
        intro m m'
        funext r
        have : ext (m + m') = fun i => ext m i + ext m' i := by
          funext i; simp only [ext]; split_ifs <;> simp
        show row (ext (m + m')) r = row (ext m) r + row (ext m') r
        rw [this, hadd]
      map_smul' := by
        intro c m
        funext r
        have : ext (c • m) = fun i => c * ext m i := by
          funext i; simp only [ext]; split_ifs <;> simp
        show row (ext (c • m)) r = c * row (ext m) r
        rw [this, hmul] }
  have hL : Function.Injective L := by
    rw [injective_iff_map_eq_zero]
    intro m hm
    have := hinj (ext m) (fun r hr => congrFun hm ⟨r, by omega⟩)
    funext i
    have h := this i (by omega)
    simp only [ext, i.2, dite_true] at h
    exact h
  obtain ⟨m, hm⟩ := LinearMap.injective_iff_surjective.1 hL (fun i => b i)
  exact ⟨ext m, fun r hr => congrFun hm ⟨r, by omega⟩⟩

/-! ## The cubic system -/

/-- The abscissas `x 0 … x n` increase strictly. -/
def Increasing (n : ℕ) (x : ℕ → ℚ) : Prop := ∀ i < n, x i < x (i + 1)

theorem cubic_homogeneous {n : ℕ} (hn : 3 ≤ n) {x M : ℕ → ℚ} (hx : Increasing n x)
    (h1 : ∀ i, i + 2 ≤ n → (x (i + 1) - x i) * M i + 2 * (x (i + 2) - x i) * M (i + 1) + (x (i + 2) - x (i + 1)) * M (i + 2) = 0)
    (h2 : (M 1 - M 0) * (x 2 - x 1) = (M 2 - M 1) * (x 1 - x 0))
    (h3 : (M (n - 1) - M (n - 2)) * (x n - x (n - 1)) = (M n - M (n - 1)) * (x (n - 1) - x (n - 2))) :
    ∀ i ≤ n, M i = 0 := by
  have hin : ∀ i ∈ Finset.Ico 1 n, M i = 0 := by
    apply dominated_zero
    intro i hi hne
    rw [Finset.mem_Ico] at hi
    by_contra hno
    push Not at hno
    have hpos := abs_pos.2 hne
    by_cases hi1 : i = 1
    · subst hi1
      have e := h1 0 (by omega)
      have g0 := hx 0 (by omega)
      have g1 := hx 1 (by omega)
      have hd := hno 2 (Finset.mem_Ico.2 (by omega))
      simp only [zero_add] at e g0
      have key : (x 1 - x 0 + 2 * (x 2 - x 1)) * M 1 = (x 1 - x 0 - (x 2 - x 1)) * M 2 := by
        have hh : (x 2 - x 0) ≠ 0 := by linarith
        apply mul_left_cancel₀ hh
        linear_combination (x 2 - x 1) * e + (x 1 - x 0) * h2
      have habs := congrArg abs key
      rw [abs_mul, abs_mul, abs_of_pos (show 0 < x 1 - x 0 + 2 * (x 2 - x 1) by linarith)] at habs
      have hle : |x 1 - x 0 - (x 2 - x 1)| ≤ x 1 - x 0 + (x 2 - x 1) := abs_le.2 ⟨by linarith, by linarith⟩
      have : |x 1 - x 0 - (x 2 - x 1)| * |M 2| ≤ (x 1 - x 0 + (x 2 - x 1)) * |M 1| :=
        mul_le_mul hle hd (abs_nonneg _) (by linarith)
      nlinarith
    · by_cases hil : i = n - 1
      · obtain ⟨k, rfl⟩ : ∃ k, n = k + 3 := ⟨n - 3, by omega⟩
        obtain rfl : i = k + 2 := by omega
        have e := h1 (k + 1) (by omega)
        have g0 := hx (k + 1) (by omega)
        have g1 := hx (k + 2) (by omega)
        have hd := hno (k + 1) (Finset.mem_Ico.2 (by omega))
        have h3' : (M (k + 2) - M (k + 1)) * (x (k + 3) - x (k + 2)) = (M (k + 3) - M (k + 2)) * (x (k + 2) - x (k + 1)) := h3
        have e' : (x (k + 2) - x (k + 1)) * M (k + 1) + 2 * (x (k + 3) - x (k + 1)) * M (k + 2) +
          (x (k + 3) - x (k + 2)) * M (k + 3) = 0 := e
        have key : (x (k + 3) - x (k + 2) + 2 * (x (k + 2) - x (k + 1))) * M (k + 2) =
            (x (k + 3) - x (k + 2) - (x (k + 2) - x (k + 1))) * M (k + 1) := by
          have g1' : x (k + 2) < x (k + 3) := g1
          have hh : (x (k + 3) - x (k + 1)) ≠ 0 := by
            have g0' : x (k + 1) < x (k + 2) := g0
            intro h; linarith
          apply mul_left_cancel₀ hh
          linear_combination (x (k + 2) - x (k + 1)) * e' + (x (k + 3) - x (k + 2)) * h3'
        have habs := congrArg abs key
        have g0' : x (k + 1) < x (k + 2) := g0
        have g1' : x (k + 2) < x (k + 3) := g1
        rw [abs_mul, abs_mul, abs_of_pos (show 0 < x (k + 3) - x (k + 2) + 2 * (x (k + 2) - x (k + 1)) by linarith)] at habs
        have hle : |x (k + 3) - x (k + 2) - (x (k + 2) - x (k + 1))| ≤ x (k + 3) - x (k + 2) + (x (k + 2) - x (k + 1)) :=
          abs_le.2 ⟨by linarith, by linarith⟩
        have : |x (k + 3) - x (k + 2) - (x (k + 2) - x (k + 1))| * |M (k + 1)| ≤
            (x (k + 3) - x (k + 2) + (x (k + 2) - x (k + 1))) * |M (k + 2)| :=
          mul_le_mul hle hd (abs_nonneg _) (by linarith)
        nlinarith
      · obtain ⟨k, rfl⟩ : ∃ k, i = k + 1 := ⟨i - 1, by omega⟩
        have e := h1 k (by omega)
        have g0 := hx k (by omega)
        have g1 : x (k + 1) < x (k + 2) := hx (k + 1) (by omega)
        have hd0 := hno k (Finset.mem_Ico.2 (by omega))
        have hd2 := hno (k + 2) (Finset.mem_Ico.2 (by omega))
        have key : (2 * (x (k + 2) - x k)) * M (k + 1) =
            -((x (k + 1) - x k) * M k + (x (k + 2) - x (k + 1)) * M (k + 2)) := by linear_combination e
        have habs := congrArg abs key
        rw [abs_mul, abs_neg, abs_of_pos (show 0 < 2 * (x (k + 2) - x k) by linarith)] at habs
        have t := abs_add_le ((x (k + 1) - x k) * M k) ((x (k + 2) - x (k + 1)) * M (k + 2))
        rw [abs_mul, abs_mul, abs_of_pos (show 0 < x (k + 1) - x k by linarith),
          abs_of_pos (show 0 < x (k + 2) - x (k + 1) by linarith)] at t
        have t1 := mul_le_mul_of_nonneg_left hd0 (show 0 ≤ x (k + 1) - x k by linarith)
        have t2 := mul_le_mul_of_nonneg_left hd2 (show 0 ≤ x (k + 2) - x (k + 1) by linarith)
        nlinarith
  have m1 := hin 1 (Finset.mem_Ico.2 (by omega))
  have m2 := hin 2 (Finset.mem_Ico.2 (by omega))
  have m3 := hin (n - 1) (Finset.mem_Ico.2 (by omega))
  have m4 := hin (n - 2) (Finset.mem_Ico.2 (by omega))
  intro i hi
  by_cases hi0 : i = 0
  · subst hi0
    have g1 := hx 1 (by omega)
    rw [m1, m2] at h2
    have : M 0 * (x 2 - x 1) = 0 := by linear_combination -h2
    exact (mul_eq_zero.1 this).resolve_right (by intro h; have : x (1 + 1) = x 2 := rfl; linarith)
  · by_cases hin' : i = n
    · subst hin'
      obtain ⟨k, rfl⟩ : ∃ k, i = k + 3 := ⟨i - 3, by omega⟩
      have g1 : x (k + 1) < x (k + 2) := hx (k + 1) (by omega)
      rw [m3, m4] at h3
      have h3' : M (k + 3) * (x (k + 2) - x (k + 1)) = 0 := by
        have : (0 - 0 : ℚ) * (x (k + 3) - x (k + 2)) = (M (k + 3) - 0) * (x (k + 2) - x (k + 1)) := h3
        linear_combination -this
      exact (mul_eq_zero.1 h3').resolve_right (by intro h; linarith)
    · exact hin i (Finset.mem_Ico.2 (by omega))

/-- The cubic system has a solution. -/
theorem cubic_exists {n : ℕ} (hn : 3 ≤ n) {x : ℕ → ℚ} (hx : Increasing n x) (y : ℕ → ℚ) : ∃ M, CubicSystem n x y M := by
  let row : (ℕ → ℚ) → ℕ → ℚ := fun M r =>
    if r = 0 then (M 1 - M 0) * (x 2 - x 1) - (M 2 - M 1) * (x 1 - x 0)
    else if r = n then (M (n - 1) - M (n - 2)) * (x n - x (n - 1)) - (M n - M (n - 1)) * (x (n - 1) - x (n - 2))
    else (x r - x (r - 1)) * M (r - 1) + 2 * (x (r + 1) - x (r - 1)) * M r + (x (r + 1) - x r) * M (r + 1)
  let b : ℕ → ℚ := fun r => if r = 0 ∨ r = n then 0 else
    6 * ((y (r + 1) - y r) / (x (r + 1) - x r) - (y r - y (r - 1)) / (x r - x (r - 1)))
  obtain ⟨M, hM⟩ := square_solvable n row
    (by intro M N r; simp only [row]; split_ifs <;> ring) (by intro c M r; simp only [row]; split_ifs <;> ring)
    (by
      intro M hM
      refine cubic_homogeneous hn hx ?_ ?_ ?_
      · intro i hi
        have := hM (i + 1) (by omega)
        simp only [row, if_neg (show i + 1 ≠ 0 by omega), if_neg (show i + 1 ≠ n by omega)] at this
        exact this
      · have := hM 0 (by omega)
        simp only [row, if_true] at this
        linarith
      · have := hM n le_rfl
        simp only [row, if_neg (show n ≠ 0 by omega), if_true] at this
        linarith) b
  refine ⟨M, ?_, ?_, ?_⟩
  · intro i hi
    have := hM (i + 1) (by omega)
    simp only [row, b, if_neg (show i + 1 ≠ 0 by omega), if_neg (show i + 1 ≠ n by omega),
      if_neg (show ¬ (i + 1 = 0 ∨ i + 1 = n) by omega)] at this
    exact this
  · have := hM 0 (by omega)
    simp only [row, b, if_true, true_or] at this
    linarith
  · have := hM n le_rfl
    simp only [row, b, if_neg (show n ≠ 0 by omega), if_true, or_true] at this
    linarith

/-- The cubic system has at most one solution. -/
theorem cubic_unique {n : ℕ} (hn : 3 ≤ n) {x : ℕ → ℚ} (hx : Increasing n x) {y M N : ℕ → ℚ} (hM : CubicSystem n x y M)
    (hN : CubicSystem n x y N) : ∀ i ≤ n, M i = N i := by
  have := cubic_homogeneous (M := fun i => M i - N i) hn hx
    (by intro i hi; linear_combination hM.1 i hi - hN.1 i hi) (by linear_combination hM.2.1 - hN.2.1)
    (by linear_combination hM.2.2 - hN.2.2)
  intro i hi
  have := this i hi
  linarith

/-! ## Polynomials of low degree -/

theorem eval_deg3 {p : ℚ[X]} (h : p.natDegree ≤ 3) (t : ℚ) :
    p.eval t = p.coeff 0 + p.coeff 1 * t + p.coeff 2 * t ^ 2 + p.coeff 3 * t ^ 3 := by
  rw [eval_eq_sum_range' (show p.natDegree < 4 by omega)]
  simp [Finset.sum_range_succ]

theorem eval_deriv_deg3 {p : ℚ[X]} (h : p.natDegree ≤ 3) (t : ℚ) :
    (derivative p).eval t = p.coeff 1 + 2 * p.coeff 2 * t + 3 * p.coeff 3 * t ^ 2 := by
  have hd : (derivative p).natDegree < 3 := by
    have := natDegree_derivative_le p
    omega
  rw [eval_eq_sum_range' hd]
  simp only [Finset.sum_range_succ, Finset.range_zero, Finset.sum_empty, coeff_derivative]
  push_cast
  ring

theorem eval_deriv2_deg3 {p : ℚ[X]} (h : p.natDegree ≤ 3) (t : ℚ) :
    (derivative (derivative p)).eval t = 2 * p.coeff 2 + 6 * p.coeff 3 * t := by
  have hd : (derivative (derivative p)).natDegree < 2 := by
    have := natDegree_derivative_le p
    have := natDegree_derivative_le (derivative p)
    omega
  rw [eval_eq_sum_range' hd]
  simp only [Finset.sum_range_succ, Finset.range_zero, Finset.sum_empty, coeff_derivative]
  push_cast
  ring

/-! ## The cubic spline -/

/-- A spline is described by a solution of the system. -/
theorem spline_system {n : ℕ} (hn : 3 ≤ n) {x y : ℕ → ℚ} (hx : Increasing n x) {s : ℚ → ℚ} (hs : IsCubicSpline n x y s) :
    ∃ M, CubicSystem n x y M ∧ ∀ i < n, ∀ t, x i ≤ t → t ≤ x (i + 1) → s t = cubicPiece x y M i t := by
  obtain ⟨p, hdeg, hpiece, hder, hp0, hpn, hdata⟩ := hs
  let M : ℕ → ℚ := fun i => if i < n then (derivative (derivative (p i))).eval (x i)
    else (derivative (derivative (p (n - 1)))).eval (x n)
  have hMl : ∀ i < n, M i = 2 * (p i).coeff 2 + 6 * (p i).coeff 3 * x i := by
    intro i hi
    simp only [M, if_pos hi]
    exact eval_deriv2_deg3 (hdeg i hi) _
  have hMr : ∀ i < n, M (i + 1) = 2 * (p i).coeff 2 + 6 * (p i).coeff 3 * x (i + 1) := by
    intro i hi
    by_cases hi' : i + 1 < n
    · simp only [M, if_pos hi']
      rw [← (hder i hi').2]
      exact eval_deriv2_deg3 (hdeg i hi) _
    · obtain rfl : n = i + 1 := by omega
      simp only [M, if_neg hi']
      exact eval_deriv2_deg3 (hdeg i hi) _
  have hv0 : ∀ i < n, y i = (p i).coeff 0 + (p i).coeff 1 * x i + (p i).coeff 2 * x i ^ 2 + (p i).coeff 3 * x i ^ 3 := by
    intro i hi
    rw [← hdata i (by omega), hpiece i hi _ le_rfl (hx i hi).le, eval_deg3 (hdeg i hi)]
  have hv1 : ∀ i < n, y (i + 1) = (p i).coeff 0 + (p i).coeff 1 * x (i + 1) + (p i).coeff 2 * x (i + 1) ^ 2 +
      (p i).coeff 3 * x (i + 1) ^ 3 := by
    intro i hi
    rw [← hdata (i + 1) (by omega), hpiece i hi _ (hx i hi).le le_rfl, eval_deg3 (hdeg i hi)]
  have hδ : ∀ i < n, (y (i + 1) - y i) / (x (i + 1) - x i) = (p i).coeff 1 + (p i).coeff 2 * (x (i + 1) + x i) +
      (p i).coeff 3 * (x (i + 1) ^ 2 + x (i + 1) * x i + x i ^ 2) := by
    intro i hi
    have := hx i hi
    rw [div_eq_iff (by intro h; linarith), hv0 i hi, hv1 i hi]
    ring
  refine ⟨M, ⟨?_, ?_, ?_⟩, ?_⟩
  · intro i hi
    have hi0 : i < n := by omega
    have hi1 : i + 1 < n := by omega
    have e0 := hMl i hi0
    have e1 := hMr i hi0
    have e1' := hMl (i + 1) hi1
    have e2 := hMr (i + 1) hi1
    have d0 := hδ i hi0
    have d1 := hδ (i + 1) hi1
    have dd := (hder i hi1).1
    rw [eval_deriv_deg3 (hdeg i hi0), eval_deriv_deg3 (hdeg (i + 1) hi1)] at dd
    rw [show i + 1 + 1 = i + 2 from rfl] at e2 d1
    rw [d0, d1, e0, e2]
    rw [show 2 * (x (i + 2) - x i) * M (i + 1) = 2 * (x (i + 2) - x (i + 1)) * M (i + 1) + 2 * (x (i + 1) - x i) * M (i + 1) by ring]
    nth_rewrite 1 [e1']
    rw [e1]
    linear_combination 6 * dd
  · have c : (p 0).coeff 3 = (p 1).coeff 3 := congrArg (fun q => coeff q 3) hp0
    rw [hMl 0 (by omega), hMr 1 (by omega)]
    have a := hMr 0 (by omega)
    have b := hMl 1 (by omega)
    rw [zero_add] at a
    rw [show x (1 + 1) = x 2 from rfl]
    nth_rewrite 1 [a]
    rw [b, c]
    ring
  · obtain ⟨k, rfl⟩ : ∃ k, n = k + 3 := ⟨n - 3, by omega⟩
    have c : (p (k + 1)).coeff 3 = (p (k + 2)).coeff 3 := congrArg (fun q => coeff q 3) hpn
    show (M (k + 2) - M (k + 1)) * (x (k + 3) - x (k + 2)) = (M (k + 3) - M (k + 2)) * (x (k + 2) - x (k + 1))
    rw [hMl (k + 1) (by omega), hMr (k + 2) (by omega)]
    have a : M (k + 2) = _ := hMr (k + 1) (by omega)
    have b := hMl (k + 2) (by omega)
    rw [show x (k + 1 + 1) = x (k + 2) from rfl] at a
    rw [show x (k + 2 + 1) = x (k + 3) from rfl]
    nth_rewrite 1 [a]
    rw [b, c]
    ring
  · intro i hi t h1 h2
    rw [hpiece i hi t h1 h2, eval_deg3 (hdeg i hi)]
    unfold cubicPiece
    have hne : x (i + 1) - x i ≠ 0 := by have := hx i hi; intro h; linarith
    have hlead : (M (i + 1) - M i) / (6 * (x (i + 1) - x i)) = (p i).coeff 3 := by
      rw [div_eq_iff (by simpa using hne), hMl i hi, hMr i hi]; ring
    rw [hδ i hi, hlead, hMl i hi, hMr i hi, hv0 i hi]
    ring

/-- The polynomial of `cubicPiece`. -/
noncomputable def cubicPoly (x y M : ℕ → ℚ) (i : ℕ) : ℚ[X] :=
  C (y i) + C ((y (i + 1) - y i) / (x (i + 1) - x i) - (x (i + 1) - x i) * (2 * M i + M (i + 1)) / 6) * (X - C (x i)) +
    C (M i / 2) * (X - C (x i)) ^ 2 + C ((M (i + 1) - M i) / (6 * (x (i + 1) - x i))) * (X - C (x i)) ^ 3

theorem cubicPoly_eval (x y M : ℕ → ℚ) (i : ℕ) (t : ℚ) : (cubicPoly x y M i).eval t = cubicPiece x y M i t := by
  simp [cubicPoly, cubicPiece]

theorem cubicPoly_deg (x y M : ℕ → ℚ) (i : ℕ) : (cubicPoly x y M i).natDegree ≤ 3 := by
  unfold cubicPoly
  compute_degree

theorem cubicPoly_deriv (x y M : ℕ → ℚ) (i : ℕ) (t : ℚ) : (derivative (cubicPoly x y M i)).eval t =
    (y (i + 1) - y i) / (x (i + 1) - x i) - (x (i + 1) - x i) * (2 * M i + M (i + 1)) / 6 + M i * (t - x i) +
      3 * ((M (i + 1) - M i) / (6 * (x (i + 1) - x i))) * (t - x i) ^ 2 := by
  simp [cubicPoly, derivative_pow]
  ring

theorem cubicPoly_deriv2 (x y M : ℕ → ℚ) (i : ℕ) (t : ℚ) : (derivative (derivative (cubicPoly x y M i))).eval t =
    M i + 6 * ((M (i + 1) - M i) / (6 * (x (i + 1) - x i))) * (t - x i) := by
  simp [cubicPoly, derivative_pow]
  ring

theorem cubicPiece_left (x y M : ℕ → ℚ) (i : ℕ) : cubicPiece x y M i (x i) = y i := by simp [cubicPiece]

theorem cubicPiece_right {x : ℕ → ℚ} (y M : ℕ → ℚ) {i : ℕ} (h : x i < x (i + 1)) : cubicPiece x y M i (x (i + 1)) = y (i + 1) := by
  have hne : x (i + 1) - x i ≠ 0 := by intro h; linarith
  unfold cubicPiece
  field_simp
  ring

/-- Adjacent pieces with equal third derivatives are the same polynomial. -/
theorem cubicPoly_join {n : ℕ} {x y M : ℕ → ℚ} (hx : Increasing n x) (hM : CubicSystem n x y M) {i : ℕ} (hi : i + 2 ≤ n)
    (h : (M (i + 1) - M i) * (x (i + 2) - x (i + 1)) = (M (i + 2) - M (i + 1)) * (x (i + 1) - x i)) :
    cubicPoly x y M i = cubicPoly x y M (i + 1) := by
  apply Polynomial.funext
  intro t
  rw [cubicPoly_eval, cubicPoly_eval]
  have g0 := hx i (by omega)
  have g1 : x (i + 1) < x (i + 2) := hx (i + 1) (by omega)
  have n0 : x (i + 1) - x i ≠ 0 := by intro h; linarith
  have n1 : x (i + 2) - x (i + 1) ≠ 0 := by intro h; linarith
  have e := hM.1 i hi
  have he : (M (i + 2) - M (i + 1)) / (6 * (x (i + 2) - x (i + 1))) = (M (i + 1) - M i) / (6 * (x (i + 1) - x i)) := by
    rw [div_eq_div_iff (by simpa using n1) (by simpa using n0)]
    linear_combination -6 * h
  have ha : (M (i + 1) - M i) / (6 * (x (i + 1) - x i)) * (x (i + 1) - x i) = (M (i + 1) - M i) / 6 := by field_simp
  have hd : (y (i + 1) - y i) / (x (i + 1) - x i) * (x (i + 1) - x i) = y (i + 1) - y i := div_mul_cancel₀ _ n0
  unfold cubicPiece
  rw [show i + 1 + 1 = i + 2 from rfl, he]
  generalize (M (i + 1) - M i) / (6 * (x (i + 1) - x i)) = c at *
  generalize (y (i + 1) - y i) / (x (i + 1) - x i) = d0 at *
  generalize (y (i + 2) - y (i + 1)) / (x (i + 2) - x (i + 1)) = d1 at *
  have hu : t - x i = (t - x (i + 1)) + (x (i + 1) - x i) := by ring
  rw [hu]
  generalize t - x (i + 1) = u at *
  generalize hh0 : x (i + 1) - x i = h0 at *
  generalize hh1 : x (i + 2) - x (i + 1) = h1 at *
  have hsum : x (i + 2) - x i = h0 + h1 := by rw [← hh0, ← hh1]; ring
  rw [hsum] at e
  linear_combination (u / 6) * e + hd + (3 * u ^ 2 + 3 * u * h0 + h0 ^ 2) * ha

/-- A function made of the pieces of a solution is the spline. -/
theorem system_spline {n : ℕ} (hn : 3 ≤ n) {x y M : ℕ → ℚ} (hx : Increasing n x) (hM : CubicSystem n x y M) {s : ℚ → ℚ}
    (hs : ∀ i < n, ∀ t, x i ≤ t → t ≤ x (i + 1) → s t = cubicPiece x y M i t) : IsCubicSpline n x y s := by
  refine ⟨cubicPoly x y M, fun i _ => cubicPoly_deg _ _ _ _, ?_, ?_, ?_, ?_, ?_⟩
  · intro i hi t h1 h2
    rw [cubicPoly_eval]; exact hs i hi t h1 h2
  · intro i hi
    have g0 := hx i (by omega)
    have n0 : x (i + 1) - x i ≠ 0 := by intro h; linarith
    constructor
    · rw [cubicPoly_deriv, cubicPoly_deriv]
      have e := hM.1 i (by omega)
      rw [show i + 1 + 1 = i + 2 from rfl, sub_self]
      have ha : 3 * ((M (i + 1) - M i) / (6 * (x (i + 1) - x i))) * (x (i + 1) - x i) ^ 2 =
          (M (i + 1) - M i) * (x (i + 1) - x i) / 2 := by
        field_simp
        ring
      rw [ha]
      linear_combination e / 6
    · rw [cubicPoly_deriv2, cubicPoly_deriv2, sub_self]
      field_simp
      ring
  · exact cubicPoly_join hx hM (i := 0) (by omega) hM.2.1
  · obtain ⟨k, rfl⟩ : ∃ k, n = k + 3 := ⟨n - 3, by omega⟩
    exact cubicPoly_join hx hM (i := k + 1) (by omega) hM.2.2
  · intro i hi
    by_cases hi' : i < n
    · rw [hs i hi' _ le_rfl (hx i hi').le, cubicPiece_left]
    · obtain rfl : i = n := by omega
      obtain ⟨k, rfl⟩ : ∃ k, i = k + 1 := ⟨i - 1, by omega⟩
      rw [hs k (by omega) _ (hx k (by omega)).le le_rfl, cubicPiece_right _ _ (hx k (by omega))]

/-! ## The quadratic system -/

theorem quadratic_homogeneous {n : ℕ} (hn : 2 ≤ n) {x u : ℕ → ℚ} (hx : Increasing n x)
    (h1 : ∀ j, j + 3 ≤ n → quadraticSlope x u j + 2 * u (j + 1) + quadraticSlope x u (j + 1) = 0)
    (h2 : u 0 = 0) (h3 : u (n - 1) = 0) : ∀ i < n, u i = 0 := by
  have hin : ∀ i ∈ Finset.range n, u i = 0 := by
    apply dominated_zero
    intro i hi hne
    rw [Finset.mem_range] at hi
    by_contra hno
    push Not at hno
    have hpos := abs_pos.2 hne
    have hi0 : i ≠ 0 := by rintro rfl; exact hne h2
    have hil : i ≠ n - 1 := by rintro rfl; exact hne h3
    obtain ⟨k, rfl⟩ : ∃ k, i = k + 1 := ⟨i - 1, by omega⟩
    have e := h1 k (by omega)
    have g0 := hx k (by omega)
    have g1 : x (k + 1) < x (k + 2) := hx (k + 1) (by omega)
    have g2 : x (k + 2) < x (k + 3) := hx (k + 2) (by omega)
    have hd0 := hno k (Finset.mem_range.2 (by omega))
    have hd2 := hno (k + 2) (Finset.mem_range.2 (by omega))
    unfold quadraticSlope at e
    rw [show k + 1 + 2 = k + 3 from rfl, show k + 1 + 1 = k + 2 from rfl] at e
    generalize hα : (x (k + 2) - x (k + 1)) / (x (k + 2) - x k) = α
    generalize hβ : (x (k + 2) - x (k + 1)) / (x (k + 3) - x (k + 1)) = β
    have hα0 : 0 < α := by rw [← hα]; exact div_pos (by linarith) (by linarith)
    have hα1 : α < 1 := by rw [← hα, div_lt_one (by linarith)]; linarith
    have hβ0 : 0 < β := by rw [← hβ]; exact div_pos (by linarith) (by linarith)
    have hβ1 : β < 1 := by rw [← hβ, div_lt_one (by linarith)]; linarith
    have key : (4 - α - β) * u (k + 1) = -(α * u k + β * u (k + 2)) := by
      have e1 : ((x (k + 2) - x (k + 1)) * u k + (x (k + 1) - x k) * u (k + 1)) / (x (k + 2) - x k) =
          α * u k + (1 - α) * u (k + 1) := by
        rw [← hα]
        have : x (k + 2) - x k ≠ 0 := by intro h; linarith
        field_simp
        ring
      have e2 : ((x (k + 3) - x (k + 2)) * u (k + 1) + (x (k + 2) - x (k + 1)) * u (k + 2)) / (x (k + 3) - x (k + 1)) =
          (1 - β) * u (k + 1) + β * u (k + 2) := by
        rw [← hβ]
        have : x (k + 3) - x (k + 1) ≠ 0 := by intro h; linarith
        field_simp
        ring
      rw [e1, e2] at e
      linear_combination e
    have habs := congrArg abs key
    rw [abs_mul, abs_neg, abs_of_pos (show 0 < 4 - α - β by linarith)] at habs
    have t := abs_add_le (α * u k) (β * u (k + 2))
    rw [abs_mul, abs_mul, abs_of_pos hα0, abs_of_pos hβ0] at t
    have t1 := mul_le_mul_of_nonneg_left hd0 hα0.le
    have t2 := mul_le_mul_of_nonneg_left hd2 hβ0.le
    nlinarith
  intro i hi
  exact hin i (Finset.mem_range.2 hi)

theorem quadraticSlope_add (x u v : ℕ → ℚ) (j : ℕ) :
    quadraticSlope x (fun i => u i + v i) j = quadraticSlope x u j + quadraticSlope x v j := by unfold quadraticSlope; ring

theorem quadraticSlope_mul (x : ℕ → ℚ) (c : ℚ) (u : ℕ → ℚ) (j : ℕ) :
    quadraticSlope x (fun i => c * u i) j = c * quadraticSlope x u j := by unfold quadraticSlope; ring

/-- The quadratic system has a solution. -/
theorem quadratic_exists {n : ℕ} (hn : 2 ≤ n) {x : ℕ → ℚ} (hx : Increasing n x) (y : ℕ → ℚ) : ∃ u, QuadraticSystem n x y u := by
  let row : (ℕ → ℚ) → ℕ → ℚ := fun u r =>
    if r = 0 then u 0 else if r = n - 1 then u (n - 1)
    else quadraticSlope x u (r - 1) + 2 * u r + quadraticSlope x u r
  let b : ℕ → ℚ := fun r => if r = 0 then (y 1 - y 0) / (x 1 - x 0) else if r = n - 1 then (y n - y (n - 1)) / (x n - x (n - 1))
    else 4 * ((y (r + 1) - y r) / (x (r + 1) - x r))
  obtain ⟨u, hu⟩ := square_solvable (n - 1) row
    (by intro M N r; simp only [row, quadraticSlope_add]; split_ifs <;> ring)
    (by intro c M r; simp only [row, quadraticSlope_mul]; split_ifs <;> ring)
    (by
      intro u hu
      have := quadratic_homogeneous hn hx (u := u) ?_ ?_ ?_
      · intro i hi; exact this i (by omega)
      · intro j hj
        have := hu (j + 1) (by omega)
        simp only [row, if_neg (show j + 1 ≠ 0 by omega), if_neg (show j + 1 ≠ n - 1 by omega)] at this
        exact this
      · have := hu 0 (by omega)
        simpa only [row, if_true] using this
      · have := hu (n - 1) le_rfl
        simpa only [row, if_neg (show n - 1 ≠ 0 by omega), if_true] using this) b
  refine ⟨u, ?_, ?_, ?_⟩
  · intro j hj
    have := hu (j + 1) (by omega)
    simp only [row, b, if_neg (show j + 1 ≠ 0 by omega), if_neg (show j + 1 ≠ n - 1 by omega)] at this
    exact this
  · have := hu 0 (by omega)
    simpa only [row, b, if_true] using this
  · have := hu (n - 1) le_rfl
    simpa only [row, b, if_neg (show n - 1 ≠ 0 by omega), if_true] using this

/-- The quadratic system has at most one solution. -/
theorem quadratic_unique {n : ℕ} (hn : 2 ≤ n) {x : ℕ → ℚ} (hx : Increasing n x) {y u v : ℕ → ℚ} (hu : QuadraticSystem n x y u)
    (hv : QuadraticSystem n x y v) : ∀ i < n, u i = v i := by
  have hs : ∀ j, quadraticSlope x (fun i => u i - v i) j = quadraticSlope x u j - quadraticSlope x v j := by
    intro j; unfold quadraticSlope; ring
  have := quadratic_homogeneous (u := fun i => u i - v i) hn hx
    (by intro i hi; rw [hs, hs]; linear_combination hu.1 i hi - hv.1 i hi) (by linear_combination hu.2.1 - hv.2.1)
    (by linear_combination hu.2.2 - hv.2.2)
  intro i hi
  have := this i hi
  linarith

theorem eval_deg2 {p : ℚ[X]} (h : p.natDegree ≤ 2) (t : ℚ) : p.eval t = p.coeff 0 + p.coeff 1 * t + p.coeff 2 * t ^ 2 := by
  rw [eval_eq_sum_range' (show p.natDegree < 3 by omega)]
  simp [Finset.sum_range_succ]

theorem eval_deriv_deg2 {p : ℚ[X]} (h : p.natDegree ≤ 2) (t : ℚ) : (derivative p).eval t = p.coeff 1 + 2 * p.coeff 2 * t := by
  have hd : (derivative p).natDegree < 2 := by
    have := natDegree_derivative_le p
    omega
  rw [eval_eq_sum_range' hd]
  simp only [Finset.sum_range_succ, Finset.range_zero, Finset.sum_empty, coeff_derivative]
  push_cast
  ring

theorem increasing_le {n : ℕ} {x : ℕ → ℚ} (hx : Increasing n x) {i j : ℕ} (hij : i ≤ j) (hj : j ≤ n) : x i ≤ x j := by
  induction j, hij using Nat.le_induction with
  | base => exact le_rfl
  | succ k hk ih => exact le_trans (ih (by omega)) (hx k (by omega)).le

theorem increasing_lt {n : ℕ} {x : ℕ → ℚ} (hx : Increasing n x) {i j : ℕ} (hij : i < j) (hj : j ≤ n) : x i < x j :=
  lt_of_lt_of_le (hx i (by omega)) (increasing_le hx hij hj)

/-- Position of the breakpoints. -/
theorem quadraticBreak_mid {n : ℕ} (x : ℕ → ℚ) {j : ℕ} (h0 : 0 < j) (hj : j + 1 < n) :
    quadraticBreak n x j = (x j + x (j + 1)) / 2 := by
  unfold quadraticBreak
  rw [if_neg (by omega), if_neg (by omega)]

theorem quadraticBreak_le {n : ℕ} {x : ℕ → ℚ} (hx : Increasing n x) {j : ℕ} (hj : j + 1 < n) : quadraticBreak n x j < x (j + 1) := by
  by_cases h0 : j = 0
  · subst h0; simp only [quadraticBreak, if_true]; exact hx 0 (by omega)
  · rw [quadraticBreak_mid x (by omega) hj]
    have := hx j (by omega)
    linarith

theorem quadraticBreak_ge {n : ℕ} {x : ℕ → ℚ} (hx : Increasing n x) {j : ℕ} (hj : j + 1 < n) :
    x (j + 1) < quadraticBreak n x (j + 1) := by
  by_cases hl : j + 2 = n
  · unfold quadraticBreak
    rw [if_neg (by omega), if_pos (by omega), ← hl]
    exact hx (j + 1) (by omega)
  · rw [quadraticBreak_mid x (by omega) (by omega)]
    have := hx (j + 1) (by omega)
    linarith

theorem quadraticBreak_lt {n : ℕ} {x : ℕ → ℚ} (hx : Increasing n x) {j : ℕ} (hj : j + 1 < n) :
    quadraticBreak n x j < quadraticBreak n x (j + 1) := lt_trans (quadraticBreak_le hx hj) (quadraticBreak_ge hx hj)

/-- A quadratic spline is described by a solution of the system. -/
theorem quadratic_system {n : ℕ} (hn : 2 ≤ n) {x y : ℕ → ℚ} (hx : Increasing n x) {s : ℚ → ℚ} (hs : IsQuadraticSpline n x y s) :
    ∃ u, QuadraticSystem n x y u ∧ ∀ j, j + 1 < n → ∀ t, quadraticBreak n x j ≤ t → t ≤ quadraticBreak n x (j + 1) →
      s t = quadraticPiece x y u j t := by
  obtain ⟨p, hdeg, hpiece, hder, hdata⟩ := hs
  let u : ℕ → ℚ := fun j => (derivative (p (min j (n - 2)))).eval ((x j + x (j + 1)) / 2)
  have hul : ∀ j, j + 1 < n → u j = (p j).coeff 1 + (p j).coeff 2 * (x j + x (j + 1)) := by
    intro j hj
    simp only [u, min_eq_left (show j ≤ n - 2 by omega)]
    rw [eval_deriv_deg2 (hdeg j hj)]; ring
  have hur : ∀ j, j + 1 < n → u (j + 1) = (p j).coeff 1 + (p j).coeff 2 * (x (j + 1) + x (j + 2)) := by
    intro j hj
    by_cases hl : j + 2 = n
    · simp only [u, min_eq_right (show n - 2 ≤ j + 1 by omega)]
      rw [show n - 2 = j by omega, eval_deriv_deg2 (hdeg j hj), show j + 1 + 1 = j + 2 from rfl]; ring
    · simp only [u, min_eq_left (show j + 1 ≤ n - 2 by omega)]
      have := hder j (by omega)
      rw [quadraticBreak_mid x (by omega) (by omega)] at this
      rw [← this, eval_deriv_deg2 (hdeg j hj), show j + 1 + 1 = j + 2 from rfl]; ring
  have hval : ∀ j, j + 1 < n → y (j + 1) = (p j).coeff 0 + (p j).coeff 1 * x (j + 1) + (p j).coeff 2 * x (j + 1) ^ 2 := by
    intro j hj
    rw [← hdata (j + 1) (by omega), hpiece j hj _ (quadraticBreak_le hx hj).le (quadraticBreak_ge hx hj).le,
      eval_deg2 (hdeg j hj)]
  have hslope : ∀ j, j + 1 < n → quadraticSlope x u j = (p j).coeff 1 + 2 * (p j).coeff 2 * x (j + 1) := by
    intro j hj
    have := increasing_lt hx (show j < j + 2 by omega) (by omega)
    unfold quadraticSlope
    rw [div_eq_iff (by intro h; linarith), hul j hj, hur j hj]
    ring
  refine ⟨u, ⟨?_, ?_, ?_⟩, ?_⟩
  · intro j hj
    have hj0 : j + 1 < n := by omega
    have hj1 : j + 1 + 1 < n := by omega
    have g1 : x (j + 1) < x (j + 2) := hx (j + 1) (by omega)
    have b1 := quadraticBreak_mid (n := n) x (show 0 < j + 1 by omega) (by omega)
    rw [show j + 1 + 1 = j + 2 from rfl] at b1
    have c0 := hpiece j hj0 _ (quadraticBreak_lt hx hj0).le le_rfl
    have c1 := hpiece (j + 1) hj1 _ le_rfl (quadraticBreak_lt hx hj1).le
    rw [c0, eval_deg2 (hdeg j hj0), eval_deg2 (hdeg (j + 1) hj1), b1] at c1
    have d := hder j (by omega)
    rw [eval_deriv_deg2 (hdeg j hj0), eval_deriv_deg2 (hdeg (j + 1) hj1), b1] at d
    have v0 := hval j hj0
    have v1 := hval (j + 1) hj1
    rw [show j + 1 + 1 = j + 2 from rfl] at v1
    rw [hslope j hj0, hslope (j + 1) hj1, show j + 1 + 1 = j + 2 from rfl, hur j hj0, v0, v1]
    have hne : x (j + 2) - x (j + 1) ≠ 0 := by intro h; linarith
    field_simp
    linear_combination (x (j + 2) - x (j + 1)) * d + 4 * c1
  · have g0 := hx 0 (by omega)
    have v1 := hval 0 (by omega)
    have v0 : y 0 = (p 0).coeff 0 + (p 0).coeff 1 * x 0 + (p 0).coeff 2 * x 0 ^ 2 := by
      have hb : quadraticBreak n x 0 = x 0 := by simp [quadraticBreak]
      rw [← hdata 0 (by omega), hpiece 0 (by omega) _ (by rw [hb]) (by rw [← hb]; exact (quadraticBreak_lt hx (by omega)).le),
        eval_deg2 (hdeg 0 (by omega))]
    rw [zero_add] at v1 g0
    have e := hul 0 (by omega)
    rw [zero_add] at e
    rw [e, v1, v0, eq_div_iff (by intro h; linarith)]
    ring
  · obtain ⟨k, rfl⟩ : ∃ k, n = k + 2 := ⟨n - 2, by omega⟩
    show u (k + 1) = (y (k + 2) - y (k + 1)) / (x (k + 2) - x (k + 1))
    have g0 : x (k + 1) < x (k + 2) := hx (k + 1) (by omega)
    have v1 := hval k (by omega)
    have v0 : y (k + 2) = (p k).coeff 0 + (p k).coeff 1 * x (k + 2) + (p k).coeff 2 * x (k + 2) ^ 2 := by
      have hb : quadraticBreak (k + 2) x (k + 1) = x (k + 2) := by simp [quadraticBreak]
      rw [← hdata (k + 2) (by omega), hpiece k (by omega) _ (by rw [← hb]; exact (quadraticBreak_lt hx (by omega)).le) (by rw [hb]),
        eval_deg2 (hdeg k (by omega))]
    rw [hur k (by omega), v1, v0, eq_div_iff (by intro h; linarith)]
    ring
  · intro j hj t h1 h2
    rw [hpiece j hj t h1 h2, eval_deg2 (hdeg j hj)]
    unfold quadraticPiece
    have hlead : (u (j + 1) - u j) / (x (j + 2) - x j) = (p j).coeff 2 := by
      have := increasing_lt hx (show j < j + 2 by omega) (by omega)
      rw [div_eq_iff (by intro h; linarith), hul j hj, hur j hj]; ring
    rw [hslope j hj, hlead, hval j hj]
    ring

/-- The polynomial of `quadraticPiece`. -/
noncomputable def quadraticPoly (x y u : ℕ → ℚ) (j : ℕ) : ℚ[X] :=
  C (y (j + 1)) + C (quadraticSlope x u j) * (X - C (x (j + 1))) + C ((u (j + 1) - u j) / (x (j + 2) - x j)) * (X - C (x (j + 1))) ^ 2

theorem quadraticPoly_eval (x y u : ℕ → ℚ) (j : ℕ) (t : ℚ) : (quadraticPoly x y u j).eval t = quadraticPiece x y u j t := by
  simp [quadraticPoly, quadraticPiece]

theorem quadraticPoly_deg (x y u : ℕ → ℚ) (j : ℕ) : (quadraticPoly x y u j).natDegree ≤ 2 := by
  unfold quadraticPoly
  compute_degree

theorem quadraticPoly_deriv (x y u : ℕ → ℚ) (j : ℕ) (t : ℚ) : (derivative (quadraticPoly x y u j)).eval t =
    quadraticSlope x u j + 2 * ((u (j + 1) - u j) / (x (j + 2) - x j)) * (t - x (j + 1)) := by
  simp [quadraticPoly, derivative_pow]
  ring

theorem quadraticPiece_knot (x y u : ℕ → ℚ) (j : ℕ) : quadraticPiece x y u j (x (j + 1)) = y (j + 1) := by simp [quadraticPiece]

/-- The derivative at the midpoints is `u`. -/
theorem quadraticPoly_deriv_mid {n : ℕ} {x : ℕ → ℚ} (hx : Increasing n x) (y u : ℕ → ℚ) {j : ℕ} (hj : j + 1 < n) :
    (derivative (quadraticPoly x y u j)).eval ((x j + x (j + 1)) / 2) = u j ∧
    (derivative (quadraticPoly x y u j)).eval ((x (j + 1) + x (j + 2)) / 2) = u (j + 1) := by
  have := increasing_lt hx (show j < j + 2 by omega) (by omega)
  have hne : x (j + 2) - x j ≠ 0 := by intro h; linarith
  rw [quadraticPoly_deriv, quadraticPoly_deriv]
  unfold quadraticSlope
  constructor <;> field_simp <;> ring

/-- Adjacent pieces meet. -/
theorem quadraticPiece_join {n : ℕ} {x y u : ℕ → ℚ} (hx : Increasing n x) (hu : QuadraticSystem n x y u) {j : ℕ} (hj : j + 3 ≤ n) :
    quadraticPiece x y u j (quadraticBreak n x (j + 1)) = quadraticPiece x y u (j + 1) (quadraticBreak n x (j + 1)) := by
  rw [quadraticBreak_mid x (by omega) (by omega)]
  have e := hu.1 j hj
  have g0 := increasing_lt hx (show j < j + 2 by omega) (by omega)
  have g1 := increasing_lt hx (show j + 1 < j + 2 by omega) (by omega)
  have g2 := increasing_lt hx (show j + 1 < j + 3 by omega) (by omega)
  have n0 : x (j + 2) - x j ≠ 0 := by intro h; linarith
  have n1 : x (j + 2) - x (j + 1) ≠ 0 := by intro h; linarith
  have n2 : x (j + 3) - x (j + 1) ≠ 0 := by intro h; linarith
  have s0 : (x (j + 2) - x (j + 1)) * ((u (j + 1) - u j) / (x (j + 2) - x j)) = u (j + 1) - quadraticSlope x u j := by
    unfold quadraticSlope; field_simp; ring
  have s1 : (x (j + 2) - x (j + 1)) * ((u (j + 2) - u (j + 1)) / (x (j + 3) - x (j + 1))) = quadraticSlope x u (j + 1) - u (j + 1) := by
    unfold quadraticSlope; rw [show j + 1 + 2 = j + 3 from rfl, show j + 1 + 1 = j + 2 from rfl]; field_simp; ring
  have d : (y (j + 2) - y (j + 1)) / (x (j + 2) - x (j + 1)) * (x (j + 2) - x (j + 1)) = y (j + 2) - y (j + 1) := div_mul_cancel₀ _ n1
  unfold quadraticPiece
  rw [show j + 1 + 2 = j + 3 from rfl, show j + 1 + 1 = j + 2 from rfl]
  generalize (u (j + 1) - u j) / (x (j + 2) - x j) = c0 at *
  generalize (u (j + 2) - u (j + 1)) / (x (j + 3) - x (j + 1)) = c1 at *
  generalize (y (j + 2) - y (j + 1)) / (x (j + 2) - x (j + 1)) = δ at *
  generalize quadraticSlope x u j = q0 at *
  generalize quadraticSlope x u (j + 1) = q1 at *
  linear_combination ((x (j + 2) - x (j + 1)) / 4) * (s0 - s1 + e) + d

/-- A function made of the pieces of a solution is the quadratic spline. -/
theorem system_quadratic {n : ℕ} (hn : 2 ≤ n) {x y u : ℕ → ℚ} (hx : Increasing n x) (hu : QuadraticSystem n x y u) {s : ℚ → ℚ}
    (hs : ∀ j, j + 1 < n → ∀ t, quadraticBreak n x j ≤ t → t ≤ quadraticBreak n x (j + 1) → s t = quadraticPiece x y u j t) :
    IsQuadraticSpline n x y s := by
  refine ⟨quadraticPoly x y u, fun i _ => quadraticPoly_deg _ _ _ _, ?_, ?_, ?_⟩
  · intro i hi t h1 h2
    rw [quadraticPoly_eval]; exact hs i hi t h1 h2
  · intro j hj
    rw [quadraticBreak_mid x (by omega) (by omega), (quadraticPoly_deriv_mid hx y u (j := j) (by omega)).2,
      (quadraticPoly_deriv_mid hx y u (j := j + 1) (by omega)).1]
  · intro i hi
    by_cases h0 : i = 0
    · subst h0
      have hb : quadraticBreak n x 0 = x 0 := by simp [quadraticBreak]
      rw [hs 0 (by omega) _ (by rw [hb]) (by rw [← hb]; exact (quadraticBreak_lt hx (by omega)).le)]
      have g0 := increasing_lt hx (show 0 < 2 by omega) (by omega)
      have g1 := increasing_lt hx (show 0 < 1 by omega) (by omega)
      have n0 : x 2 - x 0 ≠ 0 := by intro h; linarith
      have n1 : x 1 - x 0 ≠ 0 := by intro h; linarith
      have e : u 0 * (x 1 - x 0) = y 1 - y 0 := by rw [hu.2.1]; exact div_mul_cancel₀ _ n1
      unfold quadraticPiece quadraticSlope
      simp only [zero_add]
      field_simp
      linear_combination (-(x 2 - x 0)) * e
    · by_cases hl : i = n
      · subst hl
        obtain ⟨k, rfl⟩ : ∃ k, i = k + 2 := ⟨i - 2, by omega⟩
        have hb : quadraticBreak (k + 2) x (k + 1) = x (k + 2) := by simp [quadraticBreak]
        rw [hs k (by omega) _ (by rw [← hb]; exact (quadraticBreak_lt hx (by omega)).le) (by rw [hb])]
        have g0 := increasing_lt hx (show k < k + 2 by omega) (by omega)
        have g1 := increasing_lt hx (show k + 1 < k + 2 by omega) (by omega)
        have n0 : x (k + 2) - x k ≠ 0 := by intro h; linarith
        have n1 : x (k + 2) - x (k + 1) ≠ 0 := by intro h; linarith
        have e : u (k + 1) * (x (k + 2) - x (k + 1)) = y (k + 2) - y (k + 1) := by
          have : u (k + 1) = _ := hu.2.2
          rw [this]; exact div_mul_cancel₀ _ n1
        unfold quadraticPiece quadraticSlope
        field_simp
        linear_combination (x (k + 2) - x k) * e
      · obtain ⟨k, rfl⟩ : ∃ k, i = k + 1 := ⟨i - 1, by omega⟩
        rw [hs k (by omega) _ (quadraticBreak_le hx (by omega)).le (quadraticBreak_ge hx (by omega)).le, quadraticPiece_knot]

/-! ## Finding the piece -/

/-- Choosing the last piece that starts at or before `t` gives the value of any piece whose interval contains `t`. -/
theorem piece_find {N : ℕ} {b : ℕ → ℚ} (hb : ∀ j ≤ N, b j < b (j + 1)) (f : ℕ → ℚ → ℚ)
    (hf : ∀ j < N, f j (b (j + 1)) = f (j + 1) (b (j + 1))) (t : ℚ) (P : ℕ → Prop) [DecidablePred P]
    (hP : ∀ j ≤ N, P j ↔ b j ≤ t) {i : ℕ} (hi : i ≤ N) (h1 : b i ≤ t) (h2 : t ≤ b (i + 1)) :
    f (Nat.findGreatest P N) t = f i t := by
  have hmono : ∀ {p q : ℕ}, p ≤ q → q ≤ N + 1 → b p ≤ b q := fun hpq hq =>
    increasing_le (n := N + 1) (fun j hj => hb j (by omega)) hpq hq
  have k1 : i ≤ Nat.findGreatest P N := Nat.le_findGreatest hi ((hP i hi).2 h1)
  have k2 : Nat.findGreatest P N ≤ N := Nat.findGreatest_le N
  have k3 : P (Nat.findGreatest P N) := Nat.findGreatest_spec hi ((hP i hi).2 h1)
  generalize Nat.findGreatest P N = k at *
  have k4 := (hP k k2).1 k3
  rcases Nat.lt_or_ge i k with hlt | hge
  · have e1 : b (i + 1) ≤ b k := hmono hlt (by omega)
    have e2 : t = b (i + 1) := le_antisymm h2 (le_trans e1 k4)
    have e3 : k = i + 1 := by
      by_contra hne
      have : b (i + 1) < b (i + 2) := hb (i + 1) (by omega)
      have : b (i + 2) ≤ b k := hmono (by omega) (by omega)
      linarith
    rw [e3, e2]
    exact (hf i (by omega)).symm
  · rw [le_antisymm hge k1]

/-- Every point between the ends lies in some interval. -/
theorem piece_exists {N : ℕ} {b : ℕ → ℚ} {t : ℚ} (h1 : b 0 ≤ t) (h2 : t ≤ b (N + 1)) : ∃ i ≤ N, b i ≤ t ∧ t ≤ b (i + 1) := by
  induction N with
  | zero => exact ⟨0, le_rfl, h1, h2⟩
  | succ k ih =>
    by_cases h : t ≤ b (k + 1)
    · obtain ⟨i, hi, h3⟩ := ih h
      exact ⟨i, by omega, h3⟩
    · exact ⟨k + 1, le_rfl, (not_le.1 h).le, h2⟩

end Verif
