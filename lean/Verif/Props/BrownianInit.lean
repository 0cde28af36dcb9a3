/- C110: constructing a Brownian motion from a correlation matrix. -/
import Verif.Model.BrownianInit
import Verif.Lemmas.Cholesky
import Verif.Props.Correlation

namespace Verif.Props
open Verif Matrix MeasureTheory ProbabilityTheory
open Verif.Spec (Forward StepLengths elapsed)

variable {p : Nat}

/-- Positive definite: a valid, nondegenerate covariance of `p` variables. -/
def PositiveDefinite (a : Mat p) : Prop := ∀ x : Vec p, x ≠ 0 → 0 < ∑ i, ∑ j, x i * a i j * x j

theorem lowerSymmetric_of_symmetric {a : Mat p} (h : ∀ i j, a i j = a j i) : lowerSymmetric a = a := by
  funext i j
  unfold lowerSymmetric
  split_ifs
  · rfl
  · exact h j i

theorem lowerSymmetric_symm (a : Mat p) : (lowerSymmetric a)ᵀ = lowerSymmetric a := by
  funext i j
  show lowerSymmetric a j i = lowerSymmetric a i j
  unfold lowerSymmetric
  rcases lt_trichotomy i j with h | h | h
  · rw [if_pos h.le, if_neg (not_le.2 h)]
  · subst h; rfl
  · rw [if_neg (not_le.2 h), if_pos h.le]

/-- C110. For a symmetric correlation matrix and a dimension that is not zero, the constructor succeeds exactly when the matrix is positive
definite, and is a LinAlgError otherwise; a dimension of zero is an AssertionError. -/
theorem C110_constructor (start stop : PyDatetime) (dimension : Nat) (corr : Mat p) (hs : ∀ i j, corr i j = corr j i)
    (dcc : DayCountConvention) :
    (dimension = 0 → SizedBrownian.create start stop dimension corr dcc = .error .assertionError) ∧
    (dimension ≠ 0 → PositiveDefinite corr → ∃ b, SizedBrownian.create start stop dimension corr dcc = .ok b ∧
      (∀ i j, ∑ m, b.bm.chol i m * b.bm.chol j m = corr i j) ∧ (∀ i j, i < j → b.bm.chol i j = 0) ∧ (∀ i, 0 < b.bm.chol i i) ∧
      b.dimension = dimension ∧ b.bm.start = start ∧ b.bm.stop = stop ∧ b.bm.dcc = dcc ∧ b.bm.grid = none ∧ b.bm.path = none) ∧
    (dimension ≠ 0 → ¬ PositiveDefinite corr → SizedBrownian.create start stop dimension corr dcc = .error .linAlgError) := by
  have hsym : corrᵀ = corr := by funext i j; exact hs j i
  refine ⟨fun h => ?_, fun h hp => ?_, fun h hp => ?_⟩
  · unfold SizedBrownian.create; rw [if_pos h]
  · obtain ⟨c, hc⟩ := (cholesky_iff corr).2 ⟨hsym, hp⟩
    refine ⟨⟨dimension, { start := start, stop := stop, chol := c, dcc := dcc, grid := none, path := none }⟩, ?_, fun i j => ?_, hc.1, hc.2.1,
      rfl, rfl, rfl, rfl, rfl, rfl⟩
    · unfold SizedBrownian.create
      rw [if_neg h, lowerSymmetric_of_symmetric hs, npCholesky_ok.2 hc]; rfl
    · have := congrFun (congrFun hc.2.2 i) j
      rwa [Matrix.mul_apply] at this
  · unfold SizedBrownian.create
    rw [if_neg h, lowerSymmetric_of_symmetric hs, npCholesky_error]
    · rfl
    · intro hex; exact hp ((cholesky_iff corr).1 hex).2

/-- C110. Two perfectly correlated coordinates, or a matrix with a correlation beyond one, are rejected. -/
theorem C110_perfect_correlation (start stop : PyDatetime) (dimension : Nat) (h : dimension ≠ 0) (corr : Mat p)
    (hs : ∀ i j, corr i j = corr j i) (dcc : DayCountConvention) (i j : Fin p) (hij : i ≠ j) (h1 : corr i i = 1) (h2 : corr j j = 1)
    (h3 : 1 ≤ |corr i j|) : SizedBrownian.create start stop dimension corr dcc = .error .linAlgError := by
  refine (C110_constructor start stop dimension corr hs dcc).2.2 h fun hp => ?_
  -- the combination of the two coordinates with opposite signs has no variance
  let s : ℝ := if 0 ≤ corr i j then -1 else 1
  let x : Vec p := fun k => (if k = i then 1 else 0) + (if k = j then s else 0)
  have hx : x ≠ 0 := by
    intro h0
    have := congrFun h0 i
    simp [x, hij] at this
  have hsum : ∀ f : Vec p, ∑ k, x k * f k = f i + s * f j := by
    intro f
    simp [x, add_mul, Finset.sum_add_distrib, ite_mul]
  have hq : ∑ k, ∑ l, x k * corr k l * x l = corr i i + s * corr i j + s * (corr j i + s * corr j j) := by
    have e : ∀ k, ∑ l, x k * corr k l * x l = x k * (corr k i + s * corr k j) := by
      intro k
      rw [← hsum (fun l => corr k l), Finset.mul_sum]
      exact Finset.sum_congr rfl fun l _ => by ring
    simp only [e]
    rw [hsum]
  have := hp x hx
  rw [hq, hs j i, h1, h2] at this
  simp only [s] at this
  split_ifs at this with h0
  · rw [abs_of_nonneg h0] at h3; linarith
  · rw [abs_of_neg (not_le.1 h0)] at h3; linarith

/-- C110. Without a correlation matrix the coordinates are independent of each other: the factor is the identity. -/
theorem C110_default (start stop : PyDatetime) (dimension : Nat) (dcc : DayCountConvention) :
    SizedBrownian.createDefault start stop dimension dcc =
      if dimension = 0 then .error .assertionError
      else .ok ⟨dimension, { start := start, stop := stop, chol := (1 : Mat dimension), dcc := dcc, grid := none, path := none }⟩ := by
  unfold SizedBrownian.createDefault SizedBrownian.create
  have : lowerSymmetric (1 : Mat dimension) = 1 := lowerSymmetric_of_symmetric fun i j => by
    rcases eq_or_ne i j with h | h
    · subst h; rfl
    · rw [Matrix.one_apply_ne h, Matrix.one_apply_ne h.symm]
  rw [this, npCholesky_ok.2 isCholesky_one]
  rfl

/-- C110. The constructor reads only the entries on and below the diagonal: entries above it can be anything, and a matrix that is not
symmetric is not rejected for it. -/
theorem C110_lower_triangle (start stop : PyDatetime) (dimension : Nat) (corr corr' : Mat p) (dcc : DayCountConvention)
    (h : ∀ i j, j ≤ i → corr i j = corr' i j) :
    SizedBrownian.create start stop dimension corr dcc = SizedBrownian.create start stop dimension corr' dcc := by
  have : lowerSymmetric corr = lowerSymmetric corr' := by
    funext i j
    unfold lowerSymmetric
    split_ifs with hij
    · exact h i j hij
    · exact h j i (not_le.1 hij).le
  unfold SizedBrownian.create
  rw [this]

/-- C110. The dimension is not checked against the matrix: with another (nonzero) dimension, such as the default one of 1 for a larger
matrix, the constructor succeeds just the same, but nothing can be simulated: every simulation whose grid can be computed is a ValueError. -/
theorem C110_dimension_unchecked (start stop : PyDatetime) (dimension : Nat) (h0 : dimension ≠ 0) (hp0 : p ≠ 0) (corr : Mat p)
    (dcc : DayCountConvention) (b : SizedBrownian p) (hb : SizedBrownian.create start stop p corr dcc = .ok b) :
    ∃ b', SizedBrownian.create start stop dimension corr dcc = .ok b' ∧ b'.bm = b.bm ∧ b'.dimension = dimension ∧
      (dimension ≠ p → ∀ dt set normals, (∃ path, (b.generatePath dt set normals).1 = .ok path) →
        (b'.generatePath dt set normals).1 = .error .valueError) ∧
      (dimension = p → ∀ dt set normals, (b'.generatePath dt set normals).1 = (b'.bm.generatePath dt set normals).1 ∧
        (b'.generatePath dt set normals).2.bm = (b'.bm.generatePath dt set normals).2) := by
  unfold SizedBrownian.create at hb
  rw [if_neg hp0, bind_ok] at hb
  obtain ⟨c, hc, hb⟩ := hb
  injection hb with hb
  refine ⟨⟨dimension, b.bm⟩, ?_, rfl, rfl, fun hne dt set normals hex => ?_, fun he dt set normals => ?_⟩
  · unfold SizedBrownian.create
    rw [if_neg h0, hc, ← hb]; rfl
  · obtain ⟨path, hpath⟩ := hex
    unfold SizedBrownian.generatePath SizedBrownian.generateIncrements at hpath ⊢
    cases hi : (b.bm.generateIncrements dt normals).1 with
    | error e => simp only [hi] at hpath; cases hpath
    | ok x =>
      simp only [hi]
      rw [if_neg hne]
  · unfold SizedBrownian.generatePath SizedBrownian.generateIncrements BrownianMotion.generatePath
    rcases hi : b.bm.generateIncrements dt normals with ⟨_ | x, bm'⟩
    · exact ⟨rfl, rfl⟩
    · simp only [he, if_true]
      refine ⟨trivial, ?_⟩
      cases set <;> rfl

section
variable {Ω : Type} [MeasurableSpace Ω] {μ : Measure Ω} [IsProbabilityMeasure μ] {Z : Nat → Fin p → Ω → ℝ}

/-- C110. From the constructor to the simulated path: for every symmetric positive definite matrix, of any size, a Brownian motion constructed
with it simulates paths whose covariances are the entries of the matrix times the elapsed time. -/
theorem C110_simulated (hZ : StandardNormals μ Z) (start stop : PyDatetime) (hle : start ≤ stop) (hp0 : p ≠ 0) (corr : Mat p)
    (hs : ∀ i j, corr i j = corr j i) (hpos : PositiveDefinite corr) (dcc : DayCountConvention) (hd : dcc ≠ .thirty360) (dt : DtIncrement)
    (hf : Forward dt) (set : Bool) :
    ∃ b, SizedBrownian.create start stop p corr dcc = .ok b ∧
      ∀ (path : Ω → List (Vec p)), (∀ ω, (b.generatePath dt set (fun k i => Z k i ω)).1 = .ok (path ω)) →
      ∃ grid dts, BrownianMotion.makeGrid start stop dt = .ok grid ∧ StepLengths dcc grid dts ∧ (∀ ω, (path ω).length = grid.length) ∧
        ∀ m, m < grid.length → ∀ i, (∫ ω, (path ω).getD m 0 i ∂μ = 0) ∧ ∀ n, n < grid.length → ∀ j,
          ∫ ω, (path ω).getD m 0 i * (path ω).getD n 0 j ∂μ = corr i j * (elapsed dts (min m n) : ℝ) := by
  obtain ⟨b, hb, hchol, -, -, hdim, h1, h2, h3, -, -⟩ := (C110_constructor start stop p corr hs dcc).2.1 hp0 hpos
  refine ⟨b, hb, fun path hpath => ?_⟩
  obtain ⟨b', hb', e1, e2, -, e4⟩ := C110_dimension_unchecked start stop p hp0 hp0 corr dcc b hb
  rw [hb] at hb'
  injection hb' with hb'
  subst hb'
  have := C56_path hZ b.bm (fun ω => (b.bm.generatePath dt set (fun k i => Z k i ω)).2) corr hchol (by rw [h3]; exact hd) dt hf
    (by rw [h1, h2]; exact hle) set path (fun ω => by
      rw [← hpath ω, (e4 rfl dt set _).1])
  rw [h1, h2, h3] at this
  exact this

end

/-- Concrete case for C110: correlation 1/2 between two coordinates is positive definite. -/
example : PositiveDefinite (!![1, 1 / 2; 1 / 2, 1] : Mat 2) := by
  intro x hx
  have hne : x 0 ≠ 0 ∨ x 1 ≠ 0 := by
    by_contra hc
    push_neg at hc
    apply hx
    funext i
    fin_cases i
    · exact hc.1
    · exact hc.2
  simp only [Fin.sum_univ_two, Matrix.of_apply, Matrix.cons_val_zero, Matrix.cons_val_one]
  rcases hne with h | h <;> have := sq_pos_of_ne_zero h <;> nlinarith [sq_nonneg (x 0 + x 1), sq_nonneg (x 0), sq_nonneg (x 1)]

end Verif.Props
