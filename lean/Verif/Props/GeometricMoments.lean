/- Moments of simulated geometric Brownian motion: C86. -/
import Verif.Props.Correlation
import Mathlib.Analysis.SpecialFunctions.Log.Deriv

namespace Verif.Props
open Verif Verif.Spec Verif.DayCount Finset MeasureTheory ProbabilityTheory

section
variable {Ω : Type} [MeasurableSpace Ω] {μ : Measure Ω} [IsProbabilityMeasure μ] {p : Nat} {Z : Nat → Fin p → Ω → ℝ}

/-- Functions of the draws of different steps are independent: the expectation of their product is the product of their
expectations. -/
theorem steps_product (hZ : StandardNormals μ Z) (F : Nat → (Fin p → ℝ) → ℝ) (hF : ∀ k, Measurable (F k))
    (hI : ∀ k, Integrable (fun ω => F k (fun i => Z k i ω)) μ) (n : Nat) :
    Integrable (fun ω => ∏ k ∈ range n, F k (fun i => Z k i ω)) μ ∧
    ∫ ω, ∏ k ∈ range n, F k (fun i => Z k i ω) ∂μ = ∏ k ∈ range n, ∫ ω, F k (fun i => Z k i ω) ∂μ := by
  induction n with
  | zero => simp
  | succ n ih =>
    have hind := hZ.independent.indepFun_finset (range n ×ˢ (univ : Finset (Fin p))) ({n} ×ˢ (univ : Finset (Fin p)))
      (by
        rw [Finset.disjoint_left]
        rintro ⟨a, b⟩ h1 h2
        rw [Finset.mem_product] at h1 h2
        have h1 := Finset.mem_range.1 h1.1
        have h2 := Finset.mem_singleton.1 h2.1
        simp only at h1 h2
        omega)
      (fun ki => hZ.measurable ki.1 ki.2)
    let φ : ((range n ×ˢ (univ : Finset (Fin p)) : Finset (Nat × Fin p)) → ℝ) → ℝ := fun x =>
      ∏ k ∈ range n, F k (fun i => if h : (k, i) ∈ range n ×ˢ (univ : Finset (Fin p)) then x ⟨(k, i), h⟩ else 0)
    let ψ : (({n} ×ˢ (univ : Finset (Fin p)) : Finset (Nat × Fin p)) → ℝ) → ℝ := fun x =>
      F n (fun i => x ⟨(n, i), by simp⟩)
    have hφ : Measurable φ := by
      refine Finset.measurable_fun_prod _ fun k _ => (hF k).comp (measurable_pi_lambda _ fun i => ?_)
      by_cases h : (k, i) ∈ range n ×ˢ (univ : Finset (Fin p))
      · simp only [h, dite_true]; exact measurable_pi_apply _
      · simp only [h, dite_false]; exact measurable_const
    have hψ : Measurable ψ := (hF n).comp (measurable_pi_lambda _ fun i => measurable_pi_apply _)
    have hc := hind.comp hφ hψ
    have e1 : (φ ∘ fun ω (i : (range n ×ˢ (univ : Finset (Fin p)) : Finset (Nat × Fin p))) => Z i.1.1 i.1.2 ω) =
        fun ω => ∏ k ∈ range n, F k (fun i => Z k i ω) := by
      funext ω
      simp only [Function.comp, φ]
      refine Finset.prod_congr rfl fun k hk => ?_
      congr 1
      funext i
      rw [dif_pos (by simp only [Finset.mem_product, Finset.mem_univ, and_true]; exact hk)]
    have e2 : (ψ ∘ fun ω (i : ({n} ×ˢ (univ : Finset (Fin p)) : Finset (Nat × Fin p))) => Z i.1.1 i.1.2 ω) =
        fun ω => F n (fun i => Z n i ω) := by
      funext ω; rfl
    rw [e1, e2] at hc
    simp only [Finset.prod_range_succ]
    refine ⟨hc.integrable_mul ih.1 (hI n), ?_⟩
    rw [← ih.2]
    exact hc.integral_fun_mul_eq_mul_integral ih.1.aestronglyMeasurable (hI n).aestronglyMeasurable

theorem prod_if_split {n m : Nat} (hmn : m ≤ n) (f g : Nat → ℝ) :
    (∏ k ∈ range m, f k) * (∏ k ∈ range n, g k) = ∏ k ∈ range n, (if k < m then f k else 1) * g k := by
  rw [Finset.prod_mul_distrib]
  congr 1
  obtain ⟨d, rfl⟩ : ∃ d, n = m + d := ⟨n - m, by omega⟩
  rw [Finset.prod_range_add]
  have h1 : ∏ k ∈ range m, (if k < m then f k else 1) = ∏ k ∈ range m, f k :=
    Finset.prod_congr rfl fun k hk => if_pos (Finset.mem_range.1 hk)
  have h2 : ∏ k ∈ range d, (if m + k < m then f (m + k) else 1) = 1 :=
    Finset.prod_eq_one fun k _ => if_neg (by omega)
  rw [h1, h2, mul_one]

/-- The factor of one step of a simulated geometric Brownian motion, as a function of the step's draws. -/
noncomputable def stepFactor (mu sigma : ℝ) (chol : Fin p → Fin p → ℝ) (d : ℚ) (i : Fin p) (z : Fin p → ℝ) : ℝ :=
  1 + mu * (d : ℝ) + sigma * ∑ j, chol i j * (z j * Real.sqrt (d : ℝ))

theorem stepFactor_measurable (mu sigma : ℝ) (chol : Fin p → Fin p → ℝ) (d : ℚ) (i : Fin p) :
    Measurable (stepFactor mu sigma chol d i) := by
  unfold stepFactor
  refine measurable_const.add (measurable_const.mul (Finset.measurable_fun_sum _ fun j _ => ?_))
  exact measurable_const.mul ((measurable_pi_apply j).mul measurable_const)

/-- C86. With independent standard normal draws, the simulated geometric Brownian motion at each grid point has mean
`x0 ∏(1 + drift·dt)`, and the values of two coordinates at two grid points `m ≤ n` have the expected product
`x0_i x0_j ∏_{k<m} ((1 + drift·dt_k)² + volatility²·correlation·dt_k) ∏_{m≤k<n} (1 + drift·dt_k)`. -/
theorem C86_moments (hZ : StandardNormals μ Z) (b : BrownianMotion p) (b' : Ω → BrownianMotion p) (corr : Fin p → Fin p → ℝ)
    (hchol : ∀ i j, ∑ m, b.chol i m * b.chol j m = corr i j) (hd : b.dcc ≠ .thirty360) (dt : DtIncrement) (hf : Forward dt)
    (hle : b.start ≤ b.stop) (mu sigma : ℝ) (x0 : Vec p) (path : Ω → List (Vec p))
    (h : ∀ ω, Geometric.generatePath mu sigma b dt x0 (fun k i => Z k i ω) = (.ok (path ω), b' ω)) :
    ∃ grid dts, BrownianMotion.makeGrid b.start b.stop dt = .ok grid ∧ StepLengths b.dcc grid dts ∧
      (∀ k (hk : k < dts.length), 0 < dts[k]) ∧ (∀ ω, (path ω).length = grid.length) ∧
      ∀ n, n < grid.length → ∀ i,
        (∫ ω, (path ω).getD n 0 i ∂μ = x0 i * ∏ k ∈ range n, (1 + mu * (dts.getD k 0 : ℝ))) ∧
        ∀ m, m ≤ n → ∀ j,
          ∫ ω, (path ω).getD m 0 j * (path ω).getD n 0 i ∂μ =
            x0 j * x0 i * ((∏ k ∈ range m, ((1 + mu * (dts.getD k 0 : ℝ)) ^ 2 + sigma ^ 2 * corr i j * (dts.getD k 0 : ℝ))) *
              ∏ k ∈ Ico m n, (1 + mu * (dts.getD k 0 : ℝ))) := by
  obtain ⟨ω0⟩ : Nonempty Ω := μ.nonempty_of_neZero
  obtain ⟨grid, dts, hg, hs, hl, -⟩ := C59_product mu sigma b _ dt x0 _ _ (h ω0)
  obtain ⟨-, -, hinc, -⟩ := C55_grid b.start b.stop dt hf hle grid hg
  have hprod : ∀ ω, (path ω).length = grid.length ∧ ∀ n, n < grid.length → ∀ i,
      (path ω).getD n 0 i = x0 i * ∏ k ∈ range n, stepFactor mu sigma b.chol (dts.getD k 0) i (fun j => Z k j ω) := by
    intro ω
    obtain ⟨grid', dts', hg', hs', hl', dW, hW, hp'⟩ := C59_product mu sigma b _ dt x0 _ _ (h ω)
    rw [hg] at hg'
    injection hg' with hg'
    subst hg'
    have hdts : dts' = dts := by
      apply List.ext_getElem
      · have := hs.1; have := hs'.1; omega
      · intro j hj hj'
        have e1 := hs.2 j hj' (by have := hs.1; omega) (by have := hs.1; omega)
        have e2 := hs'.2 j hj (by have := hs.1; omega) (by have := hs.1; omega)
        rw [e1] at e2
        injection e2 with e2
        exact e2.symm
    subst hdts
    refine ⟨hl', fun n hn i => ?_⟩
    rw [List.getD_eq_getElem?_getD, List.getElem?_eq_getElem (by omega), Option.getD_some, hp' n (by omega) i]
    congr 1
    refine Finset.prod_congr rfl fun k hk => ?_
    have hk' : k < dts'.length := by have := Finset.mem_range.1 hk; have := hs.1; omega
    rw [hW k hk']
    unfold stepFactor shock
    rw [List.getD_eq_getElem?_getD, List.getElem?_eq_getElem hk', Option.getD_some]
  have hpos : ∀ k (hk : k < dts.length), 0 < dts[k] := fun k hk => steps_pos hd hinc hs k hk
  refine ⟨grid, dts, hg, hs, hpos, fun ω => (hprod ω).1, ?_⟩
  -- one step: mean and second moment
  have hI1 : ∀ k i, Integrable (fun ω => stepFactor mu sigma b.chol (dts.getD k 0) i (fun j => Z k j ω)) μ := by
    intro k i
    unfold stepFactor
    exact (integrable_const _).add ((integrable_finset_sum _ fun j _ => ((hZ.integrable k j).mul_const _).const_mul _).const_mul _)
  have hsh : ∀ k i, Integrable (fun ω => ∑ j, b.chol i j * (Z k j ω * Real.sqrt (dts.getD k 0 : ℝ))) μ := fun k i =>
    integrable_finset_sum _ fun j _ => ((hZ.integrable k j).mul_const _).const_mul _
  have hsm : ∀ k i, ∫ ω, ∑ j, b.chol i j * (Z k j ω * Real.sqrt (dts.getD k 0 : ℝ)) ∂μ = 0 := by
    intro k i
    rw [integral_finset_sum _ (fun j _ => ((hZ.integrable k j).mul_const _).const_mul _)]
    refine Finset.sum_eq_zero fun j _ => ?_
    rw [integral_const_mul, integral_mul_const, hZ.mean, zero_mul, mul_zero]
  have hE1 : ∀ k i, ∫ ω, stepFactor mu sigma b.chol (dts.getD k 0) i (fun j => Z k j ω) ∂μ = 1 + mu * (dts.getD k 0 : ℝ) := by
    intro k i
    unfold stepFactor
    rw [integral_add (integrable_const _) ((hsh k i).const_mul _), integral_const_mul, hsm k i, integral_const]
    simp
  have hexp : ∀ k i j ω, stepFactor mu sigma b.chol (dts.getD k 0) j (fun l => Z k l ω) *
      stepFactor mu sigma b.chol (dts.getD k 0) i (fun l => Z k l ω) =
      (1 + mu * (dts.getD k 0 : ℝ)) ^ 2 + (1 + mu * (dts.getD k 0 : ℝ)) * sigma *
        (∑ l, b.chol i l * (Z k l ω * Real.sqrt (dts.getD k 0 : ℝ))) + (1 + mu * (dts.getD k 0 : ℝ)) * sigma *
        (∑ l, b.chol j l * (Z k l ω * Real.sqrt (dts.getD k 0 : ℝ))) + sigma ^ 2 *
        ((∑ l, b.chol i l * (Z k l ω * Real.sqrt (dts.getD k 0 : ℝ))) * (∑ l, b.chol j l * (Z k l ω * Real.sqrt (dts.getD k 0 : ℝ)))) := by
    intro k i j ω
    unfold stepFactor
    ring
  have hshift : ∀ k (hk : k < dts.length) i ω, ∑ l, b.chol i l * (Z k l ω * Real.sqrt (dts.getD k 0 : ℝ)) =
      shock b.chol (fun k i => Z k i ω) dts k hk i := by
    intro k hk i ω
    unfold shock
    rw [List.getD_eq_getElem?_getD, List.getElem?_eq_getElem hk, Option.getD_some]
  have hout : ∀ k, ¬ k < dts.length → dts.getD k 0 = 0 := by
    intro k hk
    rw [List.getD_eq_getElem?_getD, List.getElem?_eq_none (by omega), Option.getD_none]
  have hII : ∀ k i j, Integrable (fun ω => (∑ l, b.chol i l * (Z k l ω * Real.sqrt (dts.getD k 0 : ℝ))) *
      (∑ l, b.chol j l * (Z k l ω * Real.sqrt (dts.getD k 0 : ℝ)))) μ := by
    intro k i j
    by_cases hk : k < dts.length
    · simp only [hshift k hk]
      exact shock_mul_integrable hZ b.chol dts k k hk hk i j
    · simp only [hout k hk, Rat.cast_zero, Real.sqrt_zero, mul_zero, Finset.sum_const_zero]
      exact integrable_zero _ _ _
  have hE2' : ∀ k i j, ∫ ω, (∑ l, b.chol i l * (Z k l ω * Real.sqrt (dts.getD k 0 : ℝ))) *
      (∑ l, b.chol j l * (Z k l ω * Real.sqrt (dts.getD k 0 : ℝ))) ∂μ = corr i j * (dts.getD k 0 : ℝ) := by
    intro k i j
    by_cases hk : k < dts.length
    · simp only [hshift k hk]
      rw [shock_cov hZ b.chol dts k k hk hk (hpos k hk).le i j, if_pos rfl, hchol, List.getD_eq_getElem?_getD,
        List.getElem?_eq_getElem hk, Option.getD_some]
    · simp only [hout k hk, Rat.cast_zero, Real.sqrt_zero, mul_zero, Finset.sum_const_zero, integral_zero]
  have hI2 : ∀ k i j, Integrable (fun ω => stepFactor mu sigma b.chol (dts.getD k 0) j (fun l => Z k l ω) *
      stepFactor mu sigma b.chol (dts.getD k 0) i (fun l => Z k l ω)) μ := by
    intro k i j
    simp only [hexp]
    exact (((integrable_const _).add ((hsh k i).const_mul _)).add ((hsh k j).const_mul _)).add ((hII k i j).const_mul _)
  have hE2 : ∀ k i j, ∫ ω, stepFactor mu sigma b.chol (dts.getD k 0) j (fun l => Z k l ω) *
      stepFactor mu sigma b.chol (dts.getD k 0) i (fun l => Z k l ω) ∂μ =
      (1 + mu * (dts.getD k 0 : ℝ)) ^ 2 + sigma ^ 2 * corr i j * (dts.getD k 0 : ℝ) := by
    intro k i j
    simp only [hexp]
    have i0 : Integrable (fun _ : Ω => (1 + mu * (dts.getD k 0 : ℝ)) ^ 2) μ := integrable_const _
    have i1 : Integrable (fun ω => (1 + mu * (dts.getD k 0 : ℝ)) * sigma *
        (∑ l, b.chol i l * (Z k l ω * Real.sqrt (dts.getD k 0 : ℝ)))) μ := (hsh k i).const_mul _
    have i2 : Integrable (fun ω => (1 + mu * (dts.getD k 0 : ℝ)) * sigma *
        (∑ l, b.chol j l * (Z k l ω * Real.sqrt (dts.getD k 0 : ℝ)))) μ := (hsh k j).const_mul _
    have i3 : Integrable (fun ω => sigma ^ 2 * ((∑ l, b.chol i l * (Z k l ω * Real.sqrt (dts.getD k 0 : ℝ))) *
        (∑ l, b.chol j l * (Z k l ω * Real.sqrt (dts.getD k 0 : ℝ))))) μ := (hII k i j).const_mul _
    have i01 : Integrable (fun ω => (1 + mu * (dts.getD k 0 : ℝ)) ^ 2 + (1 + mu * (dts.getD k 0 : ℝ)) * sigma *
        (∑ l, b.chol i l * (Z k l ω * Real.sqrt (dts.getD k 0 : ℝ)))) μ := i0.add i1
    have i012 : Integrable (fun ω => (1 + mu * (dts.getD k 0 : ℝ)) ^ 2 + (1 + mu * (dts.getD k 0 : ℝ)) * sigma *
        (∑ l, b.chol i l * (Z k l ω * Real.sqrt (dts.getD k 0 : ℝ))) + (1 + mu * (dts.getD k 0 : ℝ)) * sigma *
        (∑ l, b.chol j l * (Z k l ω * Real.sqrt (dts.getD k 0 : ℝ)))) μ := i01.add i2
    rw [integral_add i012 i3, integral_add i01 i2, integral_add i0 i1, integral_const_mul, integral_const_mul,
      integral_const_mul, hsm, hsm, hE2', integral_const, probReal_univ, one_smul]
    ring
  intro n hn i
  constructor
  · simp only [(hprod _).2 n hn i]
    rw [integral_const_mul]
    congr 1
    rw [(steps_product hZ (fun k => stepFactor mu sigma b.chol (dts.getD k 0) i) (fun k => stepFactor_measurable _ _ _ _ _)
      (fun k => hI1 k i) n).2]
    exact Finset.prod_congr rfl fun k _ => hE1 k i
  · intro m hmn j
    simp only [(hprod _).2 n hn i, (hprod _).2 m (by omega) j]
    have e : ∀ ω, x0 j * (∏ k ∈ range m, stepFactor mu sigma b.chol (dts.getD k 0) j (fun l => Z k l ω)) *
        (x0 i * ∏ k ∈ range n, stepFactor mu sigma b.chol (dts.getD k 0) i (fun l => Z k l ω)) =
        x0 j * x0 i * ∏ k ∈ range n, (fun z => (if k < m then stepFactor mu sigma b.chol (dts.getD k 0) j z else 1) *
          stepFactor mu sigma b.chol (dts.getD k 0) i z) (fun l => Z k l ω) := by
      intro ω
      have := prod_if_split hmn (fun k => stepFactor mu sigma b.chol (dts.getD k 0) j (fun l => Z k l ω))
        (fun k => stepFactor mu sigma b.chol (dts.getD k 0) i (fun l => Z k l ω))
      rw [← this]
      ring
    simp only [e]
    rw [integral_const_mul]
    congr 1
    have hsp := (steps_product hZ (fun k z => (if k < m then stepFactor mu sigma b.chol (dts.getD k 0) j z else 1) *
          stepFactor mu sigma b.chol (dts.getD k 0) i z) (fun k => by
        by_cases hk : k < m
        · simp only [hk, if_true]
          exact (stepFactor_measurable _ _ _ _ _).mul (stepFactor_measurable _ _ _ _ _)
        · simp only [hk, if_false, one_mul]
          exact stepFactor_measurable _ _ _ _ _) (fun k => by
        by_cases hk : k < m
        · simp only [hk, if_true]; exact hI2 k i j
        · simp only [hk, if_false, one_mul]; exact hI1 k i) n).2
    rw [hsp]
    obtain ⟨d, rfl⟩ : ∃ d, n = m + d := ⟨n - m, by omega⟩
    rw [Finset.prod_range_add, Finset.prod_Ico_eq_prod_range, show m + d - m = d by omega]
    congr 1
    · refine Finset.prod_congr rfl fun k hk => ?_
      simp only [Finset.mem_range.1 hk, if_true]
      exact hE2 k i j
    · refine Finset.prod_congr rfl fun k hk => ?_
      simp only [show ¬ m + k < m by omega, if_false, one_mul]
      exact hE1 (m + k) i

end

/-- `exp(x - x²) ≤ 1 + x ≤ exp x` for `|x| ≤ 1/2`. -/
theorem exp_bounds {x : ℝ} (h : |x| ≤ 1 / 2) : Real.exp (x - x ^ 2) ≤ 1 + x ∧ 1 + x ≤ Real.exp x := by
  have hx := abs_le.1 h
  refine ⟨?_, by have := Real.add_one_le_exp x; linarith⟩
  have hpos : 0 < 1 + x := by linarith
  rw [← Real.le_log_iff_exp_le hpos]
  have h1 := Real.one_sub_inv_le_log_of_pos hpos
  -- x - x² ≤ log (1 + x)
  by_cases h0 : 0 ≤ x
  · have : 1 - (1 + x)⁻¹ ≥ x - x ^ 2 := by
      have : (1 + x) * (1 + x)⁻¹ = 1 := mul_inv_cancel₀ hpos.ne'
      have hi : 0 < (1 + x)⁻¹ := inv_pos.2 hpos
      nlinarith [mul_nonneg h0 (sq_nonneg x)]
    linarith
  · push Not at h0
    have hu : 0 ≤ -x + x ^ 2 := by nlinarith [sq_nonneg x]
    have h2 := Real.quadratic_le_exp_of_nonneg hu
    have h3 : 1 ≤ (1 + x) * Real.exp (-x + x ^ 2) := by
      have h5 : (1 + x) * (1 + (-x + x ^ 2) + (-x + x ^ 2) ^ 2 / 2) =
          1 + x ^ 2 / 2 * (1 + x - x ^ 2 + x ^ 3) := by ring
      have h6 : 0 ≤ x ^ 2 / 2 * (1 + x - x ^ 2 + x ^ 3) := by
        refine mul_nonneg (by positivity) ?_
        nlinarith [sq_nonneg x, mul_nonneg (sq_nonneg x) (show (0 : ℝ) ≤ 1 / 2 + x by linarith)]
      have := mul_le_mul_of_nonneg_left h2 hpos.le
      linarith
    rw [Real.le_log_iff_exp_le hpos, show x - x ^ 2 = -(-x + x ^ 2) by ring, Real.exp_neg]
    rw [inv_le_iff_one_le_mul₀ (Real.exp_pos _)]
    exact h3

/-- C86. When no step moves the drift by more than one half, the expected value of the simulated geometric Brownian motion
at grid point `n` is the starting value times a growth factor between `exp(drift·T - drift²·Σdt²)` and `exp(drift·T)`,
where `T` is the time elapsed to grid point `n`: the simulation undershoots the model's `exp(drift·T)` growth by a factor
that tends to one as the steps shrink. -/
theorem C86_growth {Ω : Type} [MeasurableSpace Ω] {μ : Measure Ω} [IsProbabilityMeasure μ] {p : Nat}
    {Z : Nat → Fin p → Ω → ℝ} (hZ : StandardNormals μ Z) (b : BrownianMotion p) (b' : Ω → BrownianMotion p)
    (hd : b.dcc ≠ .thirty360) (dt : DtIncrement) (hf : Forward dt)
    (hle : b.start ≤ b.stop) (mu sigma : ℝ) (x0 : Vec p) (path : Ω → List (Vec p))
    (h : ∀ ω, Geometric.generatePath mu sigma b dt x0 (fun k i => Z k i ω) = (.ok (path ω), b' ω)) :
    ∃ grid dts, BrownianMotion.makeGrid b.start b.stop dt = .ok grid ∧ StepLengths b.dcc grid dts ∧
      ∀ n, n < grid.length → (∀ k, k < n → |mu * (dts.getD k 0 : ℝ)| ≤ 1 / 2) → ∀ i,
        ∃ growth : ℝ, ∫ ω, (path ω).getD n 0 i ∂μ = x0 i * growth ∧
          growth ≤ Real.exp (mu * ∑ k ∈ range n, (dts.getD k 0 : ℝ)) ∧
          Real.exp (mu * ∑ k ∈ range n, (dts.getD k 0 : ℝ) - mu ^ 2 * ∑ k ∈ range n, (dts.getD k 0 : ℝ) ^ 2) ≤ growth := by
  obtain ⟨grid, dts, hg, hs, -, -, hm⟩ := C86_moments hZ b b' _ (fun _ _ => rfl) hd dt hf hle mu sigma x0 path h
  refine ⟨grid, dts, hg, hs, fun n hn hsmall i => ⟨_, (hm n hn i).1, ?_, ?_⟩⟩
  · rw [Finset.mul_sum, Real.exp_sum]
    refine Finset.prod_le_prod (fun k hk => ?_) fun k hk => (exp_bounds (hsmall k (Finset.mem_range.1 hk))).2
    have := (abs_le.1 (hsmall k (Finset.mem_range.1 hk))).1
    linarith
  · rw [Finset.mul_sum, Finset.mul_sum, ← Finset.sum_sub_distrib, Real.exp_sum]
    refine Finset.prod_le_prod (fun k hk => (Real.exp_pos _).le) fun k hk => ?_
    have := (exp_bounds (hsmall k (Finset.mem_range.1 hk))).1
    rwa [show mu * (dts.getD k 0 : ℝ) - mu ^ 2 * (dts.getD k 0 : ℝ) ^ 2 =
      mu * (dts.getD k 0 : ℝ) - (mu * (dts.getD k 0 : ℝ)) ^ 2 by ring]

/-- Concrete case for C86: there is a probability space with standard normal draws, and on it every outcome gives a path of
a two-dimensional motion with correlation 3/5 on the grid of 28 February, 29 February and 1 March 2024. -/
example : ∃ (Ω : Type) (_ : MeasurableSpace Ω) (μ : Measure Ω) (_ : IsProbabilityMeasure μ) (Z : Nat → Fin 2 → Ω → ℝ)
    (b : BrownianMotion 2) (b' : Ω → BrownianMotion 2) (path : Ω → List (Vec 2)), StandardNormals μ Z ∧ b.dcc ≠ .thirty360 ∧
    b.start ≤ b.stop ∧ Forward (.timedelta 86400000000) ∧
    (∀ i j, ∑ m, b.chol i m * b.chol j m = (![![1, 3 / 5], ![3 / 5, 1]] i j : ℝ)) ∧
    ∀ ω, Geometric.generatePath (1 / 20) (1 / 5) b (.timedelta 86400000000) (fun _ => 100) (fun k i => Z k i ω) =
      (.ok (path ω), b' ω) := by
  obtain ⟨Ω, mΩ, μ, hμ, Z, hZ⟩ := standardNormals_exist 2
  let b : BrownianMotion 2 := ⟨T 2024 2 28, T 2024 3 1, ![![1, 0], ![3 / 5, 4 / 5]], .actAct, none, none⟩
  have hok : ∀ ω, ∃ path b', Geometric.generatePath (1 / 20) (1 / 5) b (.timedelta 86400000000) (fun _ => 100)
      (fun k i => Z k i ω) = (.ok path, b') := by
    intro ω
    unfold Geometric.generatePath
    rw [generateIncrements_total b (.timedelta 86400000000) _ [T 2024 2 28, T 2024 2 29, T 2024 3 1] [1 / 366, 1 / 366]
      (by decide +kernel) (by decide +kernel)]
    exact ⟨_, _, rfl⟩
  choose path b' h using hok
  refine ⟨Ω, mΩ, μ, hμ, Z, b, b', path, hZ, by simp [b], by decide +kernel, by norm_num [Forward], ?_, h⟩
  intro i j; fin_cases i <;> fin_cases j <;> simp [b, Fin.sum_univ_two] <;> norm_num

end Verif.Props
