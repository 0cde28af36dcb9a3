f='Verif/Props/GeometricMoments.lean'
s=open(f).read()
i=s.index('    exact shock_mul_integrable') if False else None
s=s.replace('''      exact shock_mul_integrable hZ b.chol dts k k hk hk i j
    · simp [hout k hk]''','''      exact shock_mul_integrable hZ b.chol dts k k hk hk i j
    · simp only [hout k hk, Rat.cast_zero, Real.sqrt_zero, mul_zero, Finset.sum_const_zero, integrable_zero]''')
s=s.replace('''        List.getElem?_eq_getElem hk, Option.getD_some]
    · simp [hout k hk]''','''        List.getElem?_eq_getElem hk, Option.getD_some]
    · simp only [hout k hk, Rat.cast_zero, Real.sqrt_zero, mul_zero, Finset.sum_const_zero, integral_zero]''')
a=s.index('    simp only [hexp]\n    rw [integral_add (((')
b=s.index('  intro n hn i\n  constructor')
s=s[:a]+'''    simp only [hexp]
    have i0 : Integrable (fun _ : Ω => (1 + mu * (dts.getD k 0 : ℝ)) ^ 2) μ := integrable_const _
    have i1 : Integrable (fun ω => (1 + mu * (dts.getD k 0 : ℝ)) * sigma *
        (∑ l, b.chol i l * (Z k l ω * Real.sqrt (dts.getD k 0 : ℝ)))) μ := (hsh k i).const_mul _
    have i2 : Integrable (fun ω => (1 + mu * (dts.getD k 0 : ℝ)) * sigma *
        (∑ l, b.chol j l * (Z k l ω * Real.sqrt (dts.getD k 0 : ℝ)))) μ := (hsh k j).const_mul _
    have i3 : Integrable (fun ω => sigma ^ 2 * ((∑ l, b.chol i l * (Z k l ω * Real.sqrt (dts.getD k 0 : ℝ))) *
        (∑ l, b.chol j l * (Z k l ω * Real.sqrt (dts.getD k 0 : ℝ))))) μ := (hII k i j).const_mul _
    have i01 : Integrable (fun ω => (1 + mu * (dts.getD k 0 : ℝ)) ^ 2 + (1 + mu * (dts.getD k 0 : ℝ)) * sigma *
        (∑ l, b.chol i l * (Z k l ω * Real.sqrt (dts.getD k 0 : ℝ)))) μ := i0.add i1
    have i012 : Integrable (fun ω => (1 + mu * (dts.getD k 0 : ℝ)) ^ 2 + (1 + mu * (dts.getD k 0 : ℝ)) * sigma *
        (∑ l, b.chol i l * (Z k l ω * Real.sqrt (dts.getD k 0 : ℝ))) + (1 + mu * (dts.getD k 0 : ℝ)) * sigma *
        (∑ l, b.chol j l * (Z k l ω * Real.sqrt (dts.getD k 0 : ℝ)))) μ := i01.add i2
    rw [integral_add i012 i3, integral_add i01 i2, integral_add i0 i1, integral_const_mul, integral_const_mul,
      integral_const_mul, hsm, hsm, hE2', integral_const, probReal_univ, one_smul]
    ring
'''+s[b:]
a=s.index('    have h2 := Real.abs_log_sub')
s=s[:a]+'''    have hu : 0 ≤ -x + x ^ 2 := by nlinarith [sq_nonneg x]
    have h2 := Real.quadratic_le_exp_of_nonneg hu
    have h3 : 1 ≤ (1 + x) * Real.exp (-x + x ^ 2) := by
      have h5 : (1 + x) * (1 + (-x + x ^ 2) + (-x + x ^ 2) ^ 2 / 2) =
          1 + x ^ 2 / 2 * (1 + x - x ^ 2 + x ^ 3) := by ring
      have h6 : 0 ≤ x ^ 2 / 2 * (1 + x - x ^ 2 + x ^ 3) := by
        refine mul_nonneg (by positivity) ?_
        nlinarith [sq_nonneg x, mul_nonneg (sq_nonneg x) (show (0 : ℝ) ≤ 1 / 2 + x by linarith)]
      have := mul_le_mul_of_nonneg_left h2 hpos.le
      linarith
    rw [Real.le_log_iff_exp_le hpos, show x - x ^ 2 = -(-x + x ^ 2) by ring, Real.exp_neg]
    rw [inv_le_iff_one_le_mul₀ (Real.exp_pos _)]
    exact h3

/-- C86. When no step moves the drift by more than one half, the expected value of the simulated geometric Brownian motion
at grid point `n` is the starting value times a growth factor between `exp(drift·T - drift²·Σdt²)` and `exp(drift·T)`,
where `T` is the time elapsed to grid point `n`: the simulation undershoots the model's `exp(drift·T)` growth by a factor
that tends to one as the steps shrink. -/
theorem C86_growth {Ω : Type} [MeasurableSpace Ω] {μ : Measure Ω} [IsProbabilityMeasure μ] {p : Nat}
    {Z : Nat → Fin p → Ω → ℝ} (hZ : StandardNormals μ Z) (b : BrownianMotion p) (b' : Ω → BrownianMotion p)
    (hd : b.dcc ≠ .thirty360) (dt : DtIncrement) (hf : Forward dt)
    (hle : b.start ≤ b.stop) (mu sigma : ℝ) (x0 : Vec p) (path : Ω → List (Vec p))
    (h : ∀ ω, Geometric.generatePath mu sigma b dt x0 (fun k i => Z k i ω) = (.ok (path ω), b' ω)) :
    ∃ grid dts, BrownianMotion.makeGrid b.start b.stop dt = .ok grid ∧ StepLengths b.dcc grid dts ∧
      ∀ n, n < grid.length → (∀ k, k < n → |mu * (dts.getD k 0 : ℝ)| ≤ 1 / 2) → ∀ i,
        ∃ growth : ℝ, ∫ ω, (path ω).getD n 0 i ∂μ = x0 i * growth ∧
          growth ≤ Real.exp (mu * ∑ k ∈ range n, (dts.getD k 0 : ℝ)) ∧
          Real.exp (mu * ∑ k ∈ range n, (dts.getD k 0 : ℝ) - mu ^ 2 * ∑ k ∈ range n, (dts.getD k 0 : ℝ) ^ 2) ≤ growth := by
  obtain ⟨grid, dts, hg, hs, -, -, hm⟩ := C86_moments hZ b b' _ (fun _ _ => rfl) hd dt hf hle mu sigma x0 path h
  refine ⟨grid, dts, hg, hs, fun n hn hsmall i => ⟨_, (hm n hn i).1, ?_, ?_⟩⟩
  · rw [Finset.mul_sum, Real.exp_sum]
    refine Finset.prod_le_prod (fun k hk => ?_) fun k hk => (exp_bounds (hsmall k (Finset.mem_range.1 hk))).2
    have := (abs_le.1 (hsmall k (Finset.mem_range.1 hk))).1
    linarith
  · rw [Finset.mul_sum, Finset.mul_sum, ← Finset.sum_sub_distrib, Real.exp_sum]
    refine Finset.prod_le_prod (fun k hk => (Real.exp_pos _).le) fun k hk => ?_
    have := (exp_bounds (hsmall k (Finset.mem_range.1 hk))).1
    rwa [show mu * (dts.getD k 0 : ℝ) - mu ^ 2 * (dts.getD k 0 : ℝ) ^ 2 =
      mu * (dts.getD k 0 : ℝ) - (mu * (dts.getD k 0 : ℝ)) ^ 2 by ring]

end Verif.Props
'''
open(f,'w').write(s)
