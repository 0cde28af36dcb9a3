f='Verif/Props/SimulatedRates.lean'
s=open(f).read()
s=s.replace('''    rw [hrc ω n hn l1, List.getD_eq_getElem?_getD''','''    simp only
    rw [hrc ω n hn l1, List.getD_eq_getElem?_getD''')
s=s.replace('''  · intro n hn
    rw [Finset.prod_range_succ, hdd n hn]''','''  · intro n hn
    simp only
    rw [Finset.prod_range_succ, hdd n hn]''')
s=s.replace('''
end
end Verif.Props
''','''
/-- One Euler step against the exact decay. -/
theorem decay_step {x : ℝ} (h0 : 0 ≤ x) : |1 - x - Real.exp (-x)| ≤ x ^ 2 / 2 ∧ Real.exp (-x) ≤ 1 ∧ 0 < Real.exp (-x) := by
  have h1 := Real.add_one_le_exp (-x)
  have h2 : Real.exp (-x) ≤ 1 - x + x ^ 2 / 2 := by
    have := Real.quadratic_le_exp_of_nonneg h0
    have hm : Real.exp (-x) * Real.exp x = 1 := by rw [← Real.exp_add]; simp
    have hp := Real.exp_pos (-x)
    have h3 : 1 ≤ (1 - x + x ^ 2 / 2) * (1 + x + x ^ 2 / 2) := by nlinarith [sq_nonneg (x ^ 2)]
    have h4 : 0 < 1 - x + x ^ 2 / 2 := by nlinarith [sq_nonneg (x - 1)]
    by_contra hc
    push Not at hc
    nlinarith [mul_le_mul hc.le this (by positivity) hp.le, mul_lt_mul_of_pos_right hc (Real.exp_pos x),
      mul_le_mul_of_nonneg_left this h4.le]
  refine ⟨?_, Real.exp_le_one_iff.2 (by linarith), Real.exp_pos _⟩
  rw [abs_le]
  constructor <;> linarith

/-- The time from the start to a grid point is the sum of the step lengths, under the conventions with a fixed denominator. -/
theorem elapsed_eq (dcc : DayCountConvention) (q : ℚ) (hq : FixedDenominator dcc = some q) (grid : List PyDatetime)
    (hinc : grid.Pairwise (· < ·)) (dts : List ℚ) (hs : StepLengths dcc grid dts) (hlast : ∀ g ∈ grid, g.day.ord < PyDate.maxOrd)
    (n : Nat) (hn : n < grid.length) (h0 : 0 < grid.length) :
    dtAccrual grid[0] grid[n] dcc = .ok (∑ j ∈ range n, dts.getD j 0) := by
  have hfix : ∀ i j (hi : i < grid.length) (hj : j < grid.length), i ≤ j →
      dtAccrual grid[i] grid[j] dcc = .ok (((grid[j].instant - grid[i].instant : Int) : ℚ) / (q * 86400000000)) := by
    intro i j hi hj hij
    have hle : grid[i].instant ≤ grid[j].instant := by
      rcases Nat.lt_or_ge i j with h | h
      · have := List.pairwise_iff_getElem.1 hinc i j hi hj h
        rw [PyDatetime.lt_iff] at this
        exact this.le
      · have : i = j := by omega
        subst this
        exact le_rfl
    exact C16_act_fixed_datetimes dcc q hq grid[i].like grid[j].like hle (fun _ => hlast _ (List.getElem_mem _))
      (fun _ => hlast _ (List.getElem_mem _))
  have hlen := hs.1
  rw [hfix 0 n h0 hn (Nat.zero_le _)]
  congr 1
  induction n with
  | zero => simp
  | succ n ih =>
    have := hs.2 n (by omega) (by omega) hn
    rw [hfix n (n + 1) (by omega) hn (by omega)] at this
    injection this with this
    rw [Finset.sum_range_succ, ← ih (by omega), List.getD_eq_getElem?_getD, List.getElem?_eq_getElem (by omega), Option.getD_some,
      ← this]
    push_cast
    ring

/-- C87. Under the conventions with a fixed denominator, a positive reversion speed and steps no longer than `1/k`, the mean
and the variance of the simulated rate at every grid point are the model's own `expected_short_rate` and
`short_rate_variance` there, up to a discretization error proportional to the sum of the squared step lengths. -/
theorem C87_closed_forms (hZ : StandardNormals μ Z) (h : MadeVasicek θ k σ v) (hk : 0 < k) (hf : Forward v.core.process.dt)
    (hle : v.core.bm.start ≤ v.core.bm.stop) (q : ℚ) (hq : FixedDenominator v.core.bm.dcc = some q)
    (hend : v.core.bm.stop.day.ord < PyDate.maxOrd) (hchol : v.core.bm.chol 0 0 ^ 2 = 1) (x0 : Vec 1) (v' : Ω → Vasicek)
    (hv : ∀ ω, v.generatePath x0 true (fun k i => Z k i ω) = (.ok (), v' ω)) :
    ∃ (grid : List PyDatetime) (dts : List ℚ) (R : Nat → Ω → ℝ),
      BrownianMotion.makeGrid v.core.bm.start v.core.bm.stop v.core.process.dt = .ok grid ∧
      StepLengths v.core.bm.dcc grid dts ∧ (∀ n (hn : n < grid.length) ω, (v' ω).call grid[n] = .ok (R n ω)) ∧
      ((∀ j (hj : j < dts.length), k * dts[j] ≤ 1) → ∀ n (hn : n < grid.length),
        ∃ e w : ℝ, (∀ ω, (v' ω).expectedShortRate grid[n] none = .ok e ∧ (v' ω).shortRateVariance grid[n] none = .ok w) ∧
          |∫ ω, R n ω ∂μ - e| ≤ |x0 0 - θ| * k ^ 2 / 2 * ∑ j ∈ range n, (dts.getD j 0 : ℝ) ^ 2 ∧
          |∫ ω, (R n ω - ∫ ω, R n ω ∂μ) ^ 2 ∂μ - w| ≤ 3 / 2 * σ ^ 2 * k * ∑ j ∈ range n, (dts.getD j 0 : ℝ) ^ 2) := by
  have hd : v.core.bm.dcc ≠ .thirty360 := by rintro e; rw [e] at hq; simp [FixedDenominator] at hq
  obtain ⟨grid, dts, R, mean, var, hg, hs, hpos, hR, m0, ms, w0, ws, hm⟩ := C87_moments hZ h hf hle hd hchol x0 v' hv
  obtain ⟨hhead, hl, hinc, -⟩ := C55_grid v.core.bm.start v.core.bm.stop _ hf hle grid hg
  refine ⟨grid, dts, R, hg, hs, hR, fun hsmall => ?_⟩
  have hlen := hs.1
  have h0 : 0 < grid.length := by omega
  have hg0 : grid[0] = v.core.bm.start := by
    rw [List.head?_eq_getElem?, List.getElem?_eq_getElem h0] at hhead
    injection hhead
  have hlast : ∀ g ∈ grid, g.day.ord < PyDate.maxOrd := by
    intro g hgm
    obtain ⟨i, hi, rfl⟩ := List.getElem_of_mem hgm
    rw [List.getLast?_eq_getElem?, List.getElem?_eq_getElem (by omega)] at hl
    injection hl with hl
    have hle' : grid[i].instant ≤ v.core.bm.stop.instant := by
      rw [← hl]
      rcases Nat.lt_or_ge i (grid.length - 1) with h' | h'
      · have := List.pairwise_iff_getElem.1 hinc i (grid.length - 1) hi (by omega) h'
        rw [PyDatetime.lt_iff] at this
        exact this.le
      · have : i = grid.length - 1 := by omega
        subst this
        exact le_rfl
    have b1 := grid[i].bounds
    have b2 := v.core.bm.stop.bounds
    unfold PyDatetime.instant at hle'
    omega
  have hT : ∀ n (hn : n < grid.length), dtAccrual v.core.bm.start grid[n] v.core.bm.dcc = .ok (∑ j ∈ range n, dts.getD j 0) := by
    intro n hn
    rw [← hg0]
    exact elapsed_eq _ q hq grid hinc dts hs hlast n hn h0
  let τ : Nat → ℝ := fun n => ∑ j ∈ range n, (dts.getD j 0 : ℝ)
  have hτ : ∀ n, τ (n + 1) = τ n + (dts.getD n 0 : ℝ) := fun n => Finset.sum_range_succ _ _
  have hgd : ∀ n (hn : n < dts.length), dts.getD n 0 = dts[n] := fun n hn => by
    rw [List.getD_eq_getElem?_getD, List.getElem?_eq_getElem hn, Option.getD_some]
  have hτ0 : ∀ n, n ≤ dts.length → 0 ≤ τ n := by
    intro n hn
    refine Finset.sum_nonneg fun j hj => ?_
    have hj' : j < dts.length := by have := Finset.mem_range.1 hj; omega
    rw [hgd j hj']
    exact_mod_cast (hpos j hj').le
  have herr1 : ∀ n, n ≤ dts.length → |mean n - vMean k θ (x0 0) (τ n)| ≤
      |x0 0 - θ| * k ^ 2 / 2 * ∑ j ∈ range n, (dts.getD j 0 : ℝ) ^ 2 := by
    intro n
    induction n with
    | zero => intro _; simp [m0, vMean, τ]
    | succ n ih =>
      intro hn
      have ih := ih (by omega)
      have hn' : n < dts.length := by omega
      have hdp : (0 : ℝ) < dts[n] := by exact_mod_cast hpos n hn'
      obtain ⟨s1, s2, s3⟩ := decay_step (x := k * dts[n]) (by positivity)
      have hx1 := hsmall n hn'
      rw [ms n hn', hτ, hgd n hn', Finset.sum_range_succ, hgd n hn']
      have e1 : mean n + k * (θ - mean n) * dts[n] - vMean k θ (x0 0) (τ n + dts[n]) =
          (1 - k * dts[n]) * (mean n - vMean k θ (x0 0) (τ n)) +
            Real.exp (-k * τ n) * (x0 0 - θ) * (1 - k * dts[n] - Real.exp (-(k * dts[n]))) := by
        unfold vMean
        rw [show -k * (τ n + (dts[n] : ℝ)) = -k * τ n + -(k * dts[n]) by ring, Real.exp_add]
        ring
      rw [e1]
      have a1 : |(1 - k * dts[n]) * (mean n - vMean k θ (x0 0) (τ n))| ≤ |mean n - vMean k θ (x0 0) (τ n)| := by
        rw [abs_mul]
        refine mul_le_of_le_one_left (abs_nonneg _) ?_
        rw [abs_le]
        constructor <;> nlinarith
      have a2 : |Real.exp (-k * τ n) * (x0 0 - θ) * (1 - k * dts[n] - Real.exp (-(k * dts[n])))| ≤
          |x0 0 - θ| * ((k * dts[n]) ^ 2 / 2) := by
        rw [abs_mul, abs_mul, abs_of_pos (Real.exp_pos _)]
        have : Real.exp (-k * τ n) ≤ 1 := Real.exp_le_one_iff.2 (by nlinarith [hτ0 n (by omega)])
        exact mul_le_mul (mul_le_of_le_one_left (abs_nonneg _) this) s1 (abs_nonneg _) (abs_nonneg _)
      refine (abs_add_le _ _).trans ?_
      calc _ ≤ _ := add_le_add (a1.trans ih) a2
        _ = _ := by ring
  have herr2 : ∀ n, n ≤ dts.length → |var n - vVar k σ (τ n)| ≤ 3 / 2 * σ ^ 2 * k * ∑ j ∈ range n, (dts.getD j 0 : ℝ) ^ 2 := by
    intro n
    induction n with
    | zero => intro _; simp [w0, vVar, τ]
    | succ n ih =>
      intro hn
      have ih := ih (by omega)
      have hn' : n < dts.length := by omega
      have hdp : (0 : ℝ) < dts[n] := by exact_mod_cast hpos n hn'
      have hx1 := hsmall n hn'
      obtain ⟨s1, s2, s3⟩ := decay_step (x := k * dts[n]) (by positivity)
      obtain ⟨t1, t2, t3⟩ := decay_step (x := 2 * (k * dts[n])) (by positivity)
      have hsq : Real.exp (-(2 * (k * dts[n]))) = Real.exp (-(k * dts[n])) ^ 2 := by
        rw [← Real.exp_nat_mul]; congr 1; push_cast; ring
      rw [ws n hn', hτ, hgd n hn', Finset.sum_range_succ, hgd n hn']
      set y := Real.exp (-(k * dts[n])) with hy
      set x := k * (dts[n] : ℝ) with hx
      set E := Real.exp (-2 * k * τ n) with hE
      have hEp : 0 < E := Real.exp_pos _
      have hE1 : E ≤ 1 := Real.exp_le_one_iff.2 (by nlinarith [hτ0 n (by omega)])
      have hxp : 0 < x := by positivity
      have e1 : (1 - x) ^ 2 * var n + σ ^ 2 * dts[n] - vVar k σ (τ n + dts[n]) =
          (1 - x) ^ 2 * (var n - vVar k σ (τ n)) + σ ^ 2 / (2 * k) * ((1 - E) * ((1 - x) ^ 2 - y ^ 2)) +
            σ ^ 2 / (2 * k) * (2 * x - 1 + y ^ 2) := by
        unfold vVar
        rw [show -2 * k * (τ n + (dts[n] : ℝ)) = -2 * k * τ n + -(2 * x) by rw [hx]; ring, Real.exp_add, hsq, ← hE]
        rw [hx]
        field_simp
        ring
      rw [e1]
      have a1 : |(1 - x) ^ 2 * (var n - vVar k σ (τ n))| ≤ |var n - vVar k σ (τ n)| := by
        rw [abs_mul]
        refine mul_le_of_le_one_left (abs_nonneg _) ?_
        rw [abs_of_nonneg (sq_nonneg _)]
        nlinarith
      have a2 : |(1 - E) * ((1 - x) ^ 2 - y ^ 2)| ≤ x ^ 2 := by
        rw [abs_mul, abs_of_nonneg (by linarith : 0 ≤ 1 - E)]
        have : |(1 - x) ^ 2 - y ^ 2| ≤ x ^ 2 := by
          rw [show (1 - x) ^ 2 - y ^ 2 = (1 - x - y) * (1 - x + y) by ring, abs_mul]
          have : |1 - x + y| ≤ 2 := by rw [abs_le]; constructor <;> linarith
          calc _ ≤ x ^ 2 / 2 * 2 := mul_le_mul s1 this (abs_nonneg _) (by positivity)
            _ = _ := by ring
        exact (mul_le_of_le_one_left (abs_nonneg _) (by linarith)).trans this
      have a3 : |2 * x - 1 + y ^ 2| ≤ 2 * x ^ 2 := by
        rw [hsq] at t1
        rw [show 2 * x - 1 + y ^ 2 = -(1 - 2 * x - y ^ 2) by ring, abs_neg]
        calc _ ≤ _ := t1
          _ = _ := by ring
      have hc : 0 ≤ σ ^ 2 / (2 * k) := by positivity
      have a23 : |σ ^ 2 / (2 * k) * ((1 - E) * ((1 - x) ^ 2 - y ^ 2)) + σ ^ 2 / (2 * k) * (2 * x - 1 + y ^ 2)| ≤
          σ ^ 2 / (2 * k) * (3 * x ^ 2) := by
        rw [← mul_add, abs_mul, abs_of_nonneg hc]
        refine mul_le_mul_of_nonneg_left ((abs_add_le _ _).trans ?_) hc
        linarith
      rw [add_assoc]
      refine (abs_add_le _ _).trans ?_
      calc _ ≤ _ := add_le_add (a1.trans ih) a23
        _ = _ := by rw [hx]; field_simp; ring
  intro n hn
  refine ⟨vMean k θ (x0 0) (τ n), vVar k σ (τ n), fun ω => ?_, ?_, ?_⟩
  · have hmk : MadeVasicek θ k σ (v' ω) := by have := h.generate x0 true (fun k i => Z k i ω); rwa [hv ω] at this
    obtain ⟨c1, c2⟩ : (v' ω).core.bm.start = v.core.bm.start ∧ (v' ω).core.bm.dcc = v.core.bm.dcc := by
      have := generatePath_clock v x0 true (fun k i => Z k i ω); rwa [hv ω] at this
    have hcall : (v' ω).call ((v' ω).purchase none) = .ok (x0 0) := by
      show (v' ω).call (v' ω).core.bm.start = _
      obtain ⟨grid', dts', rs, hg', -, a1, a2, -, -, a4⟩ := C47_simulated h hf hle x0 _ _ (hv ω)
      rw [hg] at hg'
      injection hg' with hg'
      subst hg'
      have l0 : 0 < rs.length := by omega
      rw [c1, ← hg0, a4 0 h0 l0]
      rw [List.head?_eq_getElem?, List.getElem?_eq_getElem l0] at a2
      injection a2 with a2
      rw [a2]
    have htime : (v' ω).time ((v' ω).purchase none) grid[n] = .ok (∑ j ∈ range n, dts.getD j 0) := by
      show dtAccrual (v' ω).core.bm.start grid[n] (v' ω).core.bm.dcc = _
      rw [c1, c2]
      exact hT n hn
    have := C47_moments hmk grid[n] none _ (x0 0) htime hcall _ _ (vMean_spec k θ (x0 0)) (vVar_spec (σ := σ) hk.ne')
    have hcast : ((∑ j ∈ range n, dts.getD j 0 : ℚ) : ℝ) = τ n := by push_cast; rfl
    rwa [hcast] at this
  · rw [(hm n hn).2.1]
    exact herr1 n (by omega)
  · rw [(hm n hn).2.1, (hm n hn).2.2.2]
    exact herr2 n (by omega)

end
end Verif.Props
''')
open(f,'w').write(s)
