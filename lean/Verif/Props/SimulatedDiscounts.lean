/- Property C132: discount factors of simulated Vasicek paths against the model's own closed forms. -/
import Verif.Props.PathCurve
import Verif.Props.SimulatedRates
import Verif.Props.SimulatedFactors

namespace Verif.Props
open Verif Verif.Spec Verif.DayCount Finset MeasureTheory ProbabilityTheory

variable {θ k σ : ℝ} {v : Vasicek}

/-! ## C132 -/

theorem shortRate_generate_integrated {p : Nat} (m : ShortRateModel p) (x0 : Vec p) (set : Bool) (normals : Nat → Vec p) :
    (m.generatePath x0 set normals).2.integrated = m.integrated := by
  unfold ShortRateModel.generatePath
  rcases hg : m.process.generatePath m.bm x0 set normals with ⟨r, d, b⟩
  cases r with
  | error e => rfl
  | ok path =>
    simp only
    rcases hp : d.path with _ | cols <;> rfl

/-- Generating paths integrates nothing. -/
theorem MadeVasicek.integrated (h : MadeVasicek θ k σ v) : v.core.integrated = none := by
  obtain ⟨bm, dt, g, v0, ops, h0, rfl⟩ := h
  have h1 : v0.core.integrated = none := by
    unfold Vasicek.create at h0
    simp only at h0
    rw [bind_ok] at h0
    obtain ⟨c, -, h0⟩ := h0
    injection h0 with h0
    subst h0
    rfl
  clear h0
  induction ops generalizing v0 with
  | nil => exact h1
  | cons op ops ih => exact ih _ ((shortRate_generate_integrated v0.core op.1 op.2.1 op.2.2).trans h1)

/-- The points of a generated grid do not lie past its end. -/
theorem grid_before {start stop : PyDatetime} {dt : DtIncrement} (hf : Forward dt) (hle : start ≤ stop)
    (hend : stop.day.ord < PyDate.maxOrd) {grid : List PyDatetime} (hg : BrownianMotion.makeGrid start stop dt = .ok grid) :
    ∀ g ∈ grid, g.day.ord < PyDate.maxOrd := by
  obtain ⟨hhead, hl, hinc, -⟩ := C55_grid start stop _ hf hle grid hg
  intro g hgm
  obtain ⟨i, hi, rfl⟩ := List.getElem_of_mem hgm
  rw [List.getLast?_eq_getElem?, List.getElem?_eq_getElem (by omega)] at hl
  injection hl with hl
  have hle' : grid[i].instant ≤ stop.instant := by
    rw [← hl]
    rcases Nat.lt_or_ge i (grid.length - 1) with h' | h'
    · have := List.pairwise_iff_getElem.1 hinc i (grid.length - 1) hi (by omega) h'
      rw [PyDatetime.lt_iff] at this
      exact this.le
    · have : i = grid.length - 1 := by omega
      subst this
      exact le_rfl
  have b1 := grid[i].bounds
  have b2 := stop.bounds
  unfold PyDatetime.instant at hle'
  omega

/-- C132. What the discount curve of a simulated path returns at a grid point: the exponential of minus the sum over the steps of the
average rate of the step times the time from the START of the simulation to the end of the step. -/
theorem C132_path (h : MadeVasicek θ k σ v) (hf : Forward v.core.process.dt) (hle : v.core.bm.start ≤ v.core.bm.stop)
    (q : ℚ) (hq : FixedDenominator v.core.bm.dcc = some q) (hend : v.core.bm.stop.day.ord < PyDate.maxOrd) (x0 : Vec 1)
    (normals : Nat → Vec 1) (v' : Vasicek) (hv : v.generatePath x0 true normals = (.ok (), v')) :
    ∃ (grid : List PyDatetime) (dts : List ℚ) (r : Nat → ℝ) (c : DtCurve) (m' : ShortRateModel 1),
      BrownianMotion.makeGrid v.core.bm.start v.core.bm.stop v.core.process.dt = .ok grid ∧ StepLengths v.core.bm.dcc grid dts ∧
      r 0 = x0 0 ∧ (∀ j (hj : j < dts.length), r (j + 1) = r j + k * (θ - r j) * dts[j] + σ * shock v.core.bm.chol normals dts j hj 0) ∧
      v'.core.createDiscountCurve (some grid) = (.ok c, m') ∧
      ∀ n (hn : n < grid.length), v'.call grid[n] = .ok (r n) ∧
        dtAccrual v.core.bm.start grid[n] v.core.bm.dcc = .ok (∑ i ∈ range n, dts.getD i 0) ∧
        c.call grid[n].like = .ok (Real.exp (-∑ j ∈ range n, (r j + r (j + 1)) / 2 * ((∑ i ∈ range (j + 1), dts.getD i 0 : ℚ) : ℝ))) := by
  obtain ⟨grid, dts, rs, hg, hs, hl, h0, hp, hstep, hcall⟩ := C47_simulated h hf hle x0 normals v' hv
  obtain ⟨hhead, -, hinc, -⟩ := C55_grid v.core.bm.start v.core.bm.stop _ hf hle grid hg
  have hlen := hs.1
  obtain ⟨c1, c2⟩ : v'.core.bm.start = v.core.bm.start ∧ v'.core.bm.dcc = v.core.bm.dcc := by
    have := generatePath_clock v x0 true normals; rwa [hv] at this
  have hmk : MadeVasicek θ k σ v' := by have := h.generate x0 true normals; rwa [hv] at this
  have hgd : ∀ n (hn : n < grid.length), rs.getD n 0 = rs[n]'(by omega) := fun n hn => by
    rw [List.getD_eq_getElem?_getD, List.getElem?_eq_getElem (by omega), Option.getD_some]
  have hr : ∀ n (hn : n < grid.length), v'.call grid[n] = .ok (rs.getD n 0) := fun n hn => by
    rw [hcall n hn (by omega), hgd n hn]
  have ha : ∀ n (hn : n < grid.length), dtAccrual v.core.bm.start grid[n] v.core.bm.dcc = .ok (∑ i ∈ range n, dts.getD i 0) :=
    fun n hn => grid_elapsed hf hle q hq hend grid dts hg hs n hn
  have hne : grid ≠ [] := by rintro rfl; cases hhead
  have hint := C46_computed v'.core rs hp grid hne (fun n => rs.getD n 0) (fun n => ∑ i ∈ range n, dts.getD i 0) hr
    (fun n hn => by rw [c1, c2]; exact ha n hn)
  have hvals : v'.core.integratedValues (some grid) = .ok ((List.range grid.length).map fun n =>
      ∑ j ∈ range n, (rs.getD j 0 + rs.getD (j + 1) 0) / 2 * ((∑ i ∈ range (j + 1), dts.getD i 0 : ℚ) : ℝ)) := by
    unfold ShortRateModel.generateIntegratedPath at hint
    cases hx : v'.core.integratedValues (some grid) with
    | error e => rw [hx] at hint; simp at hint
    | ok l =>
      rw [hx] at hint
      simp only [Prod.mk.injEq, Except.ok.injEq] at hint
      rw [hint.1]
  have ht := C103_fixed_times (dcc := v'.core.bm.dcc) (den := q) (start := v'.core.bm.start) (by rw [c2]; exact hq) (by rw [c1]; exact hhead) hinc
    (grid_before hf hle hend hg)
  obtain ⟨c, m', hc, -, -, hspec, -⟩ := C103_discount_curve v'.core rs hp hmk.integrated grid _ ht _ hvals
  refine ⟨grid, dts, fun n => rs.getD n 0, c, m', hg, hs, ?_, ?_, hc, fun n hn => ⟨hr n hn, ha n hn, ?_⟩⟩
  · show rs.getD 0 0 = _
    cases rs with
    | nil => cases h0
    | cons a l => simp only [List.head?_cons, Option.some.injEq] at h0; rw [← h0]; rfl
  · intro j hj
    simp only
    rw [hgd j (by omega), hgd (j + 1) (by omega)]
    exact hstep j hj (by omega)
  · have := hspec.knot n hn (by rw [hspec.length]; exact hn)
    rw [this]
    simp only [List.getElem_map, List.getElem_range]

section
variable {Ω : Type} [MeasurableSpace Ω] {μ : Measure Ω} [IsProbabilityMeasure μ] {Z : Nat → Fin 1 → Ω → ℝ}

/-- C132. The mean over all draws of minus the logarithm of a simulated discount factor. `mean` is the mean of the simulated rates. -/
theorem C132_mean (hZ : StandardNormals μ Z) (h : MadeVasicek θ k σ v) (hf : Forward v.core.process.dt)
    (hle : v.core.bm.start ≤ v.core.bm.stop) (q : ℚ) (hq : FixedDenominator v.core.bm.dcc = some q)
    (hend : v.core.bm.stop.day.ord < PyDate.maxOrd) (hchol : v.core.bm.chol 0 0 ^ 2 = 1) (x0 : Vec 1) (v' : Ω → Vasicek)
    (hv : ∀ ω, v.generatePath x0 true (fun k i => Z k i ω) = (.ok (), v' ω)) :
    ∃ (grid : List PyDatetime) (dts : List ℚ) (mean : Nat → ℝ) (c : Ω → DtCurve),
      BrownianMotion.makeGrid v.core.bm.start v.core.bm.stop v.core.process.dt = .ok grid ∧
      StepLengths v.core.bm.dcc grid dts ∧ mean 0 = x0 0 ∧
      (∀ n (hn : n < dts.length), mean (n + 1) = mean n + k * (θ - mean n) * dts[n]) ∧
      (∀ ω, ∃ m', (v' ω).core.createDiscountCurve (some grid) = (.ok (c ω), m')) ∧
      ∀ n (hn : n < grid.length), ∃ X : Ω → ℝ, (∀ ω, (c ω).call grid[n].like = .ok (X ω) ∧ 0 < X ω) ∧
        Integrable (fun ω => -Real.log (X ω)) μ ∧ ∫ ω, -Real.log (X ω) ∂μ =
          ∑ j ∈ range n, (mean j + mean (j + 1)) / 2 * ((∑ i ∈ range (j + 1), dts.getD i 0 : ℚ) : ℝ) := by
  have hd : v.core.bm.dcc ≠ .thirty360 := by rintro e; rw [e] at hq; simp [FixedDenominator] at hq
  obtain ⟨grid, dts, R, mean, var, hg, hs, hpos, hR, m0, ms, w0, ws, hm⟩ := C87_moments hZ h hf hle hd hchol x0 v' hv
  have hall : ∀ ω, ∃ (c : DtCurve) (m' : ShortRateModel 1), (v' ω).core.createDiscountCurve (some grid) = (.ok c, m') ∧
      ∀ n (hn : n < grid.length), c.call grid[n].like =
        .ok (Real.exp (-∑ j ∈ range n, (R j ω + R (j + 1) ω) / 2 * ((∑ i ∈ range (j + 1), dts.getD i 0 : ℚ) : ℝ))) := by
    intro ω
    obtain ⟨grid', dts', r, c, m', hg', hs', -, -, hc, hn'⟩ := C132_path h hf hle q hq hend x0 _ _ (hv ω)
    rw [hg] at hg'
    injection hg' with hg'
    subst hg'
    have hdts : dts' = dts := by
      apply List.ext_getElem
      · have := hs'.1; have := hs.1; omega
      · intro j hj hj'
        have := hs.1
        have e1 := hs.2 j hj' (by omega) (by omega)
        have e2 := hs'.2 j hj (by omega) (by omega)
        rw [e1] at e2
        injection e2 with e2
        exact e2.symm
    subst hdts
    refine ⟨c, m', hc, fun n hn => ?_⟩
    rw [(hn' n hn).2.2]
    have : ∀ j ∈ range n, (R j ω + R (j + 1) ω) / 2 * ((∑ i ∈ range (j + 1), dts'.getD i 0 : ℚ) : ℝ) =
        (r j + r (j + 1)) / 2 * ((∑ i ∈ range (j + 1), dts'.getD i 0 : ℚ) : ℝ) := by
      intro j hj
      have hj' := Finset.mem_range.1 hj
      have e1 := (hn' j (by omega)).1
      have e2 := (hn' (j + 1) (by omega)).1
      rw [hR j (by omega) ω] at e1
      rw [hR (j + 1) (by omega) ω] at e2
      injection e1 with e1
      injection e2 with e2
      rw [e1, e2]
    rw [Finset.sum_congr rfl this]
  choose c m' hc hcall using hall
  refine ⟨grid, dts, mean, c, hg, hs, m0, ms, fun ω => ⟨m' ω, hc ω⟩, fun n hn => ⟨_, fun ω => ⟨hcall ω n hn, Real.exp_pos _⟩, ?_, ?_⟩⟩
  · simp only [Real.log_exp, neg_neg]
    refine integrable_finsetSum _ fun j hj => ?_
    have hj' := Finset.mem_range.1 hj
    exact (((hm j (by omega)).1.add (hm (j + 1) (by omega)).1).div_const 2).mul_const _
  · simp only [Real.log_exp, neg_neg]
    rw [integral_finsetSum _ fun j hj => by
      have hj' := Finset.mem_range.1 hj
      exact (((hm j (by omega)).1.add (hm (j + 1) (by omega)).1).div_const 2).mul_const _]
    refine Finset.sum_congr rfl fun j hj => ?_
    have hj' := Finset.mem_range.1 hj
    rw [integral_mul_const, integral_div, integral_add (hm j (by omega)).1 (hm (j + 1) (by omega)).1, (hm j (by omega)).2.1,
      (hm (j + 1) (by omega)).2.1]

/-- Started at its long-run mean, the simulated rates have that mean throughout. -/
theorem stationary_mean {dts : List ℚ} {mean : Nat → ℝ} (h0 : mean 0 = θ)
    (hs : ∀ n (hn : n < dts.length), mean (n + 1) = mean n + k * (θ - mean n) * dts[n]) : ∀ n, n ≤ dts.length → mean n = θ := by
  intro n
  induction n with
  | zero => intro _; exact h0
  | succ n ih => intro hn; rw [hs n (by omega), ih (by omega)]; ring

/-- The times from the start to the ends of the first `n` steps, added up. -/
theorem elapsed_sums {dts : List ℚ} (hpos : ∀ j (hj : j < dts.length), 0 < dts[j]) :
    (∀ n, 2 ≤ n → n ≤ dts.length → ∑ i ∈ range n, dts.getD i 0 < ∑ j ∈ range n, ∑ i ∈ range (j + 1), dts.getD i 0) ∧
    (∀ δ : ℚ, (∀ j (hj : j < dts.length), dts[j] = δ) → ∀ n, n ≤ dts.length →
      ∑ j ∈ range n, ∑ i ∈ range (j + 1), dts.getD i 0 = ((n : ℚ) + 1) / 2 * ∑ i ∈ range n, dts.getD i 0) := by
  have hgd : ∀ j (hj : j < dts.length), dts.getD j 0 = dts[j] := fun j hj => by
    rw [List.getD_eq_getElem?_getD, List.getElem?_eq_getElem hj, Option.getD_some]
  constructor
  · intro n h2 hn
    obtain ⟨m, rfl⟩ : ∃ m, n = m + 1 := ⟨n - 1, by omega⟩
    rw [Finset.sum_range_succ (fun j => ∑ i ∈ range (j + 1), dts.getD i 0)]
    have hnn : ∀ j, j < dts.length → 0 ≤ dts.getD j 0 := fun j hj => by rw [hgd j hj]; exact (hpos j hj).le
    have h1 : 0 < ∑ j ∈ range m, ∑ i ∈ range (j + 1), dts.getD i 0 := by
      refine Finset.sum_pos (fun j hj => ?_) ⟨0, Finset.mem_range.2 (by omega)⟩
      have hj' := Finset.mem_range.1 hj
      refine Finset.sum_pos (fun i hi => ?_) ⟨0, Finset.mem_range.2 (by omega)⟩
      have hi' := Finset.mem_range.1 hi
      rw [hgd i (by omega)]
      exact hpos i (by omega)
    linarith
  · intro δ hδ
    have hel : ∀ n, n ≤ dts.length → ∑ i ∈ range n, dts.getD i 0 = n * δ := by
      intro n hn
      rw [Finset.sum_congr rfl (fun i hi => by
        have hi' := Finset.mem_range.1 hi
        rw [hgd i (by omega), hδ i (by omega)] : ∀ i ∈ range n, dts.getD i 0 = δ), Finset.sum_const, Finset.card_range, nsmul_eq_mul]
    intro n
    induction n with
    | zero => intro _; simp
    | succ n ih =>
      intro hn
      rw [Finset.sum_range_succ, ih (by omega), hel n (by omega), hel (n + 1) hn]
      push_cast
      ring

/-- What a stationary simulation gives, for both parts of C132. -/
theorem stationary_discounts (hZ : StandardNormals μ Z) (h : MadeVasicek θ k σ v) (hf : Forward v.core.process.dt)
    (hle : v.core.bm.start ≤ v.core.bm.stop) (q : ℚ) (hq : FixedDenominator v.core.bm.dcc = some q)
    (hend : v.core.bm.stop.day.ord < PyDate.maxOrd) (hchol : v.core.bm.chol 0 0 ^ 2 = 1) (x0 : Vec 1) (hx0 : x0 0 = θ) (v' : Ω → Vasicek)
    (hv : ∀ ω, v.generatePath x0 true (fun k i => Z k i ω) = (.ok (), v' ω)) :
    ∃ (grid : List PyDatetime) (dts : List ℚ) (c : Ω → DtCurve),
      BrownianMotion.makeGrid v.core.bm.start v.core.bm.stop v.core.process.dt = .ok grid ∧
      StepLengths v.core.bm.dcc grid dts ∧ (∀ ω, ∃ m', (v' ω).core.createDiscountCurve (some grid) = (.ok (c ω), m')) ∧
      (∀ j (hj : j < dts.length), 0 < dts[j]) ∧
      ∀ n (hn : n < grid.length), ∃ X : Ω → ℝ, (∀ ω, (c ω).call grid[n].like = .ok (X ω) ∧ 0 < X ω) ∧
        dtAccrual v.core.bm.start grid[n] v.core.bm.dcc = .ok (∑ i ∈ range n, dts.getD i 0) ∧
        (0 < n → ∀ ω, (v' ω).averageExpectedShortRate grid[n] none = .ok θ) ∧
        Integrable (fun ω => -Real.log (X ω)) μ ∧ ∫ ω, -Real.log (X ω) ∂μ =
          θ * ((∑ j ∈ range n, ∑ i ∈ range (j + 1), dts.getD i 0 : ℚ) : ℝ) := by
  have hd : v.core.bm.dcc ≠ .thirty360 := by rintro e; rw [e] at hq; simp [FixedDenominator] at hq
  obtain ⟨grid, dts, mean, c, hg, hs, m0, ms, hc, hn⟩ := C132_mean hZ h hf hle q hq hend hchol x0 v' hv
  obtain ⟨hhead, -, hinc, -⟩ := C55_grid v.core.bm.start v.core.bm.stop _ hf hle grid hg
  have hlen := hs.1
  have hmean := stationary_mean (m0.trans hx0) ms
  have hpos : ∀ j (hj : j < dts.length), 0 < dts[j] := fun j hj => steps_pos hd hinc hs j hj
  refine ⟨grid, dts, c, hg, hs, hc, hpos, fun n hn' => ?_⟩
  obtain ⟨X, hX, hi, he⟩ := hn n hn'
  have ha := grid_elapsed hf hle q hq hend grid dts hg hs n hn'
  refine ⟨X, hX, ha, fun hn0 ω => ?_, hi, ?_⟩
  · obtain ⟨grid', dts', r, c', mm, hg', -, hr0, -, -, hcall⟩ := C132_path h hf hle q hq hend x0 _ _ (hv ω)
    rw [hg] at hg'
    injection hg' with hg'
    subst hg'
    have hmk : MadeVasicek θ k σ (v' ω) := by have := h.generate x0 true (fun k i => Z k i ω); rwa [hv ω] at this
    obtain ⟨c1, c2⟩ : (v' ω).core.bm.start = v.core.bm.start ∧ (v' ω).core.bm.dcc = v.core.bm.dcc := by
      have := generatePath_clock v x0 true (fun k i => Z k i ω); rwa [hv ω] at this
    have hg0 : grid[0]'(by omega) = v.core.bm.start := by
      rw [List.head?_eq_getElem?, List.getElem?_eq_getElem (by omega)] at hhead
      injection hhead
    have hst : (v' ω).call ((v' ω).purchase none) = .ok θ := by
      show (v' ω).call (v' ω).core.bm.start = _
      rw [c1, ← hg0, (hcall 0 (by omega)).1, hr0, hx0]
    have htime : (v' ω).time ((v' ω).purchase none) grid[n] = .ok (∑ i ∈ range n, dts.getD i 0) := by
      show dtAccrual (v' ω).core.bm.start grid[n] (v' ω).core.bm.dcc = _
      rw [c1, c2]
      exact ha
    have hav := C47_average hmk grid[n] none _ θ htime hst (fun _ => θ) ⟨rfl, fun s => by
      have := hasDerivAt_const s θ
      rwa [sub_self, mul_zero]⟩
    rw [hav, intervalIntegral.integral_const, sub_zero, smul_eq_mul]
    have hT : (0 : ℚ) < ∑ i ∈ range n, dts.getD i 0 := by
      refine Finset.sum_pos (fun i hi => ?_) ⟨0, Finset.mem_range.2 hn0⟩
      have hi' := Finset.mem_range.1 hi
      rw [List.getD_eq_getElem?_getD, List.getElem?_eq_getElem (by omega), Option.getD_some]
      exact hpos i (by omega)
    have hTR : ((∑ i ∈ range n, dts.getD i 0 : ℚ) : ℝ) ≠ 0 := by exact_mod_cast hT.ne'
    congr 1
    field_simp
  · rw [he, Rat.cast_sum, Finset.mul_sum]
    refine Finset.sum_congr rfl fun j hj => ?_
    have hj' := Finset.mem_range.1 hj
    rw [hmean j (by omega), hmean (j + 1) (by omega)]
    ring

/-- C132 (partial). A Vasicek simulation started at the long-run mean: up to the first step, the mean of minus the logarithm of the
simulated discount factor is the time from the start times `average_expected_short_rate`. Missing: all later grid points, where it is
false (`C132_stationary_false`). -/
theorem C132_stationary_partial (hZ : StandardNormals μ Z) (h : MadeVasicek θ k σ v) (hf : Forward v.core.process.dt)
    (hle : v.core.bm.start ≤ v.core.bm.stop) (q : ℚ) (hq : FixedDenominator v.core.bm.dcc = some q)
    (hend : v.core.bm.stop.day.ord < PyDate.maxOrd) (hchol : v.core.bm.chol 0 0 ^ 2 = 1) (x0 : Vec 1) (hx0 : x0 0 = θ) (v' : Ω → Vasicek)
    (hv : ∀ ω, v.generatePath x0 true (fun k i => Z k i ω) = (.ok (), v' ω)) :
    ∃ (grid : List PyDatetime) (c : Ω → DtCurve),
      BrownianMotion.makeGrid v.core.bm.start v.core.bm.stop v.core.process.dt = .ok grid ∧
      (∀ ω, ∃ m', (v' ω).core.createDiscountCurve (some grid) = (.ok (c ω), m')) ∧
      ∀ n (hn : n < grid.length), n ≤ 1 → ∃ (X : Ω → ℝ) (T : ℚ), (∀ ω, (c ω).call grid[n].like = .ok (X ω) ∧ 0 < X ω) ∧
        dtAccrual v.core.bm.start grid[n] v.core.bm.dcc = .ok T ∧
        (0 < n → ∀ ω, (v' ω).averageExpectedShortRate grid[n] none = .ok θ) ∧ ∫ ω, -Real.log (X ω) ∂μ = T * θ := by
  obtain ⟨grid, dts, c, hg, hs, hc, hpos, hn⟩ := stationary_discounts hZ h hf hle q hq hend hchol x0 hx0 v' hv
  refine ⟨grid, c, hg, hc, fun n hn' h1 => ?_⟩
  obtain ⟨X, hX, ha, hav, -, he⟩ := hn n hn'
  refine ⟨X, _, hX, ha, hav, ?_⟩
  rw [he, mul_comm]
  congr 2
  interval_cases n
  · simp
  · simp

/-- C132 fails from the second step on: for a positive long-run mean, the mean of minus the logarithm of the simulated discount factor
is greater than the time times the model's own `average_expected_short_rate`; with `n` steps of equal length `(n + 1) / 2` times as
great. -/
theorem C132_stationary_false (hZ : StandardNormals μ Z) (h : MadeVasicek θ k σ v) (hθ : 0 < θ) (hf : Forward v.core.process.dt)
    (hle : v.core.bm.start ≤ v.core.bm.stop) (q : ℚ) (hq : FixedDenominator v.core.bm.dcc = some q)
    (hend : v.core.bm.stop.day.ord < PyDate.maxOrd) (hchol : v.core.bm.chol 0 0 ^ 2 = 1) (x0 : Vec 1) (hx0 : x0 0 = θ) (v' : Ω → Vasicek)
    (hv : ∀ ω, v.generatePath x0 true (fun k i => Z k i ω) = (.ok (), v' ω)) :
    ∃ (grid : List PyDatetime) (dts : List ℚ) (c : Ω → DtCurve),
      BrownianMotion.makeGrid v.core.bm.start v.core.bm.stop v.core.process.dt = .ok grid ∧ StepLengths v.core.bm.dcc grid dts ∧
      (∀ ω, ∃ m', (v' ω).core.createDiscountCurve (some grid) = (.ok (c ω), m')) ∧
      ∀ n (hn : n < grid.length), 2 ≤ n → ∃ (X : Ω → ℝ) (T : ℚ), (∀ ω, (c ω).call grid[n].like = .ok (X ω) ∧ 0 < X ω) ∧
        dtAccrual v.core.bm.start grid[n] v.core.bm.dcc = .ok T ∧
        (∀ ω, (v' ω).averageExpectedShortRate grid[n] none = .ok θ) ∧ T * θ < ∫ ω, -Real.log (X ω) ∂μ ∧
        ((∃ δ, ∀ j (hj : j < dts.length), dts[j] = δ) → ∫ ω, -Real.log (X ω) ∂μ = ((n : ℝ) + 1) / 2 * (T * θ)) := by
  obtain ⟨grid, dts, c, hg, hs, hc, hpos, hn⟩ := stationary_discounts hZ h hf hle q hq hend hchol x0 hx0 v' hv
  have hlen := hs.1
  obtain ⟨e1, e2⟩ := elapsed_sums hpos
  refine ⟨grid, dts, c, hg, hs, hc, fun n hn' h2 => ?_⟩
  obtain ⟨X, hX, ha, hav, -, he⟩ := hn n hn'
  refine ⟨X, _, hX, ha, hav (by omega), ?_, ?_⟩
  · rw [he, mul_comm]
    exact mul_lt_mul_of_pos_left ((Rat.cast_lt (K := ℝ)).2 (e1 n h2 (by omega))) hθ
  · rintro ⟨δ, hδ⟩
    rw [he, e2 δ hδ n (by omega), Rat.cast_mul]
    push_cast
    ring

end

/-- C132. Without volatility every simulation started at a positive long-run mean discounts each grid point from the second step on by more
than the model's zero-coupon bond price. -/
theorem C132_riskless_false (h : MadeVasicek θ k 0 v) (hθ : 0 < θ) (hf : Forward v.core.process.dt) (hle : v.core.bm.start ≤ v.core.bm.stop)
    (q : ℚ) (hq : FixedDenominator v.core.bm.dcc = some q) (hend : v.core.bm.stop.day.ord < PyDate.maxOrd) (x0 : Vec 1) (hx0 : x0 0 = θ)
    (normals : Nat → Vec 1) (v' : Vasicek) (hv : v.generatePath x0 true normals = (.ok (), v')) :
    ∃ (grid : List PyDatetime) (c : DtCurve) (m' : ShortRateModel 1),
      BrownianMotion.makeGrid v.core.bm.start v.core.bm.stop v.core.process.dt = .ok grid ∧
      v'.core.createDiscountCurve (some grid) = (.ok c, m') ∧
      ∀ n (hn : n < grid.length), ∃ x p, c.call grid[n].like = .ok x ∧ v'.zeroCouponBondPrice grid[n] none = .ok p ∧
        (n ≤ 1 → x = p) ∧ (2 ≤ n → x < p) := by
  have hd : v.core.bm.dcc ≠ .thirty360 := by rintro e; rw [e] at hq; simp [FixedDenominator] at hq
  obtain ⟨grid, dts, r, c, m', hg, hs, hr0, hrs, hc, hn⟩ := C132_path h hf hle q hq hend x0 normals v' hv
  obtain ⟨hhead, -, hinc, -⟩ := C55_grid v.core.bm.start v.core.bm.stop _ hf hle grid hg
  have hlen := hs.1
  have hpos : ∀ j (hj : j < dts.length), 0 < dts[j] := fun j hj => steps_pos hd hinc hs j hj
  have hmean := stationary_mean (k := k) (mean := r) (hr0.trans hx0) (fun j hj => by rw [hrs j hj, zero_mul, add_zero])
  have hmk : MadeVasicek θ k 0 v' := by have := h.generate x0 true normals; rwa [hv] at this
  obtain ⟨c1, c2⟩ : v'.core.bm.start = v.core.bm.start ∧ v'.core.bm.dcc = v.core.bm.dcc := by
    have := generatePath_clock v x0 true normals; rwa [hv] at this
  have hg0 : grid[0]'(by omega) = v.core.bm.start := by
    rw [List.head?_eq_getElem?, List.getElem?_eq_getElem (by omega)] at hhead
    injection hhead
  refine ⟨grid, c, m', hg, hc, fun n hn' => ?_⟩
  obtain ⟨-, ha, hx⟩ := hn n hn'
  have hT0 : (0 : ℚ) ≤ ∑ i ∈ range n, dts.getD i 0 := Finset.sum_nonneg fun i hi => by
    have hi' := Finset.mem_range.1 hi
    rw [List.getD_eq_getElem?_getD, List.getElem?_eq_getElem (by omega), Option.getD_some]
    exact (hpos i (by omega)).le
  have hp := C47_price hmk grid[n] (∑ i ∈ range n, dts.getD i 0) θ (fun _ => θ)
    (by show dtAccrual v'.core.bm.start grid[n] v'.core.bm.dcc = _; rw [c1, c2]; exact ha) hT0
    (by rw [c1, ← hg0, (hn 0 (by omega)).1, hr0, hx0]) ⟨rfl, fun s => by
      have := hasDerivAt_const s θ
      rwa [sub_self, mul_zero]⟩
  have hprice : expectedDiscount k 0 (fun _ => θ) ((∑ i ∈ range n, dts.getD i 0 : ℚ) : ℝ) =
      Real.exp (-(θ * ((∑ i ∈ range n, dts.getD i 0 : ℚ) : ℝ))) := by
    unfold expectedDiscount
    have hvar : integralVariance k 0 ((∑ i ∈ range n, dts.getD i 0 : ℚ) : ℝ) = 0 := by unfold integralVariance; simp
    rw [hvar, Real.toNNReal_zero, gaussianReal_zero_var, integral_dirac, intervalIntegral.integral_const, sub_zero, smul_eq_mul, mul_comm]
  rw [hprice] at hp
  have hsum : ∑ j ∈ range n, (r j + r (j + 1)) / 2 * ((∑ i ∈ range (j + 1), dts.getD i 0 : ℚ) : ℝ) =
      θ * ((∑ j ∈ range n, ∑ i ∈ range (j + 1), dts.getD i 0 : ℚ) : ℝ) := by
    rw [Rat.cast_sum, Finset.mul_sum]
    refine Finset.sum_congr rfl fun j hj => ?_
    have hj' := Finset.mem_range.1 hj
    rw [hmean j (by omega), hmean (j + 1) (by omega)]
    ring
  rw [hsum] at hx
  refine ⟨_, _, hx, hp, fun h1 => ?_, fun h2 => ?_⟩
  · interval_cases n
    · simp
    · simp
  · rw [Real.exp_lt_exp, neg_lt_neg_iff]
    exact mul_lt_mul_of_pos_left ((Rat.cast_lt (K := ℝ)).2 ((elapsed_sums hpos).1 n h2 (by omega))) hθ

/-- Concrete case: three days at 5 % with volatility 1 %, started at the long-run mean of 5 %. -/
example : ∃ (Ω : Type) (_ : MeasurableSpace Ω) (μ : Measure Ω) (_ : IsProbabilityMeasure μ) (Z : Nat → Fin 1 → Ω → ℝ)
    (v : Vasicek) (v' : Ω → Vasicek), StandardNormals μ Z ∧ MadeVasicek (1 / 20) (1 / 2) (1 / 100) v ∧
    Forward v.core.process.dt ∧ v.core.bm.start ≤ v.core.bm.stop ∧ FixedDenominator v.core.bm.dcc = some 365 ∧
    v.core.bm.stop.day.ord < PyDate.maxOrd ∧ v.core.bm.chol 0 0 ^ 2 = 1 ∧
    (∀ ω, v.generatePath (fun _ => 1 / 20) true (fun k i => Z k i ω) = (.ok (), v' ω)) ∧
    BrownianMotion.makeGrid v.core.bm.start v.core.bm.stop v.core.process.dt = .ok [T 2023 1 1, T 2023 1 2, T 2023 1 3] := by
  obtain ⟨Ω, mΩ, μ, hμ, Z, hZ⟩ := standardNormals_exist 1
  let bm : BrownianMotion 1 := ⟨T 2023 1 1, T 2023 1 3, fun _ _ => 1, .act365, none, none⟩
  let dt : DtIncrement := .timedelta 86400000000
  have hc : ∃ v, Vasicek.create (1 / 20) (1 / 2) (1 / 100) bm dt 0 = .ok v ∧ v.core.bm = bm ∧ v.core.process.dt = dt := by
    unfold Vasicek.create
    rw [floatDiv_of_ne (by norm_num)]
    exact ⟨_, rfl, rfl, rfl⟩
  obtain ⟨v, hv, hb, hdt⟩ := hc
  have hgrid : BrownianMotion.makeGrid bm.start bm.stop dt = .ok [T 2023 1 1, T 2023 1 2, T 2023 1 3] := by decide +kernel
  have hgen : ∀ ω, ∃ v', v.generatePath (fun _ => 1 / 20) true (fun k i => Z k i ω) = (.ok (), v') := by
    intro ω
    unfold Vasicek.generatePath ShortRateModel.generatePath Diffusion.generatePath
    rw [hb, hdt, generateIncrements_total bm dt _ [T 2023 1 1, T 2023 1 2, T 2023 1 3] [1 / 365, 1 / 365] hgrid (by decide +kernel)]
    exact ⟨_, rfl⟩
  choose v' hv' using hgen
  refine ⟨Ω, mΩ, μ, hμ, Z, v, v', hZ, ⟨bm, dt, 0, v, [], hv, rfl⟩, ?_, ?_, ?_, ?_, ?_, hv', ?_⟩
  · rw [hdt]; norm_num [Forward, dt]
  · rw [hb]; decide +kernel
  · rw [hb]; rfl
  · rw [hb]; decide +kernel
  · rw [hb]; norm_num [bm]
  · rw [hb, hdt]; exact hgrid

/-- Concrete case without volatility (C132_riskless_false): after two days at 5 % the simulation discounts with `exp(-3·0.05/365)`,
the model with `exp(-2·0.05/365)`. -/
example : ∃ v v' : Vasicek, MadeVasicek (1 / 20) (1 / 2) 0 v ∧ Forward v.core.process.dt ∧ v.core.bm.start ≤ v.core.bm.stop ∧
    FixedDenominator v.core.bm.dcc = some 365 ∧ v.core.bm.stop.day.ord < PyDate.maxOrd ∧
    v.generatePath (fun _ => 1 / 20) true (fun _ _ => 1) = (.ok (), v') ∧
    BrownianMotion.makeGrid v.core.bm.start v.core.bm.stop v.core.process.dt = .ok [T 2023 1 1, T 2023 1 2, T 2023 1 3] := by
  let bm : BrownianMotion 1 := ⟨T 2023 1 1, T 2023 1 3, fun _ _ => 1, .act365, none, none⟩
  let dt : DtIncrement := .timedelta 86400000000
  have hc : ∃ v, Vasicek.create (1 / 20) (1 / 2) 0 bm dt 0 = .ok v ∧ v.core.bm = bm ∧ v.core.process.dt = dt := by
    unfold Vasicek.create
    rw [floatDiv_of_ne (by norm_num)]
    exact ⟨_, rfl, rfl, rfl⟩
  obtain ⟨v, hv, hb, hdt⟩ := hc
  have hgrid : BrownianMotion.makeGrid bm.start bm.stop dt = .ok [T 2023 1 1, T 2023 1 2, T 2023 1 3] := by decide +kernel
  have hgen : ∃ v', v.generatePath (fun _ => 1 / 20) true (fun _ _ => 1) = (.ok (), v') := by
    unfold Vasicek.generatePath ShortRateModel.generatePath Diffusion.generatePath
    rw [hb, hdt, generateIncrements_total bm dt _ [T 2023 1 1, T 2023 1 2, T 2023 1 3] [1 / 365, 1 / 365] hgrid (by decide +kernel)]
    exact ⟨_, rfl⟩
  obtain ⟨v', hv'⟩ := hgen
  refine ⟨v, v', ⟨bm, dt, 0, v, [], hv, rfl⟩, ?_, ?_, ?_, ?_, hv', ?_⟩
  · rw [hdt]; norm_num [Forward, dt]
  · rw [hb]; decide +kernel
  · rw [hb]; rfl
  · rw [hb]; decide +kernel
  · rw [hb, hdt]; exact hgrid

end Verif.Props
