/- Moments of simulated Vasicek short rates against the model's closed forms: C87. -/
import Verif.Props.Correlation
import Verif.Props.Vasicek
import Verif.Props.DayCount

namespace Verif.Props
open Verif Verif.Spec Verif.DayCount Finset MeasureTheory ProbabilityTheory

section
variable {Ω : Type} [MeasurableSpace Ω] {μ : Measure Ω} [IsProbabilityMeasure μ]

/-- A first-order autoregression with uncorrelated centred shocks, to grid point `N`. -/
theorem autoregression (N : Nat) (ξ : Nat → Ω → ℝ) (q a : Nat → ℝ) (s c : ℝ) (D : Nat → Ω → ℝ) (V : Nat → ℝ)
    (hint : ∀ n, n < N → Integrable (ξ n) μ) (hmean : ∀ n, n < N → ∫ ω, ξ n ω ∂μ = 0)
    (hmul : ∀ m n, m < N → n < N → Integrable (fun ω => ξ m ω * ξ n ω) μ)
    (hcov : ∀ m n, m < N → n < N → ∫ ω, ξ m ω * ξ n ω ∂μ = if m = n then q m else 0)
    (h0 : ∀ ω, D 0 ω = c) (hs : ∀ n, n < N → ∀ ω, D (n + 1) ω = a n * D n ω + s * ξ n ω)
    (v0 : V 0 = 0) (vs : ∀ n, n < N → V (n + 1) = a n ^ 2 * V n + s ^ 2 * q n) (n : Nat) (hn : n ≤ N) :
    Integrable (D n) μ ∧ ∫ ω, D n ω ∂μ = c * ∏ k ∈ range n, a k ∧
    (∀ m, m < N → Integrable (fun ω => D n ω * ξ m ω) μ) ∧ (∀ m, n ≤ m → m < N → ∫ ω, D n ω * ξ m ω ∂μ = 0) ∧
    Integrable (fun ω => D n ω ^ 2) μ ∧ ∫ ω, D n ω ^ 2 ∂μ = (c * ∏ k ∈ range n, a k) ^ 2 + V n := by
  induction n with
  | zero =>
    have e : D 0 = fun _ => c := funext h0
    rw [e]
    refine ⟨integrable_const _, by simp, fun m hm => (hint m hm).const_mul _, fun m _ hm => ?_, integrable_const _, by simp [v0]⟩
    rw [integral_const_mul, hmean m hm, mul_zero]
  | succ n ih =>
    obtain ⟨i1, i2, i3, i4, i5, i6⟩ := ih (by omega)
    have hn' : n < N := by omega
    have e : D (n + 1) = fun ω => a n * D n ω + s * ξ n ω := funext (hs n hn')
    rw [e]
    have j1 : Integrable (fun ω => a n * D n ω) μ := i1.const_mul _
    have j2 : Integrable (fun ω => s * ξ n ω) μ := (hint n hn').const_mul _
    refine ⟨j1.add j2, ?_, ?_, ?_, ?_, ?_⟩
    · rw [integral_add j1 j2, integral_const_mul, integral_const_mul, i2, hmean n hn', Finset.prod_range_succ]
      ring
    · intro m hm
      have : Integrable (fun ω => a n * (D n ω * ξ m ω) + s * (ξ n ω * ξ m ω)) μ :=
        ((i3 m hm).const_mul _).add ((hmul n m hn' hm).const_mul _)
      refine this.congr (Filter.Eventually.of_forall fun ω => ?_)
      simp only
      ring
    · intro m hnm hm
      have e2 : ∀ ω, (a n * D n ω + s * ξ n ω) * ξ m ω = a n * (D n ω * ξ m ω) + s * (ξ n ω * ξ m ω) := fun ω => by ring
      simp only [e2]
      have k1 : Integrable (fun ω => a n * (D n ω * ξ m ω)) μ := (i3 m hm).const_mul _
      have k2 : Integrable (fun ω => s * (ξ n ω * ξ m ω)) μ := (hmul n m hn' hm).const_mul _
      rw [integral_add k1 k2, integral_const_mul, integral_const_mul, i4 m (by omega) hm, hcov n m hn' hm, if_neg (by omega)]
      ring
    · have : Integrable (fun ω => a n ^ 2 * D n ω ^ 2 + 2 * a n * s * (D n ω * ξ n ω) + s ^ 2 * (ξ n ω * ξ n ω)) μ :=
        ((i5.const_mul _).add ((i3 n hn').const_mul _)).add ((hmul n n hn' hn').const_mul _)
      refine this.congr (Filter.Eventually.of_forall fun ω => ?_)
      simp only
      ring
    · have e2 : ∀ ω, (a n * D n ω + s * ξ n ω) ^ 2 =
          a n ^ 2 * D n ω ^ 2 + 2 * a n * s * (D n ω * ξ n ω) + s ^ 2 * (ξ n ω * ξ n ω) := fun ω => by ring
      simp only [e2]
      have k1 : Integrable (fun ω => a n ^ 2 * D n ω ^ 2) μ := i5.const_mul _
      have k2 : Integrable (fun ω => 2 * a n * s * (D n ω * ξ n ω)) μ := (i3 n hn').const_mul _
      have k3 : Integrable (fun ω => s ^ 2 * (ξ n ω * ξ n ω)) μ := (hmul n n hn' hn').const_mul _
      have k12 : Integrable (fun ω => a n ^ 2 * D n ω ^ 2 + 2 * a n * s * (D n ω * ξ n ω)) μ := k1.add k2
      rw [integral_add k12 k3, integral_add k1 k2, integral_const_mul, integral_const_mul, integral_const_mul, i6,
        i4 n le_rfl hn', hcov n n hn' hn', if_pos rfl, vs n hn', Finset.prod_range_succ]
      ring

variable {Z : Nat → Fin 1 → Ω → ℝ} {θ k σ : ℝ} {v : Vasicek}

theorem MadeVasicek.generate (h : MadeVasicek θ k σ v) (x0 : Vec 1) (set : Bool) (normals : Nat → Vec 1) :
    MadeVasicek θ k σ (v.generatePath x0 set normals).2 := by
  obtain ⟨bm, dt, g, v0, ops, h0, rfl⟩ := h
  exact ⟨bm, dt, g, v0, ops ++ [(x0, set, normals)], h0, by rw [List.foldl_append]; rfl⟩

theorem generatePath_clock (v : Vasicek) (x0 : Vec 1) (set : Bool) (normals : Nat → Vec 1) :
    (v.generatePath x0 set normals).2.core.bm.start = v.core.bm.start ∧
    (v.generatePath x0 set normals).2.core.bm.dcc = v.core.bm.dcc := by
  have hb : ∀ (b : BrownianMotion 1) dt, (b.generateIncrements dt normals).2.start = b.start ∧
      (b.generateIncrements dt normals).2.dcc = b.dcc := by
    intro b dt
    unfold BrownianMotion.generateIncrements
    split
    · exact ⟨rfl, rfl⟩
    · split
      · exact ⟨rfl, rfl⟩
      · split <;> exact ⟨rfl, rfl⟩
  unfold Vasicek.generatePath ShortRateModel.generatePath Diffusion.generatePath
  have := hb v.core.bm v.core.process.dt
  rcases hg : v.core.bm.generateIncrements v.core.process.dt normals with ⟨r, b⟩
  rw [hg] at this
  cases r with
  | error e => exact this
  | ok r =>
    simp only
    split <;> rename_i heq <;> (try exact this)
    all_goals
      simp only [Prod.mk.injEq] at heq
      obtain ⟨-, h2, h3⟩ := heq
      subst h2 h3
      split <;> exact this

/-- C87. With independent standard normal draws, the simulated Vasicek rate at each grid point has the mean and variance of
the discretized equation: `mean += k(θ - mean)dt`, and `var = (1 - k·dt)²·var + σ²·dt`, from the starting rate and zero. -/
theorem C87_moments (hZ : StandardNormals μ Z) (h : MadeVasicek θ k σ v) (hf : Forward v.core.process.dt)
    (hle : v.core.bm.start ≤ v.core.bm.stop) (hd : v.core.bm.dcc ≠ .thirty360) (hchol : v.core.bm.chol 0 0 ^ 2 = 1)
    (x0 : Vec 1) (v' : Ω → Vasicek)
    (hv : ∀ ω, v.generatePath x0 true (fun k i => Z k i ω) = (.ok (), v' ω)) :
    ∃ (grid : List PyDatetime) (dts : List ℚ) (R : Nat → Ω → ℝ) (mean var : Nat → ℝ),
      BrownianMotion.makeGrid v.core.bm.start v.core.bm.stop v.core.process.dt = .ok grid ∧
      StepLengths v.core.bm.dcc grid dts ∧ (∀ j (hj : j < dts.length), 0 < dts[j]) ∧
      (∀ n (hn : n < grid.length) ω, (v' ω).call grid[n] = .ok (R n ω)) ∧
      mean 0 = x0 0 ∧ (∀ n (hn : n < dts.length), mean (n + 1) = mean n + k * (θ - mean n) * dts[n]) ∧
      var 0 = 0 ∧ (∀ n (hn : n < dts.length), var (n + 1) = (1 - k * dts[n]) ^ 2 * var n + σ ^ 2 * dts[n]) ∧
      ∀ n, n < grid.length → Integrable (R n) μ ∧ ∫ ω, R n ω ∂μ = mean n ∧
        Integrable (fun ω => (R n ω - mean n) ^ 2) μ ∧ ∫ ω, (R n ω - mean n) ^ 2 ∂μ = var n := by
  obtain ⟨ω0⟩ : Nonempty Ω := μ.nonempty_of_neZero
  obtain ⟨grid, dts, -, hg, hs, -⟩ := C47_simulated h hf hle x0 _ _ (hv ω0)
  obtain ⟨-, -, hinc, -⟩ := C55_grid v.core.bm.start v.core.bm.stop _ hf hle grid hg
  have hpos : ∀ j (hj : j < dts.length), 0 < dts[j] := fun j hj => steps_pos hd hinc hs j hj
  have hlen := hs.1
  have hall : ∀ ω, ∃ rs : List ℝ, rs.length = grid.length ∧ rs.head? = some (x0 0) ∧
      (∀ j (h1 : j < dts.length) (h2 : j + 1 < rs.length),
        rs[j + 1] = rs[j] + k * (θ - rs[j]) * dts[j] + σ * shock v.core.bm.chol (fun k i => Z k i ω) dts j h1 0) ∧
      ∀ j (h1 : j < grid.length) (h2 : j < rs.length), (v' ω).call grid[j] = .ok rs[j] := by
    intro ω
    obtain ⟨grid', dts', rs, hg', hs', a1, a2, -, a3, a4⟩ := C47_simulated h hf hle x0 _ _ (hv ω)
    rw [hg] at hg'
    injection hg' with hg'
    subst hg'
    have hdts : dts' = dts := by
      apply List.ext_getElem
      · have := hs'.1; omega
      · intro j hj hj'
        have e1 := hs.2 j hj' (by omega) (by omega)
        have e2 := hs'.2 j hj (by omega) (by omega)
        rw [e1] at e2
        injection e2 with e2
        exact e2.symm
    subst hdts
    exact ⟨rs, a1, a2, a3, a4⟩
  choose rs hrl hr0 hrs hrc using hall
  let d : Nat → ℝ := fun n => if hn : n < dts.length then (dts[n] : ℝ) else 0
  have hdd : ∀ n (hn : n < dts.length), d n = dts[n] := fun n hn => by simp only [d, dif_pos hn]
  let ξ : Nat → Ω → ℝ := fun n ω => if hn : n < dts.length then shock v.core.bm.chol (fun k i => Z k i ω) dts n hn 0 else 0
  have hξ : ∀ n (hn : n < dts.length), ξ n = fun ω => shock v.core.bm.chol (fun k i => Z k i ω) dts n hn 0 := by
    intro n hn
    funext ω
    simp only [ξ, dif_pos hn]
  let V : Nat → ℝ := fun n => Nat.rec 0 (fun n x => (1 - k * d n) ^ 2 * x + σ ^ 2 * d n) n
  have key := autoregression (μ := μ) dts.length ξ d (fun n => 1 - k * d n) σ (x0 0 - θ)
    (fun n ω => (rs ω).getD n 0 - θ) V
    (fun n hn => by rw [hξ n hn]; exact shock_integrable hZ _ dts n hn 0)
    (fun n hn => by rw [hξ n hn]; exact shock_mean hZ _ dts n hn 0)
    (fun m n hm hn => by rw [hξ n hn, hξ m hm]; exact shock_mul_integrable hZ _ dts m n hm hn 0 0)
    (fun m n hm hn => by
      rw [hξ n hn, hξ m hm]
      simp only
      rw [shock_cov hZ _ dts m n hm hn (hpos m hm).le 0 0, hdd m hm]
      simp only [Finset.univ_unique, Fin.default_eq_zero, Fin.isValue, Finset.sum_singleton]
      rw [← pow_two, hchol, one_mul])
    (fun ω => by
      have := hr0 ω
      cases hc : rs ω with
      | nil => rw [hc] at this; simp at this
      | cons a l => rw [hc] at this; simp only [List.head?_cons, Option.some.injEq] at this; simp [this])
    (fun n hn ω => by
      have l1 : n + 1 < (rs ω).length := by rw [hrl ω]; omega
      rw [hξ n hn, List.getD_eq_getElem?_getD, List.getElem?_eq_getElem l1, Option.getD_some, hrs ω n hn l1,
        List.getD_eq_getElem?_getD, List.getElem?_eq_getElem (by omega), Option.getD_some, hdd n hn]
      ring)
    rfl (fun n hn => rfl)
  refine ⟨grid, dts, fun n ω => (rs ω).getD n 0, fun n => θ + (x0 0 - θ) * ∏ j ∈ range n, (1 - k * d j), V, hg, hs, hpos, ?_,
    by simp, ?_, rfl, ?_, ?_⟩
  · intro n hn ω
    have l1 : n < (rs ω).length := by rw [hrl ω]; omega
    simp only
    rw [hrc ω n hn l1, List.getD_eq_getElem?_getD, List.getElem?_eq_getElem l1, Option.getD_some]
  · intro n hn
    simp only
    rw [Finset.prod_range_succ, hdd n hn]
    ring
  · intro n hn
    show (1 - k * d n) ^ 2 * V n + σ ^ 2 * d n = _
    rw [hdd n hn]
  · intro n hn
    obtain ⟨i1, i2, -, -, i5, i6⟩ := key n (by omega)
    have j1 : Integrable (fun ω => (rs ω).getD n 0) μ := by
      refine (i1.add (integrable_const θ)).congr (Filter.Eventually.of_forall fun ω => ?_)
      simp
    have j2 : ∫ ω, (rs ω).getD n 0 ∂μ = θ + (x0 0 - θ) * ∏ j ∈ range n, (1 - k * d j) := by
      rw [← i2, integral_sub j1 (integrable_const _), integral_const, probReal_univ, one_smul]
      ring
    set M := (x0 0 - θ) * ∏ j ∈ range n, (1 - k * d j) with hM
    have e : ∀ ω, ((rs ω).getD n 0 - (θ + M)) ^ 2 = ((rs ω).getD n 0 - θ) ^ 2 + (-2 * M * ((rs ω).getD n 0 - θ) + M ^ 2) :=
      fun ω => by ring
    have k1 : Integrable (fun ω => -2 * M * ((rs ω).getD n 0 - θ) + M ^ 2) μ := (i1.const_mul _).add (integrable_const _)
    refine ⟨j1, j2, ?_, ?_⟩ <;> simp only [← hM]
    · simp only [e]
      exact i5.add k1
    · simp only [e]
      have k0 : Integrable (fun ω => -2 * M * ((rs ω).getD n 0 - θ)) μ := i1.const_mul _
      rw [integral_add i5 k1, i6, integral_add k0 (integrable_const _), integral_const_mul, i2, integral_const, probReal_univ,
        one_smul]
      ring

/-- One Euler step against the exact decay. -/
theorem decay_step {x : ℝ} (h0 : 0 ≤ x) : |1 - x - Real.exp (-x)| ≤ x ^ 2 / 2 ∧ Real.exp (-x) ≤ 1 ∧ 0 < Real.exp (-x) := by
  have h1 := Real.add_one_le_exp (-x)
  have h2 : Real.exp (-x) ≤ 1 - x + x ^ 2 / 2 := by
    have := Real.quadratic_le_exp_of_nonneg h0
    have hm : Real.exp (-x) * Real.exp x = 1 := by rw [← Real.exp_add]; simp
    have hp := Real.exp_pos (-x)
    have h3 : 1 ≤ (1 - x + x ^ 2 / 2) * (1 + x + x ^ 2 / 2) := by nlinarith [sq_nonneg (x ^ 2)]
    have h4 : 0 < 1 - x + x ^ 2 / 2 := by nlinarith [sq_nonneg (x - 1)]
    by_contra hc
    push Not at hc
    nlinarith [mul_le_mul hc.le this (by positivity) hp.le, mul_lt_mul_of_pos_right hc (Real.exp_pos x),
      mul_le_mul_of_nonneg_left this h4.le]
  refine ⟨?_, Real.exp_le_one_iff.2 (by linarith), Real.exp_pos _⟩
  rw [abs_le]
  constructor <;> linarith

/-- The time from the start to a grid point is the sum of the step lengths, under the conventions with a fixed denominator. -/
theorem elapsed_steps (dcc : DayCountConvention) (q : ℚ) (hq : FixedDenominator dcc = some q) (grid : List PyDatetime)
    (hinc : grid.Pairwise (· < ·)) (dts : List ℚ) (hs : StepLengths dcc grid dts) (hlast : ∀ g ∈ grid, g.day.ord < PyDate.maxOrd)
    (n : Nat) (hn : n < grid.length) (h0 : 0 < grid.length) :
    dtAccrual grid[0] grid[n] dcc = .ok (∑ j ∈ range n, dts.getD j 0) := by
  have hfix : ∀ i j (hi : i < grid.length) (hj : j < grid.length), i ≤ j →
      dtAccrual grid[i] grid[j] dcc = .ok (((grid[j].instant - grid[i].instant : Int) : ℚ) / (q * 86400000000)) := by
    intro i j hi hj hij
    have hle : grid[i].instant ≤ grid[j].instant := by
      rcases Nat.lt_or_ge i j with h | h
      · have := List.pairwise_iff_getElem.1 hinc i j hi hj h
        rw [PyDatetime.lt_iff] at this
        exact this.le
      · have : i = j := by omega
        subst this
        exact le_rfl
    exact C16_act_fixed_datetimes dcc q hq grid[i].like grid[j].like hle (fun _ => hlast _ (List.getElem_mem _))
      (fun _ => hlast _ (List.getElem_mem _))
  have hlen := hs.1
  rw [hfix 0 n h0 hn (Nat.zero_le _)]
  congr 1
  induction n with
  | zero => simp
  | succ n ih =>
    have := hs.2 n (by omega) (by omega) hn
    rw [hfix n (n + 1) (by omega) hn (by omega)] at this
    injection this with this
    rw [Finset.sum_range_succ, ← ih (by omega), List.getD_eq_getElem?_getD, List.getElem?_eq_getElem (by omega), Option.getD_some,
      ← this]
    push_cast
    ring

/-- C87. Under the conventions with a fixed denominator, a positive reversion speed and steps no longer than `1/k`, the mean
and the variance of the simulated rate at every grid point are the model's own `expected_short_rate` and
`short_rate_variance` there, up to a discretization error proportional to the sum of the squared step lengths. -/
theorem C87_closed_forms (hZ : StandardNormals μ Z) (h : MadeVasicek θ k σ v) (hk : 0 < k) (hf : Forward v.core.process.dt)
    (hle : v.core.bm.start ≤ v.core.bm.stop) (q : ℚ) (hq : FixedDenominator v.core.bm.dcc = some q)
    (hend : v.core.bm.stop.day.ord < PyDate.maxOrd) (hchol : v.core.bm.chol 0 0 ^ 2 = 1) (x0 : Vec 1) (v' : Ω → Vasicek)
    (hv : ∀ ω, v.generatePath x0 true (fun k i => Z k i ω) = (.ok (), v' ω)) :
    ∃ (grid : List PyDatetime) (dts : List ℚ) (R : Nat → Ω → ℝ),
      BrownianMotion.makeGrid v.core.bm.start v.core.bm.stop v.core.process.dt = .ok grid ∧
      StepLengths v.core.bm.dcc grid dts ∧ (∀ n (hn : n < grid.length) ω, (v' ω).call grid[n] = .ok (R n ω)) ∧
      ((∀ j (hj : j < dts.length), k * dts[j] ≤ 1) → ∀ n (hn : n < grid.length),
        ∃ e w : ℝ, (∀ ω, (v' ω).expectedShortRate grid[n] none = .ok e ∧ (v' ω).shortRateVariance grid[n] none = .ok w) ∧
          |∫ ω, R n ω ∂μ - e| ≤ |x0 0 - θ| * k ^ 2 / 2 * ∑ j ∈ range n, (dts.getD j 0 : ℝ) ^ 2 ∧
          |∫ ω, (R n ω - ∫ ω, R n ω ∂μ) ^ 2 ∂μ - w| ≤ 3 / 2 * σ ^ 2 * k * ∑ j ∈ range n, (dts.getD j 0 : ℝ) ^ 2) := by
  have hd : v.core.bm.dcc ≠ .thirty360 := by rintro e; rw [e] at hq; simp [FixedDenominator] at hq
  obtain ⟨grid, dts, R, mean, var, hg, hs, hpos, hR, m0, ms, w0, ws, hm⟩ := C87_moments hZ h hf hle hd hchol x0 v' hv
  obtain ⟨hhead, hl, hinc, -⟩ := C55_grid v.core.bm.start v.core.bm.stop _ hf hle grid hg
  refine ⟨grid, dts, R, hg, hs, hR, fun hsmall => ?_⟩
  have hlen := hs.1
  have h0 : 0 < grid.length := by omega
  have hg0 : grid[0] = v.core.bm.start := by
    rw [List.head?_eq_getElem?, List.getElem?_eq_getElem h0] at hhead
    injection hhead
  have hlast : ∀ g ∈ grid, g.day.ord < PyDate.maxOrd := by
    intro g hgm
    obtain ⟨i, hi, rfl⟩ := List.getElem_of_mem hgm
    rw [List.getLast?_eq_getElem?, List.getElem?_eq_getElem (by omega)] at hl
    injection hl with hl
    have hle' : grid[i].instant ≤ v.core.bm.stop.instant := by
      rw [← hl]
      rcases Nat.lt_or_ge i (grid.length - 1) with h' | h'
      · have := List.pairwise_iff_getElem.1 hinc i (grid.length - 1) hi (by omega) h'
        rw [PyDatetime.lt_iff] at this
        exact this.le
      · have : i = grid.length - 1 := by omega
        subst this
        exact le_rfl
    have b1 := grid[i].bounds
    have b2 := v.core.bm.stop.bounds
    unfold PyDatetime.instant at hle'
    omega
  have hT : ∀ n (hn : n < grid.length), dtAccrual v.core.bm.start grid[n] v.core.bm.dcc = .ok (∑ j ∈ range n, dts.getD j 0) := by
    intro n hn
    rw [← hg0]
    exact elapsed_steps _ q hq grid hinc dts hs hlast n hn h0
  let τ : Nat → ℝ := fun n => ∑ j ∈ range n, (dts.getD j 0 : ℝ)
  have hτ : ∀ n, τ (n + 1) = τ n + (dts.getD n 0 : ℝ) := fun n => Finset.sum_range_succ _ _
  have hgd : ∀ n (hn : n < dts.length), dts.getD n 0 = dts[n] := fun n hn => by
    rw [List.getD_eq_getElem?_getD, List.getElem?_eq_getElem hn, Option.getD_some]
  have hτ0 : ∀ n, n ≤ dts.length → 0 ≤ τ n := by
    intro n hn
    refine Finset.sum_nonneg fun j hj => ?_
    have hj' : j < dts.length := by have := Finset.mem_range.1 hj; omega
    rw [hgd j hj']
    exact_mod_cast (hpos j hj').le
  have herr1 : ∀ n, n ≤ dts.length → |mean n - vMean k θ (x0 0) (τ n)| ≤
      |x0 0 - θ| * k ^ 2 / 2 * ∑ j ∈ range n, (dts.getD j 0 : ℝ) ^ 2 := by
    intro n
    induction n with
    | zero => intro _; simp [m0, vMean, τ]
    | succ n ih =>
      intro hn
      have ih := ih (by omega)
      have hn' : n < dts.length := by omega
      have hdp : (0 : ℝ) < dts[n] := by exact_mod_cast hpos n hn'
      obtain ⟨s1, s2, s3⟩ := decay_step (x := k * dts[n]) (by positivity)
      have hx1 := hsmall n hn'
      rw [ms n hn', hτ, hgd n hn', Finset.sum_range_succ, hgd n hn']
      have e1 : mean n + k * (θ - mean n) * dts[n] - vMean k θ (x0 0) (τ n + dts[n]) =
          (1 - k * dts[n]) * (mean n - vMean k θ (x0 0) (τ n)) +
            Real.exp (-k * τ n) * (x0 0 - θ) * (1 - k * dts[n] - Real.exp (-(k * dts[n]))) := by
        unfold vMean
        rw [show -k * (τ n + (dts[n] : ℝ)) = -k * τ n + -(k * dts[n]) by ring, Real.exp_add]
        ring
      rw [e1]
      have a1 : |(1 - k * dts[n]) * (mean n - vMean k θ (x0 0) (τ n))| ≤ |mean n - vMean k θ (x0 0) (τ n)| := by
        rw [abs_mul]
        refine mul_le_of_le_one_left (abs_nonneg _) ?_
        rw [abs_le]
        constructor <;> nlinarith
      have a2 : |Real.exp (-k * τ n) * (x0 0 - θ) * (1 - k * dts[n] - Real.exp (-(k * dts[n])))| ≤
          |x0 0 - θ| * ((k * dts[n]) ^ 2 / 2) := by
        rw [abs_mul, abs_mul, abs_of_pos (Real.exp_pos _)]
        have : Real.exp (-k * τ n) ≤ 1 := Real.exp_le_one_iff.2 (by nlinarith [hτ0 n (by omega)])
        exact mul_le_mul (mul_le_of_le_one_left (abs_nonneg _) this) s1 (abs_nonneg _) (abs_nonneg _)
      refine (abs_add_le _ _).trans ?_
      calc _ ≤ _ := add_le_add (a1.trans ih) a2
        _ = _ := by ring
  have herr2 : ∀ n, n ≤ dts.length → |var n - vVar k σ (τ n)| ≤ 3 / 2 * σ ^ 2 * k * ∑ j ∈ range n, (dts.getD j 0 : ℝ) ^ 2 := by
    intro n
    induction n with
    | zero => intro _; simp [w0, vVar, τ]
    | succ n ih =>
      intro hn
      have ih := ih (by omega)
      have hn' : n < dts.length := by omega
      have hdp : (0 : ℝ) < dts[n] := by exact_mod_cast hpos n hn'
      have hx1 := hsmall n hn'
      obtain ⟨s1, s2, s3⟩ := decay_step (x := k * dts[n]) (by positivity)
      obtain ⟨t1, t2, t3⟩ := decay_step (x := 2 * (k * dts[n])) (by positivity)
      have hsq : Real.exp (-(2 * (k * dts[n]))) = Real.exp (-(k * dts[n])) ^ 2 := by
        rw [← Real.exp_nat_mul]; congr 1; push_cast; ring
      rw [ws n hn', hτ, hgd n hn', Finset.sum_range_succ, hgd n hn']
      set y := Real.exp (-(k * dts[n])) with hy
      set x := k * (dts[n] : ℝ) with hx
      set E := Real.exp (-2 * k * τ n) with hE
      have hEp : 0 < E := Real.exp_pos _
      have hE1 : E ≤ 1 := Real.exp_le_one_iff.2 (by nlinarith [hτ0 n (by omega)])
      have hxp : 0 < x := by positivity
      have e1 : (1 - x) ^ 2 * var n + σ ^ 2 * dts[n] - vVar k σ (τ n + dts[n]) =
          (1 - x) ^ 2 * (var n - vVar k σ (τ n)) + σ ^ 2 / (2 * k) * ((1 - E) * ((1 - x) ^ 2 - y ^ 2)) +
            σ ^ 2 / (2 * k) * (2 * x - 1 + y ^ 2) := by
        unfold vVar
        rw [show -2 * k * (τ n + (dts[n] : ℝ)) = -2 * k * τ n + -(2 * x) by rw [hx]; ring, Real.exp_add, hsq, ← hE]
        rw [hx]
        field_simp
        ring
      rw [e1]
      have a1 : |(1 - x) ^ 2 * (var n - vVar k σ (τ n))| ≤ |var n - vVar k σ (τ n)| := by
        rw [abs_mul]
        refine mul_le_of_le_one_left (abs_nonneg _) ?_
        rw [abs_of_nonneg (sq_nonneg _)]
        nlinarith
      have a2 : |(1 - E) * ((1 - x) ^ 2 - y ^ 2)| ≤ x ^ 2 := by
        rw [abs_mul, abs_of_nonneg (by linarith : 0 ≤ 1 - E)]
        have : |(1 - x) ^ 2 - y ^ 2| ≤ x ^ 2 := by
          rw [show (1 - x) ^ 2 - y ^ 2 = (1 - x - y) * (1 - x + y) by ring, abs_mul]
          have : |1 - x + y| ≤ 2 := by rw [abs_le]; constructor <;> linarith
          calc _ ≤ x ^ 2 / 2 * 2 := mul_le_mul s1 this (abs_nonneg _) (by positivity)
            _ = _ := by ring
        exact (mul_le_of_le_one_left (abs_nonneg _) (by linarith)).trans this
      have a3 : |2 * x - 1 + y ^ 2| ≤ 2 * x ^ 2 := by
        rw [hsq] at t1
        rw [show 2 * x - 1 + y ^ 2 = -(1 - 2 * x - y ^ 2) by ring, abs_neg]
        calc _ ≤ _ := t1
          _ = _ := by ring
      have hc : 0 ≤ σ ^ 2 / (2 * k) := by positivity
      have a23 : |σ ^ 2 / (2 * k) * ((1 - E) * ((1 - x) ^ 2 - y ^ 2)) + σ ^ 2 / (2 * k) * (2 * x - 1 + y ^ 2)| ≤
          σ ^ 2 / (2 * k) * (3 * x ^ 2) := by
        rw [← mul_add, abs_mul, abs_of_nonneg hc]
        refine mul_le_mul_of_nonneg_left ((abs_add_le _ _).trans ?_) hc
        linarith
      rw [add_assoc]
      refine (abs_add_le _ _).trans ?_
      calc _ ≤ _ := add_le_add (a1.trans ih) a23
        _ = _ := by rw [hx]; field_simp
  intro n hn
  refine ⟨vMean k θ (x0 0) (τ n), vVar k σ (τ n), fun ω => ?_, ?_, ?_⟩
  · have hmk : MadeVasicek θ k σ (v' ω) := by have := h.generate x0 true (fun k i => Z k i ω); rwa [hv ω] at this
    obtain ⟨c1, c2⟩ : (v' ω).core.bm.start = v.core.bm.start ∧ (v' ω).core.bm.dcc = v.core.bm.dcc := by
      have := generatePath_clock v x0 true (fun k i => Z k i ω); rwa [hv ω] at this
    have hcall : (v' ω).call ((v' ω).purchase none) = .ok (x0 0) := by
      show (v' ω).call (v' ω).core.bm.start = _
      obtain ⟨grid', dts', rs, hg', -, a1, a2, -, -, a4⟩ := C47_simulated h hf hle x0 _ _ (hv ω)
      rw [hg] at hg'
      injection hg' with hg'
      subst hg'
      have l0 : 0 < rs.length := by omega
      rw [c1, ← hg0, a4 0 h0 l0]
      rw [List.head?_eq_getElem?, List.getElem?_eq_getElem l0] at a2
      injection a2 with a2
      rw [a2]
    have htime : (v' ω).time ((v' ω).purchase none) grid[n] = .ok (∑ j ∈ range n, dts.getD j 0) := by
      show dtAccrual (v' ω).core.bm.start grid[n] (v' ω).core.bm.dcc = _
      rw [c1, c2]
      exact hT n hn
    have := C47_moments hmk grid[n] none _ (x0 0) htime hcall _ _ (vMean_spec k θ (x0 0)) (vVar_spec (σ := σ) hk.ne')
    have hcast : ((∑ j ∈ range n, dts.getD j 0 : ℚ) : ℝ) = τ n := by push_cast; rfl
    rwa [hcast] at this
  · rw [(hm n hn).2.1]
    exact herr1 n (by omega)
  · rw [(hm n hn).2.1, (hm n hn).2.2.2]
    exact herr2 n (by omega)

end

/-- Concrete case for C87: a probability space with standard normal draws, and on it, for every outcome, a simulated path of
a model with `k = 1/2` on the grid of 1, 2 and 3 January 2023, whose steps are far shorter than `1/k`. -/
example : ∃ (Ω : Type) (_ : MeasurableSpace Ω) (μ : Measure Ω) (_ : IsProbabilityMeasure μ) (Z : Nat → Fin 1 → Ω → ℝ)
    (v : Vasicek) (v' : Ω → Vasicek), StandardNormals μ Z ∧ MadeVasicek (1 / 20) (1 / 2) (1 / 100) v ∧
    Forward v.core.process.dt ∧ v.core.bm.start ≤ v.core.bm.stop ∧ FixedDenominator v.core.bm.dcc = some 365 ∧
    v.core.bm.stop.day.ord < PyDate.maxOrd ∧ v.core.bm.chol 0 0 ^ 2 = 1 ∧
    (∀ ω, v.generatePath (fun _ => 1 / 50) true (fun k i => Z k i ω) = (.ok (), v' ω)) ∧
    ∃ grid, BrownianMotion.makeGrid v.core.bm.start v.core.bm.stop v.core.process.dt = .ok grid ∧ grid.length = 3 ∧
      ∀ dts, StepLengths v.core.bm.dcc grid dts → ∀ j (hj : j < dts.length), (1 / 2 : ℝ) * dts[j] ≤ 1 := by
  obtain ⟨Ω, mΩ, μ, hμ, Z, hZ⟩ := standardNormals_exist 1
  let bm : BrownianMotion 1 := ⟨T 2023 1 1, T 2023 1 3, fun _ _ => 1, .act365, none, none⟩
  let dt : DtIncrement := .timedelta 86400000000
  have hc : ∃ v, Vasicek.create (1 / 20) (1 / 2) (1 / 100) bm dt 0 = .ok v ∧ v.core.bm = bm ∧ v.core.process.dt = dt := by
    unfold Vasicek.create
    rw [floatDiv_of_ne (by norm_num)]
    exact ⟨_, rfl, rfl, rfl⟩
  obtain ⟨v, hv, hb, hdt⟩ := hc
  have hgrid : BrownianMotion.makeGrid bm.start bm.stop dt = .ok [T 2023 1 1, T 2023 1 2, T 2023 1 3] := by decide +kernel
  have hgen : ∀ ω, ∃ v', v.generatePath (fun _ => 1 / 50) true (fun k i => Z k i ω) = (.ok (), v') := by
    intro ω
    unfold Vasicek.generatePath ShortRateModel.generatePath Diffusion.generatePath
    rw [hb, hdt, generateIncrements_total bm dt _ [T 2023 1 1, T 2023 1 2, T 2023 1 3] [1 / 365, 1 / 365] hgrid (by decide +kernel)]
    exact ⟨_, rfl⟩
  choose v' hv' using hgen
  refine ⟨Ω, mΩ, μ, hμ, Z, v, v', hZ, ⟨bm, dt, 0, v, [], hv, rfl⟩, ?_, ?_, ?_, ?_, ?_, hv',
    [T 2023 1 1, T 2023 1 2, T 2023 1 3], ?_, rfl, ?_⟩
  · rw [hdt]; norm_num [Forward, dt]
  · rw [hb]; decide +kernel
  · rw [hb]; rfl
  · rw [hb]; decide +kernel
  · rw [hb]; norm_num [bm]
  · rw [hb, hdt]; exact hgrid
  · rw [hb]
    intro dts hs j hj
    have hl : dts.length = 2 := by have := hs.1; simp only [List.length_cons, List.length_nil] at this; omega
    have e : dts[j] = 1 / 365 := by
      have := hs.2 j hj (by simp only [List.length_cons, List.length_nil]; omega) (by simp only [List.length_cons, List.length_nil]; omega)
      have h2 : j = 0 ∨ j = 1 := by omega
      rcases h2 with rfl | rfl
      · have e : dtAccrual (T 2023 1 1) (T 2023 1 2) .act365 = .ok (1 / 365) := by decide +kernel
        exact (Except.ok.inj (e.symm.trans this)).symm
      · have e : dtAccrual (T 2023 1 2) (T 2023 1 3) .act365 = .ok (1 / 365) := by decide +kernel
        exact (Except.ok.inj (e.symm.trans this)).symm
    rw [e]
    norm_num

end Verif.Props
