/- The joint law of simulated Brownian motions, Vasicek rates and discount factors: C133. -/
import Verif.Props.NormalLaws
import Verif.Props.SimulatedDiscounts

namespace Verif.Props
open Verif Verif.Spec Verif.DayCount Finset MeasureTheory ProbabilityTheory

section
variable {Ω : Type} [MeasurableSpace Ω] {μ : Measure Ω} [IsProbabilityMeasure μ]

/-- C133. With independent standard normal draws, the values of a simulated Brownian motion - all coordinates at all grid points - are
jointly normal with mean zero, and the covariance of coordinate `i` at grid point `m` and coordinate `j` at `n` is the requested
correlation times the time elapsed to the earlier of the two. -/
theorem C133_brownian {p : Nat} {Z : Nat → Fin p → Ω → ℝ} (hZ : StandardNormals μ Z) (b : BrownianMotion p) (b' : Ω → BrownianMotion p)
    (corr : Fin p → Fin p → ℝ) (hchol : ∀ i j, ∑ m, b.chol i m * b.chol j m = corr i j) (hd : b.dcc ≠ .thirty360) (dt : DtIncrement)
    (hf : Forward dt) (hle : b.start ≤ b.stop) (set : Bool) (path : Ω → List (Vec p))
    (h : ∀ ω, b.generatePath dt set (fun k i => Z k i ω) = (.ok (path ω), b' ω)) :
    ∃ grid dts, BrownianMotion.makeGrid b.start b.stop dt = .ok grid ∧ StepLengths b.dcc grid dts ∧
      (∀ ω, (path ω).length = grid.length) ∧
      JointlyNormal μ (range grid.length ×ˢ (univ : Finset (Fin p))) (fun ni ω => (path ω).getD ni.1 0 ni.2) (fun _ => 0)
        (fun mi nj => corr mi.2 nj.2 * (elapsed dts (min mi.1 nj.1) : ℝ)) := by
  obtain ⟨grid, dts, hg, hs, hl, hmom⟩ := C56_path hZ b b' corr hchol hd dt hf hle set path h
  refine ⟨grid, dts, hg, hs, hl, jointly_normal hZ (N := grid.length) _ ?_ ?_ ?_⟩
  · rintro ⟨n, i⟩ hni
    have hn := Finset.mem_range.1 (Finset.mem_product.1 hni).1
    have hval : ∀ ω, (path ω).getD n 0 i =
        ∑ k : Fin dts.length, if k.1 < n then shock b.chol (fun k i => Z k i ω) dts k.1 k.2 i else 0 := by
      intro ω
      obtain ⟨grid', dts', hg', hs', hl', hp'⟩ := path_sum (h ω)
      rw [hg] at hg'
      injection hg' with hg'
      subst hg'
      have hdts : dts' = dts := by
        apply List.ext_getElem
        · have := hs.1; have := hs'.1; omega
        · intro j hj hj'
          have e1 := hs.2 j hj' (by have := hs.1; omega) (by have := hs.1; omega)
          have e2 := hs'.2 j hj (by have := hs.1; omega) (by have := hs.1; omega)
          rw [e1] at e2
          injection e2 with e2
          exact e2.symm
      subst hdts
      have hn' : n < (path ω).length := by rw [hl']; exact hn
      rw [List.getD_eq_getElem?_getD, List.getElem?_eq_getElem hn', Option.getD_some]
      exact hp' n hn' i
    dsimp only
    simp only [hval]
    refine AffineIn.sum _ fun k _ => ?_
    by_cases hk : k.1 < n
    · simp only [hk, if_true]
      exact AffineIn.shock b.chol dts k.1 k.2 (by have := hs.1; have := k.2; omega) i
    · simp only [hk, if_false]
      exact AffineIn.const _ _
  · rintro ⟨n, i⟩ hni
    exact (hmom n (Finset.mem_range.1 (Finset.mem_product.1 hni).1) i).1
  · rintro ⟨m, i⟩ hmi ⟨n, j⟩ hnj
    simp only [sub_zero]
    exact (hmom m (Finset.mem_range.1 (Finset.mem_product.1 hmi).1) i).2 n (Finset.mem_range.1 (Finset.mem_product.1 hnj).1) j

variable {Z : Nat → Fin 1 → Ω → ℝ} {θ k σ : ℝ} {v : Vasicek}

/-- The simulated rates follow the discretized equation. -/
theorem rates_recursion (h : MadeVasicek θ k σ v) (hf : Forward v.core.process.dt) (hle : v.core.bm.start ≤ v.core.bm.stop) (x0 : Vec 1)
    (v' : Ω → Vasicek) (hv : ∀ ω, v.generatePath x0 true (fun k i => Z k i ω) = (.ok (), v' ω)) (grid : List PyDatetime) (dts : List ℚ)
    (hg : BrownianMotion.makeGrid v.core.bm.start v.core.bm.stop v.core.process.dt = .ok grid) (hs : StepLengths v.core.bm.dcc grid dts)
    (R : Nat → Ω → ℝ) (hR : ∀ n (hn : n < grid.length) ω, (v' ω).call grid[n] = .ok (R n ω)) :
    (∀ ω, R 0 ω = x0 0) ∧ ∀ n (hn : n < dts.length) ω,
      R (n + 1) ω = R n ω + k * (θ - R n ω) * dts[n] + σ * shock v.core.bm.chol (fun k i => Z k i ω) dts n hn 0 := by
  have hlen := hs.1
  have hall : ∀ ω, ∃ rs : List ℝ, rs.length = grid.length ∧ rs.head? = some (x0 0) ∧
      (∀ j (h1 : j < dts.length) (h2 : j + 1 < rs.length),
        rs[j + 1] = rs[j] + k * (θ - rs[j]) * dts[j] + σ * shock v.core.bm.chol (fun k i => Z k i ω) dts j h1 0) ∧
      ∀ j (h1 : j < grid.length) (h2 : j < rs.length), R j ω = rs[j] := by
    intro ω
    obtain ⟨grid', dts', rs, hg', hs', a1, a2, -, a3, a4⟩ := C47_simulated h hf hle x0 _ _ (hv ω)
    rw [hg] at hg'
    injection hg' with hg'
    subst hg'
    have hdts : dts' = dts := by
      apply List.ext_getElem
      · have := hs'.1; omega
      · intro j hj hj'
        have e1 := hs.2 j hj' (by omega) (by omega)
        have e2 := hs'.2 j hj (by omega) (by omega)
        rw [e1] at e2
        injection e2 with e2
        exact e2.symm
    subst hdts
    refine ⟨rs, a1, a2, a3, fun j h1 h2 => ?_⟩
    have := hR j h1 ω
    rw [a4 j h1 h2] at this
    injection this with this
    exact this.symm
  constructor
  · intro ω
    obtain ⟨rs, a1, a2, -, a4⟩ := hall ω
    rw [a4 0 (by omega) (by omega)]
    rw [List.head?_eq_getElem?, List.getElem?_eq_getElem (by omega)] at a2
    injection a2
  · intro n hn ω
    obtain ⟨rs, a1, a2, a3, a4⟩ := hall ω
    rw [a4 (n + 1) (by omega) (by omega), a4 n (by omega) (by omega), a3 n hn (by omega)]

/-- The covariance of simulated rates: the variance at the earlier grid point, decayed over the steps to the later one. -/
noncomputable def rateCovariance (k : ℝ) (dts : List ℚ) (var : Nat → ℝ) (m n : Nat) : ℝ :=
  var (min m n) * ∏ i ∈ Ico (min m n) (max m n), (1 - k * (dts.getD i 0 : ℝ))

/-- Affine dependence, means and covariances of the simulated rates, for both parts of C133. -/
theorem rates_affine (hZ : StandardNormals μ Z) (h : MadeVasicek θ k σ v) (hf : Forward v.core.process.dt)
    (hle : v.core.bm.start ≤ v.core.bm.stop) (hd : v.core.bm.dcc ≠ .thirty360) (hchol : v.core.bm.chol 0 0 ^ 2 = 1)
    (x0 : Vec 1) (v' : Ω → Vasicek)
    (hv : ∀ ω, v.generatePath x0 true (fun k i => Z k i ω) = (.ok (), v' ω)) :
    ∃ (grid : List PyDatetime) (dts : List ℚ) (R : Nat → Ω → ℝ) (mean var : Nat → ℝ),
      BrownianMotion.makeGrid v.core.bm.start v.core.bm.stop v.core.process.dt = .ok grid ∧
      StepLengths v.core.bm.dcc grid dts ∧ (∀ j (hj : j < dts.length), 0 < dts[j]) ∧
      (∀ n (hn : n < grid.length) ω, (v' ω).call grid[n] = .ok (R n ω)) ∧
      mean 0 = x0 0 ∧ (∀ n (hn : n < dts.length), mean (n + 1) = mean n + k * (θ - mean n) * dts[n]) ∧
      var 0 = 0 ∧ (∀ n (hn : n < dts.length), var (n + 1) = (1 - k * dts[n]) ^ 2 * var n + σ ^ 2 * dts[n]) ∧
      (∀ ω, R 0 ω = x0 0) ∧
      (∀ n (hn : n < dts.length) ω,
        R (n + 1) ω = R n ω + k * (θ - R n ω) * dts[n] + σ * shock v.core.bm.chol (fun k i => Z k i ω) dts n hn 0) ∧
      (∀ n, n < grid.length → AffineIn Z n (R n) ∧ ∫ ω, R n ω ∂μ = mean n) ∧
      ∀ m n, m < grid.length → n < grid.length →
        ∫ ω, (R m ω - mean m) * (R n ω - mean n) ∂μ = rateCovariance k dts var m n := by
  obtain ⟨grid, dts, R, mean, var, hg, hs, hpos, hR, m0, ms, v0, vs, hmom⟩ := C87_moments hZ h hf hle hd hchol x0 v' hv
  obtain ⟨r0, rs⟩ := rates_recursion h hf hle x0 v' hv grid dts hg hs R hR
  have hlen := hs.1
  have haff : ∀ n, n < grid.length → AffineIn Z n (R n) := by
    intro n
    induction n with
    | zero =>
      intro _
      have : R 0 = fun _ => x0 0 := funext r0
      rw [this]
      exact AffineIn.const _ _
    | succ n ih =>
      intro hn
      have hn' : n < dts.length := by omega
      have e : R (n + 1) = fun ω => ((1 - k * (dts[n] : ℝ)) * R n ω + k * θ * (dts[n] : ℝ)) +
          σ * shock v.core.bm.chol (fun k i => Z k i ω) dts n hn' 0 := by
        funext ω
        rw [rs n hn' ω]
        ring
      rw [e]
      exact ((((ih (by omega)).mono (Nat.le_succ n)).const_mul _).add (AffineIn.const _ _)).add
        ((AffineIn.shock _ dts n hn' (Nat.lt_succ_self n) 0).const_mul _)
  have hord : ∀ m n, m ≤ n → n < grid.length → ∫ ω, (R m ω - mean m) * (R n ω - mean n) ∂μ =
      var m * ∏ i ∈ Ico m n, (1 - k * (dts.getD i 0 : ℝ)) := by
    intro m n hmn
    induction n, hmn using Nat.le_induction with
    | base =>
      intro hm
      simp only [Finset.Ico_self, Finset.prod_empty, mul_one]
      rw [← (hmom m hm).2.2.2]
      simp only [sq]
    | succ n hmn ih =>
      intro hn
      have hn' : n < dts.length := by omega
      have hgd : dts.getD n 0 = dts[n] := by
        rw [List.getD_eq_getElem?_getD, List.getElem?_eq_getElem hn', Option.getD_some]
      have e : ∀ ω, (R m ω - mean m) * (R (n + 1) ω - mean (n + 1)) =
          (1 - k * (dts[n] : ℝ)) * ((R m ω - mean m) * (R n ω - mean n)) +
            σ * ((R m ω - mean m) * shock v.core.bm.chol (fun k i => Z k i ω) dts n hn' 0) := by
        intro ω
        rw [rs n hn' ω, ms n hn']
        ring
      have hA : AffineIn Z m (fun ω => R m ω - mean m) := by
        have := (haff m (by omega)).add (AffineIn.const m (-mean m))
        simpa [sub_eq_add_neg] using this
      have hB : AffineIn Z n (fun ω => R n ω - mean n) := by
        have := (haff n (by omega)).add (AffineIn.const n (-mean n))
        simpa [sub_eq_add_neg] using this
      have hS : AffineIn Z (n + 1) (fun ω => shock v.core.bm.chol (fun k i => Z k i ω) dts n hn' 0) :=
        AffineIn.shock _ dts n hn' (Nat.lt_succ_self n) 0
      have i1 : Integrable (fun ω => (1 - k * (dts[n] : ℝ)) * ((R m ω - mean m) * (R n ω - mean n))) μ :=
        ((hA.memLp hZ).integrable_mul (hB.memLp hZ)).const_mul _
      have i2 : Integrable (fun ω => σ * ((R m ω - mean m) * shock v.core.bm.chol (fun k i => Z k i ω) dts n hn' 0)) μ :=
        ((hA.memLp hZ).integrable_mul (hS.memLp hZ)).const_mul _
      simp only [e]
      rw [integral_add i1 i2, integral_const_mul, integral_const_mul, ih (by omega), hA.orthogonal_shock hZ _ dts n hn' hmn 0,
        Finset.prod_Ico_succ_top hmn, hgd]
      ring
  refine ⟨grid, dts, R, mean, var, hg, hs, hpos, hR, m0, ms, v0, vs, r0, rs, fun n hn => ⟨haff n hn, (hmom n hn).2.1⟩, ?_⟩
  intro m n hm hn
  unfold rateCovariance
  rcases Nat.le_total m n with hmn | hmn
  · rw [min_eq_left hmn, max_eq_right hmn]
    exact hord m n hmn hn
  · rw [min_eq_right hmn, max_eq_left hmn, ← hord n m hmn hm]
    congr 1
    funext ω
    ring

/-- C133. With independent standard normal draws, the simulated Vasicek rates are jointly normal: means and variances follow the discretized
equation, and the covariance of two grid points is the variance at the earlier one decayed by `1 - k·dt` per step. With volatility, the
rate at every grid point after the start falls into every interval - negative rates included - with positive probability. -/
theorem C133_rates (hZ : StandardNormals μ Z) (h : MadeVasicek θ k σ v) (hf : Forward v.core.process.dt)
    (hle : v.core.bm.start ≤ v.core.bm.stop) (hd : v.core.bm.dcc ≠ .thirty360) (hchol : v.core.bm.chol 0 0 ^ 2 = 1)
    (x0 : Vec 1) (v' : Ω → Vasicek)
    (hv : ∀ ω, v.generatePath x0 true (fun k i => Z k i ω) = (.ok (), v' ω)) :
    ∃ (grid : List PyDatetime) (dts : List ℚ) (R : Nat → Ω → ℝ) (mean var : Nat → ℝ),
      BrownianMotion.makeGrid v.core.bm.start v.core.bm.stop v.core.process.dt = .ok grid ∧
      StepLengths v.core.bm.dcc grid dts ∧
      (∀ n (hn : n < grid.length) ω, (v' ω).call grid[n] = .ok (R n ω)) ∧
      mean 0 = x0 0 ∧ (∀ n (hn : n < dts.length), mean (n + 1) = mean n + k * (θ - mean n) * dts[n]) ∧
      var 0 = 0 ∧ (∀ n (hn : n < dts.length), var (n + 1) = (1 - k * dts[n]) ^ 2 * var n + σ ^ 2 * dts[n]) ∧
      JointlyNormal μ (range grid.length) R mean
        (fun m n => var (min m n) * ∏ i ∈ Ico (min m n) (max m n), (1 - k * (dts.getD i 0 : ℝ))) ∧
      ∀ n, n < grid.length → μ.map (R n) = gaussianReal (mean n) (var n).toNNReal ∧
        (σ ≠ 0 → 0 < n → 0 < var n ∧ ∀ a b, a < b → 0 < μ {ω | a < R n ω ∧ R n ω < b}) := by
  obtain ⟨grid, dts, R, mean, var, hg, hs, hpos, hR, m0, ms, v0, vs, -, -, hA, hC⟩ := rates_affine hZ h hf hle hd hchol x0 v' hv
  have hlen := hs.1
  refine ⟨grid, dts, R, mean, var, hg, hs, hR, m0, ms, v0, vs, ?_, fun n hn => ?_⟩
  · exact jointly_normal hZ (N := grid.length) _ (fun n hn => ((hA n (Finset.mem_range.1 hn)).1).mono (Finset.mem_range.1 hn).le)
      (fun n hn => (hA n (Finset.mem_range.1 hn)).2) (fun m hm n hn => hC m n (Finset.mem_range.1 hm) (Finset.mem_range.1 hn))
  · have hvar : ∫ ω, (R n ω - mean n) ^ 2 ∂μ = var n := by
      have := hC n n hn hn
      unfold rateCovariance at this
      simp only [min_self, max_self, Finset.Ico_self, Finset.prod_empty, mul_one] at this
      rw [← this]
      simp only [sq]
    obtain ⟨-, hmeas, hl⟩ := (hA n hn).1.law hZ (hA n hn).2 hvar
    refine ⟨hl, fun hσ hn0 => ?_⟩
    have hv0 : ∀ n, n < grid.length → 0 ≤ var n := by
      intro n hn
      induction n with
      | zero => rw [v0]
      | succ n ih =>
        have hn' : n < dts.length := by omega
        rw [vs n hn']
        have hp : (0 : ℝ) < dts[n] := by exact_mod_cast hpos n hn'
        have := ih (by omega)
        positivity
    have hp : 0 < var n := by
      obtain ⟨n, rfl⟩ := Nat.exists_eq_succ_of_ne_zero hn0.ne'
      have hn' : n < dts.length := by simp only [Nat.succ_eq_add_one] at hn; omega
      show 0 < var (n + 1)
      rw [vs n hn']
      have hp : (0 : ℝ) < dts[n] := by exact_mod_cast hpos n hn'
      have := hv0 n (by omega)
      positivity
    exact ⟨hp, fun a b hab => normal_reaches hmeas hp hl hab⟩

/-- C133. With independent standard normal draws, every simulated discount factor is log-normal. `M n` and `V n` are the mean and the variance
of the accumulated rate of the first `n` steps, each step's average rate being weighted with the time elapsed since the start (the code's
weights, C132); the average of the discount factors over all draws is `exp(-M + V/2)`. With volatility, after the start this exceeds
`exp(-M)`, and discount factors greater than one occur with positive probability. -/
theorem C133_discounts (hZ : StandardNormals μ Z) (h : MadeVasicek θ k σ v) (hf : Forward v.core.process.dt)
    (hle : v.core.bm.start ≤ v.core.bm.stop) (q : ℚ) (hq : FixedDenominator v.core.bm.dcc = some q)
    (hend : v.core.bm.stop.day.ord < PyDate.maxOrd) (hchol : v.core.bm.chol 0 0 ^ 2 = 1) (x0 : Vec 1) (v' : Ω → Vasicek)
    (hv : ∀ ω, v.generatePath x0 true (fun k i => Z k i ω) = (.ok (), v' ω)) :
    ∃ (grid : List PyDatetime) (dts : List ℚ) (mean var T : Nat → ℝ) (C : Nat → Nat → ℝ) (c : Ω → DtCurve) (X : Nat → Ω → ℝ)
      (M V : Nat → ℝ),
      BrownianMotion.makeGrid v.core.bm.start v.core.bm.stop v.core.process.dt = .ok grid ∧ StepLengths v.core.bm.dcc grid dts ∧
      mean 0 = x0 0 ∧ (∀ n (hn : n < dts.length), mean (n + 1) = mean n + k * (θ - mean n) * dts[n]) ∧
      var 0 = 0 ∧ (∀ n (hn : n < dts.length), var (n + 1) = (1 - k * dts[n]) ^ 2 * var n + σ ^ 2 * dts[n]) ∧
      (∀ m n, C m n = var (min m n) * ∏ i ∈ Ico (min m n) (max m n), (1 - k * (dts.getD i 0 : ℝ))) ∧
      (∀ n (hn : n < grid.length), ∃ t : ℚ, dtAccrual v.core.bm.start grid[n] v.core.bm.dcc = .ok t ∧ T n = t) ∧
      (∀ ω, ∃ m', (v' ω).core.createDiscountCurve (some grid) = (.ok (c ω), m')) ∧
      (∀ n (hn : n < grid.length) ω, (c ω).call grid[n].like = .ok (X n ω) ∧ 0 < X n ω) ∧
      (∀ n, M n = ∑ j ∈ range n, T (j + 1) * ((mean j + mean (j + 1)) / 2)) ∧
      (∀ n, V n = ∑ i ∈ range n, ∑ j ∈ range n, T (i + 1) * T (j + 1) *
        ((C i j + C i (j + 1) + C (i + 1) j + C (i + 1) (j + 1)) / 4)) ∧
      ∀ n, n < grid.length → 0 ≤ V n ∧ μ.map (fun ω => -Real.log (X n ω)) = gaussianReal (M n) (V n).toNNReal ∧
        ∫ ω, X n ω ∂μ = Real.exp (-M n + V n / 2) ∧
        (σ ≠ 0 → 0 < n → 0 < V n ∧ Real.exp (-M n) < ∫ ω, X n ω ∂μ ∧ 0 < μ {ω | 1 < X n ω}) := by
  have hd : v.core.bm.dcc ≠ .thirty360 := by rintro e; rw [e] at hq; simp [FixedDenominator] at hq
  obtain ⟨grid, dts, R, mean, var, hg, hs, hpos, hR, m0, ms, v0, vs, r0, rs, hA, hC⟩ := rates_affine hZ h hf hle hd hchol x0 v' hv
  have hlen := hs.1
  have hcur : ∀ ω, ∃ (c : DtCurve), (∃ m', (v' ω).core.createDiscountCurve (some grid) = (.ok c, m')) ∧
      ∀ n (hn : n < grid.length), c.call grid[n].like =
        .ok (Real.exp (-∑ j ∈ range n, (R j ω + R (j + 1) ω) / 2 * ((∑ i ∈ range (j + 1), dts.getD i 0 : ℚ) : ℝ))) := by
    intro ω
    obtain ⟨grid', dts', r, c, m', hg', hs', -, -, hc, hn⟩ := C132_path h hf hle q hq hend x0 _ _ (hv ω)
    rw [hg] at hg'
    injection hg' with hg'
    subst hg'
    have hdts : dts' = dts := by
      apply List.ext_getElem
      · have := hs'.1; omega
      · intro j hj hj'
        have e1 := hs.2 j hj' (by omega) (by omega)
        have e2 := hs'.2 j hj (by omega) (by omega)
        rw [e1] at e2
        injection e2 with e2
        exact e2.symm
    subst hdts
    have hrR : ∀ n, n < grid.length → r n = R n ω := by
      intro n hn'
      have := hR n hn' ω
      rw [(hn n hn').1] at this
      injection this
    refine ⟨c, ⟨m', hc⟩, fun n hn' => ?_⟩
    rw [(hn n hn').2.2]
    congr 3
    refine Finset.sum_congr rfl fun j hj => ?_
    have := Finset.mem_range.1 hj
    rw [hrR j (by omega), hrR (j + 1) (by omega)]
  choose c hc hcall using hcur
  let T : Nat → ℝ := fun n => ((∑ i ∈ range n, dts.getD i 0 : ℚ) : ℝ)
  let L : Nat → Ω → ℝ := fun n ω => ∑ j ∈ range n, T (j + 1) * ((R j ω + R (j + 1) ω) / 2)
  have hL : ∀ n (hn : n < grid.length) ω, (c ω).call grid[n].like = .ok (Real.exp (-L n ω)) := by
    intro n hn ω
    rw [hcall ω n hn]
    congr 3
    exact Finset.sum_congr rfl fun j _ => mul_comm _ _
  have hTpos : ∀ n, 0 < n → n < grid.length → 0 < T n := by
    intro n hn0 hn
    have : (0 : ℚ) < ∑ i ∈ range n, dts.getD i 0 := by
      refine Finset.sum_pos (fun i hi => ?_) ⟨0, Finset.mem_range.2 hn0⟩
      have hi' := Finset.mem_range.1 hi
      rw [List.getD_eq_getElem?_getD, List.getElem?_eq_getElem (by omega), Option.getD_some]
      exact hpos i (by omega)
    exact (Rat.cast_pos (K := ℝ)).2 this
  have hmem : ∀ n, n < grid.length → MemLp (fun ω => R n ω - mean n) 2 μ := fun n hn => ((hA n hn).1.memLp hZ).sub (memLp_const _)
  have hY : ∀ n, n < grid.length → JointlyNormal μ (range n) (fun j ω => (R j ω + R (j + 1) ω) / 2)
      (fun j => (mean j + mean (j + 1)) / 2)
      (fun i j => (rateCovariance k dts var i j + rateCovariance k dts var i (j + 1) + rateCovariance k dts var (i + 1) j +
        rateCovariance k dts var (i + 1) (j + 1)) / 4) := by
    intro n hn
    refine jointly_normal hZ (N := n) _ ?_ ?_ ?_
    · intro j hj
      have hj' := Finset.mem_range.1 hj
      have := (((hA j (by omega)).1.mono (M := n) (by omega)).add ((hA (j + 1) (by omega)).1.mono (M := n) (by omega))).const_mul (1 / 2)
      convert this using 2
      ring
    · intro j hj
      have hj' := Finset.mem_range.1 hj
      have i1 : Integrable (R j) μ := ((hA j (by omega)).1.memLp hZ).integrable (by norm_num)
      have i2 : Integrable (R (j + 1)) μ := ((hA (j + 1) (by omega)).1.memLp hZ).integrable (by norm_num)
      rw [integral_div, integral_add i1 i2, (hA j (by omega)).2, (hA (j + 1) (by omega)).2]
    · intro i hi j hj
      have hi' := Finset.mem_range.1 hi
      have hj' := Finset.mem_range.1 hj
      have e : ∀ ω, ((R i ω + R (i + 1) ω) / 2 - (mean i + mean (i + 1)) / 2) * ((R j ω + R (j + 1) ω) / 2 - (mean j + mean (j + 1)) / 2) =
          ((R i ω - mean i) * (R j ω - mean j) + (R i ω - mean i) * (R (j + 1) ω - mean (j + 1)) +
            (R (i + 1) ω - mean (i + 1)) * (R j ω - mean j) + (R (i + 1) ω - mean (i + 1)) * (R (j + 1) ω - mean (j + 1))) / 4 := by
        intro ω
        ring
      simp only [e]
      have hI : ∀ m n, m < grid.length → n < grid.length → Integrable (fun ω => (R m ω - mean m) * (R n ω - mean n)) μ :=
        fun m n hm hn => (hmem m hm).integrable_mul (hmem n hn)
      have i1 := hI i j (by omega) (by omega)
      have i2 := hI i (j + 1) (by omega) (by omega)
      have i3 := hI (i + 1) j (by omega) (by omega)
      have i4 := hI (i + 1) (j + 1) (by omega) (by omega)
      have i12 : Integrable (fun ω => (R i ω - mean i) * (R j ω - mean j) + (R i ω - mean i) * (R (j + 1) ω - mean (j + 1))) μ := i1.add i2
      have i123 : Integrable (fun ω => (R i ω - mean i) * (R j ω - mean j) + (R i ω - mean i) * (R (j + 1) ω - mean (j + 1)) +
        (R (i + 1) ω - mean (i + 1)) * (R j ω - mean j)) μ := i12.add i3
      rw [integral_div, integral_add i123 i4, integral_add i12 i3, integral_add i1 i2, hC i j (by omega) (by omega),
        hC i (j + 1) (by omega) (by omega), hC (i + 1) j (by omega) (by omega), hC (i + 1) (j + 1) (by omega) (by omega)]
  refine ⟨grid, dts, mean, var, T, rateCovariance k dts var, c, fun n ω => Real.exp (-L n ω),
    fun n => ∑ j ∈ range n, T (j + 1) * ((mean j + mean (j + 1)) / 2),
    fun n => ∑ i ∈ range n, ∑ j ∈ range n, T (i + 1) * T (j + 1) * ((rateCovariance k dts var i j + rateCovariance k dts var i (j + 1) +
      rateCovariance k dts var (i + 1) j + rateCovariance k dts var (i + 1) (j + 1)) / 4),
    hg, hs, m0, ms, v0, vs, fun _ _ => rfl, fun n hn => ⟨_, grid_elapsed hf hle q hq hend grid dts hg hs n hn, rfl⟩, hc,
    fun n hn ω => ⟨hL n hn ω, Real.exp_pos _⟩, fun _ => rfl, fun _ => rfl, fun n hn => ?_⟩
  obtain ⟨hV0, hlaw⟩ := hY n hn (fun j => T (j + 1))
  dsimp only at hlaw ⊢
  set M := ∑ j ∈ range n, T (j + 1) * ((mean j + mean (j + 1)) / 2) with hM
  set V := ∑ i ∈ range n, ∑ j ∈ range n, T (i + 1) * T (j + 1) * ((rateCovariance k dts var i j + rateCovariance k dts var i (j + 1) +
      rateCovariance k dts var (i + 1) j + rateCovariance k dts var (i + 1) (j + 1)) / 4) with hV
  have hlawL : μ.map (L n) = gaussianReal M V.toNNReal := hlaw
  have hexp := normal_exp hV0 hlawL
  refine ⟨hV0, by simpa only [Real.log_exp, neg_neg] using hlawL, hexp, fun hσ hn0 => ?_⟩
  have haffL : AffineIn Z n (L n) := by
    refine AffineIn.sum _ fun j hj => ?_
    have hj' := Finset.mem_range.1 hj
    have := (((hA j (by omega)).1.mono (M := n) (by omega)).add ((hA (j + 1) (by omega)).1.mono (M := n) (by omega))).const_mul (T (j + 1) / 2)
    convert this using 2
    ring
  have hVpos : 0 < V := by
    obtain ⟨n, rfl⟩ := Nat.exists_eq_succ_of_ne_zero hn0.ne'
    have hn' : n < dts.length := by simp only [Nat.succ_eq_add_one] at hn; omega
    -- the last step's shock enters with a positive weight and is independent of the rest
    let A : Ω → ℝ := fun ω => L n ω + T (n + 1) / 2 * (R n ω + (R n ω + k * (θ - R n ω) * dts[n]))
    let ξ : Ω → ℝ := fun ω => shock v.core.bm.chol (fun k i => Z k i ω) dts n hn' 0
    have hAaff : AffineIn Z n A := by
      have h1 : AffineIn Z n (L n) := by
        refine AffineIn.sum _ fun j hj => ?_
        have hj' := Finset.mem_range.1 hj
        have := (((hA j (by omega)).1.mono (M := n) (by omega)).add ((hA (j + 1) (by omega)).1.mono (M := n) (by omega))).const_mul (T (j + 1) / 2)
        convert this using 2
        ring
      have h2 := ((hA n (by omega)).1.const_mul (T (n + 1) / 2 * (2 - k * (dts[n] : ℝ)))).add
        (AffineIn.const n (T (n + 1) / 2 * (k * θ * (dts[n] : ℝ))))
      have h3 := h1.add h2
      convert h3 using 2
      ring
    have hξaff : AffineIn Z (n + 1) ξ := AffineIn.shock _ dts n hn' (Nat.lt_succ_self n) 0
    have hdec : ∀ ω, L (n + 1) ω = A ω + (T (n + 1) / 2 * σ) * ξ ω := by
      intro ω
      show ∑ j ∈ range (n + 1), _ = _
      rw [Finset.sum_range_succ, rs n hn' ω]
      simp only [A, L, ξ]
      ring
    have hB : AffineIn Z n (fun ω => A ω - M) := by
      have := hAaff.add (AffineIn.const n (-M))
      simpa [sub_eq_add_neg] using this
    have hmeanL : ∫ ω, L (n + 1) ω ∂μ = M := by
      obtain ⟨-, hl⟩ := hY (n + 1) hn (fun j => T (j + 1))
      have hL1 : AffineIn Z (n + 1) (L (n + 1)) := haffL
      have hmeas := (hL1.law hZ rfl rfl).2.1
      have h1 : ∫ x, id x ∂(μ.map (L (n + 1))) = ∫ ω, L (n + 1) ω ∂μ := integral_map hmeas.aemeasurable aestronglyMeasurable_id
      have h2 : μ.map (L (n + 1)) = gaussianReal M V.toNNReal := hlawL
      rw [← h1, h2]
      exact integral_id_gaussianReal
    have hvarL : ∫ ω, (L (n + 1) ω - M) ^ 2 ∂μ = V := by
      have hL1 : AffineIn Z (n + 1) (L (n + 1)) := haffL
      obtain ⟨h0, -, hl⟩ := hL1.law hZ hmeanL rfl
      have h2 : μ.map (L (n + 1)) = gaussianReal M V.toNNReal := hlawL
      rw [h2] at hl
      have := (gaussianReal_ext_iff.1 hl).2
      have h3 := congrArg NNReal.toReal this
      rw [Real.coe_toNNReal _ hV0, Real.coe_toNNReal _ h0] at h3
      exact h3.symm
    have e2 : ∀ ω, (L (n + 1) ω - M) ^ 2 = ((A ω - M) ^ 2 + 2 * (T (n + 1) / 2 * σ) * ((A ω - M) * ξ ω)) +
        (T (n + 1) / 2 * σ) ^ 2 * (ξ ω * ξ ω) := by
      intro ω
      rw [hdec ω]
      ring
    have i1 : Integrable (fun ω => (A ω - M) ^ 2) μ := (hB.memLp hZ).integrable_sq
    have i2 : Integrable (fun ω => 2 * (T (n + 1) / 2 * σ) * ((A ω - M) * ξ ω)) μ :=
      ((hB.memLp hZ).integrable_mul (hξaff.memLp hZ)).const_mul _
    have i3 : Integrable (fun ω => (T (n + 1) / 2 * σ) ^ 2 * (ξ ω * ξ ω)) μ :=
      ((hξaff.memLp hZ).integrable_mul (hξaff.memLp hZ)).const_mul _
    have i12 : Integrable (fun ω => (A ω - M) ^ 2 + 2 * (T (n + 1) / 2 * σ) * ((A ω - M) * ξ ω)) μ := i1.add i2
    rw [← hvarL]
    simp only [e2]
    rw [integral_add i12 i3, integral_add i1 i2, integral_const_mul, integral_const_mul,
      hB.orthogonal_shock hZ _ dts n hn' le_rfl 0, shock_cov hZ _ dts n n hn' hn' (hpos n hn').le 0 0, if_pos rfl]
    simp only [Finset.univ_unique, Fin.default_eq_zero, Fin.isValue, Finset.sum_singleton]
    rw [← pow_two (v.core.bm.chol 0 0), hchol]
    have hp : (0 : ℝ) < dts[n] := by exact_mod_cast hpos n hn'
    have hTp := hTpos (n + 1) (Nat.succ_pos n) hn
    have h0 : 0 ≤ ∫ ω, (A ω - M) ^ 2 ∂μ := integral_nonneg fun _ => sq_nonneg _
    have : 0 < (T (n + 1) / 2 * σ) ^ 2 * (1 * (dts[n] : ℝ)) := by positivity
    linarith
  refine ⟨hVpos, ?_, ?_⟩
  · rw [hexp, Real.exp_lt_exp]
    linarith
  · have hmeas := (haffL.law hZ rfl rfl).2.1
    refine lt_of_lt_of_le (normal_reaches hmeas hVpos hlawL (show (-1 : ℝ) < 0 by norm_num)) (measure_mono fun ω hω => ?_)
    show 1 < Real.exp (-L n ω)
    rw [Real.one_lt_exp_iff]
    linarith [hω.2]

end

/-- Concrete case for C133_rates and C133_discounts: standard normal draws, and for every outcome three days of simulated rates starting at 3 %,
with long-run mean 5 %, reversion speed 1/2 and volatility 1 %. -/
example : ∃ (Ω : Type) (_ : MeasurableSpace Ω) (μ : Measure Ω) (_ : IsProbabilityMeasure μ) (Z : Nat → Fin 1 → Ω → ℝ)
    (v : Vasicek) (v' : Ω → Vasicek), StandardNormals μ Z ∧ MadeVasicek (1 / 20) (1 / 2) (1 / 100) v ∧
    Forward v.core.process.dt ∧ v.core.bm.start ≤ v.core.bm.stop ∧ v.core.bm.dcc ≠ .thirty360 ∧
    FixedDenominator v.core.bm.dcc = some 365 ∧
    v.core.bm.stop.day.ord < PyDate.maxOrd ∧ v.core.bm.chol 0 0 ^ 2 = 1 ∧
    (∀ ω, v.generatePath (fun _ => 3 / 100) true (fun k i => Z k i ω) = (.ok (), v' ω)) ∧
    BrownianMotion.makeGrid v.core.bm.start v.core.bm.stop v.core.process.dt = .ok [T 2023 1 1, T 2023 1 2, T 2023 1 3] := by
  obtain ⟨Ω, mΩ, μ, hμ, Z, hZ⟩ := standardNormals_exist 1
  let bm : BrownianMotion 1 := ⟨T 2023 1 1, T 2023 1 3, fun _ _ => 1, .act365, none, none⟩
  let dt : DtIncrement := .timedelta 86400000000
  have hc : ∃ v, Vasicek.create (1 / 20) (1 / 2) (1 / 100) bm dt 0 = .ok v ∧ v.core.bm = bm ∧ v.core.process.dt = dt := by
    unfold Vasicek.create
    rw [floatDiv_of_ne (by norm_num)]
    exact ⟨_, rfl, rfl, rfl⟩
  obtain ⟨v, hv, hb, hdt⟩ := hc
  have hgrid : BrownianMotion.makeGrid bm.start bm.stop dt = .ok [T 2023 1 1, T 2023 1 2, T 2023 1 3] := by decide +kernel
  have hgen : ∀ ω, ∃ v', v.generatePath (fun _ => 3 / 100) true (fun k i => Z k i ω) = (.ok (), v') := by
    intro ω
    unfold Vasicek.generatePath ShortRateModel.generatePath Diffusion.generatePath
    rw [hb, hdt, generateIncrements_total bm dt _ [T 2023 1 1, T 2023 1 2, T 2023 1 3] [1 / 365, 1 / 365] hgrid (by decide +kernel)]
    exact ⟨_, rfl⟩
  choose v' hv' using hgen
  refine ⟨Ω, mΩ, μ, hμ, Z, v, v', hZ, ⟨bm, dt, 0, v, [], hv, rfl⟩, ?_, ?_, ?_, ?_, ?_, ?_, hv', ?_⟩
  · rw [hdt]; norm_num [Forward, dt]
  · rw [hb]; decide +kernel
  · rw [hb]; simp [bm]
  · rw [hb]; rfl
  · rw [hb]; decide +kernel
  · rw [hb]; norm_num [bm]
  · rw [hb, hdt]; exact hgrid

/-- Concrete case for C133_brownian: every outcome gives a path of a two-dimensional motion with correlation 3/5. -/
example : ∃ (Ω : Type) (_ : MeasurableSpace Ω) (μ : Measure Ω) (_ : IsProbabilityMeasure μ) (Z : Nat → Fin 2 → Ω → ℝ)
    (b : BrownianMotion 2) (b' : Ω → BrownianMotion 2) (path : Ω → List (Vec 2)), StandardNormals μ Z ∧ b.dcc ≠ .thirty360 ∧
    b.start ≤ b.stop ∧ Forward (.timedelta 86400000000) ∧
    (∀ i j, ∑ m, b.chol i m * b.chol j m = (![![1, 3 / 5], ![3 / 5, 1]] i j : ℝ)) ∧
    ∀ ω, b.generatePath (.timedelta 86400000000) true (fun k i => Z k i ω) = (.ok (path ω), b' ω) := by
  obtain ⟨Ω, mΩ, μ, hμ, Z, hZ⟩ := standardNormals_exist 2
  let b : BrownianMotion 2 := ⟨T 2024 2 28, T 2024 3 1, ![![1, 0], ![3 / 5, 4 / 5]], .actAct, none, none⟩
  have hok : ∀ ω, ∃ path b', b.generatePath (.timedelta 86400000000) true (fun k i => Z k i ω) = (.ok path, b') := by
    intro ω
    unfold BrownianMotion.generatePath
    rw [generateIncrements_total b (.timedelta 86400000000) _ [T 2024 2 28, T 2024 2 29, T 2024 3 1] [1 / 366, 1 / 366]
      (by decide +kernel) (by decide +kernel)]
    exact ⟨_, _, rfl⟩
  choose path b' h using hok
  refine ⟨Ω, mΩ, μ, hμ, Z, b, b', path, hZ, by simp [b], by decide +kernel, by norm_num [Forward], ?_, h⟩
  intro i j; fin_cases i <;> fin_cases j <;> simp [b, Fin.sum_univ_two] <;> norm_num

end Verif.Props
