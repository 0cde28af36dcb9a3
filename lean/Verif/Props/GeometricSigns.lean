/- Signs of simulated geometric Brownian motions: C134. -/
import Verif.Props.NormalLaws
import Verif.Props.GeometricMoments

namespace Verif.Props
open Verif Verif.Spec Verif.DayCount Finset MeasureTheory ProbabilityTheory

section
variable {Ω : Type} [MeasurableSpace Ω] {μ : Measure Ω} [IsProbabilityMeasure μ] {p : Nat} {Z : Nat → Fin p → Ω → ℝ}

/-- The factor of one step is normal. -/
theorem stepFactor_law (hZ : StandardNormals μ Z) (mu sigma : ℝ) (chol : Fin p → Fin p → ℝ) (d : ℚ) (hd : 0 < d) (i : Fin p)
    (hrow : ∑ m, chol i m * chol i m = 1) (k : Nat) :
    Measurable (fun ω => stepFactor mu sigma chol d i (fun j => Z k j ω)) ∧
    μ.map (fun ω => stepFactor mu sigma chol d i (fun j => Z k j ω)) =
      gaussianReal (1 + mu * (d : ℝ)) (sigma ^ 2 * (d : ℝ)).toNNReal := by
  have hdR : (0 : ℝ) < d := by exact_mod_cast hd
  have hs : Real.sqrt (d : ℝ) * Real.sqrt (d : ℝ) = (d : ℝ) := Real.mul_self_sqrt hdR.le
  have haff : AffineIn Z (k + 1) (fun ω => stepFactor mu sigma chol d i (fun j => Z k j ω)) := by
    unfold stepFactor
    refine (AffineIn.const _ _).add ((AffineIn.sum _ fun j _ => ?_).const_mul _)
    have := (AffineIn.draw (Z := Z) (Nat.lt_succ_self k) j).const_mul (chol i j * Real.sqrt (d : ℝ))
    convert this using 2
    ring
  have hI : ∀ j, Integrable (fun ω => chol i j * (Z k j ω * Real.sqrt (d : ℝ))) μ := fun j => ((hZ.integrable k j).mul_const _).const_mul _
  have hsum : ∫ ω, ∑ j, chol i j * (Z k j ω * Real.sqrt (d : ℝ)) ∂μ = 0 := by
    rw [integral_finset_sum _ fun j _ => hI j]
    refine Finset.sum_eq_zero fun j _ => ?_
    rw [integral_const_mul, integral_mul_const, hZ.mean, zero_mul, mul_zero]
  have hmean : ∫ ω, stepFactor mu sigma chol d i (fun j => Z k j ω) ∂μ = 1 + mu * (d : ℝ) := by
    unfold stepFactor
    rw [integral_add (integrable_const _) ((integrable_finset_sum _ fun j _ => hI j).const_mul _), integral_const, probReal_univ, one_smul,
      integral_const_mul, hsum, mul_zero, add_zero]
  have hvar : ∫ ω, (stepFactor mu sigma chol d i (fun j => Z k j ω) - (1 + mu * (d : ℝ))) ^ 2 ∂μ = sigma ^ 2 * (d : ℝ) := by
    have e : ∀ ω, (stepFactor mu sigma chol d i (fun j => Z k j ω) - (1 + mu * (d : ℝ))) ^ 2 =
        ∑ m, ∑ n, sigma ^ 2 * (d : ℝ) * (chol i m * chol i n) * (Z k m ω * Z k n ω) := by
      intro ω
      unfold stepFactor
      rw [add_sub_cancel_left, mul_pow, sq (∑ j, _), Finset.sum_mul_sum, Finset.mul_sum]
      refine Finset.sum_congr rfl fun m _ => ?_
      rw [Finset.mul_sum]
      refine Finset.sum_congr rfl fun n _ => ?_
      calc sigma ^ 2 * (chol i m * (Z k m ω * Real.sqrt (d : ℝ)) * (chol i n * (Z k n ω * Real.sqrt (d : ℝ))))
          = sigma ^ 2 * (Real.sqrt (d : ℝ) * Real.sqrt (d : ℝ)) * (chol i m * chol i n) * (Z k m ω * Z k n ω) := by ring
        _ = _ := by rw [hs]
    simp only [e]
    rw [integral_finset_sum _ fun m _ => integrable_finset_sum _ fun n _ => (hZ.integrable_mul k k m n).const_mul _]
    have e2 : ∀ m, ∫ ω, ∑ n, sigma ^ 2 * (d : ℝ) * (chol i m * chol i n) * (Z k m ω * Z k n ω) ∂μ = sigma ^ 2 * (d : ℝ) * (chol i m * chol i m) := by
      intro m
      rw [integral_finset_sum _ fun n _ => (hZ.integrable_mul k k m n).const_mul _, Finset.sum_eq_single m]
      · rw [integral_const_mul, hZ.second, if_pos ⟨rfl, rfl⟩, mul_one]
      · intro n _ hne
        rw [integral_const_mul, hZ.second, if_neg (fun h => hne h.2.symm), mul_zero]
      · intro h; exact absurd (Finset.mem_univ m) h
    simp only [e2]
    rw [← Finset.mul_sum, hrow, mul_one]
  obtain ⟨-, a, b⟩ := haff.law hZ hmean hvar
  exact ⟨a, b⟩

/-- A path of a geometric Brownian motion as a product of step factors. -/
theorem geometric_product (b : BrownianMotion p) (b' : Ω → BrownianMotion p) (dt : DtIncrement) (mu sigma : ℝ) (x0 : Vec p)
    (path : Ω → List (Vec p)) (h : ∀ ω, Geometric.generatePath mu sigma b dt x0 (fun k i => Z k i ω) = (.ok (path ω), b' ω))
    (grid : List PyDatetime) (dts : List ℚ) (hg : BrownianMotion.makeGrid b.start b.stop dt = .ok grid) (hs : StepLengths b.dcc grid dts) :
    ∀ ω, (path ω).length = grid.length ∧ ∀ n, n < grid.length → ∀ i,
      (path ω).getD n 0 i = x0 i * ∏ k ∈ range n, stepFactor mu sigma b.chol (dts.getD k 0) i (fun j => Z k j ω) := by
  intro ω
  obtain ⟨grid', dts', hg', hs', hl', dW, hW, hp'⟩ := C59_product mu sigma b _ dt x0 _ _ (h ω)
  rw [hg] at hg'
  injection hg' with hg'
  subst hg'
  have hdts : dts' = dts := by
    apply List.ext_getElem
    · have := hs.1; have := hs'.1; omega
    · intro j hj hj'
      have e1 := hs.2 j hj' (by have := hs.1; omega) (by have := hs.1; omega)
      have e2 := hs'.2 j hj (by have := hs.1; omega) (by have := hs.1; omega)
      rw [e1] at e2
      injection e2 with e2
      exact e2.symm
  subst hdts
  refine ⟨hl', fun n hn i => ?_⟩
  rw [List.getD_eq_getElem?_getD, List.getElem?_eq_getElem (by omega), Option.getD_some, hp' n (by omega) i]
  congr 1
  refine Finset.prod_congr rfl fun k hk => ?_
  have hk' : k < dts'.length := by have := Finset.mem_range.1 hk; have := hs.1; omega
  rw [hW k hk']
  unfold stepFactor shock
  rw [List.getD_eq_getElem?_getD, List.getElem?_eq_getElem hk', Option.getD_some]

/-- Events of different steps that each have positive probability occur together with positive probability. -/
theorem steps_together (hZ : StandardNormals μ Z) (A : Nat → Set (Fin p → ℝ)) (hA : ∀ k, MeasurableSet (A k))
    (hp : ∀ k, 0 < μ {ω | (fun i => Z k i ω) ∈ A k}) (n : Nat) : 0 < μ {ω | ∀ k, k < n → (fun i => Z k i ω) ∈ A k} := by
  classical
  have hmeas : ∀ k, Measurable (fun ω => (fun i => Z k i ω)) := fun k => measurable_pi_lambda _ fun i => hZ.measurable k i
  have hset : ∀ k, MeasurableSet {ω | (fun i => Z k i ω) ∈ A k} := fun k => hmeas k (hA k)
  have hI : ∀ k, Integrable (fun ω => (A k).indicator (fun _ => (1 : ℝ)) (fun i => Z k i ω)) μ := fun k => by
    have : (fun ω => (A k).indicator (fun _ => (1 : ℝ)) (fun i => Z k i ω)) = {ω | (fun i => Z k i ω) ∈ A k}.indicator (fun _ => (1 : ℝ)) := by
      funext ω
      simp only [Set.indicator, Set.mem_setOf_eq]
    rw [this]
    exact (integrable_const _).indicator (hset k)
  have hE : ∀ k, ∫ ω, (A k).indicator (fun _ => (1 : ℝ)) (fun i => Z k i ω) ∂μ = μ.real {ω | (fun i => Z k i ω) ∈ A k} := fun k => by
    have : (fun ω => (A k).indicator (fun _ => (1 : ℝ)) (fun i => Z k i ω)) = {ω | (fun i => Z k i ω) ∈ A k}.indicator (fun _ => (1 : ℝ)) := by
      funext ω
      simp only [Set.indicator, Set.mem_setOf_eq]
    rw [this, integral_indicator_const _ (hset k), smul_eq_mul, mul_one]
  have key := (steps_product hZ (fun k => (A k).indicator (fun _ => (1 : ℝ))) (fun k => measurable_const.indicator (hA k)) hI n).2
  have hpos : 0 < ∏ k ∈ range n, ∫ ω, (A k).indicator (fun _ => (1 : ℝ)) (fun i => Z k i ω) ∂μ :=
    Finset.prod_pos fun k _ => by
      rw [hE k]
      exact ENNReal.toReal_pos (hp k).ne' (measure_ne_top _ _)
  rw [← key] at hpos
  have hall : MeasurableSet {ω | ∀ k, k < n → (fun i => Z k i ω) ∈ A k} := by
    simp only [Set.setOf_forall]
    exact MeasurableSet.iInter fun k => MeasurableSet.iInter fun _ => hset k
  have e : (fun ω => ∏ k ∈ range n, (A k).indicator (fun _ => (1 : ℝ)) (fun i => Z k i ω)) =
      {ω | ∀ k, k < n → (fun i => Z k i ω) ∈ A k}.indicator (fun _ => (1 : ℝ)) := by
    funext ω
    by_cases hω : ∀ k, k < n → (fun i => Z k i ω) ∈ A k
    · rw [Set.indicator_of_mem (show ω ∈ {ω | ∀ k, k < n → (fun i => Z k i ω) ∈ A k} from hω)]
      exact Finset.prod_eq_one fun k hk => Set.indicator_of_mem (hω k (Finset.mem_range.1 hk)) _
    · rw [Set.indicator_of_notMem (show ω ∉ {ω | ∀ k, k < n → (fun i => Z k i ω) ∈ A k} from hω)]
      push Not at hω
      obtain ⟨k, hk, hn⟩ := hω
      exact Finset.prod_eq_zero (Finset.mem_range.2 hk) (Set.indicator_of_notMem hn _)
  rw [e, integral_indicator_const _ hall, smul_eq_mul, mul_one] at hpos
  rw [pos_iff_ne_zero]
  intro h0
  rw [Measure.real, h0] at hpos
  simp at hpos

/-- C134 (partial). The first simulated step of a geometric Brownian motion is normal around `x0 (1 + drift·dt)` with variance
`x0² volatility² dt`: not the log-normal law of a geometric Brownian motion. -/
theorem C134_first_step_partial (hZ : StandardNormals μ Z) (b : BrownianMotion p) (b' : Ω → BrownianMotion p) (hd : b.dcc ≠ .thirty360)
    (dt : DtIncrement) (hf : Forward dt) (hle : b.start ≤ b.stop) (mu sigma : ℝ) (x0 : Vec p) (path : Ω → List (Vec p))
    (h : ∀ ω, Geometric.generatePath mu sigma b dt x0 (fun k i => Z k i ω) = (.ok (path ω), b' ω)) (i : Fin p)
    (hrow : ∑ m, b.chol i m * b.chol i m = 1) :
    ∃ (grid : List PyDatetime) (dts : List ℚ), BrownianMotion.makeGrid b.start b.stop dt = .ok grid ∧ StepLengths b.dcc grid dts ∧
      (∀ ω, (path ω).getD 0 0 i = x0 i) ∧
      (0 < dts.length → μ.map (fun ω => (path ω).getD 1 0 i) =
        gaussianReal (x0 i * (1 + mu * (dts.getD 0 0 : ℝ))) (x0 i ^ 2 * (sigma ^ 2 * (dts.getD 0 0 : ℝ))).toNNReal) := by
  obtain ⟨ω0⟩ : Nonempty Ω := μ.nonempty_of_neZero
  obtain ⟨grid, dts, hg, hs, -, -⟩ := C59_product mu sigma b _ dt x0 _ _ (h ω0)
  obtain ⟨-, -, hinc, -⟩ := C55_grid b.start b.stop dt hf hle grid hg
  have hprod := geometric_product b b' dt mu sigma x0 path h grid dts hg hs
  have hlen := hs.1
  refine ⟨grid, dts, hg, hs, fun ω => ?_, fun h1 => ?_⟩
  · rw [(hprod ω).2 0 (by omega) i]
    simp
  · have hp : 0 < dts.getD 0 0 := by
      rw [List.getD_eq_getElem?_getD, List.getElem?_eq_getElem h1, Option.getD_some]
      exact steps_pos hd hinc hs 0 h1
    obtain ⟨hm, hl⟩ := stepFactor_law hZ mu sigma b.chol (dts.getD 0 0) hp i hrow 0
    have e : (fun ω => (path ω).getD 1 0 i) = fun ω => x0 i * stepFactor mu sigma b.chol (dts.getD 0 0) i (fun j => Z 0 j ω) := by
      funext ω
      rw [(hprod ω).2 1 (by omega) i, Finset.prod_range_one]
    have hmul : Measurable (x0 i * · : ℝ → ℝ) := measurable_const.mul measurable_id
    have e2 : μ.map (fun ω => x0 i * stepFactor mu sigma b.chol (dts.getD 0 0) i (fun j => Z 0 j ω)) =
        (μ.map (fun ω => stepFactor mu sigma b.chol (dts.getD 0 0) i (fun j => Z 0 j ω))).map (x0 i * ·) := by
      rw [Measure.map_map hmul hm]
      rfl
    rw [e, e2, hl, gaussianReal_map_const_mul, Real.toNNReal_mul (sq_nonneg (x0 i)), Real.toNNReal_of_nonneg (sq_nonneg (x0 i))]

/-- A normal value with positive mean is rarely negative. -/
theorem normal_tail {X : Ω → ℝ} (hX : Measurable X) {m v : ℝ} (hm : 0 ≤ m) (hv : 0 < v) (hl : μ.map X = gaussianReal m v.toNNReal) :
    μ.real {ω | X ω ≤ 0} ≤ Real.exp (-m ^ 2 / (2 * v)) := by
  have hint : Integrable (fun ω => Real.exp (-(m / v) * X ω)) μ := by
    have h1 := integrable_exp_mul_gaussianReal (μ := m) (v := v.toNNReal) (-(m / v))
    rw [← hl] at h1
    exact (integrable_map_measure (by fun_prop) hX.aemeasurable).1 h1
  have h1 := measure_le_le_exp_mul_mgf (μ := μ) (X := X) (t := -(m / v)) 0 (neg_nonpos.2 (div_nonneg hm hv.le)) hint
  rw [mul_zero, Real.exp_zero, one_mul, mgf_gaussianReal hl, Real.coe_toNNReal _ hv.le] at h1
  refine h1.trans (le_of_eq ?_)
  congr 1
  field_simp
  ring

/-- C134 (partial). A simulated geometric Brownian motion with a positive start is positive at all of the first `n` grid points but for an event
whose probability is at most the sum over the steps of `exp(-(1 + drift·dt)² / (2 volatility² dt))`, when no step's drift falls below -1.
Missing: positivity for every draw, which is false (`C134_false`). -/
theorem C134_positive_partial (hZ : StandardNormals μ Z) (b : BrownianMotion p) (b' : Ω → BrownianMotion p) (hd : b.dcc ≠ .thirty360)
    (dt : DtIncrement) (hf : Forward dt) (hle : b.start ≤ b.stop) (mu sigma : ℝ) (hσ : sigma ≠ 0) (x0 : Vec p) (path : Ω → List (Vec p))
    (h : ∀ ω, Geometric.generatePath mu sigma b dt x0 (fun k i => Z k i ω) = (.ok (path ω), b' ω)) (i : Fin p)
    (hrow : ∑ m, b.chol i m * b.chol i m = 1) (hx : 0 < x0 i) :
    ∃ (grid : List PyDatetime) (dts : List ℚ), BrownianMotion.makeGrid b.start b.stop dt = .ok grid ∧ StepLengths b.dcc grid dts ∧
      ∀ n, n < grid.length → (∀ k, k < n → 0 ≤ 1 + mu * (dts.getD k 0 : ℝ)) →
        μ.real {ω | ∃ m, m ≤ n ∧ (path ω).getD m 0 i ≤ 0} ≤
          ∑ k ∈ range n, Real.exp (-(1 + mu * (dts.getD k 0 : ℝ)) ^ 2 / (2 * (sigma ^ 2 * (dts.getD k 0 : ℝ)))) := by
  obtain ⟨ω0⟩ : Nonempty Ω := μ.nonempty_of_neZero
  obtain ⟨grid, dts, hg, hs, -, -⟩ := C59_product mu sigma b _ dt x0 _ _ (h ω0)
  obtain ⟨-, -, hinc, -⟩ := C55_grid b.start b.stop dt hf hle grid hg
  have hprod := geometric_product b b' dt mu sigma x0 path h grid dts hg hs
  have hlen := hs.1
  refine ⟨grid, dts, hg, hs, fun n hn hmu => ?_⟩
  have hsub : {ω | ∃ m, m ≤ n ∧ (path ω).getD m 0 i ≤ 0} ⊆
      ⋃ k ∈ range n, {ω | stepFactor mu sigma b.chol (dts.getD k 0) i (fun j => Z k j ω) ≤ 0} := by
    rintro ω ⟨m, hm, hle'⟩
    by_contra hc
    simp only [Set.mem_iUnion, Finset.mem_range, Set.mem_setOf_eq, not_exists, not_le] at hc
    rw [(hprod ω).2 m (by omega) i] at hle'
    have : 0 < x0 i * ∏ k ∈ range m, stepFactor mu sigma b.chol (dts.getD k 0) i (fun j => Z k j ω) :=
      mul_pos hx (Finset.prod_pos fun k hk => hc k (by have := Finset.mem_range.1 hk; omega))
    linarith
  refine (measureReal_mono hsub (measure_ne_top _ _)).trans ((measureReal_biUnion_finset_le _ _).trans (Finset.sum_le_sum fun k hk => ?_))
  have hk' := Finset.mem_range.1 hk
  have hp : 0 < dts.getD k 0 := by
    rw [List.getD_eq_getElem?_getD, List.getElem?_eq_getElem (by omega), Option.getD_some]
    exact steps_pos hd hinc hs k (by omega)
  have hpR : (0 : ℝ) < dts.getD k 0 := by exact_mod_cast hp
  obtain ⟨hm, hl⟩ := stepFactor_law hZ mu sigma b.chol (dts.getD k 0) hp i hrow k
  exact normal_tail hm (hmu k hk') (by positivity) hl

/-- C134 fails: with volatility, a simulated geometric Brownian motion with a positive start is negative with positive probability at every
grid point after the start (and positive with positive probability). -/
theorem C134_false (hZ : StandardNormals μ Z) (b : BrownianMotion p) (b' : Ω → BrownianMotion p) (hd : b.dcc ≠ .thirty360)
    (dt : DtIncrement) (hf : Forward dt) (hle : b.start ≤ b.stop) (mu sigma : ℝ) (hσ : sigma ≠ 0) (x0 : Vec p) (path : Ω → List (Vec p))
    (h : ∀ ω, Geometric.generatePath mu sigma b dt x0 (fun k i => Z k i ω) = (.ok (path ω), b' ω)) (i : Fin p)
    (hrow : ∑ m, b.chol i m * b.chol i m = 1) (hx : 0 < x0 i) :
    ∃ grid, BrownianMotion.makeGrid b.start b.stop dt = .ok grid ∧
      ∀ n, 0 < n → n < grid.length → 0 < μ {ω | (path ω).getD n 0 i < 0} ∧ 0 < μ {ω | 0 < (path ω).getD n 0 i} := by
  obtain ⟨ω0⟩ : Nonempty Ω := μ.nonempty_of_neZero
  obtain ⟨grid, dts, hg, hs, -, -⟩ := C59_product mu sigma b _ dt x0 _ _ (h ω0)
  obtain ⟨-, -, hinc, -⟩ := C55_grid b.start b.stop dt hf hle grid hg
  have hprod := geometric_product b b' dt mu sigma x0 path h grid dts hg hs
  have hlen := hs.1
  refine ⟨grid, hg, fun n hn0 hn => ?_⟩
  have hin : ∀ k, k < n → 0 < dts.getD k 0 := by
    intro k hk
    rw [List.getD_eq_getElem?_getD, List.getElem?_eq_getElem (by omega), Option.getD_some]
    exact steps_pos hd hinc hs k (by omega)
  have hreach : ∀ k, k < n → ∀ a c : ℝ, a < c → 0 < μ {ω | a < stepFactor mu sigma b.chol (dts.getD k 0) i (fun j => Z k j ω) ∧
      stepFactor mu sigma b.chol (dts.getD k 0) i (fun j => Z k j ω) < c} := by
    intro k hk a c hac
    obtain ⟨hm, hl⟩ := stepFactor_law hZ mu sigma b.chol (dts.getD k 0) (hin k hk) i hrow k
    have : (0 : ℝ) < dts.getD k 0 := by exact_mod_cast hin k hk
    exact normal_reaches hm (by positivity) hl hac
  -- the first factor in an interval, all the others between 0 and 1
  have hboth : ∀ a c : ℝ, a < c → 0 < μ {ω | ∀ k, k < n → (if k = 0 then a else 0) < stepFactor mu sigma b.chol (dts.getD k 0) i (fun j => Z k j ω) ∧
      stepFactor mu sigma b.chol (dts.getD k 0) i (fun j => Z k j ω) < (if k = 0 then c else 1)} := by
    intro a c hac
    have := steps_together hZ (fun k => if k < n then {z | (if k = 0 then a else 0) < stepFactor mu sigma b.chol (dts.getD k 0) i z ∧
      stepFactor mu sigma b.chol (dts.getD k 0) i z < (if k = 0 then c else 1)} else Set.univ)
      (fun k => by
        by_cases hk : k < n
        · simp only [hk, if_true]
          exact (measurableSet_lt measurable_const (stepFactor_measurable _ _ _ _ _)).inter
            (measurableSet_lt (stepFactor_measurable _ _ _ _ _) measurable_const)
        · simp only [hk, if_false]; exact MeasurableSet.univ)
      (fun k => by
        by_cases hk : k < n
        · simp only [hk, if_true]
          refine hreach k hk _ _ ?_
          by_cases h0 : k = 0
          · simp only [h0, if_true]; exact hac
          · simp only [h0, if_false]; norm_num
        · simp [hk]) n
    refine lt_of_lt_of_le this (measure_mono fun ω hω k hk => ?_)
    have := hω k hk
    simp only [hk, if_true] at this
    exact this
  have hsplit : ∀ ω, (path ω).getD n 0 i = x0 i * (stepFactor mu sigma b.chol (dts.getD 0 0) i (fun j => Z 0 j ω) *
      ∏ k ∈ range (n - 1), stepFactor mu sigma b.chol (dts.getD (k + 1) 0) i (fun j => Z (k + 1) j ω)) := by
    intro ω
    rw [(hprod ω).2 n hn i]
    obtain ⟨m, rfl⟩ := Nat.exists_eq_succ_of_ne_zero hn0.ne'
    rw [Nat.succ_eq_add_one, Finset.prod_range_succ', Nat.add_sub_cancel, mul_comm (∏ k ∈ range m, _)]
  have hrest : ∀ a c ω, (∀ k, k < n → (if k = 0 then a else 0) < stepFactor mu sigma b.chol (dts.getD k 0) i (fun j => Z k j ω) ∧
      stepFactor mu sigma b.chol (dts.getD k 0) i (fun j => Z k j ω) < (if k = 0 then c else 1)) →
      0 < ∏ k ∈ range (n - 1), stepFactor mu sigma b.chol (dts.getD (k + 1) 0) i (fun j => Z (k + 1) j ω) := by
    intro a c ω hω
    refine Finset.prod_pos fun k hk => ?_
    have := (hω (k + 1) (by have := Finset.mem_range.1 hk; omega)).1
    rwa [if_neg (Nat.succ_ne_zero k)] at this
  constructor
  · refine lt_of_lt_of_le (hboth (-1) 0 (by norm_num)) (measure_mono fun ω hω => ?_)
    show (path ω).getD n 0 i < 0
    have h0 := (hω 0 hn0).2
    rw [if_pos rfl] at h0
    rw [hsplit ω]
    exact mul_neg_of_pos_of_neg hx (mul_neg_of_neg_of_pos h0 (hrest _ _ ω hω))
  · refine lt_of_lt_of_le (hboth 0 1 (by norm_num)) (measure_mono fun ω hω => ?_)
    show 0 < (path ω).getD n 0 i
    have h0 := (hω 0 hn0).1
    rw [if_pos rfl] at h0
    rw [hsplit ω]
    exact mul_pos hx (mul_pos h0 (hrest _ _ ω hω))

end

/-- Concrete case for C134: standard normal draws, and for every outcome a path of a two-dimensional motion with correlation 3/5 and a start
at 100; both rows of the factor have norm one. -/
example : ∃ (Ω : Type) (_ : MeasurableSpace Ω) (μ : Measure Ω) (_ : IsProbabilityMeasure μ) (Z : Nat → Fin 2 → Ω → ℝ)
    (b : BrownianMotion 2) (b' : Ω → BrownianMotion 2) (path : Ω → List (Vec 2)), StandardNormals μ Z ∧ b.dcc ≠ .thirty360 ∧
    b.start ≤ b.stop ∧ Forward (.timedelta 86400000000) ∧ (∀ i, ∑ m, b.chol i m * b.chol i m = 1) ∧
    (∀ ω, Geometric.generatePath (1 / 20) (1 / 5) b (.timedelta 86400000000) (fun _ => 100) (fun k i => Z k i ω) =
      (.ok (path ω), b' ω)) ∧
    BrownianMotion.makeGrid b.start b.stop (.timedelta 86400000000) = .ok [T 2024 2 28, T 2024 2 29, T 2024 3 1] := by
  obtain ⟨Ω, mΩ, μ, hμ, Z, hZ⟩ := standardNormals_exist 2
  let b : BrownianMotion 2 := ⟨T 2024 2 28, T 2024 3 1, ![![1, 0], ![3 / 5, 4 / 5]], .actAct, none, none⟩
  have hok : ∀ ω, ∃ path b', Geometric.generatePath (1 / 20) (1 / 5) b (.timedelta 86400000000) (fun _ => 100)
      (fun k i => Z k i ω) = (.ok path, b') := by
    intro ω
    unfold Geometric.generatePath
    rw [generateIncrements_total b (.timedelta 86400000000) _ [T 2024 2 28, T 2024 2 29, T 2024 3 1] [1 / 366, 1 / 366]
      (by decide +kernel) (by decide +kernel)]
    exact ⟨_, _, rfl⟩
  choose path b' h using hok
  refine ⟨Ω, mΩ, μ, hμ, Z, b, b', path, hZ, by simp [b], by decide +kernel, by norm_num [Forward], ?_, h, by decide +kernel⟩
  intro i; fin_cases i <;> simp [b, Fin.sum_univ_two] <;> norm_num

end Verif.Props
