/- Properties of the joint distribution of simulated Brownian increments: C56. -/
import Verif.Props.ShortRate
import Mathlib.Probability.Distributions.Gaussian.Real
import Mathlib.Probability.Independence.Integration
import Mathlib.Probability.Independence.InfinitePi

namespace Verif.Props
open Verif Verif.Spec Verif.DayCount Finset MeasureTheory ProbabilityTheory

/-- Independent standard normal draws, one for each step and coordinate: what numpy's generator is assumed to produce. -/
structure StandardNormals {Ω : Type} [MeasurableSpace Ω] (μ : Measure Ω) {p : Nat} (Z : Nat → Fin p → Ω → ℝ) : Prop where
  measurable : ∀ k i, Measurable (Z k i)
  law : ∀ k i, μ.map (Z k i) = gaussianReal 0 1
  independent : iIndepFun (fun (ki : Nat × Fin p) => Z ki.1 ki.2) μ

namespace StandardNormals
variable {Ω : Type} [MeasurableSpace Ω] {μ : Measure Ω} {p : Nat} {Z : Nat → Fin p → Ω → ℝ}

theorem memLp (h : StandardNormals μ Z) (k : Nat) (i : Fin p) : MemLp (Z k i) 2 μ := by
  have := memLp_id_gaussianReal (μ := 0) (v := 1) 2
  rw [← h.law k i] at this
  exact (memLp_map_measure_iff aestronglyMeasurable_id (h.measurable k i).aemeasurable).1 this

theorem integrable_mul (h : StandardNormals μ Z) (k l : Nat) (i j : Fin p) : Integrable (fun ω => Z k i ω * Z l j ω) μ :=
  (h.memLp k i).integrable_mul (h.memLp l j)

theorem mean (h : StandardNormals μ Z) (k : Nat) (i : Fin p) : ∫ ω, Z k i ω ∂μ = 0 := by
  have h1 : ∫ x, id x ∂(μ.map (Z k i)) = ∫ ω, Z k i ω ∂μ :=
    integral_map (h.measurable k i).aemeasurable aestronglyMeasurable_id
  rw [← h1, h.law k i]
  exact integral_id_gaussianReal

theorem integrable [IsProbabilityMeasure μ] (h : StandardNormals μ Z) (k : Nat) (i : Fin p) : Integrable (Z k i) μ :=
  (h.memLp k i).integrable (by norm_num)

theorem second [IsProbabilityMeasure μ] (h : StandardNormals μ Z) (k l : Nat) (i j : Fin p) :
    ∫ ω, Z k i ω * Z l j ω ∂μ = if k = l ∧ i = j then 1 else 0 := by
  by_cases hc : k = l ∧ i = j
  · obtain ⟨rfl, rfl⟩ := hc
    simp only [and_self, if_true]
    have h1 : ∫ x, id x * id x ∂(μ.map (Z k i)) = ∫ ω, Z k i ω * Z k i ω ∂μ :=
      integral_map (h.measurable k i).aemeasurable (aestronglyMeasurable_id.mul aestronglyMeasurable_id)
    rw [← h1, h.law k i]
    have hv := variance_eq_integral (μ := gaussianReal 0 1) (X := id) measurable_id.aemeasurable
    rw [variance_id_gaussianReal] at hv
    simp only [id_eq, integral_id_gaussianReal, sub_zero] at hv
    simp only [id_eq]
    simp only [← sq]
    exact hv.symm.trans (by simp)
  · rw [if_neg hc]
    have hne : ((k, i) : Nat × Fin p) ≠ (l, j) := by
      intro e
      injection e with e1 e2
      exact hc ⟨e1, e2⟩
    have hi := h.independent.indepFun hne
    have := hi.integral_fun_mul_eq_mul_integral (h.measurable k i).aestronglyMeasurable (h.measurable l j).aestronglyMeasurable
    rw [this, h.mean k i, zero_mul]

end StandardNormals

/-- Concrete case: infinite products of the standard Gaussian law have independent standard normal coordinates. -/
theorem standardNormals_exist (p : Nat) :
    ∃ (Ω : Type) (_ : MeasurableSpace Ω) (μ : Measure Ω) (_ : IsProbabilityMeasure μ) (Z : Nat → Fin p → Ω → ℝ),
      StandardNormals μ Z := by
  refine ⟨Nat × Fin p → ℝ, inferInstance, Measure.infinitePi (fun _ => gaussianReal 0 1), inferInstance,
    fun k i ω => ω (k, i), ⟨fun k i => measurable_pi_apply _, ?_, ?_⟩⟩
  · intro k i
    exact (measurePreserving_eval_infinitePi (fun _ : Nat × Fin p => gaussianReal 0 1) (k, i)).map_eq
  · exact iIndepFun_infinitePi (P := fun _ : Nat × Fin p => gaussianReal 0 1) (X := fun _ x => x) (fun _ => measurable_id)

section
variable {Ω : Type} [MeasurableSpace Ω] {μ : Measure Ω} [IsProbabilityMeasure μ] {p : Nat} {Z : Nat → Fin p → Ω → ℝ}

theorem shock_integrable (hZ : StandardNormals μ Z) (chol : Fin p → Fin p → ℝ) (dts : List ℚ) (k : Nat) (hk : k < dts.length)
    (i : Fin p) : Integrable (fun ω => shock chol (fun k i => Z k i ω) dts k hk i) μ := by
  unfold shock
  exact integrable_finset_sum _ (fun j _ => ((hZ.integrable k j).mul_const _).const_mul _)

theorem shock_expand (chol : Fin p → Fin p → ℝ) (dts : List ℚ) (k l : Nat) (hk : k < dts.length)
    (hl : l < dts.length) (i j : Fin p) (ω : Ω) :
    shock chol (fun k i => Z k i ω) dts k hk i * shock chol (fun k i => Z k i ω) dts l hl j =
      ∑ m, ∑ n, (chol i m * chol j n * (Real.sqrt (dts[k] : ℝ) * Real.sqrt (dts[l] : ℝ))) * (Z k m ω * Z l n ω) := by
  unfold shock
  rw [Finset.sum_mul_sum]
  apply Finset.sum_congr rfl
  intro m _
  apply Finset.sum_congr rfl
  intro n _
  ring

theorem shock_mul_integrable (hZ : StandardNormals μ Z) (chol : Fin p → Fin p → ℝ) (dts : List ℚ) (k l : Nat)
    (hk : k < dts.length) (hl : l < dts.length) (i j : Fin p) :
    Integrable (fun ω => shock chol (fun k i => Z k i ω) dts k hk i * shock chol (fun k i => Z k i ω) dts l hl j) μ := by
  simp only [shock_expand]
  exact integrable_finset_sum _ (fun m _ => integrable_finset_sum _ (fun n _ => (hZ.integrable_mul k l m n).const_mul _))

theorem shock_mean (hZ : StandardNormals μ Z) (chol : Fin p → Fin p → ℝ) (dts : List ℚ) (k : Nat) (hk : k < dts.length)
    (i : Fin p) : ∫ ω, shock chol (fun k i => Z k i ω) dts k hk i ∂μ = 0 := by
  unfold shock
  rw [integral_finset_sum _ (fun j _ => ((hZ.integrable k j).mul_const _).const_mul _)]
  apply Finset.sum_eq_zero
  intro j _
  rw [integral_const_mul, integral_mul_const, hZ.mean, zero_mul, mul_zero]

theorem shock_cov (hZ : StandardNormals μ Z) (chol : Fin p → Fin p → ℝ) (dts : List ℚ) (k l : Nat)
    (hk : k < dts.length) (hl : l < dts.length) (hpos : 0 ≤ dts[k]) (i j : Fin p) :
    ∫ ω, shock chol (fun k i => Z k i ω) dts k hk i * shock chol (fun k i => Z k i ω) dts l hl j ∂μ =
      if k = l then (∑ m, chol i m * chol j m) * (dts[k] : ℝ) else 0 := by
  simp only [shock_expand]
  rw [integral_finset_sum _ (fun m _ => integrable_finset_sum _ (fun n _ => (hZ.integrable_mul k l m n).const_mul _))]
  have e : ∀ m, ∫ ω, ∑ n, (chol i m * chol j n * (Real.sqrt (dts[k] : ℝ) * Real.sqrt (dts[l] : ℝ))) * (Z k m ω * Z l n ω) ∂μ =
      ∑ n, (chol i m * chol j n * (Real.sqrt (dts[k] : ℝ) * Real.sqrt (dts[l] : ℝ))) * (if k = l ∧ m = n then 1 else 0) := by
    intro m
    rw [integral_finset_sum _ (fun n _ => (hZ.integrable_mul k l m n).const_mul _)]
    apply Finset.sum_congr rfl
    intro n _
    rw [integral_const_mul, hZ.second]
  simp only [e]
  by_cases hkl : k = l
  · subst hkl
    have hs : Real.sqrt (dts[k] : ℝ) * Real.sqrt (dts[k] : ℝ) = (dts[k] : ℝ) := Real.mul_self_sqrt (by exact_mod_cast hpos)
    simp only [true_and, if_true, hs, mul_ite, mul_one, mul_zero, Finset.sum_ite_eq, Finset.mem_univ]
    rw [Finset.sum_mul]
  · simp [hkl]

/-- Step lengths of a forward grid are not negative (any convention but 30/360). -/
theorem steps_pos {dcc : DayCountConvention} (hd : dcc ≠ .thirty360) {grid : List PyDatetime} (hg : grid.Pairwise (· < ·))
    {dts : List ℚ} (hs : StepLengths dcc grid dts) (k : Nat) (hk : k < dts.length) : 0 < dts[k] := by
  have := hs.1
  exact dtAccrual_pos hd (grid_lt hg (Nat.lt_succ_self k) (by omega)) (hs.2 k hk (by omega) (by omega))

/-- C56. If the generator's draws are independent standard normals and the lower-triangular factor is a square root of the
requested correlation matrix, then the generated increments have mean zero, the increments of one step have covariance
(correlation matrix) × (step length), and increments of different steps are uncorrelated. -/
theorem C56_increments (hZ : StandardNormals μ Z) (b b' : BrownianMotion p) (corr : Fin p → Fin p → ℝ)
    (hchol : ∀ i j, ∑ m, b.chol i m * b.chol j m = corr i j) (hd : b.dcc ≠ .thirty360) (dt : DtIncrement) (hf : Forward dt)
    (hle : b.start ≤ b.stop) (incs : Ω → List (Vec p)) (dts : List ℚ)
    (h : ∀ ω, b.generateIncrements dt (fun k i => Z k i ω) = (.ok (incs ω, dts), b')) :
    ∃ grid, BrownianMotion.makeGrid b.start b.stop dt = .ok grid ∧ StepLengths b.dcc grid dts ∧
      (∀ ω, (incs ω).length = dts.length) ∧
      (∀ k, k < dts.length → ∀ i, ∫ ω, (incs ω).getD k 0 i ∂μ = 0) ∧
      ∀ k (hk : k < dts.length) l, l < dts.length → ∀ i j,
        ∫ ω, (incs ω).getD k 0 i * (incs ω).getD l 0 j ∂μ = if k = l then corr i j * (dts[k] : ℝ) else 0 := by
  have hΩ : Nonempty Ω := μ.nonempty_of_neZero
  obtain ⟨ω0⟩ := hΩ
  obtain ⟨grid, hg, -, hs, -⟩ := generateIncrements_spec b b' dt _ _ dts (h ω0)
  obtain ⟨-, -, hinc, -⟩ := C55_grid b.start b.stop dt hf hle grid hg
  have hlen : ∀ ω, (incs ω).length = dts.length := fun ω => (generateIncrements_spec b b' dt _ _ dts (h ω)).choose_spec.2.2.2.1
  have hsh : ∀ ω k (hk : k < dts.length), (incs ω).getD k 0 = shock b.chol (fun k i => Z k i ω) dts k hk := by
    intro ω k hk
    obtain ⟨-, -, -, -, -, hi⟩ := generateIncrements_spec b b' dt _ _ dts (h ω)
    have h2 : k < (incs ω).length := by rw [hlen]; exact hk
    rw [List.getD_eq_getElem?_getD, List.getElem?_eq_getElem h2, Option.getD_some]
    exact hi k hk h2
  refine ⟨grid, hg, hs, hlen, ?_, ?_⟩
  · intro k hk i
    simp only [hsh _ k hk]
    exact shock_mean hZ b.chol dts k hk i
  · intro k hk l hl i j
    simp only [hsh _ k hk, hsh _ l hl]
    rw [shock_cov hZ b.chol dts k l hk hl (steps_pos hd hinc hs k hk).le i j, hchol]

/-- A generated path is the running sum of the increments. -/
theorem path_sum {b b' : BrownianMotion p} {dt : DtIncrement} {set : Bool} {normals : Nat → Vec p}
    {path : List (Vec p)} (h : b.generatePath dt set normals = (.ok path, b')) :
    ∃ grid dts, BrownianMotion.makeGrid b.start b.stop dt = .ok grid ∧ StepLengths b.dcc grid dts ∧ path.length = grid.length ∧
      ∀ n (hn : n < path.length) i, path[n] i = ∑ k : Fin dts.length, if k.1 < n then shock b.chol normals dts k.1 k.2 i else 0 := by
  obtain ⟨grid, dts, hg, hs, -, -, hl, h0, hstep⟩ := C45_brownian b b' dt set normals path h
  refine ⟨grid, dts, hg, hs, hl, ?_⟩
  intro n hn i
  induction n with
  | zero =>
    rw [List.head?_eq_getElem?, List.getElem?_eq_getElem hn] at h0
    injection h0 with h0
    rw [h0]
    simp
  | succ n ih =>
    have hn' : n < dts.length := by have := hs.1; omega
    rw [hstep n hn' hn]
    simp only []
    rw [ih (by omega)]
    have e : ∀ k : Fin dts.length, (if k.1 < n + 1 then shock b.chol normals dts k.1 k.2 i else 0) =
        (if k.1 < n then shock b.chol normals dts k.1 k.2 i else 0) +
          (if k = ⟨n, hn'⟩ then shock b.chol normals dts k.1 k.2 i else 0) := by
      intro k
      by_cases h1 : k.1 < n
      · rw [if_pos (by omega), if_pos h1, if_neg (by rintro rfl; simp at h1), add_zero]
      · by_cases h2 : k.1 = n
        · have : k = ⟨n, hn'⟩ := Fin.ext h2
          rw [if_pos (by omega), if_neg h1, if_pos this, zero_add]
        · rw [if_neg (by omega), if_neg h1, if_neg (by rintro rfl; simp at h2), add_zero]
    simp only [e, Finset.sum_add_distrib, Finset.sum_ite_eq', Finset.mem_univ, if_true]

theorem elapsed_eq (dts : List ℚ) (n : Nat) (hn : n ≤ dts.length) :
    elapsed dts n = ∑ k : Fin dts.length, if k.1 < n then dts[k.1] else 0 := by
  unfold elapsed
  induction n with
  | zero => simp
  | succ n ih =>
    have hn' : n < dts.length := by omega
    rw [List.take_succ, List.getElem?_eq_getElem hn', Option.toList_some, List.sum_append, ih (by omega)]
    have e : ∀ k : Fin dts.length, (if k.1 < n + 1 then dts[k.1] else 0) =
        (if k.1 < n then dts[k.1] else 0) + (if k = ⟨n, hn'⟩ then dts[k.1] else 0) := by
      intro k
      by_cases h1 : k.1 < n
      · rw [if_pos (by omega), if_pos h1, if_neg (by rintro rfl; simp at h1), add_zero]
      · by_cases h2 : k.1 = n
        · have : k = ⟨n, hn'⟩ := Fin.ext h2
          rw [if_pos (by omega), if_neg h1, if_pos this, zero_add]
        · rw [if_neg (by omega), if_neg h1, if_neg (by rintro rfl; simp at h2), add_zero]
    simp only [e, Finset.sum_add_distrib, Finset.sum_ite_eq', Finset.mem_univ, if_true, List.sum_singleton]

/-- C56. A generated Brownian path has mean zero at every grid point, and the covariance of coordinate `i` at point `m` with
coordinate `j` at point `n` is their correlation times the elapsed time up to the earlier of the two points. -/
theorem C56_path (hZ : StandardNormals μ Z) (b : BrownianMotion p) (b' : Ω → BrownianMotion p) (corr : Fin p → Fin p → ℝ)
    (hchol : ∀ i j, ∑ m, b.chol i m * b.chol j m = corr i j) (hd : b.dcc ≠ .thirty360) (dt : DtIncrement) (hf : Forward dt)
    (hle : b.start ≤ b.stop) (set : Bool) (path : Ω → List (Vec p))
    (h : ∀ ω, b.generatePath dt set (fun k i => Z k i ω) = (.ok (path ω), b' ω)) :
    ∃ grid dts, BrownianMotion.makeGrid b.start b.stop dt = .ok grid ∧ StepLengths b.dcc grid dts ∧
      (∀ ω, (path ω).length = grid.length) ∧
      ∀ m, m < grid.length → ∀ i, (∫ ω, (path ω).getD m 0 i ∂μ = 0) ∧ ∀ n, n < grid.length → ∀ j,
        ∫ ω, (path ω).getD m 0 i * (path ω).getD n 0 j ∂μ = corr i j * (elapsed dts (min m n) : ℝ) := by
  have hΩ : Nonempty Ω := μ.nonempty_of_neZero
  obtain ⟨ω0⟩ := hΩ
  obtain ⟨grid, dts, hg, hs, hl, -⟩ := path_sum (h ω0)
  obtain ⟨-, -, hinc, -⟩ := C55_grid b.start b.stop dt hf hle grid hg
  have hsum : ∀ ω, (path ω).length = grid.length ∧ ∀ n, n < grid.length → ∀ i,
      (path ω).getD n 0 i = ∑ k : Fin dts.length, if k.1 < n then shock b.chol (fun k i => Z k i ω) dts k.1 k.2 i else 0 := by
    intro ω
    obtain ⟨grid', dts', hg', hs', hl', hp'⟩ := path_sum (h ω)
    rw [hg] at hg'
    injection hg' with hg'
    subst hg'
    have hdts : dts' = dts := by
      apply List.ext_getElem
      · have := hs.1; have := hs'.1; omega
      · intro j hj hj'
        have e1 := hs.2 j hj' (by have := hs.1; omega) (by have := hs.1; omega)
        have e2 := hs'.2 j hj (by have := hs.1; omega) (by have := hs.1; omega)
        rw [e1] at e2
        injection e2 with e2
        exact e2.symm
    subst hdts
    refine ⟨hl', ?_⟩
    intro n hn i
    rw [List.getD_eq_getElem?_getD, List.getElem?_eq_getElem (by omega), Option.getD_some]
    exact hp' n (by omega) i
  refine ⟨grid, dts, hg, hs, fun ω => (hsum ω).1, ?_⟩
  intro m hm i
  have hI : ∀ n (k : Fin dts.length) i, Integrable
      (fun ω => if k.1 < n then shock b.chol (fun k i => Z k i ω) dts k.1 k.2 i else 0) μ := by
    intro n k i
    split
    · exact shock_integrable hZ b.chol dts k.1 k.2 i
    · exact integrable_zero _ _ _
  constructor
  · simp only [(hsum _).2 m hm i]
    rw [integral_finset_sum _ (fun k _ => hI m k i)]
    apply Finset.sum_eq_zero
    intro k _
    split
    · exact shock_mean hZ b.chol dts k.1 k.2 i
    · simp
  · intro n hn j
    simp only [(hsum _).2 m hm i, (hsum _).2 n hn j, Finset.sum_mul_sum]
    have hII : ∀ k l : Fin dts.length, Integrable
        (fun ω => (if k.1 < m then shock b.chol (fun k i => Z k i ω) dts k.1 k.2 i else 0) *
          (if l.1 < n then shock b.chol (fun k i => Z k i ω) dts l.1 l.2 j else 0)) μ := by
      intro k l
      split
      · split
        · exact shock_mul_integrable hZ b.chol dts k.1 l.1 k.2 l.2 i j
        · simp only [mul_zero]; exact integrable_zero _ _ _
      · simp only [zero_mul]; exact integrable_zero _ _ _
    have hval : ∀ k l : Fin dts.length,
        ∫ ω, (if k.1 < m then shock b.chol (fun k i => Z k i ω) dts k.1 k.2 i else 0) *
          (if l.1 < n then shock b.chol (fun k i => Z k i ω) dts l.1 l.2 j else 0) ∂μ =
        if k = l then (if k.1 < min m n then corr i j * (dts[k.1] : ℝ) else 0) else 0 := by
      intro k l
      by_cases h1 : k.1 < m
      · by_cases h2 : l.1 < n
        · simp only [h1, h2, if_true]
          rw [shock_cov hZ b.chol dts k.1 l.1 k.2 l.2 (steps_pos hd hinc hs k.1 k.2).le i j, hchol]
          by_cases hkl : k = l
          · subst hkl
            rw [if_pos rfl, if_pos rfl, if_pos (by omega)]
          · rw [if_neg (fun e => hkl (Fin.ext e)), if_neg hkl]
        · simp only [h2, if_false, mul_zero, integral_zero]
          split
          · next hkl => subst hkl; rw [if_neg (by omega)]
          · rfl
      · simp only [h1, if_false, zero_mul, integral_zero]
        split
        · rw [if_neg (by omega)]
        · rfl
    rw [integral_finset_sum _ (fun k _ => integrable_finset_sum _ (fun l _ => hII k l))]
    have e1 : ∀ k : Fin dts.length, ∫ ω, ∑ l : Fin dts.length,
        (if k.1 < m then shock b.chol (fun k i => Z k i ω) dts k.1 k.2 i else 0) *
          (if l.1 < n then shock b.chol (fun k i => Z k i ω) dts l.1 l.2 j else 0) ∂μ =
        if k.1 < min m n then corr i j * (dts[k.1] : ℝ) else 0 := by
      intro k
      rw [integral_finset_sum _ (fun l _ => hII k l)]
      simp only [hval, Finset.sum_ite_eq, Finset.mem_univ, if_true]
    simp only [e1]
    rw [elapsed_eq dts (min m n) (by have := hs.1; omega)]
    push_cast
    rw [Finset.mul_sum]
    apply Finset.sum_congr rfl
    intro k _
    split <;> simp

end

/-- Concrete case for C56: the identity factor and the identity correlation; a factor for correlation 3/5. -/
example : (∀ i j : Fin 2, ∑ m, (if i = m then (1 : ℝ) else 0) * (if j = m then 1 else 0) = if i = j then 1 else 0) ∧
    (∀ i j : Fin 2, ∑ m, (![![1, 0], ![3 / 5, 4 / 5]] i m : ℝ) * (![![1, 0], ![3 / 5, 4 / 5]] j m : ℝ) =
      (![![1, 3 / 5], ![3 / 5, 1]] i j : ℝ)) := by
  constructor
  · intro i j; fin_cases i <;> fin_cases j <;> simp
  · intro i j; fin_cases i <;> fin_cases j <;> simp [Fin.sum_univ_two] <;> norm_num

end Verif.Props
