/- Linear combinations of independent standard normal draws: lemmas for C133 and C134. -/
import Verif.Props.Correlation
import Verif.Spec.Normal

namespace Verif.Props
open Verif Verif.Spec Finset MeasureTheory ProbabilityTheory

section
variable {Ω : Type} [MeasurableSpace Ω] {μ : Measure Ω} {p : Nat} {Z : Nat → Fin p → Ω → ℝ}

/-- A value that depends affinely on the draws of the first `N` steps. -/
def AffineIn (Z : Nat → Fin p → Ω → ℝ) (N : Nat) (X : Ω → ℝ) : Prop :=
  ∃ (c : ℝ) (b : Nat × Fin p → ℝ), ∀ ω, X ω = c + ∑ ki ∈ range N ×ˢ (univ : Finset (Fin p)), b ki * Z ki.1 ki.2 ω

theorem AffineIn.const (N : Nat) (c : ℝ) : AffineIn Z N (fun _ => c) := ⟨c, 0, fun ω => by simp⟩

theorem AffineIn.mono {N M : Nat} (h : N ≤ M) {X : Ω → ℝ} (hX : AffineIn Z N X) : AffineIn Z M X := by
  obtain ⟨c, b, e⟩ := hX
  refine ⟨c, fun ki => if ki.1 < N then b ki else 0, fun ω => ?_⟩
  rw [e ω]
  congr 1
  have hsub : range N ×ˢ (univ : Finset (Fin p)) ⊆ range M ×ˢ (univ : Finset (Fin p)) :=
    Finset.product_subset_product (Finset.range_mono h) (Finset.Subset.refl _)
  rw [← Finset.sum_subset hsub]
  · refine Finset.sum_congr rfl fun ki hki => ?_
    dsimp only
    rw [if_pos (Finset.mem_range.1 (Finset.mem_product.1 hki).1)]
  · intro ki _ hki
    dsimp only
    rw [if_neg, zero_mul]
    intro hlt
    exact hki (Finset.mem_product.2 ⟨Finset.mem_range.2 hlt, Finset.mem_univ _⟩)

theorem AffineIn.add {N : Nat} {X Y : Ω → ℝ} (hX : AffineIn Z N X) (hY : AffineIn Z N Y) : AffineIn Z N (fun ω => X ω + Y ω) := by
  obtain ⟨c, b, e⟩ := hX
  obtain ⟨d, f, g⟩ := hY
  refine ⟨c + d, b + f, fun ω => ?_⟩
  dsimp only
  rw [e ω, g ω]
  simp only [Pi.add_apply, add_mul, Finset.sum_add_distrib]
  ring

theorem AffineIn.const_mul {N : Nat} {X : Ω → ℝ} (a : ℝ) (hX : AffineIn Z N X) : AffineIn Z N (fun ω => a * X ω) := by
  obtain ⟨c, b, e⟩ := hX
  refine ⟨a * c, fun ki => a * b ki, fun ω => ?_⟩
  dsimp only
  rw [e ω, mul_add, Finset.mul_sum]
  simp only [mul_assoc]

theorem AffineIn.sum {ι : Type} {N : Nat} (s : Finset ι) {X : ι → Ω → ℝ} (hX : ∀ a ∈ s, AffineIn Z N (X a)) :
    AffineIn Z N (fun ω => ∑ a ∈ s, X a ω) := by
  classical
  induction s using Finset.induction with
  | empty => simpa using AffineIn.const (Z := Z) N 0
  | insert a s ha ih =>
    simp only [Finset.sum_insert ha]
    exact (hX a (Finset.mem_insert_self _ _)).add (ih fun b hb => hX b (Finset.mem_insert_of_mem hb))

theorem AffineIn.draw {N k : Nat} (hk : k < N) (i : Fin p) : AffineIn Z N (Z k i) := by
  classical
  refine ⟨0, fun ki => if ki = (k, i) then 1 else 0, fun ω => ?_⟩
  rw [zero_add, Finset.sum_eq_single (k, i)]
  · simp
  · intro ki _ hne
    dsimp only
    rw [if_neg hne, zero_mul]
  · intro h
    exact absurd (Finset.mem_product.2 ⟨Finset.mem_range.2 hk, Finset.mem_univ _⟩) h

theorem AffineIn.shock {N : Nat} (chol : Fin p → Fin p → ℝ) (dts : List ℚ) (k : Nat) (hk : k < dts.length) (hN : k < N) (i : Fin p) :
    AffineIn Z N (fun ω => Spec.shock chol (fun k i => Z k i ω) dts k hk i) := by
  unfold Spec.shock
  refine AffineIn.sum _ fun j _ => ?_
  have := (AffineIn.draw (Z := Z) hN j).const_mul (chol i j * Real.sqrt (dts[k] : ℝ))
  convert this using 2
  ring

theorem AffineIn.memLp [IsProbabilityMeasure μ] (hZ : StandardNormals μ Z) {N : Nat} {X : Ω → ℝ} (hX : AffineIn Z N X) : MemLp X 2 μ := by
  obtain ⟨c, b, e⟩ := hX
  have : X = fun ω => c + ∑ ki ∈ range N ×ˢ (univ : Finset (Fin p)), b ki * Z ki.1 ki.2 ω := funext e
  rw [this]
  exact (memLp_const c).add (memLp_finset_sum _ fun ki _ => (hZ.memLp ki.1 ki.2).const_mul _)

/-- A linear combination of the draws is normal. -/
theorem draws_law [IsProbabilityMeasure μ] (hZ : StandardNormals μ Z) (b : Nat × Fin p → ℝ) (s : Finset (Nat × Fin p)) :
    μ.map (∑ ki ∈ s, fun ω => b ki * Z ki.1 ki.2 ω) = gaussianReal 0 (∑ ki ∈ s, b ki ^ 2).toNNReal := by
  classical
  induction s using Finset.induction with
  | empty =>
    simp only [Finset.sum_empty, Real.toNNReal_zero, gaussianReal_zero_var]
    have : (0 : Ω → ℝ) = fun _ => 0 := rfl
    rw [this, Measure.map_const, measure_univ, one_smul]
  | insert a s ha ih =>
    have hind : iIndepFun (fun ki : Nat × Fin p => fun ω => b ki * Z ki.1 ki.2 ω) μ :=
      hZ.independent.comp (fun ki x => b ki * x) (fun ki => measurable_const.mul measurable_id)
    have hi := hind.indepFun_finsetSum_of_notMem (fun ki => measurable_const.mul (hZ.measurable ki.1 ki.2)) ha
    have hl : μ.map (fun ω => b a * Z a.1 a.2 ω) = gaussianReal 0 (b a ^ 2).toNNReal := by
      have h1 : μ.map (fun ω => b a * Z a.1 a.2 ω) = (μ.map (Z a.1 a.2)).map (b a * ·) :=
        (Measure.map_map (measurable_const.mul measurable_id) (hZ.measurable a.1 a.2)).symm
      rw [h1, hZ.law, gaussianReal_map_const_mul, mul_zero, mul_one]
      congr 1
      exact (Real.toNNReal_of_nonneg (sq_nonneg _)).symm
    have := gaussianReal_add_gaussianReal_of_indepFun hi ih hl
    rw [Finset.sum_insert ha, Finset.sum_insert ha, add_comm, this, add_zero, add_comm (b a ^ 2),
      Real.toNNReal_add (Finset.sum_nonneg fun _ _ => sq_nonneg _) (sq_nonneg _)]

/-- An affine value is normal, with its own mean and variance. -/
theorem AffineIn.law [IsProbabilityMeasure μ] (hZ : StandardNormals μ Z) {N : Nat} {X : Ω → ℝ} (hX : AffineIn Z N X) {m v : ℝ}
    (hm : ∫ ω, X ω ∂μ = m) (hv : ∫ ω, (X ω - m) ^ 2 ∂μ = v) : 0 ≤ v ∧ Measurable X ∧ μ.map X = gaussianReal m v.toNNReal := by
  have hmem := hX.memLp hZ
  obtain ⟨c, b, e⟩ := hX
  have hf : X = fun ω => c + (∑ ki ∈ range N ×ˢ (univ : Finset (Fin p)), fun ω => b ki * Z ki.1 ki.2 ω) ω := by
    funext ω
    rw [e ω, Finset.sum_apply]
  have hmeasS : Measurable (∑ ki ∈ range N ×ˢ (univ : Finset (Fin p)), fun ω => b ki * Z ki.1 ki.2 ω) :=
    by
      have h1 : (∑ ki ∈ range N ×ˢ (univ : Finset (Fin p)), fun ω => b ki * Z ki.1 ki.2 ω) =
          fun ω => ∑ ki ∈ range N ×ˢ (univ : Finset (Fin p)), b ki * Z ki.1 ki.2 ω := by
        funext ω
        rw [Finset.sum_apply]
      rw [h1]
      exact Finset.measurable_fun_sum _ fun ki _ => measurable_const.mul (hZ.measurable ki.1 ki.2)
  have hmeas : Measurable X := by
    rw [hf]
    exact measurable_const.add hmeasS
  have hlaw : μ.map X = gaussianReal c (∑ ki ∈ range N ×ˢ (univ : Finset (Fin p)), b ki ^ 2).toNNReal := by
    have h1 : μ.map X = (μ.map (∑ ki ∈ range N ×ˢ (univ : Finset (Fin p)), fun ω => b ki * Z ki.1 ki.2 ω)).map (c + ·) := by
      have hadd : Measurable (c + · : ℝ → ℝ) := measurable_const.add measurable_id
      rw [Measure.map_map hadd hmeasS]
      exact congrArg (fun f => μ.map f) hf
    rw [h1, draws_law hZ, gaussianReal_map_const_add, zero_add]
  have hc : c = m := by
    have h1 : ∫ x, id x ∂(μ.map X) = ∫ ω, X ω ∂μ := integral_map hmeas.aemeasurable aestronglyMeasurable_id
    rw [hlaw, hm] at h1
    exact (integral_id_gaussianReal.symm.trans h1)
  subst hc
  have hw : ∑ ki ∈ range N ×ˢ (univ : Finset (Fin p)), b ki ^ 2 = v := by
    have h1 : ∫ x, (x - c) ^ 2 ∂(μ.map X) = ∫ ω, (X ω - c) ^ 2 ∂μ :=
      integral_map hmeas.aemeasurable ((measurable_id.sub_const c).pow_const 2).aestronglyMeasurable
    have h2 := variance_eq_integral (μ := μ.map X) (X := id) measurable_id.aemeasurable
    rw [hlaw, variance_id_gaussianReal] at h2
    rw [hlaw, hv] at h1
    simp only [id_eq] at h2
    have h3 : ∫ x, x ∂(gaussianReal c (∑ ki ∈ range N ×ˢ (univ : Finset (Fin p)), b ki ^ 2).toNNReal) = c := integral_id_gaussianReal
    rw [h3, h1, Real.coe_toNNReal _ (Finset.sum_nonneg fun _ _ => sq_nonneg _)] at h2
    exact h2
  exact ⟨hv ▸ integral_nonneg fun _ => sq_nonneg _, hmeas, by rw [hlaw, hw]⟩

/-- Affine values are jointly normal. -/
theorem jointly_normal [IsProbabilityMeasure μ] (hZ : StandardNormals μ Z) {ι : Type} {N : Nat} (s : Finset ι) {X : ι → Ω → ℝ}
    (hX : ∀ a ∈ s, AffineIn Z N (X a)) {m : ι → ℝ} {c : ι → ι → ℝ} (hm : ∀ a ∈ s, ∫ ω, X a ω ∂μ = m a)
    (hc : ∀ a ∈ s, ∀ b ∈ s, ∫ ω, (X a ω - m a) * (X b ω - m b) ∂μ = c a b) : JointlyNormal μ s X m c := by
  intro w
  have haff : AffineIn Z N (fun ω => ∑ a ∈ s, w a * X a ω) := AffineIn.sum _ fun a ha => (hX a ha).const_mul _
  have hmem : ∀ a ∈ s, MemLp (fun ω => X a ω - m a) 2 μ := fun a ha => ((hX a ha).memLp hZ).sub (memLp_const _)
  have hL := haff.law hZ (m := ∑ a ∈ s, w a * m a) (v := ∑ a ∈ s, ∑ b ∈ s, w a * w b * c a b)
    (by
      rw [integral_finset_sum _ fun a ha => (((hX a ha).memLp hZ).integrable (by norm_num)).const_mul _]
      exact Finset.sum_congr rfl fun a ha => by rw [integral_const_mul, hm a ha])
    (by
      have e : ∀ ω, (∑ a ∈ s, w a * X a ω - ∑ a ∈ s, w a * m a) ^ 2 =
          ∑ a ∈ s, ∑ b ∈ s, w a * w b * ((X a ω - m a) * (X b ω - m b)) := by
        intro ω
        rw [← Finset.sum_sub_distrib, sq, Finset.sum_mul_sum]
        exact Finset.sum_congr rfl fun a _ => Finset.sum_congr rfl fun b _ => by ring
      simp only [e]
      have hint : ∀ a ∈ s, ∀ b ∈ s, Integrable (fun ω => w a * w b * ((X a ω - m a) * (X b ω - m b))) μ := fun a ha b hb =>
        ((hmem a ha).integrable_mul (hmem b hb)).const_mul _
      rw [integral_finset_sum _ fun a ha => integrable_finset_sum _ fun b hb => hint a ha b hb]
      refine Finset.sum_congr rfl fun a ha => ?_
      rw [integral_finset_sum _ fun b hb => hint a ha b hb]
      exact Finset.sum_congr rfl fun b hb => by rw [integral_const_mul, hc a ha b hb])
  exact ⟨hL.1, hL.2.2⟩

/-- A draw of a later step is uncorrelated with an affine value of earlier ones. -/
theorem AffineIn.orthogonal [IsProbabilityMeasure μ] (hZ : StandardNormals μ Z) {N : Nat} {X : Ω → ℝ} (hX : AffineIn Z N X) {k : Nat}
    (hk : N ≤ k) (i : Fin p) : ∫ ω, X ω * Z k i ω ∂μ = 0 := by
  obtain ⟨c, b, e⟩ := hX
  have e2 : ∀ ω, X ω * Z k i ω = c * Z k i ω +
      ∑ ki ∈ range N ×ˢ (univ : Finset (Fin p)), b ki * (Z ki.1 ki.2 ω * Z k i ω) := by
    intro ω
    rw [e ω, add_mul, Finset.sum_mul]
    simp only [mul_assoc]
  simp only [e2]
  rw [integral_add ((hZ.integrable k i).const_mul _)
    (integrable_finset_sum _ fun ki _ => (hZ.integrable_mul ki.1 k ki.2 i).const_mul _), integral_const_mul, hZ.mean, mul_zero, zero_add,
    integral_finset_sum _ fun ki _ => (hZ.integrable_mul ki.1 k ki.2 i).const_mul _]
  refine Finset.sum_eq_zero fun ki hki => ?_
  have := Finset.mem_range.1 (Finset.mem_product.1 hki).1
  rw [integral_const_mul, hZ.second, if_neg (by omega), mul_zero]

theorem AffineIn.orthogonal_shock [IsProbabilityMeasure μ] (hZ : StandardNormals μ Z) {N : Nat} {X : Ω → ℝ} (hX : AffineIn Z N X)
    (chol : Fin p → Fin p → ℝ) (dts : List ℚ) (k : Nat) (hk : k < dts.length) (hN : N ≤ k) (i : Fin p) :
    ∫ ω, X ω * Spec.shock chol (fun k i => Z k i ω) dts k hk i ∂μ = 0 := by
  unfold Spec.shock
  have e : ∀ ω, X ω * ∑ j, chol i j * (Z k j ω * Real.sqrt (dts[k] : ℝ)) =
      ∑ j, (chol i j * Real.sqrt (dts[k] : ℝ)) * (X ω * Z k j ω) := by
    intro ω
    rw [Finset.mul_sum]
    exact Finset.sum_congr rfl fun j _ => by ring
  simp only [e]
  have hI : ∀ j, Integrable (fun ω => (chol i j * Real.sqrt (dts[k] : ℝ)) * (X ω * Z k j ω)) μ := fun j =>
    ((hX.memLp hZ).integrable_mul (hZ.memLp k j)).const_mul _
  rw [integral_finset_sum _ fun j _ => hI j]
  refine Finset.sum_eq_zero fun j _ => ?_
  rw [integral_const_mul, hX.orthogonal hZ hN, mul_zero]

/-- A normal value with positive variance falls into every open interval with positive probability. -/
theorem normal_reaches {X : Ω → ℝ} (hX : Measurable X) {m v : ℝ} (hv : 0 < v) (hl : μ.map X = gaussianReal m v.toNNReal) {a b : ℝ}
    (hab : a < b) : 0 < μ {ω | a < X ω ∧ X ω < b} := by
  have h1 : μ {ω | a < X ω ∧ X ω < b} = gaussianReal m v.toNNReal (Set.Ioo a b) := by
    rw [← hl, Measure.map_apply hX measurableSet_Ioo]
    rfl
  rw [h1, pos_iff_ne_zero]
  intro h0
  have := gaussianReal_absolutelyContinuous' m (v := v.toNNReal) (by rw [ne_eq, Real.toNNReal_eq_zero]; exact not_le.2 hv) h0
  rw [Real.volume_Ioo, ENNReal.ofReal_eq_zero] at this
  linarith

/-- The mean of the exponential of minus a normal value. -/
theorem normal_exp {X : Ω → ℝ} {m v : ℝ} (hv : 0 ≤ v) (hl : μ.map X = gaussianReal m v.toNNReal) :
    ∫ ω, Real.exp (-X ω) ∂μ = Real.exp (-m + v / 2) := by
  have := mgf_gaussianReal hl (-1)
  unfold mgf at this
  simp only [neg_mul, one_mul] at this
  rw [this, Real.coe_toNNReal _ hv]
  congr 1
  ring

end

end Verif.Props
