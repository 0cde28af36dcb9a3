/- Discounted sums with real exponents, as functions of the one-period growth factor. -/
import Mathlib.Analysis.SpecialFunctions.Pow.Continuity
import Mathlib.Analysis.SpecialFunctions.Pow.Asymptotics
import Mathlib.Analysis.SpecialFunctions.Pow.Real
import Mathlib.Topology.Order.IntermediateValue

namespace Verif

/-- The sum of `amount / x ^ exponent`. -/
noncomputable def discountedSum (l : List (ℝ × ℝ)) (x : ℝ) : ℝ := (l.map (fun ae => 1 / x ^ ae.2 * ae.1)).sum

theorem discountedSum_cons (a : ℝ × ℝ) (l : List (ℝ × ℝ)) (x : ℝ) :
    discountedSum (a :: l) x = 1 / x ^ a.2 * a.1 + discountedSum l x := by
  simp [discountedSum]

theorem discountedSum_anti {l : List (ℝ × ℝ)} (hl : ∀ a ∈ l, 0 ≤ a.1 ∧ 0 ≤ a.2) {x y : ℝ} (hx : 0 < x) (hxy : x ≤ y) :
    discountedSum l y ≤ discountedSum l x := by
  induction l with
  | nil => simp [discountedSum]
  | cons a l ih =>
    rw [discountedSum_cons, discountedSum_cons]
    obtain ⟨h1, h2⟩ := hl a (by simp)
    have := ih (fun b hb => hl b (by simp [hb]))
    have hp : x ^ a.2 ≤ y ^ a.2 := Real.rpow_le_rpow (le_of_lt hx) hxy h2
    have hp0 : 0 < x ^ a.2 := Real.rpow_pos_of_pos hx _
    have : 1 / y ^ a.2 ≤ 1 / x ^ a.2 := one_div_le_one_div_of_le hp0 hp
    have := mul_le_mul_of_nonneg_right this h1
    linarith

theorem discountedSum_strictAnti {l : List (ℝ × ℝ)} (hl : ∀ a ∈ l, 0 ≤ a.1 ∧ 0 ≤ a.2)
    (hpos : ∃ a ∈ l, 0 < a.1 ∧ 0 < a.2) {x y : ℝ} (hx : 0 < x) (hxy : x < y) :
    discountedSum l y < discountedSum l x := by
  induction l with
  | nil => obtain ⟨a, ha, _⟩ := hpos; simp at ha
  | cons a l ih =>
    rw [discountedSum_cons, discountedSum_cons]
    obtain ⟨h1, h2⟩ := hl a (by simp)
    have hle := discountedSum_anti (l := l) (fun b hb => hl b (by simp [hb])) hx (le_of_lt hxy)
    have hp : x ^ a.2 ≤ y ^ a.2 := Real.rpow_le_rpow (le_of_lt hx) (le_of_lt hxy) h2
    have hp0 : 0 < x ^ a.2 := Real.rpow_pos_of_pos hx _
    have hterm : 1 / y ^ a.2 ≤ 1 / x ^ a.2 := one_div_le_one_div_of_le hp0 hp
    have hterm' := mul_le_mul_of_nonneg_right hterm h1
    obtain ⟨b, hb, hb1, hb2⟩ := hpos
    rcases List.mem_cons.1 hb with rfl | hb
    · have : x ^ b.2 < y ^ b.2 := Real.rpow_lt_rpow (le_of_lt hx) hxy hb2
      have : 1 / y ^ b.2 < 1 / x ^ b.2 := one_div_lt_one_div_of_lt hp0 this
      have := mul_lt_mul_of_pos_right this hb1
      linarith
    · have := ih (fun b hb => hl b (by simp [hb])) ⟨b, hb, hb1, hb2⟩
      linarith

theorem discountedSum_one (l : List (ℝ × ℝ)) : discountedSum l 1 = (l.map Prod.fst).sum := by
  unfold discountedSum; simp

theorem discountedSum_continuous (l : List (ℝ × ℝ)) : ContinuousOn (discountedSum l) (Set.Ioi 0) := by
  induction l with
  | nil =>
    have : discountedSum [] = fun _ => 0 := by funext x; simp [discountedSum]
    rw [this]; exact continuousOn_const
  | cons a l ih =>
    have : discountedSum (a :: l) = fun x => 1 / x ^ a.2 * a.1 + discountedSum l x := by
      funext x; exact discountedSum_cons a l x
    rw [this]
    refine ContinuousOn.add (ContinuousOn.mul (ContinuousOn.div continuousOn_const ?_ ?_) continuousOn_const) ih
    · intro x hx
      exact (Real.continuousAt_rpow_const x a.2 (Or.inl (ne_of_gt hx))).continuousWithinAt
    · intro x hx
      exact ne_of_gt (Real.rpow_pos_of_pos hx _)

theorem discountedSum_tendsto (l : List (ℝ × ℝ)) (hl : ∀ a ∈ l, 0 < a.2) :
    Filter.Tendsto (discountedSum l) Filter.atTop (nhds 0) := by
  induction l with
  | nil =>
    have : discountedSum [] = fun _ => 0 := by funext x; simp [discountedSum]
    rw [this]; exact tendsto_const_nhds
  | cons a l ih =>
    have : discountedSum (a :: l) = fun x => 1 / x ^ a.2 * a.1 + discountedSum l x := by
      funext x; exact discountedSum_cons a l x
    rw [this]
    have h1 : Filter.Tendsto (fun x : ℝ => 1 / x ^ a.2) Filter.atTop (nhds 0) :=
      (tendsto_rpow_atTop (hl a (by simp))).const_div_atTop 1
    have h2 := (h1.mul_const a.1).add (ih (fun b hb => hl b (by simp [hb])))
    simpa using h2

theorem discountedSum_nonneg {l : List (ℝ × ℝ)} (hl : ∀ a ∈ l, 0 ≤ a.1) {x : ℝ} (hx : 0 < x) : 0 ≤ discountedSum l x := by
  unfold discountedSum
  apply List.sum_nonneg
  intro y hy
  obtain ⟨a, ha, rfl⟩ := List.mem_map.1 hy
  exact mul_nonneg (le_of_lt (one_div_pos.2 (Real.rpow_pos_of_pos hx _))) (hl a ha)

theorem le_discountedSum {l : List (ℝ × ℝ)} (hl : ∀ a ∈ l, 0 ≤ a.1) {x : ℝ} (hx : 0 < x) {a : ℝ × ℝ} (ha : a ∈ l) :
    1 / x ^ a.2 * a.1 ≤ discountedSum l x := by
  induction l with
  | nil => simp at ha
  | cons b l ih =>
    rw [discountedSum_cons]
    have hb := hl b (by simp)
    have hrest := discountedSum_nonneg (fun c hc => hl c (by simp [hc])) hx (l := l)
    rcases List.mem_cons.1 ha with rfl | ha
    · linarith
    · have := ih (fun c hc => hl c (by simp [hc])) ha
      have : 0 ≤ 1 / x ^ b.2 * b.1 := mul_nonneg (le_of_lt (one_div_pos.2 (Real.rpow_pos_of_pos hx _))) hb
      linarith

/-- Every positive target is attained. -/
theorem discountedSum_surj {l : List (ℝ × ℝ)} (hl : ∀ a ∈ l, 0 ≤ a.1 ∧ 0 < a.2) (hpos : ∃ a ∈ l, 0 < a.1) {T : ℝ}
    (hT : 0 < T) : ∃ x, 0 < x ∧ discountedSum l x = T := by
  obtain ⟨a, ha, ha1⟩ := hpos
  have ha2 := (hl a ha).2
  -- a small factor where the sum is at least T
  let x0 : ℝ := (a.1 / T) ^ (1 / a.2)
  have hx0 : 0 < x0 := Real.rpow_pos_of_pos (div_pos ha1 hT) _
  have hlow : T ≤ discountedSum l x0 := by
    have hp : x0 ^ a.2 = a.1 / T := by
      show ((a.1 / T) ^ (1 / a.2)) ^ a.2 = a.1 / T
      rw [← Real.rpow_mul (le_of_lt (div_pos ha1 hT)), one_div_mul_cancel (ne_of_gt ha2), Real.rpow_one]
    have := le_discountedSum (fun b hb => (hl b hb).1) hx0 ha
    rw [hp] at this
    have e : 1 / (a.1 / T) * a.1 = T := by field_simp
    rwa [e] at this
  have hev := (discountedSum_tendsto l (fun b hb => (hl b hb).2)).eventually (gt_mem_nhds hT)
  obtain ⟨x1, hx1⟩ := (hev.and (Filter.eventually_ge_atTop x0)).exists
  have hcont : ContinuousOn (discountedSum l) (Set.Icc x0 x1) :=
    (discountedSum_continuous l).mono (fun y hy => lt_of_lt_of_le hx0 hy.1)
  obtain ⟨x, hx, hxT⟩ := intermediate_value_Icc' hx1.2 hcont ⟨le_of_lt hx1.1, hlow⟩
  exact ⟨x, lt_of_lt_of_le hx0 hx.1, hxT⟩

end Verif
