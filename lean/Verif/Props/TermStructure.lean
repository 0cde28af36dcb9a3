/- C113: the shape and the long end of the Vasicek term structure. -/
import Verif.Props.Vasicek
import Mathlib.Analysis.Convex.Deriv

namespace Verif.Props
open Verif Verif.Spec

variable {θ k σ : ℝ} {v : Vasicek}

/-- The level the long end of a Vasicek curve approaches: the mean less `σ² / 2k²`. -/
noncomputable def longRate (θ k σ : ℝ) : ℝ := θ - σ ^ 2 / (2 * k ^ 2)

/-- One minus the share of a deviation that survives a time `T`. -/
noncomputable def reverted (k T : ℝ) : ℝ := 1 - Real.exp (-k * T)

theorem reverted_bounds (hk : 0 < k) {T : ℝ} (hT : 0 ≤ T) : 0 ≤ reverted k T ∧ reverted k T < 1 := by
  unfold reverted
  have h1 : Real.exp (-k * T) ≤ 1 := Real.exp_le_one_iff.2 (by nlinarith)
  have h2 := Real.exp_pos (-k * T)
  constructor <;> linarith

theorem reverted_mono (hk : 0 < k) {S T : ℝ} (h : S ≤ T) : reverted k S ≤ reverted k T := by
  unfold reverted
  have : Real.exp (-k * T) ≤ Real.exp (-k * S) := Real.exp_le_exp.2 (by nlinarith)
  linarith

/-- The yield computed by the model, around the long rate. -/
theorem yield_form (h : MadeVasicek θ k σ v) (maturity : PyDatetime) (p : Option PyDatetime) (T : ℚ) (r : ℝ)
    (hT : v.time v.core.bm.start maturity = .ok T) (hT0 : 0 < T) (hr : v.call (v.purchase p) = .ok r) :
    v.zeroCouponYield maturity p = .ok (longRate θ k σ +
      (reverted k T * (r - longRate θ k σ) + σ ^ 2 / (4 * k ^ 2) * reverted k T ^ 2) / (k * T)) := by
  obtain ⟨h1, h2, h3, hk, h4⟩ := h.params
  have hTne : ((T : ℚ) : ℝ) ≠ 0 := by exact_mod_cast hT0.ne'
  unfold Vasicek.zeroCouponYield Vasicek.yieldCoeffs
  rw [hT, ok_bind, h2, floatDiv_of_ne hk, ok_bind, floatDiv_of_ne (by simpa using hk), ok_bind]
  simp only
  rw [floatDiv_of_ne hTne, ok_bind, floatDiv_of_ne hTne, ok_bind, ok_bind, hr, ok_bind, h1, h3, h4]
  congr 1
  unfold longRate reverted
  field_simp
  ring

theorem forward_form (h : MadeVasicek θ k σ v) (maturity : PyDatetime) (p : Option PyDatetime) (T : ℚ) (r : ℝ)
    (hT : v.time (v.purchase p) maturity = .ok T) (hr : v.call (v.purchase p) = .ok r) (hp : v.core.path ≠ none) :
    v.instantaneousForwardRate maturity p = .ok (longRate θ k σ + (1 - reverted k T) * (r - θ) +
      σ ^ 2 / (2 * k ^ 2) * (1 - reverted k T ^ 2)) := by
  obtain ⟨h1, h2, h3, hk, h4⟩ := h.params
  obtain ⟨l, hl⟩ := Option.ne_none_iff_exists'.1 hp
  unfold Vasicek.instantaneousForwardRate
  rw [hl]
  simp only
  unfold Vasicek.priceCoeffDerivatives
  rw [hr, ok_bind, show v.purchase (some (v.purchase p)) = v.purchase p from rfl, hT, ok_bind, ok_bind, h1, h2, h4]
  congr 1
  unfold longRate reverted
  field_simp
  ring

/-- The average weight of the initial rate decreases with the horizon. -/
theorem reverted_ratio (hk : 0 < k) {S T : ℝ} (hS : 0 < S) (h : S ≤ T) : reverted k T / (k * T) ≤ reverted k S / (k * S) := by
  have hT : 0 < T := lt_of_lt_of_le hS h
  rw [div_le_div_iff₀ (by positivity) (by positivity)]
  have hc := convexOn_exp.2 (Set.mem_univ (-k * T)) (Set.mem_univ (0 : ℝ)) (show (0 : ℝ) ≤ S / T by positivity)
    (show (0 : ℝ) ≤ 1 - S / T by rw [sub_nonneg, div_le_one hT]; exact h) (by ring)
  simp only [smul_eq_mul, Real.exp_zero, mul_one, mul_zero, add_zero] at hc
  rw [show S / T * (-k * T) = -k * S by field_simp] at hc
  have h2 : S / T * reverted k T ≤ reverted k S := by unfold reverted; linarith
  have h3 : S * reverted k T ≤ T * reverted k S := by
    have := mul_le_mul_of_nonneg_left h2 hT.le
    rwa [← mul_assoc, mul_div_cancel₀ _ hT.ne'] at this
  nlinarith

theorem reverted_square_concave (hk : 0 < k) :
    ConcaveOn ℝ (Set.Ici 0) (fun T => 2 * reverted k T + reverted k T ^ 2) := by
  have hd : ∀ T, HasDerivAt (fun T => 2 * reverted k T + reverted k T ^ 2)
      (2 * k * ((2 - Real.exp (-k * T)) * Real.exp (-k * T))) T := by
    intro T
    have h1 : HasDerivAt (reverted k) (k * Real.exp (-k * T)) T := by
      have := (hasDerivAt_exp_neg k T).const_sub 1
      refine HasDerivAt.congr_deriv this ?_
      ring
    have h2 := (h1.const_mul 2).add (h1.pow 2)
    refine HasDerivAt.congr_deriv h2 ?_
    unfold reverted
    push_cast
    ring
  refine AntitoneOn.concaveOn_of_deriv (convex_Ici 0) (fun T _ => (hd T).continuousAt.continuousWithinAt)
    (fun T _ => (hd T).differentiableAt.differentiableWithinAt) ?_
  intro S hS T hT hST
  rw [interior_Ici] at hS hT
  simp only [Set.mem_Ioi] at hS hT
  rw [(hd S).deriv, (hd T).deriv]
  have e1 : Real.exp (-k * T) ≤ Real.exp (-k * S) := Real.exp_le_exp.2 (by nlinarith)
  have e2 : Real.exp (-k * S) ≤ 1 := Real.exp_le_one_iff.2 (by nlinarith)
  have e3 := Real.exp_pos (-k * T)
  refine mul_le_mul_of_nonneg_left ?_ (by positivity)
  nlinarith

theorem reverted_square_ratio (hk : 0 < k) {S T : ℝ} (hS : 0 < S) (h : S ≤ T) :
    (2 * reverted k T + reverted k T ^ 2) / (k * T) ≤ (2 * reverted k S + reverted k S ^ 2) / (k * S) := by
  have hT : 0 < T := lt_of_lt_of_le hS h
  rw [div_le_div_iff₀ (by positivity) (by positivity)]
  have hc := (reverted_square_concave hk).2 (Set.mem_Ici.2 hT.le) (Set.mem_Ici.2 (le_refl (0 : ℝ))) (show (0 : ℝ) ≤ S / T by positivity)
    (show (0 : ℝ) ≤ 1 - S / T by rw [sub_nonneg, div_le_one hT]; exact h) (by ring)
  simp only [smul_eq_mul, mul_zero, add_zero] at hc
  rw [show S / T * T = S by field_simp, show reverted k 0 = 0 by unfold reverted; simp] at hc
  have hc' : S / T * (2 * reverted k T + reverted k T ^ 2) ≤ 2 * reverted k S + reverted k S ^ 2 := by
    simpa using hc
  have h3 : S * (2 * reverted k T + reverted k T ^ 2) ≤ T * (2 * reverted k S + reverted k S ^ 2) := by
    have := mul_le_mul_of_nonneg_left hc' hT.le
    rwa [← mul_assoc, mul_div_cancel₀ _ hT.ne'] at this
  nlinarith

/-- C113. Yields converge to the long rate like one over the maturity, whatever the short rate. -/
theorem C113_long_yield (h : MadeVasicek θ k σ v) (hk : 0 < k) (maturity : PyDatetime) (p : Option PyDatetime) (T : ℚ) (r : ℝ)
    (hT : v.time v.core.bm.start maturity = .ok T) (hT0 : 0 < T) (hr : v.call (v.purchase p) = .ok r) :
    ∃ y, v.zeroCouponYield maturity p = .ok y ∧
      |y - (θ - σ ^ 2 / (2 * k ^ 2))| ≤ (|r - (θ - σ ^ 2 / (2 * k ^ 2))| + σ ^ 2 / (4 * k ^ 2)) / (k * T) := by
  refine ⟨_, yield_form h maturity p T r hT hT0 hr, ?_⟩
  have hTr : (0 : ℝ) < T := by exact_mod_cast hT0
  obtain ⟨b0, b1⟩ := reverted_bounds hk hTr.le
  unfold longRate
  rw [add_sub_cancel_left, abs_div, abs_of_pos (mul_pos hk hTr)]
  refine div_le_div_of_nonneg_right ?_ (mul_pos hk hTr).le
  refine le_trans (abs_add_le _ _) ?_
  have hs : 0 ≤ σ ^ 2 / (4 * k ^ 2) := by positivity
  rw [abs_mul, abs_of_nonneg b0, abs_of_nonneg (mul_nonneg hs (sq_nonneg _))]
  have ha := abs_nonneg (r - (θ - σ ^ 2 / (2 * k ^ 2)))
  have hb2 : reverted k T ^ 2 ≤ 1 := by nlinarith
  nlinarith

/-- C113. Instantaneous forward rates converge to the same long rate, exponentially fast. -/
theorem C113_long_forward (h : MadeVasicek θ k σ v) (hk : 0 < k) (maturity : PyDatetime) (p : Option PyDatetime) (T : ℚ) (r : ℝ)
    (hT : v.time (v.purchase p) maturity = .ok T) (hT0 : 0 ≤ T) (hr : v.call (v.purchase p) = .ok r) (hp : v.core.path ≠ none) :
    ∃ f, v.instantaneousForwardRate maturity p = .ok f ∧
      |f - (θ - σ ^ 2 / (2 * k ^ 2))| ≤ Real.exp (-k * T) * (|r - θ| + σ ^ 2 / k ^ 2) := by
  refine ⟨_, forward_form h maturity p T r hT hr hp, ?_⟩
  have hTr : (0 : ℝ) ≤ T := by exact_mod_cast hT0
  obtain ⟨b0, b1⟩ := reverted_bounds hk hTr
  have e : Real.exp (-k * T) = 1 - reverted k T := by unfold reverted; ring
  rw [e]
  unfold longRate
  rw [show θ - σ ^ 2 / (2 * k ^ 2) + (1 - reverted k T) * (r - θ) + σ ^ 2 / (2 * k ^ 2) * (1 - reverted k T ^ 2) -
    (θ - σ ^ 2 / (2 * k ^ 2)) = (1 - reverted k T) * ((r - θ) + σ ^ 2 / (2 * k ^ 2) * (1 + reverted k T)) by ring,
    abs_mul, abs_of_pos (by linarith)]
  refine mul_le_mul_of_nonneg_left (le_trans (abs_add_le _ _) (add_le_add le_rfl ?_)) (by linarith)
  have hs : 0 ≤ σ ^ 2 / (2 * k ^ 2) := by positivity
  rw [abs_of_nonneg (mul_nonneg hs (by linarith))]
  have : σ ^ 2 / k ^ 2 = σ ^ 2 / (2 * k ^ 2) * 2 := by field_simp
  rw [this]
  exact mul_le_mul_of_nonneg_left (by linarith) hs

/-- C113. The yield curve rises with maturity when the short rate is low enough, and falls when it is at or above its mean. -/
theorem C113_shape (h : MadeVasicek θ k σ v) (hk : 0 < k) (m₁ m₂ : PyDatetime) (p : Option PyDatetime) (T₁ T₂ : ℚ) (r : ℝ)
    (hT₁ : v.time v.core.bm.start m₁ = .ok T₁) (hT₂ : v.time v.core.bm.start m₂ = .ok T₂) (hT0 : 0 < T₁) (hle : T₁ ≤ T₂)
    (hr : v.call (v.purchase p) = .ok r) :
    ∃ y₁ y₂, v.zeroCouponYield m₁ p = .ok y₁ ∧ v.zeroCouponYield m₂ p = .ok y₂ ∧
      (r ≤ θ - 3 * σ ^ 2 / (4 * k ^ 2) → y₁ ≤ y₂) ∧ (θ ≤ r → y₂ ≤ y₁) := by
  refine ⟨_, _, yield_form h m₁ p T₁ r hT₁ hT0 hr, yield_form h m₂ p T₂ r hT₂ (lt_of_lt_of_le hT0 hle) hr, ?_, ?_⟩
  all_goals
    have h1 : (0 : ℝ) < T₁ := by exact_mod_cast hT0
    have h12 : (T₁ : ℝ) ≤ T₂ := by exact_mod_cast hle
    have h2 : (0 : ℝ) < T₂ := lt_of_lt_of_le h1 h12
    have hb := reverted_mono hk h12
    obtain ⟨b0, b1⟩ := reverted_bounds hk h1.le
    obtain ⟨c0, c1⟩ := reverted_bounds hk h2.le
    have hu := reverted_ratio hk h1 h12
    have hw := reverted_square_ratio hk h1 h12
    have hd : 0 ≤ σ ^ 2 / (4 * k ^ 2) := by positivity
    generalize hde : σ ^ 2 / (4 * k ^ 2) = d at hd ⊢
    have e2 : longRate θ k σ = θ - 2 * d := by
      unfold longRate; rw [← hde]; field_simp; ring
    generalize reverted k T₁ = b at *
    generalize reverted k T₂ = c at *
    rw [e2]
    intro hr'
    refine add_le_add le_rfl ?_
  · have e3 : 3 * σ ^ 2 / (4 * k ^ 2) = 3 * d := by rw [← hde]; ring
    rw [e3] at hr'
    have f1 : (b * (r - (θ - 2 * d)) + d * b ^ 2) / (k * T₁) = b / (k * T₁) * ((r - (θ - 2 * d)) + d * b) := by ring
    have f2 : (c * (r - (θ - 2 * d)) + d * c ^ 2) / (k * T₂) = c / (k * T₂) * ((r - (θ - 2 * d)) + d * c) := by ring
    rw [f1, f2]
    have u2 : 0 ≤ c / (k * T₂) := by positivity
    have x1 : (r - (θ - 2 * d)) + d * b ≤ (r - (θ - 2 * d)) + d * c := by nlinarith
    have x2 : (r - (θ - 2 * d)) + d * b ≤ 0 := by nlinarith
    nlinarith
  · have f1 : (b * (r - (θ - 2 * d)) + d * b ^ 2) / (k * T₁) = (r - θ) * (b / (k * T₁)) + d * ((2 * b + b ^ 2) / (k * T₁)) := by
      ring
    have f2 : (c * (r - (θ - 2 * d)) + d * c ^ 2) / (k * T₂) = (r - θ) * (c / (k * T₂)) + d * ((2 * c + c ^ 2) / (k * T₂)) := by
      ring
    rw [f1, f2]
    exact add_le_add (mul_le_mul_of_nonneg_left hu (by linarith)) (mul_le_mul_of_nonneg_left hw hd)

/-- C113. Every yield lies between the smaller of the short and the long rate and the larger of the short rate and the mean. -/
theorem C113_bounds (h : MadeVasicek θ k σ v) (hk : 0 < k) (maturity : PyDatetime) (p : Option PyDatetime) (T : ℚ) (r : ℝ)
    (hT : v.time v.core.bm.start maturity = .ok T) (hT0 : 0 < T) (hr : v.call (v.purchase p) = .ok r) :
    ∃ y, v.zeroCouponYield maturity p = .ok y ∧ min r (θ - σ ^ 2 / (2 * k ^ 2)) ≤ y ∧ y ≤ max r θ := by
  refine ⟨_, yield_form h maturity p T r hT hT0 hr, ?_⟩
  have hTr : (0 : ℝ) < T := by exact_mod_cast hT0
  obtain ⟨b0, b1⟩ := reverted_bounds hk hTr.le
  have hkT : 0 < k * (T : ℝ) := mul_pos hk hTr
  have hbx : reverted k T ≤ k * T := by
    have := Real.add_one_le_exp (-k * (T : ℝ))
    unfold reverted; linarith
  -- (2 b + b²) ≤ 2 k T
  have hb2 : 2 * reverted k T + reverted k T ^ 2 ≤ 2 * (k * T) := by
    have hx : ∀ x : ℝ, 0 ≤ x → (1 - Real.exp (-x)) * (3 - Real.exp (-x)) ≤ 2 * x := by
      intro x hx
      have hmono : MonotoneOn (fun x : ℝ => 2 * x - (1 - Real.exp (-x)) * (3 - Real.exp (-x))) (Set.Ici 0) := by
        have hd : ∀ x : ℝ, HasDerivAt (fun x : ℝ => 2 * x - (1 - Real.exp (-x)) * (3 - Real.exp (-x)))
            (2 * (1 - Real.exp (-x)) ^ 2) x := by
          intro x
          have h1 : HasDerivAt (fun x : ℝ => Real.exp (-x)) (-Real.exp (-x)) x := by
            have := (hasDerivAt_neg x).exp
            simpa using this
          have h2 := ((hasDerivAt_id x).const_mul 2).sub ((h1.const_sub 1).mul (h1.const_sub 3))
          refine HasDerivAt.congr_deriv h2 ?_
          ring
        refine monotoneOn_of_deriv_nonneg (convex_Ici 0) (fun x _ => (hd x).continuousAt.continuousWithinAt)
          (fun x _ => (hd x).differentiableAt.differentiableWithinAt) (fun x _ => ?_)
        rw [(hd x).deriv]; positivity
      have := hmono (Set.mem_Ici.2 le_rfl) (Set.mem_Ici.2 hx) hx
      simp at this
      linarith
    have := hx (k * T) hkT.le
    have e : Real.exp (-(k * (T : ℝ))) = 1 - reverted k T := by unfold reverted; rw [neg_mul]; ring
    rw [e] at this
    nlinarith
  have hd : 0 ≤ σ ^ 2 / (4 * k ^ 2) := by positivity
  have e1 : σ ^ 2 / (2 * k ^ 2) = 2 * (σ ^ 2 / (4 * k ^ 2)) := by field_simp; ring
  unfold longRate
  rw [e1]
  generalize σ ^ 2 / (4 * k ^ 2) = d at hd
  generalize reverted k T = b at *
  constructor
  · rcases le_total (θ - 2 * d) r with hc | hc
    · refine le_trans (min_le_right _ _) ?_
      have : 0 ≤ (b * (r - (θ - 2 * d)) + d * b ^ 2) / (k * T) :=
        div_nonneg (add_nonneg (mul_nonneg b0 (by linarith)) (mul_nonneg hd (sq_nonneg _))) hkT.le
      linarith
    · refine le_trans (min_le_left _ _) ?_
      have : r - (θ - 2 * d) ≤ (b * (r - (θ - 2 * d)) + d * b ^ 2) / (k * T) := by
        rw [le_div_iff₀ hkT]
        nlinarith [mul_nonneg hd (sq_nonneg b)]
      linarith
  · have key : (b * (r - (θ - 2 * d)) + d * b ^ 2) / (k * T) ≤ max 0 (r - θ) + 2 * d := by
      rw [div_le_iff₀ hkT]
      have m0 := le_max_left 0 (r - θ)
      have m1 := le_max_right 0 (r - θ)
      have a1 : b * (r - θ) ≤ max 0 (r - θ) * (k * T) := by
        calc b * (r - θ) ≤ b * max 0 (r - θ) := mul_le_mul_of_nonneg_left m1 b0
          _ ≤ (k * T) * max 0 (r - θ) := mul_le_mul_of_nonneg_right hbx m0
          _ = _ := by ring
      have a2 : d * (2 * b + b ^ 2) ≤ d * (2 * (k * T)) := mul_le_mul_of_nonneg_left hb2 hd
      nlinarith
    have : θ + max 0 (r - θ) = max r θ := by
      rcases le_total r θ with hc | hc
      · rw [max_eq_left (by linarith), max_eq_right hc]; ring
      · rw [max_eq_right (by linarith), max_eq_left hc]; ring
    linarith

/-- C113. The expected short rate lies between the present rate and the mean, and its distance from the mean shrinks exponentially; the
variance grows with the horizon and never reaches `σ² / 2k` (unless there is no volatility). -/
theorem C113_mean_reversion (h : MadeVasicek θ k σ v) (hk : 0 < k) (m₁ m₂ : PyDatetime) (p : Option PyDatetime) (T₁ T₂ : ℚ) (r : ℝ)
    (hT₁ : v.time (v.purchase p) m₁ = .ok T₁) (hT₂ : v.time (v.purchase p) m₂ = .ok T₂) (hT0 : 0 ≤ T₁) (hle : T₁ ≤ T₂)
    (hr : v.call (v.purchase p) = .ok r) :
    ∃ e w₁ w₂, v.expectedShortRate m₁ p = .ok e ∧ v.shortRateVariance m₁ p = .ok w₁ ∧ v.shortRateVariance m₂ p = .ok w₂ ∧
      |e - θ| = Real.exp (-k * T₁) * |r - θ| ∧ min r θ ≤ e ∧ e ≤ max r θ ∧
      0 ≤ w₁ ∧ w₁ ≤ w₂ ∧ w₂ ≤ σ ^ 2 / (2 * k) ∧ (σ ≠ 0 → w₂ < σ ^ 2 / (2 * k)) := by
  have h1 : (0 : ℝ) ≤ T₁ := by exact_mod_cast hT0
  have h12 : (T₁ : ℝ) ≤ T₂ := by exact_mod_cast hle
  obtain ⟨e1, e2⟩ := C47_moments h m₁ p T₁ r hT₁ hr _ _ (vMean_spec k θ r) (vVar_spec hk.ne')
  obtain ⟨-, e3⟩ := C47_moments h m₂ p T₂ r hT₂ hr _ _ (vMean_spec k θ r) (vVar_spec hk.ne')
  refine ⟨_, _, _, e1, e2, e3, ?_, ?_, ?_, ?_, ?_, ?_, ?_⟩
  · unfold vMean
    rw [show Real.exp (-k * T₁) * r + (1 - Real.exp (-k * T₁)) * θ - θ = Real.exp (-k * T₁) * (r - θ) by ring, abs_mul,
      abs_of_pos (Real.exp_pos _)]
  · unfold vMean
    have a := (Real.exp_pos (-k * T₁)).le
    have b : Real.exp (-k * T₁) ≤ 1 := Real.exp_le_one_iff.2 (by nlinarith)
    have c := min_le_left r θ
    have d := min_le_right r θ
    nlinarith
  · unfold vMean
    have a := (Real.exp_pos (-k * T₁)).le
    have b : Real.exp (-k * T₁) ≤ 1 := Real.exp_le_one_iff.2 (by nlinarith)
    have c := le_max_left r θ
    have d := le_max_right r θ
    nlinarith
  · unfold vVar
    have b : Real.exp (-2 * k * T₁) ≤ 1 := Real.exp_le_one_iff.2 (by nlinarith [mul_nonneg hk.le h1])
    exact mul_nonneg (by positivity) (by linarith)
  · unfold vVar
    have b : Real.exp (-2 * k * T₂) ≤ Real.exp (-2 * k * T₁) := Real.exp_le_exp.2 (by nlinarith)
    exact mul_le_mul_of_nonneg_left (by linarith) (by positivity)
  · unfold vVar
    have a := Real.exp_pos (-2 * k * T₂)
    have : 0 ≤ σ ^ 2 / (2 * k) := by positivity
    nlinarith
  · intro hs
    unfold vVar
    have a := Real.exp_pos (-2 * k * T₂)
    have : 0 < σ ^ 2 / (2 * k) := by positivity
    nlinarith

/-- C113. Yields and forward rates of longer maturities are less volatile; no rate is more volatile than the short rate. -/
theorem C113_volatility (h : MadeVasicek θ k σ v) (hk : 0 < k) (hσ : 0 ≤ σ) (m₁ m₂ : PyDatetime) (T₁ T₂ : ℚ)
    (hT₁ : v.time v.core.bm.start m₁ = .ok T₁) (hT₂ : v.time v.core.bm.start m₂ = .ok T₂) (hT0 : 0 < T₁) (hle : T₁ ≤ T₂) :
    ∃ y₁ y₂ f₁ f₂, v.yieldVolatility m₁ = .ok y₁ ∧ v.yieldVolatility m₂ = .ok y₂ ∧ v.forwardRateVolatility m₁ none = .ok f₁ ∧
      v.forwardRateVolatility m₂ none = .ok f₂ ∧ 0 ≤ f₂ ∧ f₂ ≤ f₁ ∧ f₁ ≤ y₁ ∧ y₂ ≤ y₁ ∧ y₁ ≤ σ := by
  obtain ⟨h1, h2, h3, -, h4⟩ := h.params
  have t1 : (0 : ℝ) < T₁ := by exact_mod_cast hT0
  have t12 : (T₁ : ℝ) ≤ T₂ := by exact_mod_cast hle
  have yv : ∀ (m : PyDatetime) (T : ℚ), v.time v.core.bm.start m = .ok T → (0 : ℝ) < T →
      v.yieldVolatility m = .ok (σ * (reverted k T / (k * T))) := by
    intro m T hT hT0
    unfold Vasicek.yieldVolatility
    rw [hT, ok_bind, priceCoeffs_eq h m none T hT, ok_bind, floatDiv_of_ne hT0.ne', ok_bind, h3]
    congr 1
    simp only [vB, reverted]
    field_simp
  have fv : ∀ (m : PyDatetime) (T : ℚ), v.time v.core.bm.start m = .ok T →
      v.forwardRateVolatility m none = .ok (σ * Real.exp (-k * T)) := by
    intro m T hT
    unfold Vasicek.forwardRateVolatility
    rw [show v.purchase none = v.core.bm.start from rfl, hT, ok_bind, h2, h3]
    congr 2
    ring_nf
  refine ⟨_, _, _, _, yv m₁ T₁ hT₁ t1, yv m₂ T₂ hT₂ (lt_of_lt_of_le t1 t12), fv m₁ T₁ hT₁, fv m₂ T₂ hT₂,
    mul_nonneg hσ (Real.exp_pos _).le, mul_le_mul_of_nonneg_left (Real.exp_le_exp.2 (by nlinarith)) hσ,
    mul_le_mul_of_nonneg_left ?_ hσ, mul_le_mul_of_nonneg_left (reverted_ratio hk t1 t12) hσ, ?_⟩
  · rw [le_div_iff₀ (mul_pos hk t1)]
    -- x e^{-x} ≤ 1 - e^{-x}
    have e0 := Real.add_one_le_exp (k * (T₁ : ℝ))
    have e1 := Real.exp_pos (-k * (T₁ : ℝ))
    have e2 : Real.exp (-k * (T₁ : ℝ)) * Real.exp (k * T₁) = 1 := by rw [← Real.exp_add]; simp
    unfold reverted
    nlinarith
  · have hb : reverted k T₁ ≤ k * T₁ := by
      have := Real.add_one_le_exp (-k * (T₁ : ℝ))
      unfold reverted; linarith
    have : reverted k T₁ / (k * T₁) ≤ 1 := by rw [div_le_one (mul_pos hk t1)]; exact hb
    nlinarith

/-- Concrete case: mean 4%, speed 1/2, volatility 1%, short rate 2% (low enough for a rising curve), a bond of two days. -/
example : ∃ (v : Vasicek) (y : ℝ), MadeVasicek 0.04 0.5 0.01 v ∧ v.call (v.purchase none) = .ok 0.02 ∧ v.core.path ≠ none ∧
    v.time v.core.bm.start (T 2023 1 3) = .ok (2 / 365) ∧ v.zeroCouponYield (T 2023 1 3) none = .ok y ∧ 0.02 ≤ y ∧ y ≤ 0.04 ∧
    (0.02 : ℝ) ≤ 0.04 - 3 * 0.01 ^ 2 / (4 * 0.5 ^ 2) := by
  obtain ⟨v, h1, h2, h3, h4, h5, -⟩ := vasicek_concrete 0.04 0.5 0.01 0.02 (by norm_num)
    { start := T 2023 1 1, stop := T 2023 1 3, chol := fun _ _ => 1, dcc := .act365, grid := none, path := none } rfl rfl rfl
    (fun _ _ => 0)
  have hp : v.purchase none = T 2023 1 1 := h2
  obtain ⟨y, hy, y1, y2⟩ := C113_bounds h1 (by norm_num) (T 2023 1 3) none (2 / 365) 0.02 (by rw [h2]; exact h5) (by norm_num)
    (by rw [hp]; exact h4)
  refine ⟨v, y, h1, by rw [hp]; exact h4, h3, by rw [h2]; exact h5, hy, ?_, ?_, by norm_num⟩
  · refine le_trans (le_of_eq ?_) y1
    rw [min_eq_left]
    norm_num
  · refine le_trans y2 (le_of_eq ?_)
    rw [max_eq_right]
    norm_num

end Verif.Props
