/- C64, C66, C67: forward rates, yields and riskless portfolios of the multivariate Vasicek model. -/
import Verif.Props.MultiVasicek
import Mathlib.LinearAlgebra.Matrix.Trace
import Mathlib.LinearAlgebra.Matrix.ToLinearEquiv

namespace Verif.Props
open Verif.Spec.Multi Verif.Multi Matrix MeasureTheory

variable {p : Nat} {μ : ℝ} {g θ : Vec p} {K S : Mat p} {v : MultiVasicek p}

theorem multi_collect {α β : Type} {f : α → Except PyErr β} {k : α → β} {l : List α} (h : ∀ a ∈ l, f a = .ok (k a)) :
    collect f l = .ok (l.map k) := by
  induction l with
  | nil => rfl
  | cons a l ih =>
    unfold collect
    rw [h a (by simp), ok_bind, ih fun b hb => h b (by simp [hb]), ok_bind]
    rfl

/-- The price in closed form. -/
theorem isPrice_closed (h : MadeMulti μ g θ K S v) {P : ℝ → Vec p → ℝ} (hP : IsPrice μ g θ K S P) {T : ℝ} (hT : 0 ≤ T) (x : Vec p) :
    P T x = Real.exp (mA v.eig.values v.eig.vectors v.eig.inverse (S * Sᵀ) μ g θ T + mB v.eig.values v.eig.vectors v.eig.inverse g T ⬝ᵥ x) := by
  obtain ⟨-, -, -, -, -, -, hd, hl2⟩ := h.params
  rw [hP T x _ _ hT (meanState_spec hd θ x) (isResponse_E hd), expectedDiscount_closed hd h.ne hl2 S μ g θ x hT]

theorem grad_affine (a c : ℝ) (b x : Vec p) : grad (fun x => (a + b ⬝ᵥ x) * c) x = fun i => b i * c := by
  funext i
  have e : ∀ y, b ⬝ᵥ Function.update x i y = b ⬝ᵥ x + b i * (y - x i) := by
    intro y
    have : Function.update x i y = x + Pi.single i (y - x i) := by
      funext j
      by_cases hj : j = i
      · subst hj; simp
      · simp [hj]
    rw [this, dotProduct_add, dotProduct_single]
  unfold grad partialDeriv
  simp only [e]
  have := (((((hasDerivAt_id (x i)).sub_const (x i)).const_mul (b i)).const_add (b ⬝ᵥ x)).const_add a).mul_const c
  refine (HasDerivAt.congr_deriv this ?_).deriv
  simp

/-- For a symmetric reversion matrix the response is symmetric. -/
theorem response_symm (hK : Kᵀ = K) {l : Vec p} {G H : Mat p} (h : Diagonalizes K l G H) (T : ℝ) : (E l G H T)ᵀ = E l G H T := by
  have : IsResponse K fun T => (E l G H T)ᵀ := by
    refine ⟨by simp [E_zero h], fun u i j => ?_⟩
    refine HasDerivAt.congr_deriv (matDeriv_E h u j i) ?_
    have e : K * (E l G H u)ᵀ = (K * E l G H u)ᵀ := by
      rw [E_comm h, Matrix.transpose_mul, hK]
    rw [e]
    rfl
  exact congrFun (response_unique h this) T

/-! ## Forward rates -/

/-- C64: what the forward rate and the price's maturity derivative are.  `Φ T` is the response matrix; the forward rate should be the
derivative of minus the log price, `f`, and the reported one differs by `⟨g, Φ x⟩ - ⟨x, Φ g⟩`. -/
theorem C64_forward (h : MadeMulti μ g θ K S v) (maturity : PyDatetime) (q : Option PyDatetime) (T : ℚ) (x : Vec p)
    (hT : v.time (v.purchase q) maturity = .ok T) (hT0 : 0 < T) (hx : v.state (v.purchase q) = .ok x) (P : ℝ → Vec p → ℝ)
    (hP : IsPrice μ g θ K S P) (Φ : ℝ → Mat p) (hΦ : IsResponse K Φ) :
    ∃ f, HasDerivAt (fun t => -Real.log (P t x)) f T ∧ HasDerivAt (fun t => P t x) (-f * P T x) T ∧
      v.instantaneousForwardRate maturity q = .ok (f - (g ⬝ᵥ (Φ T *ᵥ x) - x ⬝ᵥ (Φ T *ᵥ g))) ∧
      v.priceDerivMaturity maturity q = .ok (P T x * -(f - (g ⬝ᵥ (Φ T *ᵥ x) - x ⬝ᵥ (Φ T *ᵥ g)))) := by
  obtain ⟨h1, h2, h3, h4, h5, h6, hd, hl2⟩ := h.params
  have hTpos : (0 : ℝ) < T := by exact_mod_cast hT0
  rw [response_unique hd hΦ]
  set l := v.eig.values with hl
  set G := v.eig.vectors with hG
  set H := v.eig.inverse with hH
  have hA := hasDerivAt_mA hd h.ne hl2 (S * Sᵀ) μ g θ (T : ℝ)
  have hB := (vecDeriv_mB hd h.ne g (T : ℝ)).dot_const x
  have hev : (fun t => P t x) =ᶠ[nhds (T : ℝ)] fun t => Real.exp (mA l G H (S * Sᵀ) μ g θ t + mB l G H g t ⬝ᵥ x) := by
    filter_upwards [lt_mem_nhds hTpos] with t ht
    exact isPrice_closed h hP ht.le x
  have hPT : P T x = Real.exp (mA l G H (S * Sᵀ) μ g θ T + mB l G H g T ⬝ᵥ x) := isPrice_closed h hP hTpos.le x
  have hfw : v.coeffDerivatives maturity (some (v.purchase q)) =
      .ok (-μ + mB l G H g T ⬝ᵥ (K *ᵥ θ) + (1 / 2) * (mB l G H g T ⬝ᵥ ((S * Sᵀ) *ᵥ mB l G H g T)), -(E l G H T *ᵥ g)) := by
    unfold MultiVasicek.coeffDerivatives MultiVasicek.interceptDeriv MultiVasicek.coeffDeriv MultiVasicek.coefficientTerm
    rw [show v.purchase (some (v.purchase q)) = v.purchase q from rfl, hT, ok_bind]
    simp only [h1, h2, h3, h4, h6]
    rfl
  have key : ((E l G H T)ᵀ *ᵥ g) ⬝ᵥ x = g ⬝ᵥ (E l G H T *ᵥ x) := (transpose_mulVec_dot _ _ _).symm
  refine ⟨-(-μ + mB l G H g T ⬝ᵥ (K *ᵥ θ) + (1 / 2) * (mB l G H g T ⬝ᵥ ((S * Sᵀ) *ᵥ mB l G H g T)) + -((E l G H T)ᵀ *ᵥ g) ⬝ᵥ x),
    ?_, ?_, ?_, ?_⟩
  · have hev2 : (fun t => -Real.log (P t x)) =ᶠ[nhds (T : ℝ)] fun t => -(mA l G H (S * Sᵀ) μ g θ t + mB l G H g t ⬝ᵥ x) := by
      filter_upwards [hev] with t ht
      rw [ht, Real.log_exp]
    exact ((hA.add hB).neg).congr_of_eventuallyEq hev2
  · refine HasDerivAt.congr_of_eventuallyEq ?_ hev
    refine HasDerivAt.congr_deriv (hA.add hB).exp ?_
    rw [hPT]
    simp only [Pi.add_apply]
    ring
  · unfold MultiVasicek.instantaneousForwardRate
    rw [hfw, ok_bind, hx, ok_bind]
    congr 1
    simp only [neg_dotProduct]
    rw [key, dotProduct_comm x]
    ring
  · unfold MultiVasicek.priceDerivMaturity
    rw [hfw, ok_bind, multi_price h maturity (some (v.purchase q)) T x hT hx, ok_bind, hx, ok_bind, hPT]
    congr 2
    simp only [neg_dotProduct]
    rw [key, dotProduct_comm x]
    ring

/-- C64 for a symmetric reversion matrix: the forward rate is the derivative of minus the log price with respect to the maturity, and the
maturity derivative of the price is right. -/
theorem C64_forward_partial (h : MadeMulti μ g θ K S v) (hK : Kᵀ = K) (maturity : PyDatetime) (q : Option PyDatetime) (T : ℚ) (x : Vec p)
    (hT : v.time (v.purchase q) maturity = .ok T) (hT0 : 0 < T) (hx : v.state (v.purchase q) = .ok x) (P : ℝ → Vec p → ℝ)
    (hP : IsPrice μ g θ K S P) :
    ∃ f d, v.instantaneousForwardRate maturity q = .ok f ∧ HasDerivAt (fun t => -Real.log (P t x)) f T ∧
      v.priceDerivMaturity maturity q = .ok d ∧ HasDerivAt (fun t => P t x) d T := by
  have hd := h.params.2.2.2.2.2.2.1
  obtain ⟨f, e1, e2, e3, e4⟩ := C64_forward h maturity q T x hT hT0 hx P hP _ (isResponse_E hd)
  have e : g ⬝ᵥ (E v.eig.values v.eig.vectors v.eig.inverse T *ᵥ x) - x ⬝ᵥ (E v.eig.values v.eig.vectors v.eig.inverse T *ᵥ g) = 0 := by
    rw [transpose_mulVec_dot, response_symm hK hd, dotProduct_comm, sub_self]
  rw [e, sub_zero] at e3 e4
  refine ⟨f, _, e3, e1, e4, HasDerivAt.congr_deriv e2 (by ring)⟩

/-- C64 for a symmetric reversion matrix: covariances and volatility of forward rates are those given by the gradients of the forward
rates in the state. -/
theorem C64_forward_covariance_partial (h : MadeMulti μ g θ K S v) (hK : Kᵀ = K) (ms : List PyDatetime) (q : Option PyDatetime)
    (T : PyDatetime → ℚ) (x : Vec p) (hne : ms ≠ []) (hT : ∀ m ∈ ms, v.time (v.purchase q) m = .ok (T m) ∧ 0 < T m)
    (hlt : ∀ m ∈ ms, v.purchase q < m) (P : ℝ → Vec p → ℝ) (hP : IsPrice μ g θ K S P) :
    v.forwardCovariance ms q = .ok (ms.map fun a => ms.map fun b =>
      grad (fun x => deriv (fun t => -Real.log (P t x)) (T a)) x ⬝ᵥ
        ((S * Sᵀ) *ᵥ grad (fun x => deriv (fun t => -Real.log (P t x)) (T b)) x)) ∧
    ∀ m ∈ ms, v.forwardVolatility m q = .ok (Real.sqrt (grad (fun x => deriv (fun t => -Real.log (P t x)) (T m)) x ⬝ᵥ
        ((S * Sᵀ) *ᵥ grad (fun x => deriv (fun t => -Real.log (P t x)) (T m)) x))) := by
  obtain ⟨h1, h2, h3, h4, h5, h6, hd, hl2⟩ := h.params
  set l := v.eig.values with hl
  set G := v.eig.vectors with hG
  set H := v.eig.inverse with hH
  have hg : ∀ m ∈ ms, grad (fun x => deriv (fun t => -Real.log (P t x)) (T m)) x = E l G H (T m) *ᵥ g := by
    intro m hm
    have hTpos : (0 : ℝ) < T m := by exact_mod_cast (hT m hm).2
    have e : (fun x => deriv (fun t => -Real.log (P t x)) ((T m : ℚ) : ℝ)) = fun x =>
        ((-μ + mB l G H g (T m) ⬝ᵥ (K *ᵥ θ) + (1 / 2) * (mB l G H g (T m) ⬝ᵥ ((S * Sᵀ) *ᵥ mB l G H g (T m)))) +
          (-((E l G H (T m))ᵀ *ᵥ g)) ⬝ᵥ x) * (-1) := by
      funext x
      have hev2 : (fun t => -Real.log (P t x)) =ᶠ[nhds ((T m : ℚ) : ℝ)] fun t => -(mA l G H (S * Sᵀ) μ g θ t + mB l G H g t ⬝ᵥ x) := by
        filter_upwards [lt_mem_nhds hTpos] with t ht
        rw [isPrice_closed h hP ht.le x, Real.log_exp]
      refine hev2.deriv_eq.trans ((((hasDerivAt_mA hd h.ne hl2 (S * Sᵀ) μ g θ ((T m : ℚ) : ℝ)).add
        ((vecDeriv_mB hd h.ne g ((T m : ℚ) : ℝ)).dot_const x)).neg).deriv.trans ?_)
      ring
    rw [e, grad_affine, response_symm hK hd]
    funext i
    simp
  have hc : ∀ m ∈ ms, v.coeffDerivatives m (some (v.purchase q)) = .ok (v.interceptDeriv (T m), -(E l G H (T m) *ᵥ g)) := by
    intro m hm
    unfold MultiVasicek.coeffDerivatives MultiVasicek.coeffDeriv
    rw [show v.purchase (some (v.purchase q)) = v.purchase q from rfl, (hT m hm).1, ok_bind, h2]
    rfl
  constructor
  · unfold MultiVasicek.forwardCovariance
    rw [if_neg (by
      rintro (e | ⟨m, hm, hle⟩)
      · exact hne e
      · exact absurd hle (not_le.2 (hlt m hm))), multi_collect hc, ok_bind, List.map_map]
    congr 1
    apply List.map_congr_left
    intro a ha
    simp only [Function.comp_apply, List.map_map]
    apply List.map_congr_left
    intro b hb
    simp only [Function.comp_apply, neg_neg]
    rw [hg a ha, hg b hb, h6]
  · intro m hm
    unfold MultiVasicek.forwardVolatility
    rw [if_neg (not_le.2 (hlt m hm)), hc m hm, ok_bind, hg m hm]
    simp only [neg_neg]
    rw [h6]

theorem C64_forward_refused (ms : List PyDatetime) (q : Option PyDatetime) (m : PyDatetime) (hm : m ∈ ms) (hle : m ≤ v.purchase q) :
    v.forwardCovariance ms q = .error .valueError ∧ v.forwardVolatility m q = .error .valueError := by
  unfold MultiVasicek.forwardCovariance MultiVasicek.forwardVolatility
  rw [if_pos (Or.inr ⟨m, hm, hle⟩), if_pos hle]
  exact ⟨rfl, rfl⟩

/-! ## Yields -/

theorem multi_yieldCoeffs (h : MadeMulti μ g θ K S v) (maturity : PyDatetime) (q : Option PyDatetime) (T : ℚ)
    (hT : v.time (v.purchase q) maturity = .ok T) :
    v.yieldCoeffs maturity (some (v.purchase q)) = .ok (-mA v.eig.values v.eig.vectors v.eig.inverse (S * Sᵀ) μ g θ T / (T : ℝ),
      fun i => -mB v.eig.values v.eig.vectors v.eig.inverse g T i / (T : ℝ)) := by
  unfold MultiVasicek.yieldCoeffs
  rw [show v.purchase (some (v.purchase q)) = v.purchase q from rfl, multi_priceCoeffs h maturity (some (v.purchase q)) T hT, ok_bind, hT,
    ok_bind]

theorem grad_yield (h : MadeMulti μ g θ K S v) {P : ℝ → Vec p → ℝ} (hP : IsPrice μ g θ K S P) {T : ℝ} (hT : 0 ≤ T) (x : Vec p) :
    grad (fun x => -Real.log (P T x) / T) x = fun i => -mB v.eig.values v.eig.vectors v.eig.inverse g T i / T := by
  have e : (fun x => -Real.log (P T x) / T) = fun x => (mA v.eig.values v.eig.vectors v.eig.inverse (S * Sᵀ) μ g θ T +
      mB v.eig.values v.eig.vectors v.eig.inverse g T ⬝ᵥ x) * (-1 / T) := by
    funext x
    rw [isPrice_closed h hP hT x, Real.log_exp]
    ring
  rw [e, grad_affine]
  funext i
  ring

/-- C66. The yield is minus the log price over the time to maturity. -/
theorem C66_yield (h : MadeMulti μ g θ K S v) (maturity : PyDatetime) (q : Option PyDatetime) (T : ℚ) (x : Vec p)
    (hT : v.time (v.purchase q) maturity = .ok T) (hT0 : 0 < T) (hlt : v.purchase q < maturity) (hx : v.state (v.purchase q) = .ok x)
    (P : ℝ → Vec p → ℝ) (hP : IsPrice μ g θ K S P) :
    v.zeroCouponBondYield maturity q = .ok (-Real.log (P T x) / T) := by
  unfold MultiVasicek.zeroCouponBondYield
  rw [if_neg (not_le.2 hlt), hx, ok_bind, multi_yieldCoeffs h maturity q T hT, ok_bind,
    isPrice_closed h hP (by exact_mod_cast hT0.le) x, Real.log_exp]
  congr 1
  simp only [dotProduct, neg_add, neg_div, add_div]
  congr 1
  rw [Finset.sum_div, ← Finset.sum_neg_distrib]
  apply Finset.sum_congr rfl
  intro i _
  ring

/-- C66. The yield convexity is the yield less the average expected short rate: minus the variance of the short rate's integral over
twice the maturity, so never positive. -/
theorem C66_yield_convexity (h : MadeMulti μ g θ K S v) (maturity : PyDatetime) (q : Option PyDatetime) (T : ℚ) (x : Vec p)
    (hT : v.time (v.purchase q) maturity = .ok T) (hT0 : 0 < T) (hlt : v.purchase q < maturity) (hx : v.state (v.purchase q) = .ok x)
    (Φ : ℝ → Mat p) (hΦ : IsResponse K Φ) :
    ∃ c y a, v.yieldConvexity maturity q = .ok c ∧ v.zeroCouponBondYield maturity q = .ok y ∧ v.averageExpectedShortRate maturity q = .ok a ∧
      c = y - a ∧ c = -(integralVariance g S Φ T / (2 * T)) ∧ c ≤ 0 := by
  obtain ⟨-, -, -, -, -, -, hd, hl2⟩ := h.params
  have hTpos : (0 : ℝ) < T := by exact_mod_cast hT0
  have hP : IsPrice μ g θ K S fun T x => Real.exp (mA v.eig.values v.eig.vectors v.eig.inverse (S * Sᵀ) μ g θ T +
      mB v.eig.values v.eig.vectors v.eig.inverse g T ⬝ᵥ x) := by
    intro T x m Φ hT hm hΦ
    rw [mean_unique hd hm, response_unique hd hΦ, expectedDiscount_closed hd h.ne hl2 S μ g θ x hT]
  have hy := C66_yield h maturity q T x hT hT0 hlt hx _ hP
  have ha := C65_average h maturity q T x _ hT hT0.ne' hlt hx (meanState_spec hd θ x)
  have hval : -Real.log (Real.exp (mA v.eig.values v.eig.vectors v.eig.inverse (S * Sᵀ) μ g θ T +
      mB v.eig.values v.eig.vectors v.eig.inverse g T ⬝ᵥ x)) / T -
      1 / T * ∫ s in (0 : ℝ)..T, μ + g ⬝ᵥ meanState v.eig.values v.eig.vectors v.eig.inverse θ x s = -(integralVariance g S Φ T / (2 * T)) := by
    rw [Real.log_exp, logPrice_integral hd h.ne hl2, response_unique hd hΦ]
    field_simp
    ring
  refine ⟨_, _, _, ?_, hy, ha, rfl, hval, ?_⟩
  · unfold MultiVasicek.yieldConvexity
    have hy' := C66_yield h maturity (some (v.purchase q)) T x hT hT0 hlt hx _ hP
    have ha' := C65_average h maturity (some (v.purchase q)) T x _ hT hT0.ne' hlt hx (meanState_spec hd θ x)
    rw [if_neg (not_le.2 hlt), hy', ok_bind, ha', ok_bind]
  · rw [hval, response_unique hd hΦ]
    have := Verif.Multi.integralVariance_nonneg hd h.ne g S hTpos.le
    have : 0 ≤ integralVariance g S (E v.eig.values v.eig.vectors v.eig.inverse) T / (2 * T) := by positivity
    linarith

/-- C66. A maturity not after the purchase date is refused. -/
theorem C66_refused (maturity : PyDatetime) (q : Option PyDatetime) (hle : maturity ≤ v.purchase q) (ms : List PyDatetime)
    (hm : maturity ∈ ms) :
    v.zeroCouponBondYield maturity q = .error .valueError ∧ v.yieldConvexity maturity q = .error .valueError ∧
    v.priceConvexities ms q = .error .valueError := by
  unfold MultiVasicek.zeroCouponBondYield MultiVasicek.yieldConvexity MultiVasicek.priceConvexities
  rw [if_pos hle, if_pos hle, if_pos (Or.inr ⟨_, hm, hle⟩)]
  exact ⟨rfl, rfl, rfl⟩

/-- C66. Covariances and volatilities of yields are those given by the gradients of the yields in the state. -/
theorem C66_covariance (h : MadeMulti μ g θ K S v) (ms : List PyDatetime) (q : Option PyDatetime)
    (T : PyDatetime → ℚ) (x : Vec p) (hT : ∀ m ∈ ms, v.time (v.purchase q) m = .ok (T m) ∧ 0 < T m)
    (P : ℝ → Vec p → ℝ) (hP : IsPrice μ g θ K S P) :
    v.yieldCovariance ms q = .ok (ms.map fun a => ms.map fun b =>
      grad (fun x => -Real.log (P (T a) x) / T a) x ⬝ᵥ ((S * Sᵀ) *ᵥ grad (fun x => -Real.log (P (T b) x) / T b) x)) ∧
    ∀ m ∈ ms, v.yieldVolatility m q = .ok (Real.sqrt (grad (fun x => -Real.log (P (T m) x) / T m) x ⬝ᵥ
      ((S * Sᵀ) *ᵥ grad (fun x => -Real.log (P (T m) x) / T m) x))) := by
  have h6 := h.params.2.2.2.2.2.1
  have hg : ∀ m ∈ ms, grad (fun x => -Real.log (P (T m) x) / T m) x =
      fun i => -mB v.eig.values v.eig.vectors v.eig.inverse g (T m) i / (T m : ℝ) :=
    fun m hm => grad_yield h hP (by exact_mod_cast (hT m hm).2.le) x
  have hc : ∀ m ∈ ms, v.yieldCoeffs m (some (v.purchase q)) = _ := fun m hm => multi_yieldCoeffs h m q (T m) (hT m hm).1
  constructor
  · unfold MultiVasicek.yieldCovariance
    rw [multi_collect hc, ok_bind, List.map_map]
    congr 1
    apply List.map_congr_left
    intro a ha
    simp only [Function.comp_apply, List.map_map]
    apply List.map_congr_left
    intro b hb
    simp only [Function.comp_apply]
    rw [hg a ha, hg b hb, h6]
  · intro m hm
    unfold MultiVasicek.yieldVolatility
    rw [hc m hm, ok_bind, hg m hm, h6]

theorem zipWith_dot (w : List ℝ) (bs : List (Vec p)) (C : Mat p) (a : Vec p) :
    (List.zipWith (· * ·) w (bs.map fun b => a ⬝ᵥ (C *ᵥ b))).sum = a ⬝ᵥ (C *ᵥ (List.zipWith (· • ·) w bs).sum) := by
  induction w generalizing bs with
  | nil => simp
  | cons c w ih =>
    cases bs with
    | nil => simp
    | cons b bs => simp only [List.map_cons, List.zipWith_cons_cons, List.sum_cons, ih, Matrix.mulVec_add, Matrix.mulVec_smul,
        dotProduct_add, dotProduct_smul, smul_eq_mul]

theorem zipWith_quadratic (w w' : List ℝ) (as bs : List (Vec p)) (C : Mat p) :
    (List.zipWith (fun c row => c * (List.zipWith (· * ·) w row).sum) w' (as.map fun a => bs.map fun b => a ⬝ᵥ (C *ᵥ b))).sum =
      (List.zipWith (· • ·) w' as).sum ⬝ᵥ (C *ᵥ (List.zipWith (· • ·) w bs).sum) := by
  induction w' generalizing as with
  | nil => simp
  | cons c w' ih =>
    cases as with
    | nil => simp
    | cons a as => simp only [List.map_cons, List.zipWith_cons_cons, List.sum_cons, ih, add_dotProduct, smul_dotProduct, smul_eq_mul,
        zipWith_dot]

/-- C66. The reported yield covariance matrix is positive semidefinite: no combination of yields has negative variance. -/
theorem C66_covariance_psd (h : MadeMulti μ g θ K S v) (ms : List PyDatetime) (q : Option PyDatetime) (c : List (List ℝ))
    (hc : v.yieldCovariance ms q = .ok c) (w : List ℝ) :
    c.length = ms.length ∧ (∀ row ∈ c, row.length = ms.length) ∧
    0 ≤ (List.zipWith (fun a row => a * (List.zipWith (· * ·) w row).sum) w c).sum := by
  have h6 := h.params.2.2.2.2.2.1
  unfold MultiVasicek.yieldCovariance at hc
  rw [bind_ok] at hc
  obtain ⟨betas, hb, hc⟩ := hc
  injection hc with hc
  have hlen := collect_length hb
  subst hc
  refine ⟨by simpa using hlen, ?_, ?_⟩
  · intro row hr
    obtain ⟨a, -, rfl⟩ := List.mem_map.1 hr
    simpa using hlen
  · have e : (betas.map fun a => betas.map fun b => a.2 ⬝ᵥ (v.cMat *ᵥ b.2)) =
        (betas.map Prod.snd).map fun a => (betas.map Prod.snd).map fun b => a ⬝ᵥ (v.cMat *ᵥ b) := by
      simp [List.map_map, Function.comp_def]
    rw [e, zipWith_quadratic, h6]
    exact quadratic_nonneg S _

/-- C66. The price convexities are minus half the second-order term of the price's dynamics. -/
theorem C66_price_convexities (h : MadeMulti μ g θ K S v) (ms : List PyDatetime) (q : Option PyDatetime) (T : PyDatetime → ℚ) (x : Vec p)
    (hne : ms ≠ []) (hT : ∀ m ∈ ms, v.time (v.purchase q) m = .ok (T m) ∧ 0 < T m) (hlt : ∀ m ∈ ms, v.purchase q < m)
    (hx : v.state (v.purchase q) = .ok x) (P : ℝ → Vec p → ℝ) (hP : IsPrice μ g θ K S P) :
    v.priceConvexities ms q = .ok (ms.map fun m => -halfTrace S (P (T m)) x) := by
  have h6 := h.params.2.2.2.2.2.1
  unfold MultiVasicek.priceConvexities
  rw [if_neg (by
    rintro (e | ⟨m, hm, hle⟩)
    · exact hne e
    · exact absurd hle (not_le.2 (hlt m hm)))]
  apply multi_collect
  intro m hm
  obtain ⟨t1, t2⟩ := hT m hm
  have hTne : ((T m : ℚ) : ℝ) ≠ 0 := by exact_mod_cast t2.ne'
  unfold MultiVasicek.priceConvexity
  rw [multi_yieldCoeffs h m q (T m) t1, ok_bind, t1, ok_bind, multi_price h m (some (v.purchase q)) (T m) x t1 hx, ok_bind]
  congr 1
  have e : P (T m) = fun x => Real.exp (mA v.eig.values v.eig.vectors v.eig.inverse (S * Sᵀ) μ g θ (T m) +
      mB v.eig.values v.eig.vectors v.eig.inverse g (T m) ⬝ᵥ x) := funext fun x => isPrice_closed h hP (by exact_mod_cast t2.le) x
  rw [e, halfTrace_expAffine, h6]
  have e2 : (fun i => -mB v.eig.values v.eig.vectors v.eig.inverse g (T m) i / ((T m : ℚ) : ℝ)) =
      (-1 / ((T m : ℚ) : ℝ)) • mB v.eig.values v.eig.vectors v.eig.inverse g (T m) := by
    funext i; simp only [Pi.smul_apply, smul_eq_mul]; ring
  simp only [e2, smul_dotProduct, dotProduct_smul, Matrix.mulVec_smul, smul_eq_mul]
  field_simp

end Verif.Props
