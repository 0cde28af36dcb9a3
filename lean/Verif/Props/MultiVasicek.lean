/- C63-C67: the multivariate Vasicek model. -/
import Verif.Model.MultiVasicek
import Verif.Lemmas.MultiVasicek
import Verif.Props.Vasicek

namespace Verif.Props
open Verif.Spec.Multi Verif.Multi Matrix MeasureTheory

variable {p : Nat}

/-- `v` is a multivariate model set up with these parameters, after any number of path generations, numpy having returned a correct
diagonalization of the reversion matrix in which no two eigenvalues add up to zero (with positive reversion speeds none do). -/
def MadeMulti (μ : ℝ) (g θ : Vec p) (K S : Mat p) (v : MultiVasicek p) : Prop :=
  ∃ (e : Eig p) (bm : BrownianMotion p) (dt : DtIncrement) (ops : List (Vec p × Bool × (Nat → Vec p))),
    Diagonalizes K e.values e.vectors e.inverse ∧ (∀ i j, e.values i + e.values j ≠ 0) ∧
    v = ops.foldl (fun v op => (v.generatePath op.1 op.2.1 op.2.2).2) (MultiVasicek.init μ g θ K S e bm dt)

/-- `v` is a multivariate model set up with these parameters, after any number of path generations, whatever numpy returned as eigenvalues
and eigenvectors. -/
def BuiltMulti (μ : ℝ) (g θ : Vec p) (K S : Mat p) (v : MultiVasicek p) : Prop :=
  ∃ (e : Eig p) (bm : BrownianMotion p) (dt : DtIncrement) (ops : List (Vec p × Bool × (Nat → Vec p))),
    v = ops.foldl (fun v op => (v.generatePath op.1 op.2.1 op.2.2).2) (MultiVasicek.init μ g θ K S e bm dt)

section
variable {μ : ℝ} {g θ : Vec p} {K S : Mat p} {v : MultiVasicek p}

theorem MadeMulti.built (h : MadeMulti μ g θ K S v) : BuiltMulti μ g θ K S v := by
  obtain ⟨e, bm, dt, ops, -, -, h⟩ := h
  exact ⟨e, bm, dt, ops, h⟩

theorem MadeMulti.params (h : MadeMulti μ g θ K S v) :
    v.intercept = μ ∧ v.coefficients = g ∧ v.level = θ ∧ v.reversion = K ∧ v.volatility = S ∧ v.cMat = S * Sᵀ ∧
    Diagonalizes K v.eig.values v.eig.vectors v.eig.inverse ∧ (∀ i j, v.eig.values i + v.eig.values j ≠ 0) := by
  obtain ⟨e, bm, dt, ops, h1, h2, rfl⟩ := h
  generalize hv : MultiVasicek.init μ g θ K S e bm dt = v0
  have hv0 : v0.intercept = μ ∧ v0.coefficients = g ∧ v0.level = θ ∧ v0.reversion = K ∧ v0.volatility = S ∧ v0.cMat = S * Sᵀ ∧
      Diagonalizes K v0.eig.values v0.eig.vectors v0.eig.inverse ∧ (∀ i j, v0.eig.values i + v0.eig.values j ≠ 0) := by
    subst hv; exact ⟨rfl, rfl, rfl, rfl, rfl, rfl, h1, h2⟩
  clear hv
  induction ops generalizing v0 with
  | nil => exact hv0
  | cons op ops ih => rw [List.foldl_cons]; apply ih; exact hv0

theorem MadeMulti.ne (h : MadeMulti μ g θ K S v) (i : Fin p) : v.eig.values i ≠ 0 := by
  have := h.params.2.2.2.2.2.2.2 i i
  intro h0
  apply this
  rw [h0, add_zero]

theorem shortRate_generate_keeps (m : ShortRateModel p) (x0 : Vec p) (set : Bool) (normals : Nat → Vec p) :
    (m.generatePath x0 set normals).2.process.coords = m.process.coords ∧ (m.generatePath x0 set normals).2.transform = m.transform := by
  unfold ShortRateModel.generatePath
  rcases hg : m.process.generatePath m.bm x0 set normals with ⟨r, d, b⟩
  have hd : d.coords = m.process.coords := by
    unfold Diffusion.generatePath at hg
    split at hg
    · simp only [Prod.mk.injEq] at hg; rw [← hg.2.1]
    · simp only [Prod.mk.injEq] at hg
      rw [← hg.2.1]
      split <;> rfl
  cases r with
  | error e => exact ⟨hd, rfl⟩
  | ok path =>
    simp only
    rcases hp : d.path with _ | cols
    · exact ⟨hd, rfl⟩
    · exact ⟨hd, rfl⟩

theorem BuiltMulti.dynamics (h : BuiltMulti μ g θ K S v) :
    v.core.process.coords = MultiVasicek.driftDiffusion θ K S ∧ v.core.transform = fun x => μ + g ⬝ᵥ x := by
  obtain ⟨e, bm, dt, ops, rfl⟩ := h
  generalize hv : MultiVasicek.init μ g θ K S e bm dt = v0
  have hv0 : v0.core.process.coords = MultiVasicek.driftDiffusion θ K S ∧ v0.core.transform = fun x => μ + g ⬝ᵥ x := by
    subst hv; exact ⟨rfl, rfl⟩
  clear hv
  induction ops generalizing v0 with
  | nil => exact hv0
  | cons op ops ih =>
    rw [List.foldl_cons]
    apply ih
    have := shortRate_generate_keeps v0.core op.1 op.2.1 op.2.2
    unfold MultiVasicek.generatePath
    simp only
    exact ⟨this.1.trans hv0.1, this.2.trans hv0.2⟩

theorem MadeMulti.dynamics (h : MadeMulti μ g θ K S v) :
    v.core.process.coords = MultiVasicek.driftDiffusion θ K S ∧ v.core.transform = fun x => μ + g ⬝ᵥ x := h.built.dynamics

/-- The matrix exponential of the model. -/
theorem matExp_eq (T : ℝ) : v.matExp T = E v.eig.values v.eig.vectors v.eig.inverse T := rfl

theorem multi_priceCoeffs (h : MadeMulti μ g θ K S v) (maturity : PyDatetime) (q : Option PyDatetime) (T : ℚ)
    (hT : v.time (v.purchase q) maturity = .ok T) :
    v.priceCoeffs maturity q = .ok (mA v.eig.values v.eig.vectors v.eig.inverse (S * Sᵀ) μ g θ T,
      mB v.eig.values v.eig.vectors v.eig.inverse g T) := by
  obtain ⟨h1, h2, h3, h4, h5, h6, -⟩ := h.params
  unfold MultiVasicek.priceCoeffs
  rw [hT, ok_bind]
  unfold MultiVasicek.interceptTerm MultiVasicek.coefficientTerm
  simp only [h1, h2, h3, h6]
  rfl

theorem multi_price (h : MadeMulti μ g θ K S v) (maturity : PyDatetime) (q : Option PyDatetime) (T : ℚ) (x : Vec p)
    (hT : v.time (v.purchase q) maturity = .ok T) (hx : v.state (v.purchase q) = .ok x) :
    v.zeroCouponBondPrice maturity q = .ok (Real.exp (mA v.eig.values v.eig.vectors v.eig.inverse (S * Sᵀ) μ g θ T +
      mB v.eig.values v.eig.vectors v.eig.inverse g T ⬝ᵥ x)) := by
  unfold MultiVasicek.zeroCouponBondPrice
  rw [multi_priceCoeffs h maturity (some (v.purchase q)) T hT, ok_bind, hx, ok_bind]

/-- C63. For every purchase date, a zero-coupon bond costs the expected discount factor over the time to maturity, given the state on
the purchase date. -/
theorem C63_price (h : MadeMulti μ g θ K S v) (maturity : PyDatetime) (q : Option PyDatetime) (T : ℚ) (x : Vec p) (m : ℝ → Vec p)
    (Φ : ℝ → Mat p) (hT : v.time (v.purchase q) maturity = .ok T) (hT0 : 0 ≤ T) (hx : v.state (v.purchase q) = .ok x)
    (hm : IsMean K θ x m) (hΦ : IsResponse K Φ) :
    v.zeroCouponBondPrice maturity q = .ok (expectedDiscount μ g S m Φ T) := by
  obtain ⟨-, -, -, -, -, -, hd, hl2⟩ := h.params
  rw [multi_price h maturity q T x hT hx, mean_unique hd hm, response_unique hd hΦ,
    expectedDiscount_closed hd h.ne hl2 S μ g θ x (by exact_mod_cast hT0)]

/-- C63. The price as a function of the time to maturity and the state solves the pricing equation of the model; it is positive, and the
reported derivative with respect to the state variables is its gradient. -/
theorem C63_pricing_equation (h : MadeMulti μ g θ K S v) :
    ∃ P : ℝ → Vec p → ℝ, SolvesPricing μ g θ K S P ∧ (∀ T x, 0 < P T x) ∧
      IsPrice μ g θ K S P ∧
      ∀ (maturity : PyDatetime) (q : Option PyDatetime) (T : ℚ) (x : Vec p), v.time (v.purchase q) maturity = .ok T →
        v.state (v.purchase q) = .ok x →
        v.zeroCouponBondPrice maturity q = .ok (P T x) ∧ v.priceDerivState maturity q = .ok (grad (P T) x) := by
  obtain ⟨-, -, -, -, -, -, hd, hl2⟩ := h.params
  refine ⟨_, Verif.Multi.closedForm_pricing hd h.ne hl2 S μ g θ, fun _ _ => Real.exp_pos _, ?_, ?_⟩
  · intro T x m Φ hT hm hΦ
    rw [mean_unique hd hm, response_unique hd hΦ, expectedDiscount_closed hd h.ne hl2 S μ g θ x hT]
  · intro maturity q T x hT hx
    refine ⟨multi_price h maturity q T x hT hx, ?_⟩
    unfold MultiVasicek.priceDerivState
    rw [multi_price h maturity (some (v.purchase q)) T x hT hx, ok_bind, multi_priceCoeffs h maturity (some (v.purchase q)) T hT, ok_bind,
      grad_expAffine]

/-- C65. Expected state and expected short rate are those of the model's equation, for every purchase date. -/
theorem C65_mean (h : MadeMulti μ g θ K S v) (maturity : PyDatetime) (q : Option PyDatetime) (T : ℚ) (x : Vec p) (m : ℝ → Vec p)
    (hT : v.time (v.purchase q) maturity = .ok T) (hx : v.state (v.purchase q) = .ok x) (hm : IsMean K θ x m) :
    v.expectedStateMean maturity q = .ok (m T) ∧ v.expectedShortRate maturity q = .ok (μ + g ⬝ᵥ m T) := by
  obtain ⟨-, -, h3, -, -, -, hd, hl2⟩ := h.params
  have h1 : v.expectedStateMean maturity q = .ok (m T) := by
    unfold MultiVasicek.expectedStateMean
    rw [hT, ok_bind, hx, ok_bind, mean_unique hd hm, h3]
    rfl
  refine ⟨h1, ?_⟩
  unfold MultiVasicek.expectedShortRate
  rw [h1, ok_bind, h.dynamics.2]

theorem integral_meanRate (h : MadeMulti μ g θ K S v) (x : Vec p) {T : ℝ} (hT : T ≠ 0) :
    let avg := v.eig.vectors * diagonal (fun i => (1 - Real.exp (-v.eig.values i * T)) / (v.eig.values i * T)) * v.eig.inverse
    μ + g ⬝ᵥ (avg *ᵥ x + (θ - avg *ᵥ θ)) =
      1 / T * ∫ s in (0 : ℝ)..T, μ + g ⬝ᵥ meanState v.eig.values v.eig.vectors v.eig.inverse θ x s := by
  obtain ⟨-, -, -, -, -, -, hd, hl2⟩ := h.params
  intro avg
  have hne := h.ne
  set l := v.eig.values with hl
  set G := v.eig.vectors with hG
  set H := v.eig.inverse with hH
  have havg : ∀ y : Vec p, ∫ s in (0 : ℝ)..T, g ⬝ᵥ (E l G H s *ᵥ y) = T * (g ⬝ᵥ (avg *ᵥ y)) := by
    intro y
    have hD : ∀ t, MatDeriv (fun t => diagonal (fun i => (1 - Real.exp (-l i * t)) / l i)) (diagonal fun i => Real.exp (-l i * t)) t := by
      intro t
      apply matDeriv_diagonal
      intro i
      refine HasDerivAt.congr_deriv (((hasDerivAt_expNeg (l i) t).const_sub 1).div_const (l i)) ?_
      have := hne i
      field_simp
    have hint := intervalIntegral.integral_eq_sub_of_hasDerivAt (a := 0) (b := T)
      (fun t _ => ((((hD t).const_mul G).mul_const H).mulVec y).const_dot g)
      ((continuous_dot_E (l := l) (G := G) (H := H) g y).intervalIntegrable _ _)
    refine hint.trans ?_
    have z : (fun i => (1 - Real.exp (-l i * 0)) / l i) = fun _ => (0 : ℝ) := by funext i; simp
    have w : (fun i => (1 - Real.exp (-l i * T)) / l i) = T • fun i => (1 - Real.exp (-l i * T)) / (l i * T) := by
      funext i
      have := hne i
      simp only [Pi.smul_apply, smul_eq_mul]
      field_simp
    rw [z, w, diagonal_smul]
    simp only [avg]
    rw [← hl, ← hG, ← hH]
    simp [Matrix.smul_mulVec]
  have hc := fun y => (continuous_dot_E (l := l) (G := G) (H := H) g y).intervalIntegrable (μ := volume) 0 T
  have e : ∀ s, μ + g ⬝ᵥ meanState l G H θ x s = (μ + g ⬝ᵥ θ) + (g ⬝ᵥ (E l G H s *ᵥ x) - g ⬝ᵥ (E l G H s *ᵥ θ)) := by
    intro s
    unfold meanState
    rw [dotProduct_add, Matrix.sub_mulVec, Matrix.one_mulVec, dotProduct_sub]
    ring
  simp only [e]
  rw [intervalIntegral.integral_add (by simp) ((hc x).sub (hc θ)), intervalIntegral.integral_sub (hc x) (hc θ), havg, havg,
    intervalIntegral.integral_const, dotProduct_add, dotProduct_sub]
  simp only [sub_zero, smul_eq_mul]
  field_simp
  ring

/-- C65. The average expected short rate is the time average of the expected rate; a maturity not after the purchase date is refused. -/
theorem C65_average (h : MadeMulti μ g θ K S v) (maturity : PyDatetime) (q : Option PyDatetime) (T : ℚ) (x : Vec p) (m : ℝ → Vec p)
    (hT : v.time (v.purchase q) maturity = .ok T) (hT0 : T ≠ 0) (hlt : v.purchase q < maturity) (hx : v.state (v.purchase q) = .ok x)
    (hm : IsMean K θ x m) :
    v.averageExpectedShortRate maturity q = .ok (1 / T * ∫ s in (0 : ℝ)..T, μ + g ⬝ᵥ m s) := by
  obtain ⟨-, -, h3, -, -, -, hd, hl2⟩ := h.params
  unfold MultiVasicek.averageExpectedShortRate
  rw [if_neg (not_le.2 hlt), hT, ok_bind, hx, ok_bind, h.dynamics.2, h3, mean_unique hd hm]
  congr 1
  exact integral_meanRate h x (by exact_mod_cast hT0)

theorem C65_average_refused (maturity : PyDatetime) (q : Option PyDatetime) (hle : maturity ≤ v.purchase q) :
    v.averageExpectedShortRate maturity q = .error .valueError := by
  unfold MultiVasicek.averageExpectedShortRate
  rw [if_pos hle]

/-- C65, for a model whose reversion matrix numpy diagonalizes by the identity (a diagonal one): `state_variable_covariance` and
`short_rate_variance` are the covariance of the state and the variance of the short rate. -/
theorem C65_covariance_partial (h : MadeMulti μ g θ K S v) (he : v.eig.vectors = 1) (maturity : PyDatetime) (q : Option PyDatetime) (T : ℚ)
    (hT : v.time (v.purchase q) maturity = .ok T) (V : ℝ → Mat p) (hV : IsCovariance K S V) :
    v.stateCovariance maturity q = .ok (V T) ∧ v.shortRateVariance maturity q = .ok (g ⬝ᵥ (V T *ᵥ g)) := by
  obtain ⟨-, h2, -, -, -, h6, hd, hl2⟩ := h.params
  have hinv : v.eig.inverse = 1 := by have := hd.inv; rwa [he, Matrix.one_mul] at this
  have h1 : ∀ q', v.purchase q' = v.purchase q → v.stateCovariance maturity q' = .ok (V T) := by
    intro q' hq
    unfold MultiVasicek.stateCovariance
    rw [hq, hT, ok_bind, covariance_unique hd hl2 hV, h6]
    refine congrArg Except.ok ?_
    ext i j
    simp only [covState, he, hinv, Matrix.transpose_one, Matrix.one_mul, Matrix.mul_one, Matrix.of_apply]
    rw [add_comm (v.eig.values j)]
    ring
  refine ⟨h1 q rfl, ?_⟩
  unfold MultiVasicek.shortRateVariance
  rw [h1 (some (v.purchase q)) rfl, ok_bind, h2]

/-- C65, for a model whose reversion matrix numpy diagonalizes by an orthogonal matrix `G` (a symmetric one): what
`state_variable_covariance` reports is the covariance of the state in the coordinates of the eigenvectors, `Gᵀ V G` instead of `V`.  So it is
right exactly when the covariance commutes with `G`; its trace, the total variance of the state variables, is always right. -/
theorem C65_covariance_rotated (h : MadeMulti μ g θ K S v) (he : v.eig.inverse = v.eig.vectorsᵀ) (maturity : PyDatetime) (q : Option PyDatetime)
    (T : ℚ) (hT : v.time (v.purchase q) maturity = .ok T) (V : ℝ → Mat p) (hV : IsCovariance K S V) :
    ∃ c, v.stateCovariance maturity q = .ok c ∧ c = v.eig.vectorsᵀ * V T * v.eig.vectors ∧ c.trace = (V T).trace ∧
      (c = V T ↔ V T * v.eig.vectors = v.eig.vectors * V T) := by
  obtain ⟨-, h2, -, -, -, h6, hd, hl2⟩ := h.params
  have hGH : v.eig.vectors * v.eig.vectorsᵀ = 1 := by have := hd.inv; rwa [he] at this
  have hHG : v.eig.vectorsᵀ * v.eig.vectors = 1 := mul_eq_one_comm.1 hGH
  have e : v.stateCovariance maturity q = .ok (v.eig.vectorsᵀ * V T * v.eig.vectors) := by
    unfold MultiVasicek.stateCovariance
    rw [hT, ok_bind, covariance_unique hd hl2 hV, h6, he]
    refine congrArg Except.ok ?_
    unfold covState
    rw [Matrix.transpose_transpose]
    have a : v.eig.vectorsᵀ * (v.eig.vectors * Matrix.of (fun i j => (v.eig.vectorsᵀ * (S * Sᵀ) * v.eig.vectors) i j *
        ((1 - Real.exp (-(v.eig.values i + v.eig.values j) * T)) / (v.eig.values i + v.eig.values j))) * v.eig.vectorsᵀ) * v.eig.vectors =
        Matrix.of (fun i j => (v.eig.vectorsᵀ * (S * Sᵀ) * v.eig.vectors) i j *
        ((1 - Real.exp (-(v.eig.values i + v.eig.values j) * T)) / (v.eig.values i + v.eig.values j))) := by
      rw [Matrix.mul_assoc v.eig.vectors, ← Matrix.mul_assoc, hHG, Matrix.one_mul, Matrix.mul_assoc, hHG, Matrix.mul_one]
    rw [a]
    ext i j
    simp only [Matrix.of_apply]
    rw [add_comm (v.eig.values j)]
    ring
  refine ⟨_, e, rfl, ?_, ?_⟩
  · rw [Matrix.trace_mul_comm, ← Matrix.mul_assoc, hGH, Matrix.one_mul]
  · constructor
    · intro hc
      calc V T * v.eig.vectors = v.eig.vectors * (v.eig.vectorsᵀ * V T * v.eig.vectors) := by
            rw [Matrix.mul_assoc, ← Matrix.mul_assoc v.eig.vectors, hGH, Matrix.one_mul]
        _ = v.eig.vectors * V T := by rw [hc]
    · intro hc
      rw [Matrix.mul_assoc, hc, ← Matrix.mul_assoc, hHG, Matrix.one_mul]

/-- C65 for one factor: the covariance is right whatever the scale of the eigenvector. -/
theorem C65_covariance_one_factor {μ : ℝ} {g θ : Vec 1} {K S : Mat 1} {v : MultiVasicek 1} (h : MadeMulti μ g θ K S v)
    (maturity : PyDatetime) (q : Option PyDatetime) (T : ℚ) (hT : v.time (v.purchase q) maturity = .ok T) (V : ℝ → Mat 1)
    (hV : IsCovariance K S V) : v.stateCovariance maturity q = .ok (V T) := by
  obtain ⟨-, h2, -, -, -, h6, hd, hl2⟩ := h.params
  have hinv := hd.inv
  have hi : v.eig.vectors 0 0 * v.eig.inverse 0 0 = 1 := by
    have := congrFun (congrFun hinv 0) 0
    simpa [Matrix.mul_apply] using this
  unfold MultiVasicek.stateCovariance
  rw [hT, ok_bind, covariance_unique hd hl2 hV, h6]
  refine congrArg Except.ok ?_
  ext i j
  rw [Subsingleton.elim i 0, Subsingleton.elim j 0]
  simp only [covState, Matrix.mul_apply, Matrix.of_apply, Matrix.transpose_apply, Finset.univ_unique, Fin.default_eq_zero,
    Finset.sum_singleton]
  have e : v.eig.inverse 0 0 * (S 0 0 * S 0 0) * v.eig.vectors 0 0 = S 0 0 * S 0 0 := by linear_combination (S 0 0 * S 0 0) * hi
  have e2 : v.eig.vectors 0 0 * (v.eig.inverse 0 0 * (S 0 0 * S 0 0) * v.eig.inverse 0 0 *
      ((1 - Real.exp (-(v.eig.values 0 + v.eig.values 0) * T)) / (v.eig.values 0 + v.eig.values 0))) * v.eig.vectors 0 0 =
      (S 0 0 * S 0 0) * ((1 - Real.exp (-(v.eig.values 0 + v.eig.values 0) * T)) / (v.eig.values 0 + v.eig.values 0)) := by
    linear_combination ((S 0 0 * S 0 0) * ((1 - Real.exp (-(v.eig.values 0 + v.eig.values 0) * T)) / (v.eig.values 0 + v.eig.values 0))) *
      (v.eig.vectors 0 0 * v.eig.inverse 0 0 + 1) * hi
  rw [e, e2]
  ring

end
end Verif.Props
