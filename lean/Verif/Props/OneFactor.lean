/- C98: a multivariate model with one factor and the one-factor model are the same model. -/
import Verif.Props.MultiRates
import Mathlib.LinearAlgebra.Matrix.Notation

namespace Verif.Props
open Verif.Spec.Multi Verif.Multi Matrix

/-- `v` is a one-factor Vasicek model and `w` a multivariate one with intercept 0, the single coefficient 1 and the same level, speed and
volatility; both were given the same Brownian motion and step and the same path generations (starting value, whether to keep the path,
normal draws).  numpy returned a correct diagonalization of the 1 × 1 reversion matrix, with an eigenvector of any length and sign. -/
def Twins (θ k σ : ℝ) (v : Vasicek) (w : MultiVasicek 1) : Prop :=
  ∃ (bm : BrownianMotion 1) (dt : DtIncrement) (garbage : ℝ) (v0 : Vasicek) (e : Eig 1) (ops : List (Vec 1 × Bool × (Nat → Vec 1))),
    Vasicek.create θ k σ bm dt garbage = .ok v0 ∧ Diagonalizes !![k] e.values e.vectors e.inverse ∧
    v = ops.foldl (fun v op => (v.generatePath op.1 op.2.1 op.2.2).2) v0 ∧
    w = ops.foldl (fun w op => (w.generatePath op.1 op.2.1 op.2.2).2) (MultiVasicek.init 0 ![1] ![θ] !![k] !![σ] e bm dt)

section
variable {θ k σ : ℝ} {v : Vasicek} {w : MultiVasicek 1}

theorem Twins.left (h : Twins θ k σ v w) : MadeVasicek θ k σ v := by
  obtain ⟨bm, dt, g, v0, e, ops, h1, -, h2, -⟩ := h
  exact ⟨bm, dt, g, v0, ops, h1, h2⟩

theorem eig_one {k : ℝ} {e : Eig 1} (h : Diagonalizes !![k] e.values e.vectors e.inverse) :
    e.values 0 = k ∧ e.vectors 0 0 * e.inverse 0 0 = 1 := by
  have h1 := congrFun (congrFun h.inv 0) 0
  have h2 := congrFun (congrFun h.eq 0) 0
  simp [Matrix.mul_apply] at h1 h2
  refine ⟨?_, h1⟩
  linear_combination -h2 - e.values 0 * h1

theorem Twins.params (h : Twins θ k σ v w) :
    w.intercept = 0 ∧ w.coefficients = ![1] ∧ w.level = ![θ] ∧ w.reversion = !![k] ∧ w.volatility = !![σ] ∧
    w.cMat = !![σ] * !![σ]ᵀ ∧ w.eig.values 0 = k ∧ w.eig.vectors 0 0 * w.eig.inverse 0 0 = 1 := by
  obtain ⟨bm, dt, g, v0, e, ops, -, hd, -, rfl⟩ := h
  generalize hw : MultiVasicek.init 0 ![1] ![θ] !![k] !![σ] e bm dt = w0
  have hw0 : w0.intercept = 0 ∧ w0.coefficients = ![1] ∧ w0.level = ![θ] ∧ w0.reversion = !![k] ∧ w0.volatility = !![σ] ∧
      w0.cMat = !![σ] * !![σ]ᵀ ∧ w0.eig.values 0 = k ∧ w0.eig.vectors 0 0 * w0.eig.inverse 0 0 = 1 := by
    subst hw
    exact ⟨rfl, rfl, rfl, rfl, rfl, rfl, (eig_one hd).1, (eig_one hd).2⟩
  clear hw
  induction ops generalizing w0 with
  | nil => exact hw0
  | cons op ops ih => rw [List.foldl_cons]; apply ih; exact hw0

theorem Twins.core (h : Twins θ k σ v w) : v.core = w.core := by
  obtain ⟨bm, dt, g, v0, e, ops, hc, -, rfl, rfl⟩ := h
  have h0 : v0.core = (MultiVasicek.init 0 ![1] ![θ] !![k] !![σ] e bm dt).core := by
    unfold Vasicek.create at hc
    simp only at hc
    rw [bind_ok] at hc
    obtain ⟨c, -, hc⟩ := hc
    injection hc with hc
    subst hc
    have e1 : (fun x : Vec 1 => x 0) = MultiVasicek.affine ![1] 0 := by
      funext x
      simp [MultiVasicek.affine, dotProduct]
    have e2 : (fun _ : Fin 1 => Vasicek.driftDiffusion θ k σ) = MultiVasicek.driftDiffusion ![θ] !![k] !![σ] := by
      funext i
      rw [Subsingleton.elim i 0]
      unfold Vasicek.driftDiffusion MultiVasicek.driftDiffusion
      congr 1
      · funext _ x
        simp [dotProduct]
      · funext _ _ j
        rw [Subsingleton.elim j 0]
        simp
    simp only [MultiVasicek.init, e1, e2]
  generalize MultiVasicek.init 0 ![1] ![θ] !![k] !![σ] e bm dt = w0 at h0 ⊢
  clear hc
  induction ops generalizing v0 w0 with
  | nil => exact h0
  | cons op ops ih =>
    rw [List.foldl_cons, List.foldl_cons]
    apply ih
    unfold Vasicek.generatePath MultiVasicek.generatePath
    rw [h0]

/-- A model that has only generated paths has a short-rate path exactly when its state process has one. -/
theorem path_none_iff (m : ShortRateModel 1) (h : m.path = none ↔ m.process.path = none) (x0 : Vec 1) (set : Bool)
    (normals : Nat → Vec 1) : (m.generatePath x0 set normals).2.path = none ↔ (m.generatePath x0 set normals).2.process.path = none := by
  unfold ShortRateModel.generatePath
  rcases hg : m.process.generatePath m.bm x0 set normals with ⟨r, d, b⟩
  cases r with
  | error e =>
    have hd : d = m.process := by
      unfold Diffusion.generatePath at hg
      split at hg
      · simp only [Prod.mk.injEq] at hg; exact hg.2.1.symm
      · simp at hg
    simp only [hd]
    exact h
  | ok path =>
    simp only
    rcases hp : d.path with _ | cols
    · simp only [hp, iff_true]
      unfold Diffusion.generatePath at hg
      split at hg
      · simp at hg
      · simp only [Prod.mk.injEq] at hg
        rw [← hg.2.1] at hp
        split at hp
        · simp at hp
        · exact h.2 hp
    · simp [hp]

theorem Twins.path (h : Twins θ k σ v w) : v.core.path = none ↔ v.core.process.path = none := by
  obtain ⟨bm, dt, g, v0, e, ops, hc, -, rfl, -⟩ := h
  have h0 : v0.core.path = none ↔ v0.core.process.path = none := by
    unfold Vasicek.create at hc
    simp only at hc
    rw [bind_ok] at hc
    obtain ⟨c, -, hc⟩ := hc
    injection hc with hc
    subst hc
    simp [ShortRateModel.new]
  clear hc
  induction ops generalizing v0 with
  | nil => exact h0
  | cons op ops ih =>
    rw [List.foldl_cons]
    apply ih
    exact path_none_iff _ h0 _ _ _

theorem Twins.time (h : Twins θ k σ v w) (a b : PyDatetime) : w.time a b = v.time a b := by
  unfold MultiVasicek.time Vasicek.time
  rw [h.core]

theorem Twins.purchase (h : Twins θ k σ v w) (p : Option PyDatetime) : w.purchase p = v.purchase p := by
  unfold MultiVasicek.purchase Vasicek.purchase
  rw [h.core]

theorem Twins.call_state (h : Twins θ k σ v w) (q : PyDatetime) : v.call q = (w.state q).map (fun x => x 0) := by
  unfold Vasicek.call MultiVasicek.state ShortRateModel.call
  rw [h.left.dynamics.2, h.core]
  cases w.core.process.call w.core.bm q <;> rfl

theorem Twins.matExp (h : Twins θ k σ v w) (T : ℝ) : w.matExp T = !![Real.exp (-k * T)] := by
  obtain ⟨-, -, -, -, -, -, hk, hi⟩ := h.params
  ext i j
  rw [Subsingleton.elim i 0, Subsingleton.elim j 0]
  simp only [MultiVasicek.matExp, Matrix.mul_apply, Finset.univ_unique, Fin.default_eq_zero, Finset.sum_singleton, diagonal_apply_eq, hk,
    of_apply, cons_val', cons_val_fin_one]
  linear_combination Real.exp (-k * T) * hi

theorem Twins.reversionInv (h : Twins θ k σ v w) : w.reversionInv = !![1 / k] := by
  obtain ⟨-, -, -, -, -, -, hk, hi⟩ := h.params
  ext i j
  rw [Subsingleton.elim i 0, Subsingleton.elim j 0]
  simp only [MultiVasicek.reversionInv, Matrix.mul_apply, Finset.univ_unique, Fin.default_eq_zero, Finset.sum_singleton, diagonal_apply_eq, hk,
    of_apply, cons_val', cons_val_fin_one]
  linear_combination 1 / k * hi

theorem Twins.coefficientTerm (h : Twins θ k σ v w) (T : ℝ) : w.coefficientTerm T = ![vB k T] := by
  obtain ⟨-, hg, -, -, -, -, hk, hi⟩ := h.params
  ext i
  rw [Subsingleton.elim i 0]
  unfold MultiVasicek.coefficientTerm
  rw [h.matExp, h.reversionInv, hg]
  simp [vB, Matrix.mul_apply, mulVec, dotProduct, Matrix.sub_apply]
  ring

theorem Twins.interceptTerm (h : Twins θ k σ v w) (T : ℝ) : w.interceptTerm T = vA k θ σ T := by
  have hk0 := h.left.params.2.2.2.1
  obtain ⟨h0, hg, hl, -, -, hC, hk, hi⟩ := h.params
  unfold MultiVasicek.interceptTerm
  simp only [h.reversionInv, h0, hg, hl, hC]
  simp only [mulVec, dotProduct, Matrix.mul_apply, Finset.univ_unique, Fin.default_eq_zero, Finset.sum_singleton, diagonal_apply_eq,
    transpose_apply, of_apply, hk, cons_val', cons_val_fin_one, Pi.sub_apply, Pi.smul_apply, smul_eq_mul]
  have e : Real.exp (-(k + k) * T) = Real.exp (-k * T) ^ 2 := by rw [← Real.exp_nat_mul]; congr 1; push_cast; ring
  rw [e]
  unfold vA vB
  generalize Real.exp (-k * T) = x
  generalize hG : w.eig.vectors 0 0 = G at hi ⊢
  generalize hH : w.eig.inverse 0 0 = H at hi ⊢
  have hG0 : G ≠ 0 := by rintro rfl; simp at hi
  have : H = 1 / G := by field_simp; linear_combination hi
  subst this
  field_simp
  ring

/-- C98. Both models hold the same short-rate path and read the same rate, or raise the same exception, at every datetime. -/
theorem C98_paths (h : Twins θ k σ v w) : v.core.path = w.core.path ∧ ∀ q, v.call q = w.call q := by
  refine ⟨by rw [h.core], fun q => ?_⟩
  unfold Vasicek.call MultiVasicek.call
  rw [h.core]

theorem Twins.coeffDeriv (h : Twins θ k σ v w) (T : ℝ) : w.coeffDeriv T = ![-Real.exp (-k * T)] := by
  ext i
  rw [Subsingleton.elim i 0]
  unfold MultiVasicek.coeffDeriv
  rw [h.matExp, h.params.2.1]
  simp [mulVec, dotProduct]

theorem Twins.interceptDeriv (h : Twins θ k σ v w) (T : ℝ) :
    w.interceptDeriv T = -(1 - Real.exp (-k * T)) * (θ + (1 - Real.exp (-k * T)) * (-σ ^ 2 / (2 * k ^ 2))) := by
  have hk0 := h.left.params.2.2.2.1
  obtain ⟨h0, hg, hl, hr, -, hC, hk, hi⟩ := h.params
  unfold MultiVasicek.interceptDeriv
  simp only [h.coefficientTerm, h0, hl, hr, hC]
  simp only [mulVec, dotProduct, Matrix.mul_apply, Finset.univ_unique, Fin.default_eq_zero, Finset.sum_singleton,
    transpose_apply, of_apply, cons_val', cons_val_fin_one, vB]
  generalize Real.exp (-k * T) = x
  field_simp
  ring

/-- C98. For every maturity and purchase date the two models agree on the coefficients of the log price, on their derivatives with respect
to the maturity, on the expected short rate, its variance and the instantaneous forward rate; with a volatility that is not negative
also on the forward rate's volatility, and for a maturity after the purchase on the average expected short rate.  Where one raises an
exception because there is no path or the purchase date is not on it, so does the other. -/
theorem C98_same_model (h : Twins θ k σ v w) (m : PyDatetime) (p : Option PyDatetime) (T : ℚ) (hT : v.time (v.purchase p) m = .ok T) :
    (∃ a b, v.priceCoeffs m p = .ok (a, b) ∧ w.priceCoeffs m p = .ok (a, ![b])) ∧
    (∃ a b, v.priceCoeffDerivatives m p = .ok (a, b) ∧ w.coeffDerivatives m p = .ok (a, ![b])) ∧
    v.expectedShortRate m p = w.expectedShortRate m p ∧
    v.shortRateVariance m p = w.shortRateVariance m p ∧
    v.instantaneousForwardRate m p = w.instantaneousForwardRate m p ∧
    (0 ≤ σ → v.purchase p < m → v.forwardRateVolatility m p = w.forwardVolatility m p) ∧
    (T ≠ 0 → v.purchase p < m → v.averageExpectedShortRate m p = w.averageExpectedShortRate m p) := by
  obtain ⟨p1, p2, p3, hk0, p4⟩ := h.left.params
  obtain ⟨h0, hg, hl, hr, -, hC, hk, hi⟩ := h.params
  have hT' : w.time (w.purchase p) m = .ok T := by rw [h.purchase, h.time, hT]
  have hwp : w.purchase (some (w.purchase p)) = w.purchase p := rfl
  have hvp : v.purchase (some (v.purchase p)) = v.purchase p := rfl
  have ht : ∀ x, w.core.transform x = x 0 := by
    intro x
    rw [← h.core, h.left.dynamics.2]
  have hderiv : ∀ q, w.purchase q = w.purchase p → w.coeffDerivatives m q =
      .ok (-(1 - Real.exp (-k * (T : ℝ))) * (θ + (1 - Real.exp (-k * (T : ℝ))) * (-σ ^ 2 / (2 * k ^ 2))), ![-Real.exp (-k * (T : ℝ))]) := by
    intro q hq
    unfold MultiVasicek.coeffDerivatives
    rw [hq, hT', ok_bind, h.interceptDeriv, h.coeffDeriv]
  have hderiv' : ∀ q, v.purchase q = v.purchase p → v.priceCoeffDerivatives m q =
      .ok (-(1 - Real.exp (-k * (T : ℝ))) * (θ + (1 - Real.exp (-k * (T : ℝ))) * (-σ ^ 2 / (2 * k ^ 2))), -Real.exp (-k * (T : ℝ))) := by
    intro q hq
    unfold Vasicek.priceCoeffDerivatives
    rw [hq, hT, ok_bind, p1, p2, p4]
  refine ⟨⟨vA k θ σ T, vB k T, priceCoeffs_eq h.left m p T hT, ?_⟩, ⟨_, _, hderiv' p rfl, hderiv p rfl⟩, ?_, ?_, ?_, ?_, ?_⟩
  · unfold MultiVasicek.priceCoeffs
    rw [hT', ok_bind, h.interceptTerm, h.coefficientTerm]
  · unfold Vasicek.expectedShortRate MultiVasicek.expectedShortRate MultiVasicek.expectedStateMean
    rw [hT, hT', ok_bind, ok_bind, h.call_state, h.purchase]
    cases w.state (v.purchase p) with
    | error e => rfl
    | ok x =>
      simp only [Except.map, ok_bind, ht, h.matExp, hl, p1, p2]
      simp [mulVec, dotProduct, Matrix.sub_apply]
  · unfold Vasicek.shortRateVariance MultiVasicek.shortRateVariance MultiVasicek.stateCovariance
    rw [hwp, hT, hT', ok_bind, ok_bind, p2, p3, floatDiv_of_ne (by simpa using hk0), ok_bind, ok_bind]
    refine congrArg Except.ok ?_
    simp only [hC, hg, mulVec, dotProduct, Matrix.mul_apply, Finset.univ_unique, Fin.default_eq_zero, Finset.sum_singleton,
      transpose_apply, of_apply, hk, cons_val', cons_val_fin_one]
    have e : Real.exp (-(k + k) * T) = Real.exp (-2 * k * T) := by congr 1; ring
    rw [e]
    have hk2 : k + k = 2 * k := by ring
    rw [hk2]
    generalize hG : w.eig.vectors 0 0 = G at hi ⊢
    generalize hH : w.eig.inverse 0 0 = H at hi ⊢
    have hG0 : G ≠ 0 := by rintro rfl; simp at hi
    have : H = 1 / G := by field_simp; linear_combination hi
    subst this
    field_simp
  · have hn := h.path
    unfold Vasicek.instantaneousForwardRate MultiVasicek.instantaneousForwardRate
    rw [hderiv _ hwp, hderiv' _ hvp, ok_bind, h.purchase, h.call_state]
    rcases hpath : v.core.path with _ | l
    · have : w.state (v.purchase p) = .error .valueError := by
        unfold MultiVasicek.state Diffusion.call
        rw [← h.core, hn.1 hpath]
        rfl
      simp only [this, error_bind]
    · cases w.state (v.purchase p) with
      | error e => rfl
      | ok x =>
        simp only [Except.map, ok_bind]
        simp [dotProduct]
  · intro hσ hlt
    unfold Vasicek.forwardRateVolatility MultiVasicek.forwardVolatility
    rw [if_neg (by rw [h.purchase]; exact not_le.2 hlt), hT, ok_bind, hderiv _ hwp, ok_bind]
    refine congrArg Except.ok ?_
    simp only [hC, mulVec, dotProduct, Matrix.mul_apply, Finset.univ_unique, Fin.default_eq_zero, Finset.sum_singleton,
      transpose_apply, of_apply, cons_val', cons_val_fin_one, Pi.neg_apply, p2, p3]
    have e : -(T : ℝ) * k = -k * T := by ring
    rw [e, show -(-Real.exp (-k * (T : ℝ))) * (σ * σ * -(-Real.exp (-k * (T : ℝ)))) = (σ * Real.exp (-k * (T : ℝ))) ^ 2 by ring,
      Real.sqrt_sq (mul_nonneg hσ (Real.exp_pos _).le)]
  · intro hT0 hlt
    have hT0' : (T : ℝ) ≠ 0 := by exact_mod_cast hT0
    unfold Vasicek.averageExpectedShortRate MultiVasicek.averageExpectedShortRate
    rw [if_neg (by rw [h.purchase]; exact not_le.2 hlt), priceCoeffs_eq h.left m _ T (by rw [hvp]; exact hT), ok_bind, hT, hT', ok_bind,
      ok_bind, h.call_state, h.purchase]
    cases w.state (v.purchase p) with
    | error e => rfl
    | ok x =>
      simp only [Except.map, ok_bind, ht, hl, p1]
      refine congrArg Except.ok ?_
      simp only [mulVec, dotProduct, Matrix.mul_apply, Finset.univ_unique, Fin.default_eq_zero, Finset.sum_singleton, diagonal_apply_eq,
        hk, cons_val_fin_one, Pi.sub_apply, Pi.add_apply, vB]
      generalize Real.exp (-k * (T : ℝ)) = y
      generalize hG : w.eig.vectors 0 0 = G at hi ⊢
      generalize hH : w.eig.inverse 0 0 = H at hi ⊢
      have hG0 : G ≠ 0 := by rintro rfl; simp at hi
      have : H = 1 / G := by field_simp; linear_combination hi
      subst this
      field_simp
      ring

/-- C98. Bought at the start of the simulation, bonds have the same prices, yields and yield coefficients in both models, the yields the
same convexity (when there is a rate to start from) and, for a volatility that is not negative, the same volatility. -/
theorem C98_same_bonds (h : Twins θ k σ v w) (m : PyDatetime) (T : ℚ) (hT : v.time v.core.bm.start m = .ok T) (h0 : 0 < T)
    (hlt : v.core.bm.start < m) :
    v.zeroCouponBondPrice m none = w.zeroCouponBondPrice m none ∧
    (∃ a b, v.yieldCoeffs m = .ok (a, b) ∧ w.yieldCoeffs m none = .ok (a, ![b])) ∧
    v.zeroCouponYield m none = w.zeroCouponBondYield m none ∧
    v.priceConvexity none m = w.priceConvexity none m ∧
    (∀ r, v.call v.core.bm.start = .ok r → v.yieldConvexity m = w.yieldConvexity m none) ∧
    (0 ≤ σ → v.yieldVolatility m = w.yieldVolatility m none) := by
  obtain ⟨p1, p2, p3, hk0, p4⟩ := h.left.params
  obtain ⟨g0, hg, hl, hr, -, hC, hk, hi⟩ := h.params
  have hT0' : (T : ℝ) ≠ 0 := by exact_mod_cast h0.ne'
  have hTp : (0 : ℝ) < T := by exact_mod_cast h0
  have hvs : v.purchase none = v.core.bm.start := rfl
  have hws : w.purchase none = v.core.bm.start := h.purchase none
  have hT' : w.time v.core.bm.start m = .ok T := by rw [h.time, hT]
  have hpc : w.priceCoeffs m (some v.core.bm.start) = .ok (vA k θ σ T, ![vB k T]) := by
    unfold MultiVasicek.priceCoeffs
    rw [show w.purchase (some v.core.bm.start) = v.core.bm.start from rfl, hT', ok_bind, h.interceptTerm, h.coefficientTerm]
  have hpc' : v.priceCoeffs m none = .ok (vA k θ σ T, vB k T) := priceCoeffs_eq h.left m none T hT
  have hyc : ∀ q, w.purchase q = v.core.bm.start → w.yieldCoeffs m q = .ok (-vA k θ σ T / T, ![-vB k T / T]) := by
    intro q hq
    unfold MultiVasicek.yieldCoeffs
    rw [hq, hpc, ok_bind, hT', ok_bind]
    refine congrArg Except.ok (Prod.ext rfl ?_)
    funext i
    rw [Subsingleton.elim i 0]
    simp
  have hyc' : v.yieldCoeffs m = .ok (-vA k θ σ T / T, -vB k T / T) := by
    unfold Vasicek.yieldCoeffs
    rw [hT, ok_bind, p2, floatDiv_of_ne hk0, ok_bind, floatDiv_of_ne (by simpa using hk0), ok_bind, p1, p3, p4]
    simp only [floatDiv_of_ne hT0', ok_bind]
    refine congrArg Except.ok (Prod.ext ?_ rfl)
    simp only [vA, vB]
    ring
  have hprice : v.zeroCouponBondPrice m none = w.zeroCouponBondPrice m none := by
    unfold Vasicek.zeroCouponBondPrice MultiVasicek.zeroCouponBondPrice
    rw [hpc', ok_bind, hws, hpc, ok_bind, hvs, h.call_state]
    cases w.state v.core.bm.start with
    | error e => rfl
    | ok x =>
      simp only [Except.map, ok_bind]
      simp [dotProduct]
  have hprice' : w.zeroCouponBondPrice m (some v.core.bm.start) = w.zeroCouponBondPrice m none := by
    unfold MultiVasicek.zeroCouponBondPrice
    rw [hws]
    rfl
  have hpriceV : v.zeroCouponBondPrice m (some v.core.bm.start) = v.zeroCouponBondPrice m none := by
    unfold Vasicek.zeroCouponBondPrice
    rfl
  have hyield : v.zeroCouponYield m none = w.zeroCouponBondYield m none := by
    unfold Vasicek.zeroCouponYield MultiVasicek.zeroCouponBondYield
    rw [if_neg (by rw [hws]; exact not_le.2 hlt), hyc', ok_bind, hvs, h.call_state, hws]
    cases w.state v.core.bm.start with
    | error e => rfl
    | ok x =>
      simp only [Except.map, ok_bind]
      rw [hyc _ rfl, ok_bind]
      simp [dotProduct]
  have hyieldW : w.zeroCouponBondYield m (some v.core.bm.start) = w.zeroCouponBondYield m none := by
    unfold MultiVasicek.zeroCouponBondYield
    rw [hws]
    rfl
  have hquad : ![-vB k T / T] ⬝ᵥ (w.cMat *ᵥ ![-vB k T / (T : ℝ)]) = (-vB k T / T * σ) ^ 2 := by
    simp only [hC, mulVec, dotProduct, Matrix.mul_apply, Finset.univ_unique, Fin.default_eq_zero, Finset.sum_singleton,
      transpose_apply, of_apply, cons_val', cons_val_fin_one]
    ring
  have hvol : v.yieldVolatility m = .ok (-vB k T / T * σ) := by
    unfold Vasicek.yieldVolatility
    rw [hT, ok_bind, hpc', ok_bind]
    simp only
    rw [floatDiv_of_ne hT0', ok_bind, p3]
    refine congrArg Except.ok ?_
    ring
  refine ⟨hprice, ⟨_, _, hyc', hyc none hws⟩, hyield, ?_, ?_, ?_⟩
  · unfold Vasicek.priceConvexity MultiVasicek.priceConvexity
    rw [hvs, hws, hT, ok_bind, hT', hyc _ rfl, ok_bind, ok_bind, hprice', hpriceV, hprice, hvol]
    cases w.zeroCouponBondPrice m none with
    | error e => rfl
    | ok P =>
      simp only [ok_bind]
      rw [hquad]
      refine congrArg Except.ok ?_
      ring
  · intro r hr
    obtain ⟨-, -, -, -, -, -, hav⟩ := C98_same_model h m (some v.core.bm.start) T hT
    unfold MultiVasicek.yieldConvexity
    rw [if_neg (by rw [hws]; exact not_le.2 hlt), hws, hyieldW, ← hyield, ← hav h0.ne' hlt]
    unfold Vasicek.yieldConvexity Vasicek.zeroCouponYield Vasicek.averageExpectedShortRate
    rw [hT, ok_bind, hpc', ok_bind, hyc', ok_bind, hvs, hr, ok_bind, ok_bind,
      priceCoeffs_eq h.left m _ T (show v.time (v.purchase (some (v.purchase (some v.core.bm.start)))) m = .ok T from hT), ok_bind,
      show v.purchase (some v.core.bm.start) = v.core.bm.start from rfl, hT, ok_bind, hr, ok_bind, ok_bind, p1, p2, p3]
    simp only
    rw [floatDiv_of_ne (by simpa using hk0), ok_bind, floatDiv_of_ne (by simpa using hk0), ok_bind, floatDiv_of_ne hT0', ok_bind]
    refine congrArg Except.ok ?_
    unfold vA
    generalize vB k T = B
    field_simp
    ring
  · intro hσ
    rw [hvol]
    unfold MultiVasicek.yieldVolatility
    rw [hws, hyc _ rfl, ok_bind, hquad, Real.sqrt_sq]
    exact mul_nonneg (div_nonneg (by have := vB_neg hk0 hTp; linarith) hTp.le) hσ

theorem twin_exists (h : MadeVasicek θ k σ v) : ∃ w, Twins θ k σ v w := by
  obtain ⟨bm, dt, g, v0, ops, h1, h2⟩ := h
  refine ⟨_, bm, dt, g, v0, ⟨![k], 1, 1⟩, ops, h1, ⟨?_, by simp⟩, h2, rfl⟩
  ext i j
  rw [Subsingleton.elim i 0, Subsingleton.elim j 0]
  simp

end

/-- Concrete case for C98: with any level, speed but zero, volatility and starting rate, on three days of 2023, there are twins with a
path, and a maturity two days later. -/
example (θ k σ r : ℝ) (hk : k ≠ 0) (normals : Nat → Vec 1) : ∃ v w, Twins θ k σ v w ∧ v.call v.core.bm.start = .ok r ∧
    v.core.bm.start < T 2023 1 3 ∧ v.time v.core.bm.start (T 2023 1 3) = .ok (2 / 365) := by
  obtain ⟨v, h1, h2, -, h4, h5, -⟩ := vasicek_concrete θ k σ r hk
    { start := T 2023 1 1, stop := T 2023 1 3, chol := fun _ _ => 1, dcc := .act365, grid := none, path := none } rfl rfl rfl normals
  obtain ⟨w, hw⟩ := twin_exists h1
  exact ⟨v, w, hw, by rw [h2]; exact h4, by rw [h2]; decide +kernel, by rw [h2]; exact h5⟩

end Verif.Props
