/- C69, continued: means and bond prices of the three-factor models. -/
import Verif.Props.ThreeFactor

namespace Verif.Props
open Verif.Spec (Forward StepLengths shock)
open Verif.Spec.Multi Verif.Spec.MeanReverting Verif.Multi Matrix MeasureTheory

/-- As `BuiltTrebly`, numpy having returned a correct diagonalization of the reversion matrix. -/
def MadeTrebly (q : TreblyParams) (v : MultiVasicek 3) : Prop :=
  ∃ (start stop : PyDatetime) (dt : DtIncrement) (e : Eig 3) (v0 : MultiVasicek 3) (ops : List (Vec 3 × Bool × (Nat → Vec 3))),
    Trebly.init q start stop dt e = .ok v0 ∧ Diagonalizes (Trebly.reversion q) e.values e.vectors e.inverse ∧
    v = ops.foldl (fun v op => (v.generatePath op.1 op.2.1 op.2.2).2) v0

/-- As `BuiltRiskPrice`, numpy having returned a correct diagonalization of the reversion matrix. -/
def MadeRiskPrice (q : RiskPriceParams) (v : MultiVasicek 3) : Prop :=
  ∃ (start stop : PyDatetime) (dt : DtIncrement) (e : Eig 3) (v0 : MultiVasicek 3) (ops : List (Vec 3 × Bool × (Nat → Vec 3))),
    RiskPrice.init q start stop dt e = .ok v0 ∧ Diagonalizes (RiskPrice.reversion q) e.values e.vectors e.inverse ∧
    v = ops.foldl (fun v op => (v.generatePath op.1 op.2.1 op.2.2).2) v0

/-- Lower triangular with a positive diagonal. -/
theorem lower_sum_ne {p : Nat} {K G H : Mat p} {l : Vec p} (ht : ∀ i j, i < j → K i j = 0) (hp : ∀ i, 0 < K i i)
    (hd : Diagonalizes K l G H) (i j : Fin p) : l i + l j ≠ 0 := by
  obtain ⟨a, ha, -⟩ := eig_of_lower ht hd i
  obtain ⟨b, hb, -⟩ := eig_of_lower ht hd j
  rw [ha, hb]
  exact (add_pos (hp a) (hp b)).ne'

theorem MadeTrebly.multi {q : TreblyParams} {v : MultiVasicek 3} (h : MadeTrebly q v) (hα : 0 < q.longSpeed) (hβ : 0 < q.mediumSpeed)
    (hκ : 0 < q.shortSpeed) :
    ∃ S, IsCholesky (Trebly.variance q) S ∧ MadeMulti 0 ![0, 0, 1] (Trebly.level q) (Trebly.reversion q) S v := by
  obtain ⟨start, stop, dt, e, v0, ops, h0, hd, rfl⟩ := h
  unfold Trebly.init at h0
  rw [bind_ok] at h0
  obtain ⟨S, hS, h0⟩ := h0
  injection h0 with h0
  subst h0
  refine ⟨S, npCholesky_ok.1 hS, e, _, dt, ops, hd, ?_, rfl⟩
  apply lower_sum_ne _ _ hd
  · intro i j hij; fin_cases i <;> fin_cases j <;> simp_all [Trebly.reversion]
  · intro i; fin_cases i <;> simpa [Trebly.reversion]

theorem MadeRiskPrice.multi {q : RiskPriceParams} {v : MultiVasicek 3} (h : MadeRiskPrice q v) (hα : 0 < q.riskSpeed)
    (hβ : 0 < q.mediumSpeed) (hκ : 0 < q.shortSpeed) :
    ∃ S, IsCholesky (RiskPrice.variance q) S ∧
      MadeMulti 0 ![0, 0, 1] ![q.riskMean, q.mediumMean + q.mediumVol * q.riskMean / q.mediumSpeed,
        q.mediumMean + q.mediumVol * q.riskMean / q.mediumSpeed] (RiskPrice.reversion q) S v := by
  obtain ⟨start, stop, dt, e, v0, ops, h0, hd, rfl⟩ := h
  unfold RiskPrice.init at h0
  rw [floatDiv_of_ne hβ.ne', ok_bind] at h0
  simp only at h0
  rw [bind_ok] at h0
  obtain ⟨S, hS, h0⟩ := h0
  injection h0 with h0
  subst h0
  refine ⟨S, npCholesky_ok.1 hS, e, _, dt, ops, hd, ?_, rfl⟩
  apply lower_sum_ne _ _ hd
  · intro i j hij; fin_cases i <;> fin_cases j <;> simp_all [RiskPrice.reversion]
  · intro i; fin_cases i <;> simpa [RiskPrice.reversion]

/-- The reversion matrix of a chain of three factors. -/
def chain (κ β n α : ℝ) : Mat 3 := !![α, 0, 0; -n, β, 0; 0, -κ, κ]

theorem chain_isResponse {κ β n α : ℝ} {a b c d e f : ℝ → ℝ} (h : ChainResponse κ β n α a b c d e f) :
    IsResponse (chain κ β n α) (fun u => !![a u, 0, 0; b u, c u, 0; d u, e u, f u]) := by
  refine ⟨?_, fun u i j => ?_⟩
  · ext i j
    fin_cases i <;> fin_cases j <;> simp [h.a0, h.b0, h.c0, h.d0, h.e0, h.f0]
  · fin_cases i <;> fin_cases j
    · refine HasDerivAt.congr_deriv (h.da u) ?_
      simp [Matrix.mul_apply, Fin.sum_univ_three, chain]
    · refine HasDerivAt.congr_deriv (hasDerivAt_const u (0 : ℝ)) ?_
      simp [Matrix.mul_apply, Fin.sum_univ_three, chain]
    · refine HasDerivAt.congr_deriv (hasDerivAt_const u (0 : ℝ)) ?_
      simp [Matrix.mul_apply, Fin.sum_univ_three, chain]
    · refine HasDerivAt.congr_deriv (h.db u) ?_
      simp [Matrix.mul_apply, Fin.sum_univ_three, chain]
      ring
    · refine HasDerivAt.congr_deriv (h.dc u) ?_
      simp [Matrix.mul_apply, Fin.sum_univ_three, chain]
    · refine HasDerivAt.congr_deriv (hasDerivAt_const u (0 : ℝ)) ?_
      simp [Matrix.mul_apply, Fin.sum_univ_three, chain]
    · refine HasDerivAt.congr_deriv (h.dd u) ?_
      simp [Matrix.mul_apply, Fin.sum_univ_three, chain]
      ring
    · refine HasDerivAt.congr_deriv (h.de u) ?_
      simp [Matrix.mul_apply, Fin.sum_univ_three, chain]
      ring
    · refine HasDerivAt.congr_deriv (h.df u) ?_
      simp [Matrix.mul_apply, Fin.sum_univ_three, chain]

theorem chain_discount_eq {κ β n α σ₁ σ₂ σ₃ ρ₁₂ ρ₁₃ ρ₂₃ : ℝ} {S C : Mat 3} (hS : S * Sᵀ = C) (c00 : C 0 0 = σ₁ ^ 2)
    (c11 : C 1 1 = σ₂ ^ 2) (c22 : C 2 2 = σ₃ ^ 2) (c01 : C 0 1 = σ₁ * σ₂ * ρ₁₂) (c02 : C 0 2 = σ₁ * σ₃ * ρ₁₃)
    (c12 : C 1 2 = σ₂ * σ₃ * ρ₂₃) {L R r a b c d e f : ℝ → ℝ} (h : ChainResponse κ β n α a b c d e f) (T : ℝ) :
    Spec.Multi.expectedDiscount 0 ![0, 0, 1] S (fun s => ![L s, R s, r s]) (fun u => !![a u, 0, 0; b u, c u, 0; d u, e u, f u]) T =
      chainDiscount σ₁ σ₂ σ₃ ρ₁₂ ρ₁₃ ρ₂₃ r d e f T := by
  unfold Spec.Multi.expectedDiscount chainDiscount
  have hd : Continuous d := continuous_iff_continuousAt.2 fun u => (h.dd u).continuousAt
  have he : Continuous e := continuous_iff_continuousAt.2 fun u => (h.de u).continuousAt
  have hf : Continuous f := continuous_iff_continuousAt.2 fun u => (h.df u).continuousAt
  have e1 : ∀ s, (0 : ℝ) + ![0, 0, 1] ⬝ᵥ ![L s, R s, r s] = r s := by intro s; simp [dotProduct, Fin.sum_univ_three]
  have e2 : Spec.Multi.integralVariance ![0, 0, 1] S (fun u => !![a u, 0, 0; b u, c u, 0; d u, e u, f u]) T =
      chainVariance σ₁ σ₂ σ₃ ρ₁₂ ρ₁₃ ρ₂₃ d e f T := by
    unfold Spec.Multi.integralVariance chainVariance
    apply intervalIntegral.integral_congr
    intro s _
    simp only
    have i0 : ∀ (j : Fin 3) u, (![0, 0, 1] : Vec 3) ⬝ᵥ ((!![a u, 0, 0; b u, c u, 0; d u, e u, f u] * S) *ᵥ Pi.single j 1) =
        S 0 j * d u + S 1 j * e u + S 2 j * f u := by
      intro j u
      fin_cases j <;> simp [Matrix.mulVec, dotProduct, Matrix.mul_apply, Fin.sum_univ_three] <;> ring
    have i1 : ∀ j : Fin 3, ∫ u in (0 : ℝ)..(T - s), (S 0 j * d u + S 1 j * e u + S 2 j * f u) =
        S 0 j * (∫ u in (0 : ℝ)..(T - s), d u) + S 1 j * (∫ u in (0 : ℝ)..(T - s), e u) + S 2 j * ∫ u in (0 : ℝ)..(T - s), f u := by
      intro j
      have hde : Continuous fun u => S 0 j * d u + S 1 j * e u := (hd.const_mul _).add (he.const_mul _)
      rw [intervalIntegral.integral_add (hde.intervalIntegrable _ _)
        ((hf.const_mul _).intervalIntegrable _ _), intervalIntegral.integral_add ((hd.const_mul _).intervalIntegrable _ _)
        ((he.const_mul _).intervalIntegrable _ _), intervalIntegral.integral_const_mul, intervalIntegral.integral_const_mul,
        intervalIntegral.integral_const_mul]
    simp only [i0, i1]
    generalize (∫ u in (0 : ℝ)..(T - s), d u) = D
    generalize (∫ u in (0 : ℝ)..(T - s), e u) = E
    generalize (∫ u in (0 : ℝ)..(T - s), f u) = F
    have s00 := congrFun (congrFun hS 0) 0
    have s11 := congrFun (congrFun hS 1) 1
    have s22 := congrFun (congrFun hS 2) 2
    have s01 := congrFun (congrFun hS 0) 1
    have s02 := congrFun (congrFun hS 0) 2
    have s12 := congrFun (congrFun hS 1) 2
    rw [c00] at s00
    rw [c11] at s11
    rw [c22] at s22
    rw [c01] at s01
    rw [c02] at s02
    rw [c12] at s12
    simp only [Matrix.mul_apply, Matrix.transpose_apply, Fin.sum_univ_three] at s00 s11 s22 s01 s02 s12
    rw [Fin.sum_univ_three]
    linear_combination D ^ 2 * s00 + E ^ 2 * s11 + F ^ 2 * s22 + 2 * D * E * s01 + 2 * D * F * s02 + 2 * E * F * s12
  simp only [e1, e2]

theorem trebly_isMean {q : TreblyParams} {L0 R0 r0 : ℝ} {L R r : ℝ → ℝ}
    (h : TreblyMean q.shortSpeed q.mediumSpeed q.longSpeed q.mean L0 R0 r0 L R r) :
    IsMean (Trebly.reversion q) (Trebly.level q) ![L0, R0, r0] (fun s => ![L s, R s, r s]) := by
  refine ⟨?_, fun s i => ?_⟩
  · simp only [h.long0, h.medium0, h.short0]
  · fin_cases i
    · refine HasDerivAt.congr_deriv (h.long s) ?_
      simp [Matrix.mulVec, dotProduct, Fin.sum_univ_three, Trebly.reversion, Trebly.level]
    · refine HasDerivAt.congr_deriv (h.medium s) ?_
      simp [Matrix.mulVec, dotProduct, Fin.sum_univ_three, Trebly.reversion, Trebly.level]
      ring
    · refine HasDerivAt.congr_deriv (h.short s) ?_
      simp [Matrix.mulVec, dotProduct, Fin.sum_univ_three, Trebly.reversion, Trebly.level]
      ring

theorem riskPrice_isMean {q : RiskPriceParams} (hβ : q.mediumSpeed ≠ 0) {l0 θ0 r0 : ℝ} {l θ r : ℝ → ℝ}
    (h : RiskPriceMean q.shortSpeed q.mediumSpeed q.mediumVol q.mediumMean q.riskSpeed q.riskMean l0 θ0 r0 l θ r) :
    IsMean (RiskPrice.reversion q) ![q.riskMean, q.mediumMean + q.mediumVol * q.riskMean / q.mediumSpeed,
        q.mediumMean + q.mediumVol * q.riskMean / q.mediumSpeed] ![l0, θ0, r0] (fun s => ![l s, θ s, r s]) := by
  refine ⟨?_, fun s i => ?_⟩
  · simp only [h.risk0, h.medium0, h.short0]
  · fin_cases i
    · refine HasDerivAt.congr_deriv (h.risk s) ?_
      simp [Matrix.mulVec, dotProduct, Fin.sum_univ_three, RiskPrice.reversion]
    · refine HasDerivAt.congr_deriv (h.medium s) ?_
      simp [Matrix.mulVec, dotProduct, Fin.sum_univ_three, RiskPrice.reversion]
      field_simp
      ring
    · refine HasDerivAt.congr_deriv (h.short s) ?_
      simp [Matrix.mulVec, dotProduct, Fin.sum_univ_three, RiskPrice.reversion]
      ring

/-- C69. Zero-coupon bonds of the trebly mean-reverting model cost the expected discount factor of the documented equations, for every
purchase date, and the expected rates are the solutions of the equations without shocks (for speeds at which numpy's diagonalization is
one, for instance different ones). -/
theorem C69_trebly_price_partial (q : TreblyParams) (v : MultiVasicek 3) (h : MadeTrebly q v) (hα : 0 < q.longSpeed)
    (hβ : 0 < q.mediumSpeed) (hκ : 0 < q.shortSpeed) (maturity : PyDatetime) (p : Option PyDatetime) (T : ℚ) (L0 R0 r0 : ℝ)
    (hT : v.time (v.purchase p) maturity = .ok T) (hT0 : 0 ≤ T) (hx : v.state (v.purchase p) = .ok ![L0, R0, r0])
    (L R r a b c d e f : ℝ → ℝ) (hm : TreblyMean q.shortSpeed q.mediumSpeed q.longSpeed q.mean L0 R0 r0 L R r)
    (hr : ChainResponse q.shortSpeed q.mediumSpeed q.mediumSpeed q.longSpeed a b c d e f) :
    v.zeroCouponBondPrice maturity p =
      .ok (chainDiscount q.longVol q.mediumVol q.shortVol q.mediumLong q.shortLong q.shortMedium r d e f T) ∧
    v.expectedStateMean maturity p = .ok ![L T, R T, r T] ∧ v.expectedShortRate maturity p = .ok (r T) := by
  obtain ⟨S, hS, hmm⟩ := h.multi hα hβ hκ
  have h1 := trebly_isMean hm
  refine ⟨?_, ?_⟩
  · rw [C63_price hmm maturity p T _ _ _ hT hT0 hx h1 (chain_isResponse hr),
      chain_discount_eq (C := Trebly.variance q) hS.2.2 rfl rfl rfl rfl rfl rfl hr]
  · have := C65_mean hmm maturity p T _ _ hT hx h1
    refine ⟨this.1, this.2.trans ?_⟩
    simp [dotProduct, Fin.sum_univ_three]

/-- C69. The same for the model with a stochastic market price of risk. -/
theorem C69_risk_price_partial (q : RiskPriceParams) (v : MultiVasicek 3) (h : MadeRiskPrice q v) (hα : 0 < q.riskSpeed)
    (hβ : 0 < q.mediumSpeed) (hκ : 0 < q.shortSpeed) (maturity : PyDatetime) (p : Option PyDatetime) (T : ℚ) (l0 θ0 r0 : ℝ)
    (hT : v.time (v.purchase p) maturity = .ok T) (hT0 : 0 ≤ T) (hx : v.state (v.purchase p) = .ok ![l0, θ0, r0])
    (l θ r a b c d e f : ℝ → ℝ)
    (hm : RiskPriceMean q.shortSpeed q.mediumSpeed q.mediumVol q.mediumMean q.riskSpeed q.riskMean l0 θ0 r0 l θ r)
    (hr : ChainResponse q.shortSpeed q.mediumSpeed q.mediumVol q.riskSpeed a b c d e f) :
    v.zeroCouponBondPrice maturity p =
      .ok (chainDiscount q.riskVol q.mediumVol q.shortVol q.mediumRisk q.shortRisk q.shortMedium r d e f T) ∧
    v.expectedStateMean maturity p = .ok ![l T, θ T, r T] ∧ v.expectedShortRate maturity p = .ok (r T) := by
  obtain ⟨S, hS, hmm⟩ := h.multi hα hβ hκ
  have h1 := riskPrice_isMean hβ.ne' hm
  refine ⟨?_, ?_⟩
  · rw [C63_price hmm maturity p T _ _ _ hT hT0 hx h1 (chain_isResponse hr),
      chain_discount_eq (C := RiskPrice.variance q) hS.2.2 rfl rfl rfl rfl rfl rfl hr]
  · have := C65_mean hmm maturity p T _ _ hT hx h1
    refine ⟨this.1, this.2.trans ?_⟩
    simp [dotProduct, Fin.sum_univ_three]

/-- Chains with three different speeds have a diagonalization. -/
theorem chain_diagonalizable (κ β n α : ℝ) (h1 : α ≠ β) (h2 : α ≠ κ) (h3 : β ≠ κ) :
    ∃ e : Eig 3, Diagonalizes (chain κ β n α) e.values e.vectors e.inverse := by
  have k1 : β - α ≠ 0 := sub_ne_zero.2 h1.symm
  have k2 : κ - α ≠ 0 := sub_ne_zero.2 h2.symm
  have k3 : κ - β ≠ 0 := sub_ne_zero.2 h3.symm
  refine ⟨⟨![α, β, κ], !![1, 0, 0; n / (β - α), 1, 0; κ * n / ((β - α) * (κ - α)), κ / (κ - β), 1],
    !![1, 0, 0; -n / (β - α), 1, 0; n * κ / ((β - α) * (κ - β)) - κ * n / ((β - α) * (κ - α)), -κ / (κ - β), 1]⟩, ?_, ?_⟩
  · ext i j
    rw [Matrix.mul_apply, Fin.sum_univ_three, Matrix.mul_diagonal, Matrix.mul_diagonal, Matrix.mul_diagonal]
    fin_cases i <;> fin_cases j <;> simp [chain] <;> field_simp <;> ring
  · ext i j
    fin_cases i <;> fin_cases j <;> simp [Matrix.mul_apply, Fin.sum_univ_three] <;> field_simp <;> ring

/-- C69. The closed forms rest on a diagonalization of the reversion matrix; with positive speeds and volatility there is one exactly
when the three speeds differ.  (With two equal speeds numpy returns a singular matrix of eigenvectors.) -/
theorem C69_diagonalizable_iff (κ β n α : ℝ) (hκ : κ ≠ 0) (hn : n ≠ 0) :
    (∃ (l : Vec 3) (G H : Mat 3), Diagonalizes (chain κ β n α) l G H) ↔ α ≠ β ∧ α ≠ κ ∧ β ≠ κ := by
  constructor
  · rintro ⟨l, G, H, hd⟩
    have hl : ∀ i, l i = α ∨ l i = β ∨ l i = κ := by
      intro i
      obtain ⟨a, ha, -⟩ := eig_of_lower (K := chain κ β n α) (by intro i j hij; fin_cases i <;> fin_cases j <;> simp_all [chain]) hd i
      rw [ha]
      fin_cases a
      · left; simp [chain]
      · right; left; simp [chain]
      · right; right; simp [chain]
    have key : ∀ x y : ℝ, (∀ i, l i = x ∨ l i = y) → False := by
      intro x y hxy
      have h1 : ∀ x : ℝ, chain κ β n α - x • (1 : Mat 3) = G * diagonal (fun i => l i - x) * H := by
        intro x
        have : diagonal (fun i => l i - x) = diagonal l - x • (1 : Mat 3) := by
          rw [Matrix.smul_one_eq_diagonal, Matrix.diagonal_sub]
        rw [this, Matrix.mul_sub, Matrix.sub_mul, ← hd.eq, Matrix.mul_smul, Matrix.mul_one, Matrix.smul_mul, hd.inv]
      have h2 : (chain κ β n α - x • (1 : Mat 3)) * (chain κ β n α - y • (1 : Mat 3)) = 0 := by
        rw [h1, h1, conj_mul hd]
        have : (fun i => (l i - x) * (l i - y)) = fun _ => (0 : ℝ) := by
          funext i
          rcases hxy i with h | h <;> rw [h] <;> ring
        rw [this]
        simp
      have h3 := congrFun (congrFun h2 2) 0
      rw [Matrix.mul_apply, Fin.sum_univ_three] at h3
      simp [chain] at h3
      rcases h3 with h3 | h3
      · exact hκ h3
      · exact hn h3
    refine ⟨fun h => key α κ fun i => ?_, fun h => key α β fun i => ?_, fun h => key α κ fun i => ?_⟩
    · rcases hl i with h' | h' | h'
      · exact Or.inl h'
      · exact Or.inl (h'.trans h.symm)
      · exact Or.inr h'
    · rcases hl i with h' | h' | h'
      · exact Or.inl h'
      · exact Or.inr h'
      · exact Or.inl (h'.trans h.symm)
    · rcases hl i with h' | h' | h'
      · exact Or.inl h'
      · exact Or.inr (h'.trans h)
      · exact Or.inr h'
  · rintro ⟨h1, h2, h3⟩
    obtain ⟨e, he⟩ := chain_diagonalizable κ β n α h1 h2 h3
    exact ⟨_, _, _, he⟩

/-- C69. Read for the two models: `MadeTrebly` and `MadeRiskPrice` speak of models with three different speeds. -/
theorem C69_speeds_differ :
    (∀ (q : TreblyParams) (v : MultiVasicek 3), MadeTrebly q v → 0 < q.mediumSpeed → 0 < q.shortSpeed →
      q.longSpeed ≠ q.mediumSpeed ∧ q.longSpeed ≠ q.shortSpeed ∧ q.mediumSpeed ≠ q.shortSpeed) ∧
    (∀ (q : RiskPriceParams) (v : MultiVasicek 3), MadeRiskPrice q v → 0 < q.shortSpeed →
      q.riskSpeed ≠ q.mediumSpeed ∧ q.riskSpeed ≠ q.shortSpeed ∧ q.mediumSpeed ≠ q.shortSpeed) := by
  refine ⟨?_, ?_⟩
  · rintro q v ⟨start, stop, dt, e, v0, ops, h0, hd, -⟩ hβ hκ
    exact (C69_diagonalizable_iff q.shortSpeed q.mediumSpeed q.mediumSpeed q.longSpeed hκ.ne' hβ.ne').1 ⟨_, _, _, hd⟩
  · rintro q v ⟨start, stop, dt, e, v0, ops, h0, hd, -⟩ hκ
    have hn : q.mediumVol ≠ 0 := by
      unfold RiskPrice.init at h0
      rw [bind_ok] at h0
      obtain ⟨_, -, h0⟩ := h0
      simp only at h0
      rw [bind_ok] at h0
      obtain ⟨S, hS, -⟩ := h0
      have hS := npCholesky_ok.1 hS
      exact (cholesky_correlates (σ := ![q.riskVol, q.mediumVol, q.shortVol])
        (c := corr3 q.mediumRisk q.shortRisk q.shortMedium) hS
        (by intro i j; fin_cases i <;> fin_cases j <;> simp [RiskPrice.variance, corr3] <;> (ring_nf; try simp))
        (by intro i; fin_cases i <;> simp [corr3])).2.1 1
    exact (C69_diagonalizable_iff q.shortSpeed q.mediumSpeed q.mediumVol q.riskSpeed hκ.ne' hn).1 ⟨_, _, _, hd⟩

theorem chainResponse_exists (κ β n α : ℝ) (h1 : α ≠ β) (h2 : α ≠ κ) (h3 : β ≠ κ) : ∃ a b c d e f, ChainResponse κ β n α a b c d e f := by
  obtain ⟨g, hg⟩ := chain_diagonalizable κ β n α h1 h2 h3
  obtain ⟨h0, hd⟩ := isResponse_E hg
  generalize E g.values g.vectors g.inverse = Φ at h0 hd
  have k : ∀ u i j, HasDerivAt (fun u => Φ u i j)
      (-(chain κ β n α i 0 * Φ u 0 j + chain κ β n α i 1 * Φ u 1 j + chain κ β n α i 2 * Φ u 2 j)) u := by
    intro u i j
    refine HasDerivAt.congr_deriv (hd u i j) ?_
    rw [Matrix.mul_apply, Fin.sum_univ_three]
  have z01 : (fun u => Φ u 0 1) = fun _ => 0 := scalar_unique (a := α) (by simp [h0]) fun s => by
    refine HasDerivAt.congr_deriv (k s 0 1) ?_
    simp [chain]
  have z02 : (fun u => Φ u 0 2) = fun _ => 0 := scalar_unique (a := α) (by simp [h0]) fun s => by
    refine HasDerivAt.congr_deriv (k s 0 2) ?_
    simp [chain]
  have z12 : (fun u => Φ u 1 2) = fun _ => 0 := scalar_unique (a := β) (by simp [h0]) fun s => by
    refine HasDerivAt.congr_deriv (k s 1 2) ?_
    have : Φ s 0 2 = 0 := congrFun z02 s
    simp [chain, this]
  refine ⟨fun u => Φ u 0 0, fun u => Φ u 1 0, fun u => Φ u 1 1, fun u => Φ u 2 0, fun u => Φ u 2 1, fun u => Φ u 2 2, ?_⟩
  refine ⟨by simp [h0], by simp [h0], by simp [h0], by simp [h0], by simp [h0], by simp [h0], fun u => ?_, fun u => ?_, fun u => ?_,
    fun u => ?_, fun u => ?_, fun u => ?_⟩
  · refine HasDerivAt.congr_deriv (k u 0 0) ?_
    simp [chain]
  · refine HasDerivAt.congr_deriv (k u 1 0) ?_
    simp [chain]
    ring
  · refine HasDerivAt.congr_deriv (k u 1 1) ?_
    have : Φ u 0 1 = 0 := congrFun z01 u
    simp [chain, this]
  · refine HasDerivAt.congr_deriv (k u 2 0) ?_
    simp [chain]
    ring
  · refine HasDerivAt.congr_deriv (k u 2 1) ?_
    simp [chain]
    ring
  · refine HasDerivAt.congr_deriv (k u 2 2) ?_
    have : Φ u 1 2 = 0 := congrFun z12 u
    simp [chain, this]

theorem chainMean_exists (κ β n α m w : ℝ) (hβ : β ≠ 0) (h1 : α ≠ β) (h2 : α ≠ κ) (h3 : β ≠ κ) (x0 y0 r0 : ℝ) :
    ∃ x y r : ℝ → ℝ, x 0 = x0 ∧ y 0 = y0 ∧ r 0 = r0 ∧ (∀ s, HasDerivAt x (α * (m - x s)) s) ∧
      (∀ s, HasDerivAt y (β * (w - y s) + n * x s) s) ∧ ∀ s, HasDerivAt r (κ * (y s - r s)) s := by
  obtain ⟨g, hg⟩ := chain_diagonalizable κ β n α h1 h2 h3
  have h := meanState_spec hg ![m, w + n * m / β, w + n * m / β] ![x0, y0, r0]
  generalize meanState g.values g.vectors g.inverse ![m, w + n * m / β, w + n * m / β] ![x0, y0, r0] = M at h
  refine ⟨fun s => M s 0, fun s => M s 1, fun s => M s 2, congrFun h.1 0, congrFun h.1 1, congrFun h.1 2, fun s => ?_, fun s => ?_,
    fun s => ?_⟩
  · refine HasDerivAt.congr_deriv (h.2 s 0) ?_
    simp [Matrix.mulVec, dotProduct, Fin.sum_univ_three, chain]
  · refine HasDerivAt.congr_deriv (h.2 s 1) ?_
    simp [Matrix.mulVec, dotProduct, Fin.sum_univ_three, chain]
    field_simp
    ring
  · refine HasDerivAt.congr_deriv (h.2 s 2) ?_
    simp [Matrix.mulVec, dotProduct, Fin.sum_univ_three, chain]
    ring

/-- Concrete case for C69: with unit volatilities, no correlations and three different positive speeds both models are made, with any
state on their first day and prices two days ahead; and the functions of the theorems exist. -/
example (a b c m w : ℝ) (ha : 0 < a) (hb : 0 < b) (hc : 0 < c) (h1 : c ≠ b) (h2 : c ≠ a) (h3 : b ≠ a) (x y r : ℝ) (normals : Nat → Vec 3) :
    (∃ v, MadeTrebly ⟨a, 1, b, 1, m, c, 1, 0, 0, 0⟩ v ∧ v.time (v.purchase none) (T 2023 1 3) = .ok (2 / 365) ∧
      v.state (v.purchase none) = .ok ![x, y, r]) ∧
    (∃ v, MadeRiskPrice ⟨a, 1, b, 1, w, c, 1, m, 0, 0, 0⟩ v ∧ v.time (v.purchase none) (T 2023 1 3) = .ok (2 / 365) ∧
      v.state (v.purchase none) = .ok ![x, y, r]) ∧
    (∃ L R s, TreblyMean a b c m x y r L R s) ∧ (∃ l θ s, RiskPriceMean a b 1 w c m x y r l θ s) ∧
    (∃ k1 k2 k3 k4 k5 k6, ChainResponse a b b c k1 k2 k3 k4 k5 k6) ∧ ∃ k1 k2 k3 k4 k5 k6, ChainResponse a b 1 c k1 k2 k3 k4 k5 k6 := by
  refine ⟨?_, ?_, ?_, ?_, chainResponse_exists _ _ _ _ h1 h2 h3, chainResponse_exists _ _ _ _ h1 h2 h3⟩
  · have hch : npCholesky (Trebly.variance ⟨a, 1, b, 1, m, c, 1, 0, 0, 0⟩) = .ok 1 := by
      have : Trebly.variance ⟨a, 1, b, 1, m, c, 1, 0, 0, 0⟩ = 1 := by
        ext i j; fin_cases i <;> fin_cases j <;> simp [Trebly.variance]
      rw [this]; exact npCholesky_ok.2 isCholesky_one
    obtain ⟨g, hg⟩ := chain_diagonalizable a b b c h1 h2 h3
    have h0 : ∃ v0, Trebly.init ⟨a, 1, b, 1, m, c, 1, 0, 0, 0⟩ (T 2023 1 1) (T 2023 1 3) (.timedelta 86400000000) g = .ok v0 ∧
        v0.core.bm.start = T 2023 1 1 ∧ v0.core.bm.stop = T 2023 1 3 ∧
        v0.core.bm.dcc = .actAct ∧ v0.core.process.dt = .timedelta 86400000000 := by
      unfold Trebly.init
      rw [hch, ok_bind]
      exact ⟨_, rfl, rfl, rfl, rfl, rfl⟩
    obtain ⟨v0, e0, e1, e2, e3, e4⟩ := h0
    have hm0 : MadeTrebly ⟨a, 1, b, 1, m, c, 1, 0, 0, 0⟩ v0 := ⟨_, _, _, g, v0, [], e0, hg, rfl⟩
    obtain ⟨S, -, hmm⟩ := hm0.multi hc hb ha
    obtain ⟨v', g1, -, g3, g4, -, g6, -⟩ := multi_concrete hmm e1 e2 e3 e4 ![x, y, r] normals
    refine ⟨v', ⟨_, _, _, g, v0, [(![x, y, r], true, normals)], e0, hg, ?_⟩, ?_, ?_⟩
    · simp only [List.foldl_cons, List.foldl_nil]; rw [g1]
    · rw [show v'.purchase none = v'.core.bm.start from rfl, g3]; exact g6
    · rw [show v'.purchase none = v'.core.bm.start from rfl, g3]; exact g4
  · have hch : npCholesky (RiskPrice.variance ⟨a, 1, b, 1, w, c, 1, m, 0, 0, 0⟩) = .ok 1 := by
      have : RiskPrice.variance ⟨a, 1, b, 1, w, c, 1, m, 0, 0, 0⟩ = 1 := by
        ext i j; fin_cases i <;> fin_cases j <;> simp [RiskPrice.variance]
      rw [this]; exact npCholesky_ok.2 isCholesky_one
    obtain ⟨g, hg⟩ := chain_diagonalizable a b 1 c h1 h2 h3
    have h0 : ∃ v0, RiskPrice.init ⟨a, 1, b, 1, w, c, 1, m, 0, 0, 0⟩ (T 2023 1 1) (T 2023 1 3) (.timedelta 86400000000) g = .ok v0 ∧
        v0.core.bm.start = T 2023 1 1 ∧ v0.core.bm.stop = T 2023 1 3 ∧
        v0.core.bm.dcc = .actAct ∧ v0.core.process.dt = .timedelta 86400000000 := by
      unfold RiskPrice.init
      rw [floatDiv_of_ne hb.ne', ok_bind]
      simp only
      rw [hch, ok_bind]
      exact ⟨_, rfl, rfl, rfl, rfl, rfl⟩
    obtain ⟨v0, e0, e1, e2, e3, e4⟩ := h0
    have hm0 : MadeRiskPrice ⟨a, 1, b, 1, w, c, 1, m, 0, 0, 0⟩ v0 := ⟨_, _, _, g, v0, [], e0, hg, rfl⟩
    obtain ⟨S, -, hmm⟩ := hm0.multi hc hb ha
    obtain ⟨v', g1, -, g3, g4, -, g6, -⟩ := multi_concrete hmm e1 e2 e3 e4 ![x, y, r] normals
    refine ⟨v', ⟨_, _, _, g, v0, [(![x, y, r], true, normals)], e0, hg, ?_⟩, ?_, ?_⟩
    · simp only [List.foldl_cons, List.foldl_nil]; rw [g1]
    · rw [show v'.purchase none = v'.core.bm.start from rfl, g3]; exact g6
    · rw [show v'.purchase none = v'.core.bm.start from rfl, g3]; exact g4
  · obtain ⟨X, Y, R, i1, i2, i3, d1, d2, d3⟩ := chainMean_exists a b b c m 0 hb.ne' h1 h2 h3 x y r
    refine ⟨X, Y, R, i1, i2, i3, d1, fun s => ?_, d3⟩
    refine HasDerivAt.congr_deriv (d2 s) ?_
    ring
  · obtain ⟨X, Y, R, i1, i2, i3, d1, d2, d3⟩ := chainMean_exists a b 1 c m w hb.ne' h1 h2 h3 x y r
    refine ⟨X, Y, R, i1, i2, i3, d1, fun s => ?_, d3⟩
    refine HasDerivAt.congr_deriv (d2 s) ?_
    ring

end Verif.Props
