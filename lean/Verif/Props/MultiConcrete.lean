/- Concrete cases for C63-C68. -/
import Verif.Props.MeanReverting

namespace Verif.Props
open Verif.Spec (Forward StepLengths shock)
open Verif.Spec.Multi Verif.Spec.MeanReverting Verif.Multi Matrix MeasureTheory

variable {p : Nat}

/-- On a three-day grid of 2023 every multivariate model generates a path from every starting state with every draws. -/
theorem multi_concrete_built {μ : ℝ} {g θ : Vec p} {K S : Mat p} {v : MultiVasicek p} (h : BuiltMulti μ g θ K S v)
    (h1 : v.core.bm.start = T 2023 1 1) (h2 : v.core.bm.stop = T 2023 1 3) (h3 : v.core.bm.dcc = .actAct)
    (h4 : v.core.process.dt = .timedelta 86400000000) (x : Vec p) (normals : Nat → Vec p) :
    ∃ v', v.generatePath x true normals = (.ok (), v') ∧ v'.core.bm.start = T 2023 1 1 ∧
      v'.state (T 2023 1 1) = .ok x ∧ v'.time (T 2023 1 1) (T 2023 1 2) = .ok (1 / 365) ∧
      v'.time (T 2023 1 1) (T 2023 1 3) = .ok (2 / 365) ∧
      v'.time (T 2023 1 1) (T 2023 1 4) = .ok (3 / 365) := by
  have hg : BrownianMotion.makeGrid v.core.bm.start v.core.bm.stop v.core.process.dt = .ok [T 2023 1 1, T 2023 1 2, T 2023 1 3] := by
    rw [h1, h2, h4]
    decide +kernel
  have ha : BrownianMotion.accruals v.core.bm.dcc [T 2023 1 1, T 2023 1 2, T 2023 1 3] = .ok [1 / 365, 1 / 365] := by
    rw [h3]
    decide +kernel
  obtain ⟨path, d', b', hgen⟩ := C45_succeeds v.core.process v.core.bm x true normals _ _ hg ha
  have hgp : ∃ m', v.core.generatePath x true normals = (.ok (), m') := by
    obtain ⟨grid, dts, e1, e2, e3, e4, e5, e6, e7⟩ := C45_euler _ _ _ _ _ _ _ _ hgen
    unfold ShortRateModel.generatePath
    rw [hgen]
    rw [if_pos rfl] at e4
    have : d'.path = some path := by rw [e4]
    simp only [this]
    exact ⟨_, rfl⟩
  obtain ⟨m', hm'⟩ := hgp
  have hgv : v.generatePath x true normals = (.ok (), { v with core := m' }) := by
    unfold MultiVasicek.generatePath
    rw [hm']
  have hf : Forward v.core.process.dt := by rw [h4]; unfold Forward; norm_num
  obtain ⟨grid, dts, xs, g1, g2, g3, g4, g5, g6, g7, g8⟩ :=
    multi_simulated h hf (by rw [h1, h2]; decide +kernel) x normals _ hgv
  rw [hg] at g1
  injection g1 with g1
  subst g1
  simp only at g8
  refine ⟨_, hgv, ?_, ?_, ?_, ?_, ?_⟩
  · simp only [g8]; exact h1
  · have hl : 0 < xs.length := by rw [g3]; simp
    have := (g7 0 (by simp) hl).1
    have hx : xs[0] = x := by
      rw [List.head?_eq_getElem?, List.getElem?_eq_getElem hl] at g4
      exact Option.some.inj g4
    rw [hx] at this
    exact this
  all_goals
    unfold MultiVasicek.time
    simp only [g8, h3]
    decide +kernel

/-- ... and then meets the hypotheses of C63-C67 about maturities and states. -/
theorem multi_concrete {μ : ℝ} {g θ : Vec p} {K S : Mat p} {v : MultiVasicek p} (h : MadeMulti μ g θ K S v)
    (h1 : v.core.bm.start = T 2023 1 1) (h2 : v.core.bm.stop = T 2023 1 3) (h3 : v.core.bm.dcc = .actAct)
    (h4 : v.core.process.dt = .timedelta 86400000000) (x : Vec p) (normals : Nat → Vec p) :
    ∃ v', v.generatePath x true normals = (.ok (), v') ∧ MadeMulti μ g θ K S v' ∧ v'.core.bm.start = T 2023 1 1 ∧
      v'.state (T 2023 1 1) = .ok x ∧ v'.time (T 2023 1 1) (T 2023 1 2) = .ok (1 / 365) ∧
      v'.time (T 2023 1 1) (T 2023 1 3) = .ok (2 / 365) ∧
      v'.time (T 2023 1 1) (T 2023 1 4) = .ok (3 / 365) := by
  obtain ⟨v', e1, e2⟩ := multi_concrete_built h.built h1 h2 h3 h4 x normals
  refine ⟨v', e1, ?_, e2⟩
  have := h.generate x true normals
  rwa [e1] at this

/-! ### The documented equations of the doubly mean-reverting model have solutions -/

theorem doublyMean_exists (q : DoublyParams) (hne : q.longSpeed ≠ q.shortSpeed) (R0 r0 : ℝ) :
    ∃ R r, DoublyMean q.shortSpeed q.longSpeed q.mean R0 r0 R r := by
  obtain ⟨e, hd⟩ := doubly_diagonalizable q hne
  have h := meanState_spec hd (Doubly.level q) ![R0, r0]
  generalize meanState e.values e.vectors e.inverse (Doubly.level q) ![R0, r0] = m at h
  refine ⟨fun s => m s 0, fun s => m s 1, congrFun h.1 0, congrFun h.1 1, fun s => ?_, fun s => ?_⟩
  · refine HasDerivAt.congr_deriv (h.2 s 0) ?_
    simp [Matrix.mulVec, dotProduct, Fin.sum_univ_two, Doubly.reversion, Doubly.level]
  · refine HasDerivAt.congr_deriv (h.2 s 1) ?_
    simp [Matrix.mulVec, dotProduct, Fin.sum_univ_two, Doubly.reversion, Doubly.level]
    ring

theorem doublyResponse_exists (q : DoublyParams) (hne : q.longSpeed ≠ q.shortSpeed) :
    ∃ a b c, DoublyResponse q.shortSpeed q.longSpeed a b c := by
  have hd : q.shortSpeed - q.longSpeed ≠ 0 := sub_ne_zero.2 hne.symm
  refine ⟨fun u => Real.exp (-q.longSpeed * u),
    fun u => q.shortSpeed / (q.shortSpeed - q.longSpeed) * (Real.exp (-q.longSpeed * u) - Real.exp (-q.shortSpeed * u)),
    fun u => Real.exp (-q.shortSpeed * u), by simp, by simp, by simp, hasDerivAt_expNeg _, fun u => ?_, hasDerivAt_expNeg _⟩
  refine HasDerivAt.congr_deriv (((hasDerivAt_expNeg q.longSpeed u).sub (hasDerivAt_expNeg q.shortSpeed u)).const_mul _) ?_
  field_simp
  ring

theorem doublyCovariance_exists (q : DoublyParams) (hne : q.longSpeed ≠ q.shortSpeed) (hα : 0 < q.longSpeed) (hκ : 0 < q.shortSpeed)
    (hv : q.longVol ≠ 0 ∧ q.shortVol ≠ 0 ∧ q.correlation ^ 2 < 1) :
    ∃ vL vLr vr, DoublyCovariance q.shortSpeed q.longSpeed q.longVol q.shortVol q.correlation vL vLr vr := by
  obtain ⟨S, hS⟩ := (cholesky2_exists q).2 hv
  obtain ⟨e, hd⟩ := doubly_diagonalizable q hne
  have hl : ∀ i j, e.values i + e.values j ≠ 0 := by
    intro i j
    have hp : ∀ i, 0 < e.values i := by
      intro i
      obtain ⟨a, ha, -⟩ := eig_of_lower (lower2 q) hd i
      rw [ha]
      fin_cases a
      · simpa [Doubly.reversion] using hα
      · simpa [Doubly.reversion] using hκ
    exact (add_pos (hp i) (hp j)).ne'
  have h := covState_spec hd hl S
  generalize covState e.values e.vectors e.inverse (S * Sᵀ) = V at h
  rw [IsCovariance, hS.2.2] at h
  have e0 : ∀ i j, V 0 i j = 0 := fun i j => by rw [h.1]; rfl
  have d01 := fun s => h.2 s 0 1
  have d10 := fun s => h.2 s 1 0
  have d00 := fun s => h.2 s 0 0
  have d11 := fun s => h.2 s 1 1
  simp only [Matrix.sub_apply, Matrix.mul_apply, Matrix.transpose_apply, Fin.sum_univ_two, Doubly.reversion, Doubly.variance, Matrix.of_apply,
        Matrix.cons_val', Matrix.cons_val_zero, Matrix.cons_val_one, Matrix.cons_val_fin_one] at d00 d01 d10 d11
  have hsym : ∀ s, V s 1 0 = V s 0 1 := by
    have := scalar_unique (a := q.longSpeed + q.shortSpeed) (y := fun s => V s 1 0 - V s 0 1) (by simp [e0]) (by
      intro s
      refine HasDerivAt.congr_deriv ((d10 s).sub (d01 s)) ?_
      ring)
    intro s
    have h0 : V s 1 0 - V s 0 1 = 0 := congrFun this s
    linarith
  refine ⟨fun s => V s 0 0, fun s => V s 0 1, fun s => V s 1 1, e0 _ _, e0 _ _, e0 _ _, fun s => ?_, fun s => ?_, fun s => ?_⟩
  · refine HasDerivAt.congr_deriv (d00 s) ?_
    ring
  · refine HasDerivAt.congr_deriv (d01 s) ?_
    ring
  · refine HasDerivAt.congr_deriv (d11 s) ?_
    rw [hsym s]
    ring

/-- Concrete case for C68, C64_forward_false and C65_covariance_false: for all proper parameters with different speeds there is a doubly
mean-reverting model with any state on its first day, three days in 2023, and the functions the theorems speak of. -/
theorem doubly_concrete (q : DoublyParams) (hne : q.longSpeed ≠ q.shortSpeed) (hα : 0 < q.longSpeed) (hκ : 0 < q.shortSpeed)
    (hv : q.longVol ≠ 0 ∧ q.shortVol ≠ 0 ∧ q.correlation ^ 2 < 1) (R0 r0 : ℝ) (normals : Nat → Vec 2) :
    ∃ v v' : Doubly, MadeDoubly q v ∧ v.generatePath ![R0, r0] true normals = (.ok (), v') ∧ MadeDoubly q v' ∧
      Forward v.base.core.process.dt ∧ v.base.core.bm.start ≤ v.base.core.bm.stop ∧
      v'.base.purchase none = T 2023 1 1 ∧ v'.base.state (T 2023 1 1) = .ok ![R0, r0] ∧
      v'.base.time (T 2023 1 1) (T 2023 1 2) = .ok (1 / 365) ∧ v'.base.time (T 2023 1 1) (T 2023 1 3) = .ok (2 / 365) ∧
      (∃ R r, DoublyMean q.shortSpeed q.longSpeed q.mean R0 r0 R r) ∧ (∃ a b c, DoublyResponse q.shortSpeed q.longSpeed a b c) ∧
      ∃ vL vLr vr, DoublyCovariance q.shortSpeed q.longSpeed q.longVol q.shortVol q.correlation vL vLr vr := by
  obtain ⟨e, hd⟩ := doubly_diagonalizable q hne
  obtain ⟨v, hc, -⟩ := (C68_doubly_constructor q (T 2023 1 1) (T 2023 1 3) (.timedelta 86400000000) e 0).1 hv
  have hm : MadeDoubly q v := ⟨_, _, _, e, 0, v, [], hc, hd, rfl⟩
  obtain ⟨S, hS, hmm, h3, -⟩ := hm.multi hα hκ
  have hb : v.base.core.bm.start = T 2023 1 1 ∧ v.base.core.bm.stop = T 2023 1 3 ∧ v.base.core.process.dt = .timedelta 86400000000 := by
    unfold Doubly.create at hc
    rw [bind_ok] at hc
    obtain ⟨_, -, hc⟩ := hc
    injection hc with hc
    subst hc
    exact ⟨rfl, rfl, rfl⟩
  obtain ⟨w, g1, g2, g3, g4, g5, g6, g7⟩ := multi_concrete hmm hb.1 hb.2.1 h3 hb.2.2 ![R0, r0] normals
  have hgen : v.generatePath ![R0, r0] true normals = (.ok (), { v with base := w }) := by
    unfold Doubly.generatePath
    rw [g1]
  refine ⟨v, { v with base := w }, hm, hgen, ⟨_, _, _, e, 0, v, [(![R0, r0], true, normals)], hc, hd, ?_⟩, ?_, ?_, g3, g4, g5, g6,
    doublyMean_exists q hne R0 r0, doublyResponse_exists q hne, doublyCovariance_exists q hne hα hκ hv⟩
  · simp only [List.foldl_cons, List.foldl_nil]
    rw [hgen]
  · rw [hb.2.2]; unfold Forward; norm_num
  · rw [hb.1, hb.2.1]; decide +kernel

example : ∃ q : DoublyParams, q.longSpeed ≠ q.shortSpeed ∧ 0 < q.longSpeed ∧ 0 < q.shortSpeed ∧
    (q.longVol ≠ 0 ∧ q.shortVol ≠ 0 ∧ q.correlation ^ 2 < 1) ∧ q.correlation = 0 := ⟨⟨2, 1, 1, 1, 1, 0⟩, by norm_num⟩

/-! ### A two-factor model with a diagonal reversion matrix -/

theorem diagonal_model : ∃ v : MultiVasicek 2, MadeMulti 0 ![1, 1] 0 (diagonal ![1, 2]) 0 v ∧ v.eig.vectors = 1 ∧
    (diagonal ![(1 : ℝ), 2])ᵀ = diagonal ![1, 2] ∧ v.purchase none = T 2023 1 1 ∧ v.state (T 2023 1 1) = .ok 0 ∧
    v.time (T 2023 1 1) (T 2023 1 2) = .ok (1 / 365) ∧ v.time (T 2023 1 1) (T 2023 1 3) = .ok (2 / 365) ∧
    v.time (T 2023 1 1) (T 2023 1 4) = .ok (3 / 365) := by
  have hd : Diagonalizes (diagonal ![(1 : ℝ), 2]) ![1, 2] 1 1 := ⟨by simp, by simp⟩
  have hm : MadeMulti 0 ![1, 1] 0 (diagonal ![(1 : ℝ), 2]) 0 (MultiVasicek.init 0 ![1, 1] 0 (diagonal ![1, 2]) 0 ⟨![1, 2], 1, 1⟩
      (BrownianMotion.standard 2 (T 2023 1 1) (T 2023 1 3)) (.timedelta 86400000000)) := by
    refine ⟨_, _, _, [], hd, ?_, rfl⟩
    intro i j
    fin_cases i <;> fin_cases j <;> norm_num
  obtain ⟨v, g1, g2, g3, g4, g5, g6, g7⟩ := multi_concrete hm rfl rfl rfl rfl 0 (fun _ => 0)
  refine ⟨v, g2, ?_, by simp, g3, g4, g5, g6, g7⟩
  unfold MultiVasicek.generatePath at g1
  simp only [Prod.mk.injEq] at g1
  rw [← g1.2]
  rfl

/-- Concrete case for C65_covariance_rotated: a symmetric reversion matrix that is not diagonal, with orthogonal eigenvectors. -/
example : ∃ (K : Mat 2) (v : MultiVasicek 2), MadeMulti 0 ![1, 1] 0 K (diagonal ![1, 0]) v ∧ v.eig.inverse = v.eig.vectorsᵀ ∧
    K 0 1 ≠ 0 ∧ v.time (v.purchase none) (T 2023 1 3) = .ok (2 / 365) ∧ (∃ V, IsCovariance K (diagonal ![(1 : ℝ), 0]) V) := by
  have hd : Diagonalizes (!![41 / 25, -12 / 25; -12 / 25, 34 / 25] : Mat 2) ![1, 2] !![3 / 5, -4 / 5; 4 / 5, 3 / 5]
      !![3 / 5, 4 / 5; -4 / 5, 3 / 5] := by
    constructor
    · ext i j; fin_cases i <;> fin_cases j <;> norm_num [Matrix.mul_apply, Fin.sum_univ_two, Matrix.diagonal, Matrix.vecHead, Matrix.vecTail]
    · ext i j; fin_cases i <;> fin_cases j <;> norm_num [Matrix.mul_apply, Fin.sum_univ_two]
  have hl : ∀ i j, (![1, 2] : Vec 2) i + (![1, 2] : Vec 2) j ≠ 0 := by
    intro i j; fin_cases i <;> fin_cases j <;> norm_num
  refine ⟨_, MultiVasicek.init 0 ![1, 1] 0 _ (diagonal ![1, 0]) ⟨![1, 2], !![3 / 5, -4 / 5; 4 / 5, 3 / 5], !![3 / 5, 4 / 5; -4 / 5, 3 / 5]⟩
    (BrownianMotion.standard 2 (T 2023 1 1) (T 2023 1 3)) (.timedelta 86400000000), ⟨_, _, _, [], hd, hl, rfl⟩, ?_, ?_, ?_,
    ⟨_, covState_spec hd hl _⟩⟩
  · ext i j; fin_cases i <;> fin_cases j <;> simp [MultiVasicek.init, Matrix.transpose_apply]
  · norm_num
  · unfold MultiVasicek.time; decide +kernel

/-- Concrete case for C67: three bonds in the two-factor model; `weights_for_riskless_portfolio` answers. -/
theorem riskless_concrete : ∃ (v : MultiVasicek 2) (w : List ℝ), MadeMulti 0 ![1, 1] 0 (diagonal ![1, 2]) 0 v ∧
    v.risklessWeights [T 2023 1 2, T 2023 1 3, T 2023 1 4] none = .ok w := by
  obtain ⟨v, hm, he, -, hs, hx, t1, t2, t3⟩ := diagonal_model
  refine ⟨v, ?_⟩
  obtain ⟨P, -, -, hP, -⟩ := C63_pricing_equation hm
  have hd := hm.params.2.2.2.2.2.2.1
  have hinv : v.eig.inverse = 1 := by have := hd.inv; rwa [he, Matrix.one_mul] at this
  have hl : v.eig.values = ![1, 2] := by
    have := hd.eq
    rw [he, hinv, Matrix.one_mul, Matrix.mul_one] at this
    exact (diagonal_injective this).symm
  have hgrad : ∀ t : ℝ, 0 ≤ t → grad (P t) 0 = ![Real.exp (-t) - 1, (Real.exp (-t) ^ 2 - 1) / 2] := by
    intro t ht
    have hPt : P t = fun x => Real.exp (mA v.eig.values v.eig.vectors v.eig.inverse (0 * 0ᵀ) 0 ![1, 1] 0 t +
        mB v.eig.values v.eig.vectors v.eig.inverse ![1, 1] t ⬝ᵥ x) := funext fun x => isPrice_closed hm hP ht x
    have hA : mA v.eig.values v.eig.vectors v.eig.inverse (0 * 0ᵀ) 0 ![1, 1] 0 t = 0 := by
      unfold mA
      simp
      have hz : (Matrix.of fun (_ _ : Fin 2) => (0 : ℝ)) = 0 := rfl
      rw [hz]
      simp
    have e2 : Real.exp (-(2 * t)) = Real.exp (-t) ^ 2 := by rw [← Real.exp_nat_mul]; congr 1; push_cast; ring
    rw [hPt, grad_expAffine, hA, he, hinv, hl]
    unfold mB Rinv E
    ext i
    fin_cases i
    · simp [Matrix.mulVec, dotProduct, Fin.sum_univ_two]
    · simp [Matrix.mulVec, dotProduct, Fin.sum_univ_two, e2]
      ring
  let T' : PyDatetime → ℚ := fun m => if m = T 2023 1 2 then 1 / 365 else if m = T 2023 1 3 then 2 / 365 else 3 / 365
  have v1 : T' (T 2023 1 2) = 1 / 365 := by simp [T']
  have v2 : T' (T 2023 1 3) = 2 / 365 := by
    have : T 2023 1 3 ≠ T 2023 1 2 := by decide +kernel
    simp [T', this]
  have v3 : T' (T 2023 1 4) = 3 / 365 := by
    have h1 : T 2023 1 4 ≠ T 2023 1 2 := by decide +kernel
    have h2 : T 2023 1 4 ≠ T 2023 1 3 := by decide +kernel
    simp [T', h1, h2]
  have hT : ∀ m ∈ [T 2023 1 2, T 2023 1 3, T 2023 1 4], v.time (v.purchase none) m = .ok (T' m) ∧ 0 ≤ T' m := by
    intro m hmem
    simp only [List.mem_cons, List.not_mem_nil, or_false] at hmem
    rw [hs]
    rcases hmem with rfl | rfl | rfl
    · rw [v1]; exact ⟨t1, by norm_num⟩
    · rw [v2]; exact ⟨t2, by norm_num⟩
    · rw [v3]; exact ⟨t3, by norm_num⟩
  obtain ⟨w, hw⟩ := ((C67_succeeds hm _ none T' 0 hT (by rw [hs]; exact hx) P hP).2 rfl).2 (by
    rintro ⟨c, hc, h0⟩
    apply hc
    have h0' := h0
    simp only [Fin.sum_univ_two] at h0'
    have a0 := h0' 0
    have a1 := h0' 1
    simp only [Fin.val_zero, Fin.val_one, List.getElem_cons_zero, List.getElem_cons_succ] at a0 a1
    rw [v1, v2, v3, hgrad _ (by norm_num), hgrad _ (by norm_num), hgrad _ (by norm_num)] at a0 a1
    simp only [Matrix.cons_val_zero, Matrix.cons_val_one] at a0 a1
    have hne : ∀ a b : ℚ, a ≠ b → Real.exp (-(a : ℝ)) - Real.exp (-(b : ℝ)) ≠ 0 := by
      intro a b hab hz
      have := Real.exp_injective (sub_eq_zero.1 hz)
      exact hab (by exact_mod_cast neg_injective this)
    have n12 := hne (1 / 365) (2 / 365) (by norm_num)
    have n13 := hne (1 / 365) (3 / 365) (by norm_num)
    have n23 := hne (2 / 365) (3 / 365) (by norm_num)
    generalize Real.exp (-((1 / 365 : ℚ) : ℝ)) = y1 at *
    generalize Real.exp (-((2 / 365 : ℚ) : ℝ)) = y2 at *
    generalize Real.exp (-((3 / 365 : ℚ) : ℝ)) = y3 at *
    have c0 : c 0 = 0 := by
      apply mul_right_cancel₀ (mul_ne_zero n13 n12)
      linear_combination 2 * a1 - (y2 + y3) * a0
    have c1 : c 1 = 0 := by
      apply mul_right_cancel₀ n23
      rw [c0] at a0
      linear_combination a0
    funext i
    fin_cases i
    · exact c0
    · exact c1)
  exact ⟨w, hm, hw⟩

end Verif.Props
