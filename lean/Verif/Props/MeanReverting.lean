/- C68: the doubly and trebly mean-reverting models and the model with a stochastic market price of risk. -/
import Verif.Model.MeanReverting
import Verif.Lemmas.MeanReverting
import Verif.Spec.MeanReverting
import Verif.Props.Riskless
import Mathlib.Data.Matrix.Reflection

namespace Verif.Props
open Verif.Spec (Forward StepLengths shock)
open Verif.Spec.Multi Verif.Spec.MeanReverting Verif.Multi Matrix MeasureTheory

variable {p : Nat}

/-- Simulated paths of a multivariate model: the state variables start at the given values and follow the Euler scheme of the model's
equation, the model reads back state variables and short rate on its grid, and its short-rate path is the affine function of them. -/
theorem multi_simulated {μ : ℝ} {g θ : Vec p} {K S : Mat p} {v : MultiVasicek p} (h : BuiltMulti μ g θ K S v)
    (hf : Forward v.core.process.dt) (hle : v.core.bm.start ≤ v.core.bm.stop) (x0 : Vec p) (normals : Nat → Vec p) (v' : MultiVasicek p)
    (hv : v.generatePath x0 true normals = (.ok (), v')) :
    ∃ (grid : List PyDatetime) (dts : List ℚ) (xs : List (Vec p)),
      BrownianMotion.makeGrid v.core.bm.start v.core.bm.stop v.core.process.dt = .ok grid ∧ StepLengths v.core.bm.dcc grid dts ∧
      xs.length = grid.length ∧ xs.head? = some x0 ∧
      (∀ k (h1 : k < dts.length) (h2 : k + 1 < xs.length),
        xs[k + 1] = xs[k] + (dts[k] : ℝ) • (K *ᵥ (θ - xs[k])) + S *ᵥ shock v.core.bm.chol normals dts k h1) ∧
      v'.core.path = some (xs.map fun x => μ + g ⬝ᵥ x) ∧
      (∀ k (h1 : k < grid.length) (h2 : k < xs.length), v'.state grid[k] = .ok xs[k] ∧ v'.call grid[k] = .ok (μ + g ⬝ᵥ xs[k])) ∧
      v'.core.bm = { v.core.bm with grid := some grid } := by
  obtain ⟨d1, d2⟩ := h.dynamics
  unfold MultiVasicek.generatePath at hv
  simp only [Prod.mk.injEq] at hv
  obtain ⟨hv1, hv2⟩ := hv
  obtain ⟨grid, dts, xs, e1, e2, e3, e4, e5, e6, e7⟩ := shortRate_generate v.core v'.core hf hle x0 normals (by
    rw [← hv2, ← hv1])
  refine ⟨grid, dts, xs, e1, e2, e3, e4, ?_, ?_, ?_, ?_⟩
  · intro k h1 h2
    rw [e5 k h1 h2, d1]
    funext i
    simp only [MultiVasicek.driftDiffusion, Pi.add_apply, Pi.smul_apply, smul_eq_mul, Matrix.mulVec]
    rw [add_assoc]
    congr 1
    rw [mul_comm]
    rfl
  · rw [e6, d2]
  · intro k h1 h2
    refine ⟨e7 k h1 h2, ?_⟩
    unfold MultiVasicek.call ShortRateModel.call
    rw [e7 k h1 h2, ok_bind, e6, d2]
  · rw [e6]

theorem shortRate_generate_bm (m : ShortRateModel p) (x0 : Vec p) (set : Bool) (normals : Nat → Vec p) :
    (m.generatePath x0 set normals).2.bm.dcc = m.bm.dcc ∧ (m.generatePath x0 set normals).2.bm.chol = m.bm.chol ∧
    (m.generatePath x0 set normals).2.bm.start = m.bm.start ∧ (m.generatePath x0 set normals).2.bm.stop = m.bm.stop ∧
    (m.generatePath x0 set normals).2.process.dt = m.process.dt := by
  unfold ShortRateModel.generatePath
  rcases hg : m.process.generatePath m.bm x0 set normals with ⟨r, d, b⟩
  have hb : b.dcc = m.bm.dcc ∧ b.chol = m.bm.chol ∧ b.start = m.bm.start ∧ b.stop = m.bm.stop ∧ d.dt = m.process.dt := by
    unfold Diffusion.generatePath BrownianMotion.generateIncrements at hg
    have hx : ∀ (o : Except PyErr (List (Vec p) × List ℚ) × BrownianMotion p) (q : Except PyErr (List (Vec p)) × Diffusion p × BrownianMotion p),
        (match o with
          | (.error e, b') => (.error e, m.process, b')
          | (.ok r, b') =>
            let path := Diffusion.euler m.process.coords (r.1.zip r.2) 0 x0
            (.ok path, if set then { m.process with path := some path } else m.process, b')) = q →
        (o.2.dcc = m.bm.dcc ∧ o.2.chol = m.bm.chol ∧ o.2.start = m.bm.start ∧ o.2.stop = m.bm.stop) →
        q.2.2.dcc = m.bm.dcc ∧ q.2.2.chol = m.bm.chol ∧ q.2.2.start = m.bm.start ∧ q.2.2.stop = m.bm.stop ∧ q.2.1.dt = m.process.dt := by
      intro o q h ho
      rcases o with ⟨_ | r, b'⟩
      · subst h; exact ⟨ho.1, ho.2.1, ho.2.2.1, ho.2.2.2, rfl⟩
      · subst h
        refine ⟨ho.1, ho.2.1, ho.2.2.1, ho.2.2.2, ?_⟩
        simp only
        split <;> rfl
    refine hx _ _ hg ?_
    split
    · exact ⟨rfl, rfl, rfl, rfl⟩
    · split
      · exact ⟨rfl, rfl, rfl, rfl⟩
      · split
        · exact ⟨rfl, rfl, rfl, rfl⟩
        · exact ⟨rfl, rfl, rfl, rfl⟩
  cases r with
  | error e => exact hb
  | ok path =>
    simp only
    rcases hp : d.path with _ | cols
    · exact hb
    · exact hb

/-- Path generations keep a model a model. -/
theorem MadeMulti.generate {μ : ℝ} {g θ : Vec p} {K S : Mat p} {v : MultiVasicek p} (h : MadeMulti μ g θ K S v) (x0 : Vec p) (set : Bool)
    (normals : Nat → Vec p) : MadeMulti μ g θ K S (v.generatePath x0 set normals).2 := by
  obtain ⟨e, bm, dt, ops, h1, h2, rfl⟩ := h
  exact ⟨e, bm, dt, ops ++ [(x0, set, normals)], h1, h2, by simp⟩

/-- A lower triangular reversion matrix with positive diagonal, correctly diagonalized, gives a proper model. -/
theorem madeMulti_init {μ : ℝ} {g θ : Vec p} {K S : Mat p} (e : Eig p) (bm : BrownianMotion p) (dt : DtIncrement)
    (hd : Diagonalizes K e.values e.vectors e.inverse) (ht : ∀ i j, i < j → K i j = 0) (hpos : ∀ i, 0 < K i i) :
    MadeMulti μ g θ K S (MultiVasicek.init μ g θ K S e bm dt) := by
  refine ⟨e, bm, dt, [], hd, ?_, rfl⟩
  intro i j
  obtain ⟨a, ha, -⟩ := eig_of_lower ht hd i
  obtain ⟨b, hb, -⟩ := eig_of_lower ht hd j
  rw [ha, hb]
  have := hpos a
  have := hpos b
  positivity

/-! ## The doubly mean-reverting model -/

/-- The correlation matrix of the two shocks. -/
def corr2 (ρ : ℝ) : Mat 2 := !![1, ρ; ρ, 1]

/-- `v` is a doubly mean-reverting model made with these parameters, after any number of path generations, numpy having returned a correct
diagonalization of the reversion matrix. -/
def MadeDoubly (q : DoublyParams) (v : Doubly) : Prop :=
  ∃ (start stop : PyDatetime) (dt : DtIncrement) (e : Eig 2) (garbage : Vec 2) (v0 : Doubly)
    (ops : List (Vec 2 × Bool × (Nat → Vec 2))), Doubly.create q start stop dt e garbage = .ok v0 ∧
    Diagonalizes (Doubly.reversion q) e.values e.vectors e.inverse ∧
    v = ops.foldl (fun v op => (v.generatePath op.1 op.2.1 op.2.2).2) v0

/-- `v` is a doubly mean-reverting model made with these parameters, after any number of path generations, whatever numpy returned as
eigenvalues and eigenvectors. -/
def BuiltDoubly (q : DoublyParams) (v : Doubly) : Prop :=
  ∃ (start stop : PyDatetime) (dt : DtIncrement) (e : Eig 2) (garbage : Vec 2) (v0 : Doubly)
    (ops : List (Vec 2 × Bool × (Nat → Vec 2))), Doubly.create q start stop dt e garbage = .ok v0 ∧
    v = ops.foldl (fun v op => (v.generatePath op.1 op.2.1 op.2.2).2) v0

theorem MadeDoubly.built {q : DoublyParams} {v : Doubly} (h : MadeDoubly q v) : BuiltDoubly q v := by
  obtain ⟨a, b, c, d, e, f, g, h1, -, h2⟩ := h
  exact ⟨a, b, c, d, e, f, g, h1, h2⟩

theorem BuiltMulti.generate {μ : ℝ} {g θ : Vec p} {K S : Mat p} {v : MultiVasicek p} (h : BuiltMulti μ g θ K S v) (x0 : Vec p) (set : Bool)
    (normals : Nat → Vec p) : BuiltMulti μ g θ K S (v.generatePath x0 set normals).2 := by
  obtain ⟨e, bm, dt, ops, rfl⟩ := h
  exact ⟨e, bm, dt, ops ++ [(x0, set, normals)], by simp⟩

theorem BuiltDoubly.multi {q : DoublyParams} {v : Doubly} (h : BuiltDoubly q v) :
    ∃ S, IsCholesky (Doubly.variance q) S ∧ BuiltMulti 0 ![0, 1] (Doubly.level q) (Doubly.reversion q) S v.base ∧
      v.base.core.bm.dcc = .actAct ∧ v.base.core.bm.chol = (1 : Mat 2) := by
  obtain ⟨start, stop, dt, e, garbage, v0, ops, h0, rfl⟩ := h
  unfold Doubly.create at h0
  rw [bind_ok] at h0
  obtain ⟨S, hS, h0⟩ := h0
  injection h0 with h0
  refine ⟨S, npCholesky_ok.1 hS, ?_⟩
  have hv0 : BuiltMulti 0 ![0, 1] (Doubly.level q) (Doubly.reversion q) S v0.base ∧ v0.base.core.bm.dcc = .actAct ∧
      v0.base.core.bm.chol = (1 : Mat 2) := by
    subst h0
    exact ⟨⟨e, _, dt, [], rfl⟩, rfl, rfl⟩
  clear h0
  induction ops generalizing v0 with
  | nil => exact hv0
  | cons op ops ih =>
    rw [List.foldl_cons]
    apply ih
    refine ⟨hv0.1.generate op.1 op.2.1 op.2.2, ?_⟩
    have := shortRate_generate_bm v0.base.core op.1 op.2.1 op.2.2
    exact ⟨this.1.trans hv0.2.1, this.2.1.trans hv0.2.2⟩

theorem lower2 (q : DoublyParams) (i j : Fin 2) (h : i < j) : Doubly.reversion q i j = 0 := by
  fin_cases i <;> fin_cases j <;> simp_all [Doubly.reversion]

theorem MadeDoubly.multi {q : DoublyParams} {v : Doubly} (h : MadeDoubly q v) (hα : 0 < q.longSpeed) (hκ : 0 < q.shortSpeed) :
    ∃ S, IsCholesky (Doubly.variance q) S ∧ MadeMulti 0 ![0, 1] (Doubly.level q) (Doubly.reversion q) S v.base ∧
      v.base.core.bm.dcc = .actAct ∧ v.base.core.bm.chol = (1 : Mat 2) := by
  obtain ⟨start, stop, dt, e, garbage, v0, ops, h0, hd, rfl⟩ := h
  unfold Doubly.create at h0
  rw [bind_ok] at h0
  obtain ⟨S, hS, h0⟩ := h0
  injection h0 with h0
  refine ⟨S, npCholesky_ok.1 hS, ?_⟩
  have hv0 : MadeMulti 0 ![0, 1] (Doubly.level q) (Doubly.reversion q) S v0.base ∧ v0.base.core.bm.dcc = .actAct ∧
      v0.base.core.bm.chol = (1 : Mat 2) := by
    subst h0
    refine ⟨madeMulti_init e _ dt hd (lower2 q) ?_, rfl, rfl⟩
    intro i
    fin_cases i
    · simpa [Doubly.reversion] using hα
    · simpa [Doubly.reversion] using hκ
  clear h0
  induction ops generalizing v0 with
  | nil => exact hv0
  | cons op ops ih =>
    rw [List.foldl_cons]
    apply ih
    refine ⟨hv0.1.generate op.1 op.2.1 op.2.2, ?_⟩
    have := shortRate_generate_bm v0.base.core op.1 op.2.1 op.2.2
    exact ⟨this.1.trans hv0.2.1, this.2.1.trans hv0.2.2⟩

theorem cholesky2 {q : DoublyParams} {S : Mat 2} (h : IsCholesky (Doubly.variance q) S) :
    S 0 1 = 0 ∧ 0 < S 0 0 ∧ 0 < S 1 1 ∧ S 0 0 * S 0 0 = q.longVol ^ 2 ∧ S 0 0 * S 1 0 = q.shortVol * q.longVol * q.correlation ∧
    S 1 0 * S 1 0 + S 1 1 * S 1 1 = q.shortVol ^ 2 := by
  obtain ⟨t, d, e⟩ := h
  have h01 := t 0 1 (by decide)
  have e00 := congrFun (congrFun e 0) 0
  have e01 := congrFun (congrFun e 0) 1
  have e11 := congrFun (congrFun e 1) 1
  simp only [Matrix.mul_apply, Matrix.transpose_apply, Fin.sum_univ_two, h01, Doubly.variance] at e00 e01 e11
  simp at e00 e01 e11
  exact ⟨h01, d 0, d 1, e00, e01, e11⟩

theorem cholesky2_exists (q : DoublyParams) :
    (∃ S, IsCholesky (Doubly.variance q) S) ↔ q.longVol ≠ 0 ∧ q.shortVol ≠ 0 ∧ q.correlation ^ 2 < 1 := by
  constructor
  · rintro ⟨S, h⟩
    obtain ⟨-, p0, p1, e0, e1, e2⟩ := cholesky2 h
    have hdet : q.longVol ^ 2 * q.shortVol ^ 2 * (1 - q.correlation ^ 2) = (S 0 0 * S 1 1) ^ 2 := by
      linear_combination q.shortVol ^ 2 * (-e0) - (S 0 0 * S 0 0) * e2 + (S 0 0 * S 1 0 + q.shortVol * q.longVol * q.correlation) * e1
    have hpos : 0 < q.longVol ^ 2 * q.shortVol ^ 2 * (1 - q.correlation ^ 2) := by rw [hdet]; positivity
    refine ⟨?_, ?_, ?_⟩
    · intro h0; rw [h0] at hpos; simp at hpos
    · intro h0; rw [h0] at hpos; simp at hpos
    · by_contra hge
      push Not at hge
      have : q.longVol ^ 2 * q.shortVol ^ 2 * (1 - q.correlation ^ 2) ≤ 0 :=
        mul_nonpos_of_nonneg_of_nonpos (by positivity) (by linarith)
      linarith
  · rintro ⟨h1, h2, h3⟩
    have hs : Real.sqrt (1 - q.correlation ^ 2) ^ 2 = 1 - q.correlation ^ 2 := Real.sq_sqrt (by linarith)
    have hsp : 0 < Real.sqrt (1 - q.correlation ^ 2) := Real.sqrt_pos.2 (by linarith)
    have ha : |q.longVol| * |q.longVol| = q.longVol ^ 2 := by rw [abs_mul_abs_self]; ring
    have hb : |q.shortVol| * |q.shortVol| = q.shortVol ^ 2 := by rw [abs_mul_abs_self]; ring
    have hla : |q.longVol| ≠ 0 := by simpa using h1
    refine ⟨!![|q.longVol|, 0; q.shortVol * q.longVol * q.correlation / |q.longVol|, |q.shortVol| * Real.sqrt (1 - q.correlation ^ 2)], ?_, ?_, ?_⟩
    · intro i j hij
      fin_cases i <;> fin_cases j <;> simp_all
    · intro i
      fin_cases i
      · simpa using h1
      · simp only [Fin.mk_one, Matrix.of_apply, Matrix.cons_val', Matrix.cons_val_one, Matrix.cons_val_fin_one]
        have : 0 < |q.shortVol| := abs_pos.2 h2
        positivity
    · ext i j
      have hdiv : q.shortVol * q.longVol * q.correlation / |q.longVol| * (q.shortVol * q.longVol * q.correlation / |q.longVol|) =
          q.shortVol ^ 2 * q.correlation ^ 2 := by
        rw [div_mul_div_comm, ha]
        field_simp
      fin_cases i <;> fin_cases j <;>
        simp only [Matrix.mul_apply, Matrix.transpose_apply, Fin.sum_univ_two, Doubly.variance, Fin.mk_one, Fin.zero_eta, Fin.isValue,
          Matrix.of_apply, Matrix.cons_val', Matrix.cons_val_zero, Matrix.cons_val_one, Matrix.cons_val_fin_one, mul_zero, zero_mul, add_zero]
      · exact ha
      · field_simp
      · field_simp
      · rw [hdiv, mul_mul_mul_comm, hb, ← sq (Real.sqrt _), hs]
        ring

/-- C68. The doubly mean-reverting model is made for every volatilities but zero and every correlation strictly between -1 and 1, and
refused otherwise (LinAlgError). -/
theorem C68_doubly_constructor (q : DoublyParams) (start stop : PyDatetime) (dt : DtIncrement) (e : Eig 2) (garbage : Vec 2) :
    (q.longVol ≠ 0 ∧ q.shortVol ≠ 0 ∧ q.correlation ^ 2 < 1 → ∃ v, Doubly.create q start stop dt e garbage = .ok v ∧ v.pars = q) ∧
    (¬ (q.longVol ≠ 0 ∧ q.shortVol ≠ 0 ∧ q.correlation ^ 2 < 1) → Doubly.create q start stop dt e garbage = .error .linAlgError) := by
  rw [← cholesky2_exists]
  unfold Doubly.create
  constructor
  · rintro ⟨S, hS⟩
    rw [npCholesky_ok.2 hS, ok_bind]
    exact ⟨_, rfl, rfl⟩
  · intro h
    rw [npCholesky_error h]
    rfl

/-- C68. Simulated paths of the doubly mean-reverting model follow the documented equations: with `(R, r)` the long-term and the short rate,
`R` moves by `α(β - R)dt + σ_R dW_R` and `r` by `κ(R - r)dt + σ_r dW_r`, where the shocks `dW` are a fixed mix of the independent draws with
unit variances and the requested correlation; the model's value on the grid is `r`. -/
theorem C68_doubly_paths (q : DoublyParams) (v v' : Doubly) (h : BuiltDoubly q v)
    (hf : Forward v.base.core.process.dt) (hle : v.base.core.bm.start ≤ v.base.core.bm.stop) (R0 r0 : ℝ) (normals : Nat → Vec 2)
    (hv : v.generatePath ![R0, r0] true normals = (.ok (), v')) :
    ∃ (grid : List PyDatetime) (dts : List ℚ) (xs : List (Vec 2)) (M : Mat 2), Correlates (corr2 q.correlation) M ∧
      BrownianMotion.makeGrid v.base.core.bm.start v.base.core.bm.stop v.base.core.process.dt = .ok grid ∧ StepLengths .actAct grid dts ∧
      xs.length = grid.length ∧ xs.head? = some ![R0, r0] ∧
      (∀ k (h1 : k < dts.length) (h2 : k + 1 < xs.length),
        let dW : Vec 2 := M *ᵥ fun j => normals k j * Real.sqrt (dts[k] : ℝ)
        xs[k + 1] 0 = xs[k] 0 + q.longSpeed * (q.mean - xs[k] 0) * dts[k] + q.longVol * dW 0 ∧
        xs[k + 1] 1 = xs[k] 1 + q.shortSpeed * (xs[k] 0 - xs[k] 1) * dts[k] + q.shortVol * dW 1) ∧
      ∀ k (h1 : k < grid.length) (h2 : k < xs.length), v'.base.state grid[k] = .ok xs[k] ∧ v'.base.call grid[k] = .ok (xs[k] 1) := by
  obtain ⟨S, hS, hm, hdcc, hchol⟩ := h.multi
  unfold Doubly.generatePath at hv
  simp only [Prod.mk.injEq] at hv
  obtain ⟨hv1, hv2⟩ := hv
  obtain ⟨grid, dts, xs, e1, e2, e3, e4, e5, e6, e7, e8⟩ := multi_simulated hm hf hle ![R0, r0] normals v'.base (by rw [← hv2, ← hv1])
  obtain ⟨n1, n2, -⟩ := (cholesky2_exists q).1 ⟨S, hS⟩
  obtain ⟨h01, p0, p1, c0, c1, c2⟩ := cholesky2 hS
  refine ⟨grid, dts, xs, !![S 0 0 / q.longVol, 0; S 1 0 / q.shortVol, S 1 1 / q.shortVol], ?_, e1, hdcc ▸ e2, e3, e4, ?_, ?_⟩
  · unfold Correlates
    ext i j
    fin_cases i <;> fin_cases j <;>
      simp only [Matrix.mul_apply, Matrix.transpose_apply, Fin.sum_univ_two, corr2, Fin.mk_one, Fin.zero_eta, Fin.isValue,
        Matrix.of_apply, Matrix.cons_val', Matrix.cons_val_zero, Matrix.cons_val_one, Matrix.cons_val_fin_one, mul_zero, zero_mul, add_zero]
    · field_simp
      linarith
    · field_simp
      linear_combination c1
    · field_simp
      linear_combination c1
    · field_simp
      linarith
  · intro k h1 h2
    have := e5 k h1 h2
    intro dW
    rw [hchol] at this
    have hsh : ∀ i, shock (1 : Mat 2) normals dts k h1 i = normals k i * Real.sqrt (dts[k] : ℝ) := by
      intro i
      unfold shock
      rw [Finset.sum_eq_single i]
      · simp
      · intro j _ hj
        rw [Matrix.one_apply_ne hj.symm, zero_mul]
      · intro hi; exact absurd (Finset.mem_univ _) hi
    rw [this]
    simp only [Pi.add_apply, Pi.smul_apply, smul_eq_mul, Matrix.mulVec, dotProduct, Fin.sum_univ_two, hsh, dW, Doubly.reversion,
      Doubly.level, Matrix.of_apply, Matrix.cons_val', Matrix.cons_val_zero, Matrix.cons_val_one, Matrix.cons_val_fin_one, Pi.sub_apply, h01]
    constructor
    · field_simp
      ring
    · field_simp
      ring
  · intro k h1 h2
    obtain ⟨a1, a2⟩ := e7 k h1 h2
    refine ⟨a1, ?_⟩
    rw [a2]
    simp [dotProduct, Fin.sum_univ_two]

theorem doubly_isMean {q : DoublyParams} {R0 r0 : ℝ} {R r : ℝ → ℝ} (h : DoublyMean q.shortSpeed q.longSpeed q.mean R0 r0 R r) :
    IsMean (Doubly.reversion q) (Doubly.level q) ![R0, r0] fun s => ![R s, r s] := by
  refine ⟨by simp [h.long0, h.short0], fun s i => ?_⟩
  fin_cases i
  · refine HasDerivAt.congr_deriv (h.long s) ?_
    simp [Matrix.mulVec, dotProduct, Fin.sum_univ_two, Doubly.reversion, Doubly.level]
  · refine HasDerivAt.congr_deriv (h.short s) ?_
    simp [Matrix.mulVec, dotProduct, Fin.sum_univ_two, Doubly.reversion, Doubly.level]
    ring

theorem doubly_isResponse {q : DoublyParams} {a b c : ℝ → ℝ} (h : DoublyResponse q.shortSpeed q.longSpeed a b c) :
    IsResponse (Doubly.reversion q) fun u => !![a u, 0; b u, c u] := by
  refine ⟨?_, fun u i j => ?_⟩
  · ext i j
    fin_cases i <;> fin_cases j <;> simp [h.a0, h.b0, h.c0]
  · fin_cases i <;> fin_cases j
    · refine HasDerivAt.congr_deriv (h.da u) ?_
      simp [Matrix.mul_apply, Fin.sum_univ_two, Doubly.reversion]
    · refine HasDerivAt.congr_deriv (hasDerivAt_const u (0 : ℝ)) ?_
      simp [Matrix.mul_apply, Fin.sum_univ_two, Doubly.reversion]
    · refine HasDerivAt.congr_deriv (h.db u) ?_
      simp [Matrix.mul_apply, Fin.sum_univ_two, Doubly.reversion]
      ring
    · refine HasDerivAt.congr_deriv (h.dc u) ?_
      simp [Matrix.mul_apply, Fin.sum_univ_two, Doubly.reversion]

/-- C68. Expected long-term rate and expected short rate of the doubly mean-reverting model are those of the documented equations. -/
theorem C68_doubly_mean (q : DoublyParams) (v : Doubly) (h : MadeDoubly q v) (hα : 0 < q.longSpeed) (hκ : 0 < q.shortSpeed)
    (maturity : PyDatetime) (d : Option PyDatetime) (T : ℚ) (R0 r0 : ℝ) (hT : v.base.time (v.base.purchase d) maturity = .ok T)
    (hx : v.base.state (v.base.purchase d) = .ok ![R0, r0]) (R r : ℝ → ℝ) (hm : DoublyMean q.shortSpeed q.longSpeed q.mean R0 r0 R r) :
    v.base.expectedStateMean maturity d = .ok ![R T, r T] ∧ v.base.expectedShortRate maturity d = .ok (r T) := by
  obtain ⟨S, hS, hmm, -⟩ := h.multi hα hκ
  obtain ⟨h1, h2⟩ := C65_mean hmm maturity d T _ _ hT hx (doubly_isMean hm)
  refine ⟨h1, ?_⟩
  rw [h2]
  simp [dotProduct, Fin.sum_univ_two]

theorem doubly_discount_eq {q : DoublyParams} {S : Mat 2} (hS : IsCholesky (Doubly.variance q) S) {R r a b c : ℝ → ℝ}
    (hr : DoublyResponse q.shortSpeed q.longSpeed a b c) (T : ℝ) :
    Spec.Multi.expectedDiscount 0 ![0, 1] S (fun s => ![R s, r s]) (fun u => !![a u, 0; b u, c u]) T =
      doublyDiscount q.longVol q.shortVol q.correlation r b c T := by
  obtain ⟨h01, p0, p1, c0, c1, c2⟩ := cholesky2 hS
  unfold Spec.Multi.expectedDiscount doublyDiscount
  have hb : Continuous b := continuous_iff_continuousAt.2 fun u => (hr.db u).continuousAt
  have hc : Continuous c := continuous_iff_continuousAt.2 fun u => (hr.dc u).continuousAt
  have e1 : ∀ s, (0 : ℝ) + ![0, 1] ⬝ᵥ ![R s, r s] = r s := by intro s; simp [dotProduct, Fin.sum_univ_two]
  have e2 : Spec.Multi.integralVariance ![0, 1] S (fun u => !![a u, 0; b u, c u]) T =
      doublyVariance q.longVol q.shortVol q.correlation b c T := by
    unfold Spec.Multi.integralVariance doublyVariance
    apply intervalIntegral.integral_congr
    intro s _
    simp only
    have i0 : ∀ u, (![0, 1] : Vec 2) ⬝ᵥ ((!![a u, 0; b u, c u] * S) *ᵥ Pi.single 0 1) = S 0 0 * b u + S 1 0 * c u := by
      intro u
      simp [Matrix.mulVec, dotProduct, Matrix.mul_apply, Fin.sum_univ_two]
      ring
    have i1 : ∀ u, (![0, 1] : Vec 2) ⬝ᵥ ((!![a u, 0; b u, c u] * S) *ᵥ Pi.single 1 1) = S 1 1 * c u := by
      intro u
      simp [Matrix.mulVec, dotProduct, Matrix.mul_apply, Fin.sum_univ_two, h01]
      ring
    rw [Fin.sum_univ_two]
    simp only [i0, i1]
    rw [intervalIntegral.integral_add ((hb.const_mul _).intervalIntegrable _ _) ((hc.const_mul _).intervalIntegrable _ _),
      intervalIntegral.integral_const_mul, intervalIntegral.integral_const_mul, intervalIntegral.integral_const_mul]
    generalize (∫ u in (0 : ℝ)..(T - s), b u) = B
    generalize (∫ u in (0 : ℝ)..(T - s), c u) = C
    linear_combination B ^ 2 * c0 + 2 * B * C * c1 + C ^ 2 * c2
  simp only [e1, e2]

/-- C68. Zero-coupon bonds of the doubly mean-reverting model cost the expected discount factor of the documented equations. -/
theorem C68_doubly_price (q : DoublyParams) (v : Doubly) (h : MadeDoubly q v) (hα : 0 < q.longSpeed) (hκ : 0 < q.shortSpeed)
    (maturity : PyDatetime) (d : Option PyDatetime) (T : ℚ) (R0 r0 : ℝ) (hT : v.base.time (v.base.purchase d) maturity = .ok T) (hT0 : 0 ≤ T)
    (hx : v.base.state (v.base.purchase d) = .ok ![R0, r0]) (R r a b c : ℝ → ℝ)
    (hm : DoublyMean q.shortSpeed q.longSpeed q.mean R0 r0 R r) (hr : DoublyResponse q.shortSpeed q.longSpeed a b c) :
    v.base.zeroCouponBondPrice maturity d = .ok (doublyDiscount q.longVol q.shortVol q.correlation r b c T) := by
  obtain ⟨S, hS, hmm, -⟩ := h.multi hα hκ
  rw [C63_price hmm maturity d T _ _ _ hT hT0 hx (doubly_isMean hm) (doubly_isResponse hr), doubly_discount_eq hS hr]

/-! ### What the multivariate formulas get wrong here -/

theorem linear_pos {k : ℝ} {y f : ℝ → ℝ} (h0 : y 0 = 0) (h : ∀ s, HasDerivAt y (f s - k * y s) s) (hf : ∀ s, 0 < s → 0 < f s) {T : ℝ}
    (hT : 0 < T) : 0 < y T := by
  have hd : ∀ s, HasDerivAt (fun s => y s * Real.exp (k * s)) (f s * Real.exp (k * s)) s := by
    intro s
    have he : HasDerivAt (fun u => Real.exp (k * u)) (k * Real.exp (k * s)) s := by
      have := hasDerivAt_expNeg (-k) s
      simpa using this
    refine HasDerivAt.congr_deriv ((h s).mul he) ?_
    ring
  have hmono : StrictMonoOn (fun s => y s * Real.exp (k * s)) (Set.Ici 0) := by
    apply strictMonoOn_of_deriv_pos (convex_Ici 0)
    · exact fun s _ => (hd s).continuousAt.continuousWithinAt
    · intro s hs
      rw [interior_Ici] at hs
      rw [(hd s).deriv]
      have := hf s hs
      positivity
  have := hmono (Set.mem_Ici.2 le_rfl) (Set.mem_Ici.2 hT.le) hT
  simp only [h0, zero_mul] at this
  exact pos_of_mul_pos_left this (Real.exp_pos _).le

/-- The lower left entry of the response: positive. -/
theorem doublyResponse_pos {κ α : ℝ} {a b c : ℝ → ℝ} (h : DoublyResponse κ α a b c) (hκ : 0 < κ) {T : ℝ} (hT : 0 < T) : 0 < b T := by
  have ha : ∀ u, a u = Real.exp (-α * u) := by
    have : ∀ u, HasDerivAt (fun u => a u - Real.exp (-α * u)) (-α * (a u - Real.exp (-α * u))) u := by
      intro u
      refine HasDerivAt.congr_deriv ((h.da u).sub (hasDerivAt_expNeg α u)) ?_
      ring
    have := scalar_unique (a := α) (y := fun u => a u - Real.exp (-α * u)) (by simp [h.a0]) this
    intro u
    have := congrFun this u
    have h0 : a u - Real.exp (-α * u) = 0 := this
    linarith
  apply linear_pos (k := κ) (f := fun u => κ * a u) h.b0 _ _ hT
  · intro u
    refine HasDerivAt.congr_deriv (h.db u) ?_
    ring
  · intro u _
    rw [ha u]
    positivity

/-- C64 fails for every doubly mean-reverting model: the reported forward rate is the right one less `b(T)` times the long-term rate, where
`b(T) > 0` is the part of a long-term shock found in the short rate after time `T`.  So it is wrong whenever the long-term rate is not
zero. -/
theorem C64_forward_false (q : DoublyParams) (v : Doubly) (h : MadeDoubly q v) (hα : 0 < q.longSpeed) (hκ : 0 < q.shortSpeed)
    (maturity : PyDatetime) (d : Option PyDatetime) (T : ℚ) (R0 r0 : ℝ) (hT : v.base.time (v.base.purchase d) maturity = .ok T) (hT0 : 0 < T)
    (hx : v.base.state (v.base.purchase d) = .ok ![R0, r0]) (hR : R0 ≠ 0) (a b c : ℝ → ℝ)
    (hr : DoublyResponse q.shortSpeed q.longSpeed a b c) :
    ∃ price : ℝ → ℝ, (∀ t R r, 0 ≤ t → DoublyMean q.shortSpeed q.longSpeed q.mean R0 r0 R r →
        price t = doublyDiscount q.longVol q.shortVol q.correlation r b c t) ∧
      ∃ f, HasDerivAt (fun t => -Real.log (price t)) f T ∧ v.base.instantaneousForwardRate maturity d = .ok (f - b T * R0) ∧
        0 < b T ∧ f - b T * R0 ≠ f := by
  obtain ⟨S, hS, hmm, -⟩ := h.multi hα hκ
  obtain ⟨P, -, -, hP, -⟩ := C63_pricing_equation hmm
  have hb : 0 < b T := doublyResponse_pos hr hκ (by exact_mod_cast hT0)
  obtain ⟨f, f1, f2, f3, -⟩ := C64_forward hmm maturity d T _ hT hT0 hx P hP _ (doubly_isResponse hr)
  refine ⟨fun t => P t ![R0, r0], ?_, f, f1, ?_, hb, ?_⟩
  · intro t R r ht hm
    show P t ![R0, r0] = _
    rw [hP t _ _ _ ht (doubly_isMean hm) (doubly_isResponse hr)]
    exact doubly_discount_eq hS hr t
  · rw [f3]
    simp [Matrix.mulVec, dotProduct, Fin.sum_univ_two]
    ring
  · intro hc
    have : b T * R0 = 0 := by linarith
    rcases mul_eq_zero.1 this with h0 | h0
    · exact hb.ne' h0
    · exact hR h0

theorem doubly_isCovariance {q : DoublyParams} {S : Mat 2} (hS : IsCholesky (Doubly.variance q) S) {vL vLr vr : ℝ → ℝ}
    (h : DoublyCovariance q.shortSpeed q.longSpeed q.longVol q.shortVol q.correlation vL vLr vr) :
    IsCovariance (Doubly.reversion q) S fun s => !![vL s, vLr s; vLr s, vr s] := by
  refine ⟨?_, fun s i j => ?_⟩
  · ext i j
    fin_cases i <;> fin_cases j <;> simp [h.vL0, h.vLr0, h.vr0]
  · rw [hS.2.2]
    fin_cases i <;> fin_cases j
    · refine HasDerivAt.congr_deriv (h.dL s) ?_
      simp only [Matrix.sub_apply, Matrix.mul_apply, Matrix.transpose_apply, Fin.sum_univ_two, Doubly.reversion, Doubly.variance, Matrix.of_apply,
        Matrix.cons_val', Matrix.cons_val_zero, Matrix.cons_val_one, Matrix.cons_val_fin_one, Fin.mk_one, Fin.zero_eta, Fin.isValue]
      ring
    · refine HasDerivAt.congr_deriv (h.dLr s) ?_
      simp only [Matrix.sub_apply, Matrix.mul_apply, Matrix.transpose_apply, Fin.sum_univ_two, Doubly.reversion, Doubly.variance, Matrix.of_apply,
        Matrix.cons_val', Matrix.cons_val_zero, Matrix.cons_val_one, Matrix.cons_val_fin_one, Fin.mk_one, Fin.zero_eta, Fin.isValue]
      ring
    · refine HasDerivAt.congr_deriv (h.dLr s) ?_
      simp only [Matrix.sub_apply, Matrix.mul_apply, Matrix.transpose_apply, Fin.sum_univ_two, Doubly.reversion, Doubly.variance, Matrix.of_apply,
        Matrix.cons_val', Matrix.cons_val_zero, Matrix.cons_val_one, Matrix.cons_val_fin_one, Fin.mk_one, Fin.zero_eta, Fin.isValue]
      ring
    · refine HasDerivAt.congr_deriv (h.dr s) ?_
      simp only [Matrix.sub_apply, Matrix.mul_apply, Matrix.transpose_apply, Fin.sum_univ_two, Doubly.reversion, Doubly.variance, Matrix.of_apply,
        Matrix.cons_val', Matrix.cons_val_zero, Matrix.cons_val_one, Matrix.cons_val_fin_one, Fin.mk_one, Fin.zero_eta, Fin.isValue]
      ring

/-- C65 fails for every doubly mean-reverting model with uncorrelated shocks: the covariance of the long-term and the short rate is
positive, but `state_variable_covariance` reports a matrix with a zero off its diagonal. -/
theorem C65_covariance_false (q : DoublyParams) (v : Doubly) (h : MadeDoubly q v) (hα : 0 < q.longSpeed) (hκ : 0 < q.shortSpeed)
    (hρ : q.correlation = 0) (maturity : PyDatetime) (d : Option PyDatetime) (T : ℚ)
    (hT : v.base.time (v.base.purchase d) maturity = .ok T) (hT0 : 0 < T) (vL vLr vr : ℝ → ℝ)
    (hV : DoublyCovariance q.shortSpeed q.longSpeed q.longVol q.shortVol q.correlation vL vLr vr) :
    0 < vLr T ∧ ∃ c, v.base.stateCovariance maturity d = .ok c ∧ (c 0 1 = 0 ∨ c 1 0 = 0) ∧ c ≠ !![vL T, vLr T; vLr T, vr T] := by
  obtain ⟨S, hS, hmm, -⟩ := h.multi hα hκ
  obtain ⟨n1, n2, -⟩ := (cholesky2_exists q).1 ⟨S, hS⟩
  obtain ⟨-, -, -, -, -, h6, hd, hl2⟩ := hmm.params
  have hTpos : (0 : ℝ) < T := by exact_mod_cast hT0
  have hL : ∀ s, 0 < s → 0 < vL s := by
    intro s hs
    refine linear_pos (k := 2 * q.longSpeed) (f := fun _ => q.longVol ^ 2) hV.vL0 hV.dL (fun _ _ => by positivity) hs
  have hLr : 0 < vLr T := by
    refine linear_pos (k := q.longSpeed + q.shortSpeed) (f := fun s => q.shortSpeed * vL s) hV.vLr0 ?_ ?_ hTpos
    · intro s
      refine HasDerivAt.congr_deriv (hV.dLr s) ?_
      rw [hρ]
      ring
    · intro s hs
      have := hL s hs
      positivity
  refine ⟨hLr, ?_⟩
  have hcov : ∃ c, v.base.stateCovariance maturity d = .ok c ∧ (c 0 1 = 0 ∨ c 1 0 = 0) := by
    unfold MultiVasicek.stateCovariance
    rw [hT, ok_bind, h6, hS.2.2]
    refine ⟨_, rfl, ?_⟩
    have hC : Doubly.variance q = !![q.longVol ^ 2, 0; 0, q.shortVol ^ 2] := by
      unfold Doubly.variance
      rw [hρ]
      simp
    simp only [Matrix.of_apply, hC, Matrix.mul_apply, Fin.sum_univ_two]
    generalize v.base.eig.inverse = H at hd
    generalize v.base.eig.vectors = G at hd
    generalize v.base.eig.values = l at hd hl2
    -- one eigenvector lies in the short rate
    have hG : G 0 0 = 0 ∨ G 0 1 = 0 := by
      have hKG : Doubly.reversion q * G = G * diagonal l := by
        rw [hd.eq, Matrix.mul_assoc, hd.inv', Matrix.mul_one]
      by_contra hno
      push Not at hno
      have e : ∀ i, G 0 i ≠ 0 → l i = q.longSpeed := by
        intro i hi
        have := congrFun (congrFun hKG 0) i
        rw [Matrix.mul_apply, Matrix.mul_diagonal, Fin.sum_univ_two] at this
        simp only [Doubly.reversion, Matrix.of_apply, Matrix.cons_val', Matrix.cons_val_zero, Matrix.cons_val_one,
          Matrix.cons_val_fin_one, zero_mul, add_zero] at this
        apply mul_left_cancel₀ hi
        linarith
      have l0 := e 0 hno.1
      have l1 := e 1 hno.2
      have hl : l = fun _ => q.longSpeed := by
        funext i; fin_cases i
        · exact l0
        · exact l1
      have hK := hd.eq
      have : diagonal l = q.longSpeed • (1 : Mat 2) := by
        rw [hl, Matrix.smul_one_eq_diagonal]
      rw [this, Matrix.mul_smul, Matrix.mul_one, Matrix.smul_mul, hd.inv] at hK
      have := congrFun (congrFun hK 1) 0
      simp [Doubly.reversion] at this
      exact hκ.ne' this
    have hGH := hd.inv
    have hHG := hd.inv'
    have g := fun i j => congrFun (congrFun hHG i) j
    simp only [Matrix.mul_apply, Fin.sum_univ_two] at g
    rcases hG with h0 | h0
    · right
      have g10 := g 1 0
      have g00 := g 0 0
      rw [h0] at g10 g00
      simp only [mul_zero, zero_add, Matrix.one_apply_eq, ne_eq, one_ne_zero, not_false_eq_true, Matrix.one_apply_ne] at g10 g00
      have hne : G 1 0 ≠ 0 := by intro hz; rw [hz] at g00; simp at g00
      have hH : H 1 1 = 0 := by
        rcases mul_eq_zero.1 g10 with h' | h'
        · exact h'
        · exact absurd h' hne
      rw [h0, hH]
      simp
    · left
      have g01 := g 0 1
      have g11 := g 1 1
      rw [h0] at g01 g11
      simp only [mul_zero, zero_add, Matrix.one_apply_eq, ne_eq, zero_ne_one, not_false_eq_true, Matrix.one_apply_ne] at g01 g11
      have hne : G 1 1 ≠ 0 := by intro hz; rw [hz] at g11; simp at g11
      have hH : H 0 1 = 0 := by
        rcases mul_eq_zero.1 g01 with h' | h'
        · exact h'
        · exact absurd h' hne
      rw [h0, hH]
      simp
  obtain ⟨c, hc1, hc2⟩ := hcov
  refine ⟨c, hc1, hc2, ?_⟩
  intro hc
  rw [hc] at hc2
  simp at hc2
  exact hLr.ne' hc2

/-- C68. With equal reversion speeds the reversion matrix cannot be diagonalized, so none of the closed formulas applies: no correct
eigenvalue decomposition exists. -/
theorem C68_equal_speeds (q : DoublyParams) (heq : q.longSpeed = q.shortSpeed) (hne : q.shortSpeed ≠ 0) (l : Vec 2) (G H : Mat 2) :
    ¬ Diagonalizes (Doubly.reversion q) l G H := by
  intro hd
  have hl : l = fun _ => q.shortSpeed := by
    funext i
    obtain ⟨j, hj, -⟩ := eig_of_lower (lower2 q) hd i
    rw [hj]
    fin_cases j
    · simpa [Doubly.reversion] using heq
    · simp [Doubly.reversion]
  have hK := hd.eq
  rw [hl, ← Matrix.smul_one_eq_diagonal, Matrix.mul_smul, Matrix.mul_one, Matrix.smul_mul, hd.inv] at hK
  have := congrFun (congrFun hK 1) 0
  simp [Doubly.reversion] at this
  exact hne this

/-- With different speeds it can. -/
theorem doubly_diagonalizable (q : DoublyParams) (hne : q.longSpeed ≠ q.shortSpeed) :
    ∃ e : Eig 2, Diagonalizes (Doubly.reversion q) e.values e.vectors e.inverse := by
  have h : q.shortSpeed - q.longSpeed ≠ 0 := sub_ne_zero.2 hne.symm
  refine ⟨⟨![q.longSpeed, q.shortSpeed], !![q.shortSpeed - q.longSpeed, 0; q.shortSpeed, 1],
    !![1 / (q.shortSpeed - q.longSpeed), 0; -q.shortSpeed / (q.shortSpeed - q.longSpeed), 1]⟩, ?_, ?_⟩
  · ext i j
    rw [Matrix.mul_apply, Fin.sum_univ_two, Matrix.mul_diagonal, Matrix.mul_diagonal]
    fin_cases i <;> fin_cases j <;> simp [Doubly.reversion]
    · field_simp
    · field_simp
      ring
  · ext i j
    fin_cases i <;> fin_cases j <;> simp [Matrix.mul_apply, Fin.sum_univ_two, h]
    field_simp
    ring

end Verif.Props
