/- Moments of simulated multivariate Vasicek models against the model's equation and closed forms: C101. -/
import Verif.Props.SimulatedRates
import Verif.Props.MeanReverting

namespace Verif.Props
open Verif.Spec (Forward StepLengths shock FixedDenominator)
open Verif.Spec.Multi Verif.Multi Matrix MeasureTheory ProbabilityTheory Finset

section
variable {Ω : Type} [MeasurableSpace Ω] {ν : Measure Ω} [IsProbabilityMeasure ν] {p : Nat}

/-- A first-order vector autoregression with uncorrelated centred shocks, to grid point `N`. -/
theorem vector_autoregression (N : Nat) (ξ D : Nat → Fin p → Ω → ℝ) (Q a V : Nat → Mat p) (S : Mat p) (M : Nat → Vec p)
    (hint : ∀ n i, n < N → Integrable (ξ n i) ν) (hmean : ∀ n i, n < N → ∫ ω, ξ n i ω ∂ν = 0)
    (hmul : ∀ m n i j, m < N → n < N → Integrable (fun ω => ξ m i ω * ξ n j ω) ν)
    (hcov : ∀ m n i j, m < N → n < N → ∫ ω, ξ m i ω * ξ n j ω ∂ν = if m = n then Q m i j else 0)
    (h0 : ∀ i ω, D 0 i ω = M 0 i)
    (hs : ∀ n, n < N → ∀ i ω, D (n + 1) i ω = ∑ j, a n i j * D n j ω + ∑ j, S i j * ξ n j ω)
    (ms : ∀ n, n < N → M (n + 1) = a n *ᵥ M n) (v0 : V 0 = 0)
    (vs : ∀ n, n < N → V (n + 1) = a n * V n * (a n)ᵀ + S * Q n * Sᵀ) (n : Nat) (hn : n ≤ N) :
    (∀ i, Integrable (D n i) ν) ∧ (∀ i, ∫ ω, D n i ω ∂ν = M n i) ∧
    (∀ m i j, m < N → Integrable (fun ω => D n i ω * ξ m j ω) ν) ∧
    (∀ m i j, n ≤ m → m < N → ∫ ω, D n i ω * ξ m j ω ∂ν = 0) ∧
    (∀ i j, Integrable (fun ω => D n i ω * D n j ω) ν) ∧
    (∀ i j, ∫ ω, D n i ω * D n j ω ∂ν = M n i * M n j + V n i j) := by
  induction n with
  | zero =>
    have e : ∀ i, D 0 i = fun _ => M 0 i := fun i => funext (h0 i)
    simp only [e]
    refine ⟨fun i => integrable_const _, fun i => by simp, fun m i j hm => (hint m j hm).const_mul _, fun m i j _ hm => ?_,
      fun i j => integrable_const _, fun i j => by simp [v0]⟩
    rw [integral_const_mul, hmean m j hm, mul_zero]
  | succ n ih =>
    obtain ⟨i1, i2, i3, i4, i5, i6⟩ := ih (by omega)
    have hn' : n < N := by omega
    have e : ∀ i, D (n + 1) i = fun ω => ∑ j, a n i j * D n j ω + ∑ j, S i j * ξ n j ω := fun i => funext (hs n hn' i)
    have f1 : ∀ i, Integrable (fun ω => ∑ j, a n i j * D n j ω) ν := fun i =>
      integrable_finset_sum _ fun j _ => (i1 j).const_mul _
    have f2 : ∀ i, Integrable (fun ω => ∑ j, S i j * ξ n j ω) ν := fun i =>
      integrable_finset_sum _ fun j _ => (hint n j hn').const_mul _
    have g1 : ∀ i m j, m < N → Integrable (fun ω => (∑ k, a n i k * D n k ω) * ξ m j ω) ν := fun i m j hm => by
      have : Integrable (fun ω => ∑ k, a n i k * (D n k ω * ξ m j ω)) ν :=
        integrable_finset_sum _ fun k _ => (i3 m k j hm).const_mul _
      refine this.congr (Filter.Eventually.of_forall fun ω => ?_)
      simp only [Finset.sum_mul, mul_assoc]
    have g2 : ∀ i m j, m < N → Integrable (fun ω => (∑ k, S i k * ξ n k ω) * ξ m j ω) ν := fun i m j hm => by
      have : Integrable (fun ω => ∑ k, S i k * (ξ n k ω * ξ m j ω)) ν :=
        integrable_finset_sum _ fun k _ => (hmul n m k j hn' hm).const_mul _
      refine this.congr (Filter.Eventually.of_forall fun ω => ?_)
      simp only [Finset.sum_mul, mul_assoc]
    -- the four products
    have p1 : ∀ i j ω, (∑ k, a n i k * D n k ω) * (∑ l, a n j l * D n l ω) =
        ∑ k, ∑ l, (a n i k * a n j l) * (D n k ω * D n l ω) := fun i j ω => by
      rw [Finset.sum_mul_sum]
      exact Finset.sum_congr rfl fun k _ => Finset.sum_congr rfl fun l _ => by ring
    have p2 : ∀ i j ω, (∑ k, a n i k * D n k ω) * (∑ l, S j l * ξ n l ω) =
        ∑ k, ∑ l, (a n i k * S j l) * (D n k ω * ξ n l ω) := fun i j ω => by
      rw [Finset.sum_mul_sum]
      exact Finset.sum_congr rfl fun k _ => Finset.sum_congr rfl fun l _ => by ring
    have p4 : ∀ i j ω, (∑ k, S i k * ξ n k ω) * (∑ l, S j l * ξ n l ω) =
        ∑ k, ∑ l, (S i k * S j l) * (ξ n k ω * ξ n l ω) := fun i j ω => by
      rw [Finset.sum_mul_sum]
      exact Finset.sum_congr rfl fun k _ => Finset.sum_congr rfl fun l _ => by ring
    have q1 : ∀ i j, Integrable (fun ω => (∑ k, a n i k * D n k ω) * (∑ l, a n j l * D n l ω)) ν := fun i j => by
      simp only [p1]
      exact integrable_finset_sum _ fun k _ => integrable_finset_sum _ fun l _ => (i5 k l).const_mul _
    have q2 : ∀ i j, Integrable (fun ω => (∑ k, a n i k * D n k ω) * (∑ l, S j l * ξ n l ω)) ν := fun i j => by
      simp only [p2]
      exact integrable_finset_sum _ fun k _ => integrable_finset_sum _ fun l _ => (i3 n k l hn').const_mul _
    have q4 : ∀ i j, Integrable (fun ω => (∑ k, S i k * ξ n k ω) * (∑ l, S j l * ξ n l ω)) ν := fun i j => by
      simp only [p4]
      exact integrable_finset_sum _ fun k _ => integrable_finset_sum _ fun l _ => (hmul n n k l hn' hn').const_mul _
    have r1 : ∀ i j, ∫ ω, (∑ k, a n i k * D n k ω) * (∑ l, a n j l * D n l ω) ∂ν =
        M (n + 1) i * M (n + 1) j + (a n * V n * (a n)ᵀ) i j := fun i j => by
      simp only [p1]
      rw [integral_finset_sum _ fun k _ => integrable_finset_sum _ fun l _ => (i5 k l).const_mul _]
      have : ∀ k, ∫ ω, ∑ l, (a n i k * a n j l) * (D n k ω * D n l ω) ∂ν =
          ∑ l, (a n i k * a n j l) * (M n k * M n l + V n k l) := fun k => by
        rw [integral_finset_sum _ fun l _ => (i5 k l).const_mul _]
        exact Finset.sum_congr rfl fun l _ => by rw [integral_const_mul, i6]
      simp only [this, ms n hn', Matrix.mulVec, dotProduct, Matrix.mul_apply, Matrix.transpose_apply]
      rw [Finset.sum_mul_sum]
      simp only [Finset.sum_mul]
      rw [Finset.sum_comm (f := fun x k => a n i k * V n k x * a n j x)]
      simp only [← Finset.sum_add_distrib]
      exact Finset.sum_congr rfl fun k _ => Finset.sum_congr rfl fun l _ => by ring
    have r2 : ∀ i j, ∫ ω, (∑ k, a n i k * D n k ω) * (∑ l, S j l * ξ n l ω) ∂ν = 0 := fun i j => by
      simp only [p2]
      rw [integral_finset_sum _ fun k _ => integrable_finset_sum _ fun l _ => (i3 n k l hn').const_mul _]
      refine Finset.sum_eq_zero fun k _ => ?_
      rw [integral_finset_sum _ fun l _ => (i3 n k l hn').const_mul _]
      exact Finset.sum_eq_zero fun l _ => by rw [integral_const_mul, i4 n k l le_rfl hn', mul_zero]
    have r4 : ∀ i j, ∫ ω, (∑ k, S i k * ξ n k ω) * (∑ l, S j l * ξ n l ω) ∂ν = (S * Q n * Sᵀ) i j := fun i j => by
      simp only [p4]
      rw [integral_finset_sum _ fun k _ => integrable_finset_sum _ fun l _ => (hmul n n k l hn' hn').const_mul _]
      have : ∀ k, ∫ ω, ∑ l, (S i k * S j l) * (ξ n k ω * ξ n l ω) ∂ν = ∑ l, (S i k * S j l) * Q n k l := fun k => by
        rw [integral_finset_sum _ fun l _ => (hmul n n k l hn' hn').const_mul _]
        exact Finset.sum_congr rfl fun l _ => by rw [integral_const_mul, hcov n n k l hn' hn', if_pos rfl]
      simp only [this, Matrix.mul_apply, Matrix.transpose_apply, Finset.sum_mul]
      rw [Finset.sum_comm (f := fun x k => S i k * Q n k x * S j x)]
      exact Finset.sum_congr rfl fun k _ => Finset.sum_congr rfl fun l _ => by ring
    simp only [e]
    refine ⟨fun i => (f1 i).add (f2 i), fun i => ?_, fun m i j hm => ?_, fun m i j hnm hm => ?_, fun i j => ?_, fun i j => ?_⟩
    · rw [integral_add (f1 i) (f2 i), integral_finset_sum _ fun j _ => (i1 j).const_mul _,
        integral_finset_sum _ fun j _ => (hint n j hn').const_mul _, ms n hn']
      simp only [integral_const_mul, i2, hmean n _ hn', mul_zero, Finset.sum_const_zero, add_zero]
      rfl
    · simp only [add_mul]
      exact (g1 i m j hm).add (g2 i m j hm)
    · simp only [add_mul]
      rw [integral_add (g1 i m j hm) (g2 i m j hm)]
      have e1 : ∀ ω, (∑ k, a n i k * D n k ω) * ξ m j ω = ∑ k, a n i k * (D n k ω * ξ m j ω) := fun ω => by
        simp only [Finset.sum_mul, mul_assoc]
      have e2 : ∀ ω, (∑ k, S i k * ξ n k ω) * ξ m j ω = ∑ k, S i k * (ξ n k ω * ξ m j ω) := fun ω => by
        simp only [Finset.sum_mul, mul_assoc]
      simp only [e1, e2]
      rw [integral_finset_sum _ fun k _ => (i3 m k j hm).const_mul _,
        integral_finset_sum _ fun k _ => (hmul n m k j hn' hm).const_mul _]
      simp only [integral_const_mul, i4 m _ j (by omega) hm, hcov n m _ j hn' hm, if_neg (show n ≠ m by omega), mul_zero,
        Finset.sum_const_zero, add_zero]
    · simp only [add_mul, mul_add]
      have q2' : Integrable (fun ω => (∑ k, S i k * ξ n k ω) * (∑ l, a n j l * D n l ω)) ν :=
        (q2 j i).congr (Filter.Eventually.of_forall fun ω => mul_comm _ _)
      exact ((q1 i j).add q2').add ((q2 i j).add (q4 i j))
    · simp only [add_mul, mul_add]
      have q2' : Integrable (fun ω => (∑ k, S i k * ξ n k ω) * (∑ l, a n j l * D n l ω)) ν :=
        (q2 j i).congr (Filter.Eventually.of_forall fun ω => mul_comm _ _)
      have e3 : ∫ ω, (∑ k, S i k * ξ n k ω) * (∑ l, a n j l * D n l ω) ∂ν = 0 := by
        rw [← r2 j i]
        exact integral_congr_ae (Filter.Eventually.of_forall fun ω => mul_comm _ _)
      have hsplit : ∫ ω, ((∑ k, a n i k * D n k ω) * (∑ l, a n j l * D n l ω) + (∑ k, S i k * ξ n k ω) * (∑ l, a n j l * D n l ω) +
          ((∑ k, a n i k * D n k ω) * (∑ l, S j l * ξ n l ω) + (∑ k, S i k * ξ n k ω) * (∑ l, S j l * ξ n l ω))) ∂ν =
          (∫ ω, (∑ k, a n i k * D n k ω) * (∑ l, a n j l * D n l ω) ∂ν + ∫ ω, (∑ k, S i k * ξ n k ω) * (∑ l, a n j l * D n l ω) ∂ν) +
          (∫ ω, (∑ k, a n i k * D n k ω) * (∑ l, S j l * ξ n l ω) ∂ν + ∫ ω, (∑ k, S i k * ξ n k ω) * (∑ l, S j l * ξ n l ω) ∂ν) := by
        rw [← integral_add (q1 i j) q2', ← integral_add (q2 i j) (q4 i j), ← integral_add]
        · exact (q1 i j).add q2'
        · exact (q2 i j).add (q4 i j)
      rw [hsplit, r1, e3, r2, r4, vs n hn', Matrix.add_apply]
      ring

variable {Z : Nat → Fin p → Ω → ℝ} {μ : ℝ} {g θ : Vec p} {K S : Mat p} {v : MultiVasicek p}

/-- C101. With independent standard normal draws, the simulated state variables at each grid point have the mean and covariance
of the discretized equation: `mean += K(θ - mean)dt` and `cov = (1 - K·dt)·cov·(1 - K·dt)ᵀ + (SL)(SL)ᵀ·dt`, from the starting
values and zero, `L` being the factor of the Brownian motion's correlation matrix; the simulated short rate is the affine function
of them. -/
theorem C101_moments (hZ : StandardNormals ν Z) (h : BuiltMulti μ g θ K S v) (hf : Forward v.core.process.dt)
    (hle : v.core.bm.start ≤ v.core.bm.stop) (hd : v.core.bm.dcc ≠ .thirty360) (x0 : Vec p) (v' : Ω → MultiVasicek p)
    (hv : ∀ ω, v.generatePath x0 true (fun k i => Z k i ω) = (.ok (), v' ω)) :
    ∃ (grid : List PyDatetime) (dts : List ℚ) (X : Nat → Fin p → Ω → ℝ) (mean : Nat → Vec p) (cov : Nat → Mat p),
      BrownianMotion.makeGrid v.core.bm.start v.core.bm.stop v.core.process.dt = .ok grid ∧
      StepLengths v.core.bm.dcc grid dts ∧ (∀ j (hj : j < dts.length), 0 < dts[j]) ∧
      (∀ n (hn : n < grid.length) ω, (v' ω).state grid[n] = .ok (fun i => X n i ω) ∧
        (v' ω).call grid[n] = .ok (μ + g ⬝ᵥ fun i => X n i ω)) ∧
      mean 0 = x0 ∧ (∀ n (hn : n < dts.length), mean (n + 1) = mean n + (dts[n] : ℝ) • (K *ᵥ (θ - mean n))) ∧
      cov 0 = 0 ∧ (∀ n (hn : n < dts.length), cov (n + 1) =
        (1 - (dts[n] : ℝ) • K) * cov n * (1 - (dts[n] : ℝ) • K)ᵀ +
          (dts[n] : ℝ) • ((S * Matrix.of v.core.bm.chol) * (S * Matrix.of v.core.bm.chol)ᵀ)) ∧
      ∀ n, n < grid.length → ∀ i j, Integrable (X n i) ν ∧ ∫ ω, X n i ω ∂ν = mean n i ∧
        Integrable (fun ω => (X n i ω - mean n i) * (X n j ω - mean n j)) ν ∧
        ∫ ω, (X n i ω - mean n i) * (X n j ω - mean n j) ∂ν = cov n i j := by
  obtain ⟨ω0⟩ : Nonempty Ω := ν.nonempty_of_neZero
  obtain ⟨grid, dts, -, hg, hs, -⟩ := multi_simulated h hf hle x0 _ _ (hv ω0)
  obtain ⟨-, -, hinc, -⟩ := C55_grid v.core.bm.start v.core.bm.stop _ hf hle grid hg
  have hpos : ∀ j (hj : j < dts.length), 0 < dts[j] := fun j hj => steps_pos hd hinc hs j hj
  have hlen := hs.1
  have hall : ∀ ω, ∃ xs : List (Vec p), xs.length = grid.length ∧ xs.head? = some x0 ∧
      (∀ k (h1 : k < dts.length) (h2 : k + 1 < xs.length),
        xs[k + 1] = xs[k] + (dts[k] : ℝ) • (K *ᵥ (θ - xs[k])) + S *ᵥ shock v.core.bm.chol (fun k i => Z k i ω) dts k h1) ∧
      ∀ k (h1 : k < grid.length) (h2 : k < xs.length),
        (v' ω).state grid[k] = .ok xs[k] ∧ (v' ω).call grid[k] = .ok (μ + g ⬝ᵥ xs[k]) := by
    intro ω
    obtain ⟨grid', dts', xs, hg', hs', a1, a2, a3, -, a4, -⟩ := multi_simulated h hf hle x0 _ _ (hv ω)
    rw [hg] at hg'
    injection hg' with hg'
    subst hg'
    have hdts : dts' = dts := by
      apply List.ext_getElem
      · have := hs'.1; omega
      · intro j hj hj'
        have e1 := hs.2 j hj' (by omega) (by omega)
        have e2 := hs'.2 j hj (by omega) (by omega)
        rw [e1] at e2
        injection e2 with e2
        exact e2.symm
    subst hdts
    exact ⟨xs, a1, a2, a3, a4⟩
  choose xs hxl hx0 hxs hxc using hall
  let d : Nat → ℝ := fun n => if hn : n < dts.length then (dts[n] : ℝ) else 0
  have hdd : ∀ n (hn : n < dts.length), d n = dts[n] := fun n hn => by simp only [d, dif_pos hn]
  let ξ : Nat → Fin p → Ω → ℝ := fun n i ω =>
    if hn : n < dts.length then shock v.core.bm.chol (fun k i => Z k i ω) dts n hn i else 0
  have hξ : ∀ n (hn : n < dts.length) i, ξ n i = fun ω => shock v.core.bm.chol (fun k i => Z k i ω) dts n hn i := by
    intro n hn i
    funext ω
    simp only [ξ, dif_pos hn]
  let Q : Nat → Mat p := fun n => d n • (Matrix.of v.core.bm.chol * (Matrix.of v.core.bm.chol)ᵀ)
  let V : Nat → Mat p := fun n => Nat.rec 0 (fun n x => (1 - d n • K) * x * (1 - d n • K)ᵀ + S * Q n * Sᵀ) n
  let M : Nat → Vec p := fun n => Nat.rec (x0 - θ) (fun n x => (1 - d n • K) *ᵥ x) n
  have hX : ∀ n, n < grid.length → ∀ ω, n < (xs ω).length := fun n hn ω => by rw [hxl ω]; exact hn
  have hget : ∀ n (hn : n < grid.length) ω, (xs ω).getD n 0 = (xs ω)[n]'(hX n hn ω) := fun n hn ω => by
    rw [List.getD_eq_getElem?_getD, List.getElem?_eq_getElem (hX n hn ω), Option.getD_some]
  have key := vector_autoregression (ν := ν) dts.length ξ (fun n i ω => (xs ω).getD n 0 i - θ i) Q (fun n => 1 - d n • K) V S M
    (fun n i hn => by rw [hξ n hn]; exact shock_integrable hZ _ dts n hn i)
    (fun n i hn => by rw [hξ n hn]; exact shock_mean hZ _ dts n hn i)
    (fun m n i j hm hn => by rw [hξ n hn, hξ m hm]; exact shock_mul_integrable hZ _ dts m n hm hn i j)
    (fun m n i j hm hn => by
      rw [hξ n hn, hξ m hm]
      simp only
      rw [shock_cov hZ _ dts m n hm hn (hpos m hm).le i j]
      simp only [Q, hdd m hm, Matrix.smul_apply, Matrix.mul_apply, Matrix.of_apply, Matrix.transpose_apply, smul_eq_mul]
      rw [mul_comm])
    (fun i ω => by
      have h0 : 0 < (xs ω).length := by rw [hxl ω]; omega
      have := hx0 ω
      rw [List.head?_eq_getElem?, List.getElem?_eq_getElem h0] at this
      injection this with this
      rw [List.getD_eq_getElem?_getD, List.getElem?_eq_getElem h0, Option.getD_some, this]
      rfl)
    (fun n hn i ω => by
      simp only [hξ n hn]
      rw [hget (n + 1) (by omega), hget n (by omega), hxs ω n hn (hX _ (by omega) ω)]
      simp only [Pi.add_apply, Pi.smul_apply, smul_eq_mul, Matrix.mulVec, dotProduct, Pi.sub_apply, Matrix.sub_apply,
        Matrix.smul_apply, Matrix.one_apply, hdd n hn, sub_mul, Finset.sum_sub_distrib, ite_mul, one_mul, zero_mul,
        Finset.sum_ite_eq, Finset.mem_univ, if_true, Finset.mul_sum]
      have : ∑ j, (dts[n] : ℝ) * (K i j * (θ j - ((xs ω)[n]'(hX n (by omega) ω)) j)) =
          -∑ j, (dts[n] : ℝ) * K i j * (((xs ω)[n]'(hX n (by omega) ω)) j - θ j) := by
        rw [← Finset.sum_neg_distrib]
        exact Finset.sum_congr rfl fun j _ => by ring
      rw [this]
      ring)
    (fun n hn => rfl) rfl (fun n hn => rfl)
  refine ⟨grid, dts, fun n i ω => (xs ω).getD n 0 i, fun n => θ + M n, V, hg, hs, hpos, ?_, ?_, ?_, rfl, ?_, ?_⟩
  · intro n hn ω
    obtain ⟨c1, c2⟩ := hxc ω n hn (hX n hn ω)
    simp only [hget n hn ω]
    exact ⟨c1, c2⟩
  · show θ + (x0 - θ) = x0
    abel
  · intro n hn
    show θ + (1 - d n • K) *ᵥ M n = _
    rw [hdd n hn, Matrix.sub_mulVec, Matrix.one_mulVec, Matrix.smul_mulVec]
    have : θ - (θ + M n) = -M n := by abel
    rw [this, Matrix.mulVec_neg, smul_neg]
    module
  · intro n hn
    show (1 - d n • K) * V n * (1 - d n • K)ᵀ + S * Q n * Sᵀ = _
    simp only [Q, hdd n hn]
    congr 1
    rw [Matrix.mul_smul, Matrix.smul_mul, Matrix.transpose_mul]
    simp only [Matrix.mul_assoc]
  · intro n hn i j
    obtain ⟨i1, i2, -, -, i5, i6⟩ := key n (by omega)
    have j1 : ∀ i, Integrable (fun ω => (xs ω).getD n 0 i) ν := fun i => by
      refine ((i1 i).add (integrable_const (θ i))).congr (Filter.Eventually.of_forall fun ω => ?_)
      simp
    have j2 : ∀ i, ∫ ω, (xs ω).getD n 0 i ∂ν = θ i + M n i := fun i => by
      rw [← i2 i, integral_sub (j1 i) (integrable_const _), integral_const, probReal_univ, one_smul]
      ring
    have e : ∀ ω, ((xs ω).getD n 0 i - (θ i + M n i)) * ((xs ω).getD n 0 j - (θ j + M n j)) =
        ((xs ω).getD n 0 i - θ i) * ((xs ω).getD n 0 j - θ j) +
          (-M n j * ((xs ω).getD n 0 i - θ i) + (-M n i * ((xs ω).getD n 0 j - θ j) + M n i * M n j)) := fun ω => by ring
    have k2 : Integrable (fun ω => -M n i * ((xs ω).getD n 0 j - θ j) + M n i * M n j) ν :=
      ((i1 j).const_mul _).add (integrable_const _)
    have k1 : Integrable (fun ω => -M n j * ((xs ω).getD n 0 i - θ i) +
        (-M n i * ((xs ω).getD n 0 j - θ j) + M n i * M n j)) ν := ((i1 i).const_mul _).add k2
    refine ⟨j1 i, j2 i, ?_, ?_⟩ <;> simp only [Pi.add_apply, e]
    · exact (i5 i j).add k1
    · rw [integral_add (i5 i j) k1, i6, integral_add ((i1 i).const_mul _) k2, integral_add ((i1 j).const_mul _) (integrable_const _),
        integral_const_mul, integral_const_mul, i2, i2, integral_const, probReal_univ, one_smul]
      ring

/-- One Euler step of a decaying coordinate against the exact decay. -/
theorem mode_mean (l : ℝ) (hl : 0 ≤ l) (N : Nat) (d y : Nat → ℝ) (hd : ∀ n, n < N → 0 ≤ d n) (hs : ∀ n, n < N → l * d n ≤ 1)
    (hy : ∀ n, n < N → y (n + 1) = (1 - l * d n) * y n) (n : Nat) (hn : n ≤ N) :
    |y n - Real.exp (-l * ∑ j ∈ range n, d j) * y 0| ≤ |y 0| * l ^ 2 / 2 * ∑ j ∈ range n, d j ^ 2 := by
  induction n with
  | zero => simp
  | succ n ih =>
    have ih := ih (by omega)
    have hn' : n < N := by omega
    have hx : 0 ≤ l * d n := mul_nonneg hl (hd n hn')
    have hx1 := hs n hn'
    obtain ⟨s1, -, -⟩ := decay_step hx
    have hτ : 0 ≤ ∑ j ∈ range n, d j := Finset.sum_nonneg fun j hj => hd j (by have := Finset.mem_range.1 hj; omega)
    rw [hy n hn', Finset.sum_range_succ, Finset.sum_range_succ]
    have e1 : (1 - l * d n) * y n - Real.exp (-l * (∑ j ∈ range n, d j + d n)) * y 0 =
        (1 - l * d n) * (y n - Real.exp (-l * ∑ j ∈ range n, d j) * y 0) +
          Real.exp (-l * ∑ j ∈ range n, d j) * y 0 * (1 - l * d n - Real.exp (-(l * d n))) := by
      rw [show -l * (∑ j ∈ range n, d j + d n) = -l * ∑ j ∈ range n, d j + -(l * d n) by ring, Real.exp_add]
      ring
    rw [e1]
    have a1 : |(1 - l * d n) * (y n - Real.exp (-l * ∑ j ∈ range n, d j) * y 0)| ≤
        |y n - Real.exp (-l * ∑ j ∈ range n, d j) * y 0| := by
      rw [abs_mul]
      refine mul_le_of_le_one_left (abs_nonneg _) ?_
      rw [abs_le]
      constructor <;> linarith
    have a2 : |Real.exp (-l * ∑ j ∈ range n, d j) * y 0 * (1 - l * d n - Real.exp (-(l * d n)))| ≤ |y 0| * ((l * d n) ^ 2 / 2) := by
      rw [abs_mul, abs_mul, abs_of_pos (Real.exp_pos _)]
      have : Real.exp (-l * ∑ j ∈ range n, d j) ≤ 1 := Real.exp_le_one_iff.2 (by nlinarith)
      exact mul_le_mul (mul_le_of_le_one_left (abs_nonneg _) this) s1 (abs_nonneg _) (abs_nonneg _)
    refine (abs_add_le _ _).trans ?_
    calc _ ≤ _ := add_le_add (a1.trans ih) a2
      _ = _ := by ring

/-- One Euler step of the covariance of two decaying coordinates against the exact covariance. -/
theorem mode_cov (a b c : ℝ) (ha : 0 < a) (hb : 0 < b) (N : Nat) (d w : Nat → ℝ) (hd : ∀ n, n < N → 0 ≤ d n)
    (hsa : ∀ n, n < N → a * d n ≤ 1) (hsb : ∀ n, n < N → b * d n ≤ 1) (h0 : w 0 = 0)
    (hw : ∀ n, n < N → w (n + 1) = (1 - a * d n) * w n * (1 - b * d n) + d n * c) (n : Nat) (hn : n ≤ N) :
    |w n - c * ((1 - Real.exp (-(a + b) * ∑ j ∈ range n, d j)) / (a + b))| ≤ |c| * (a + b) * ∑ j ∈ range n, d j ^ 2 := by
  induction n with
  | zero => simp [h0]
  | succ n ih =>
    have ih := ih (by omega)
    have hn' : n < N := by omega
    have hdn := hd n hn'
    have hx : 0 ≤ a * d n := mul_nonneg ha.le hdn
    have hz : 0 ≤ b * d n := mul_nonneg hb.le hdn
    have hx1 := hsa n hn'
    have hz1 := hsb n hn'
    obtain ⟨s1, s2, s3⟩ := decay_step hx
    obtain ⟨t1, t2, t3⟩ := decay_step hz
    obtain ⟨u1, u2, u3⟩ := decay_step (x := (a + b) * d n) (by nlinarith)
    have hτ : 0 ≤ ∑ j ∈ range n, d j := Finset.sum_nonneg fun j hj => hd j (by have := Finset.mem_range.1 hj; omega)
    have hss : 0 < a + b := by linarith
    rw [hw n hn', Finset.sum_range_succ, Finset.sum_range_succ]
    set τ := ∑ j ∈ range n, d j with hτd
    set F := Real.exp (-(a + b) * τ) with hF
    have hFp : 0 < F := Real.exp_pos _
    have hF1 : F ≤ 1 := Real.exp_le_one_iff.2 (by nlinarith)
    have hmul : Real.exp (-((a + b) * d n)) = Real.exp (-(a * d n)) * Real.exp (-(b * d n)) := by
      rw [← Real.exp_add]; congr 1; ring
    set P := Real.exp (-(a * d n)) with hP
    set R := Real.exp (-(b * d n)) with hR
    have e1 : (1 - a * d n) * w n * (1 - b * d n) + d n * c - c * ((1 - Real.exp (-(a + b) * (τ + d n))) / (a + b)) =
        (1 - a * d n) * (1 - b * d n) * (w n - c * ((1 - F) / (a + b))) +
          c / (a + b) * ((1 - F) * ((1 - a * d n) * (1 - b * d n) - P * R)) +
          c / (a + b) * ((a + b) * d n - 1 + P * R) := by
      rw [show -(a + b) * (τ + d n) = -(a + b) * τ + -((a + b) * d n) by ring, Real.exp_add, hmul, ← hF]
      field_simp
      ring
    rw [e1]
    have a1 : |(1 - a * d n) * (1 - b * d n) * (w n - c * ((1 - F) / (a + b)))| ≤ |w n - c * ((1 - F) / (a + b))| := by
      rw [abs_mul]
      refine mul_le_of_le_one_left (abs_nonneg _) ?_
      rw [abs_le]
      constructor <;> nlinarith
    have a2 : |(1 - F) * ((1 - a * d n) * (1 - b * d n) - P * R)| ≤ ((a + b) * d n) ^ 2 / 2 := by
      rw [abs_mul, abs_of_nonneg (by linarith : 0 ≤ 1 - F)]
      have : |(1 - a * d n) * (1 - b * d n) - P * R| ≤ ((a + b) * d n) ^ 2 / 2 := by
        rw [show (1 - a * d n) * (1 - b * d n) - P * R = (1 - a * d n) * (1 - b * d n - R) + (1 - a * d n - P) * R by ring]
        refine (abs_add_le _ _).trans ?_
        rw [abs_mul, abs_mul, abs_of_nonneg (by linarith : 0 ≤ 1 - a * d n), abs_of_pos t3]
        have q1 : (1 - a * d n) * |1 - b * d n - R| ≤ (b * d n) ^ 2 / 2 :=
          (mul_le_of_le_one_left (abs_nonneg _) (by linarith)).trans t1
        have q2 : |1 - a * d n - P| * R ≤ (a * d n) ^ 2 / 2 := (mul_le_of_le_one_right (abs_nonneg _) t2).trans s1
        nlinarith [mul_nonneg hx hz]
      exact (mul_le_of_le_one_left (abs_nonneg _) (by linarith)).trans this
    have a3 : |(a + b) * d n - 1 + P * R| ≤ ((a + b) * d n) ^ 2 / 2 := by
      rw [hmul] at u1
      rw [show (a + b) * d n - 1 + P * R = -(1 - (a + b) * d n - P * R) by ring, abs_neg]
      exact u1
    have a23 : |c / (a + b) * ((1 - F) * ((1 - a * d n) * (1 - b * d n) - P * R)) + c / (a + b) * ((a + b) * d n - 1 + P * R)| ≤
        |c| / (a + b) * ((a + b) * d n) ^ 2 := by
      rw [← mul_add, abs_mul, abs_div, abs_of_pos hss]
      refine mul_le_mul_of_nonneg_left ((abs_add_le _ _).trans ?_) (by positivity)
      linarith
    rw [add_assoc]
    refine (abs_add_le _ _).trans ?_
    calc _ ≤ _ := add_le_add (a1.trans ih) a23
      _ = _ := by field_simp

/-- The change to the coordinates of the eigenvectors: means. -/
theorem eigen_mean {l : Vec p} {G H : Mat p} (h : Diagonalizes K l G H) (N : Nat) (d : Nat → ℝ) (mean : Nat → Vec p)
    (hd : ∀ n, n < N → 0 ≤ d n) (hl : ∀ i, 0 ≤ l i) (hsm : ∀ n i, n < N → l i * d n ≤ 1)
    (ms : ∀ n, n < N → mean (n + 1) = mean n + d n • (K *ᵥ (θ - mean n))) (n : Nat) (hn : n ≤ N) (i : Fin p) :
    |mean n i - meanState l G H θ (mean 0) (∑ j ∈ range n, d j) i| ≤
      (∑ k, |G i k| * |(H *ᵥ (mean 0 - θ)) k| * l k ^ 2 / 2) * ∑ j ∈ range n, d j ^ 2 := by
  have hHK : ∀ x : Vec p, H *ᵥ (K *ᵥ x) = fun k => l k * (H *ᵥ x) k := fun x => by
    rw [h.eq, Matrix.mulVec_mulVec, ← Matrix.mul_assoc, ← Matrix.mul_assoc, h.inv', Matrix.one_mul, ← Matrix.mulVec_mulVec]
    funext k
    rw [Matrix.mulVec_diagonal]
  have hy : ∀ k n, n < N → (H *ᵥ (mean (n + 1) - θ)) k = (1 - l k * d n) * (H *ᵥ (mean n - θ)) k := by
    intro k n hn
    have e : mean (n + 1) - θ = (mean n - θ) - d n • (K *ᵥ (mean n - θ)) := by
      rw [ms n hn, show θ - mean n = -(mean n - θ) by abel, Matrix.mulVec_neg]
      module
    rw [e, Matrix.mulVec_sub, Matrix.mulVec_smul, hHK]
    simp only [Pi.sub_apply, Pi.smul_apply, smul_eq_mul]
    ring
  have key := fun k => mode_mean (l k) (hl k) N d (fun n => (H *ᵥ (mean n - θ)) k) hd (fun n hn => hsm n k hn) (hy k) n hn
  have e : mean n - meanState l G H θ (mean 0) (∑ j ∈ range n, d j) =
      G *ᵥ (fun k => (H *ᵥ (mean n - θ)) k - Real.exp (-l k * ∑ j ∈ range n, d j) * (H *ᵥ (mean 0 - θ)) k) := by
    have e1 : (fun k => (H *ᵥ (mean n - θ)) k - Real.exp (-l k * ∑ j ∈ range n, d j) * (H *ᵥ (mean 0 - θ)) k) =
        H *ᵥ (mean n - θ) - diagonal (fun k => Real.exp (-l k * ∑ j ∈ range n, d j)) *ᵥ (H *ᵥ (mean 0 - θ)) := by
      funext k
      rw [Pi.sub_apply, Matrix.mulVec_diagonal]
    rw [e1, Matrix.mulVec_sub, Matrix.mulVec_mulVec, h.inv, Matrix.one_mulVec, Matrix.mulVec_mulVec, Matrix.mulVec_mulVec]
    unfold meanState
    rw [show G * diagonal (fun k => Real.exp (-l k * ∑ j ∈ range n, d j)) * H = E l G H (∑ j ∈ range n, d j) from rfl,
      Matrix.sub_mulVec, Matrix.one_mulVec, Matrix.mulVec_sub]
    abel
  have e' := congrFun e i
  rw [Pi.sub_apply] at e'
  rw [e', Matrix.mulVec, dotProduct, Finset.sum_mul]
  refine (Finset.abs_sum_le_sum_abs _ _).trans (Finset.sum_le_sum fun k _ => ?_)
  rw [abs_mul]
  calc _ ≤ _ := mul_le_mul_of_nonneg_left (key k) (abs_nonneg _)
    _ = _ := by ring

/-- The change to the coordinates of the eigenvectors: covariances. -/
theorem eigen_cov {l : Vec p} {G H C : Mat p} (h : Diagonalizes K l G H) (N : Nat) (d : Nat → ℝ) (cov : Nat → Mat p)
    (hd : ∀ n, n < N → 0 ≤ d n) (hl : ∀ i, 0 < l i) (hsm : ∀ n i, n < N → l i * d n ≤ 1) (c0 : cov 0 = 0)
    (cs : ∀ n, n < N → cov (n + 1) = (1 - d n • K) * cov n * (1 - d n • K)ᵀ + d n • C) (n : Nat) (hn : n ≤ N) (i j : Fin p) :
    |cov n i j - covState l G H C (∑ j ∈ range n, d j) i j| ≤
      (∑ a, ∑ b, |G i a| * |(H * C * Hᵀ) a b| * |G j b| * (l a + l b)) * ∑ j ∈ range n, d j ^ 2 := by
  have hHK : H * K = diagonal l * H := by
    rw [h.eq, ← Matrix.mul_assoc, ← Matrix.mul_assoc, h.inv', Matrix.one_mul]
  have hA : ∀ n, H * (1 - d n • K) = diagonal (fun k => 1 - l k * d n) * H := fun n => by
    rw [Matrix.mul_sub, Matrix.mul_one, Matrix.mul_smul, hHK]
    ext a b
    simp only [Matrix.sub_apply, Matrix.smul_apply, Matrix.diagonal_mul, smul_eq_mul]
    ring
  have hW : ∀ a b n, n < N → (H * cov (n + 1) * Hᵀ) a b =
      (1 - l a * d n) * (H * cov n * Hᵀ) a b * (1 - l b * d n) + d n * (H * C * Hᵀ) a b := by
    intro a b n hn
    have e : H * cov (n + 1) * Hᵀ = diagonal (fun k => 1 - l k * d n) * (H * cov n * Hᵀ) * diagonal (fun k => 1 - l k * d n) +
        d n • (H * C * Hᵀ) := by
      rw [cs n hn, Matrix.mul_add, Matrix.add_mul]
      congr 1
      · have : H * ((1 - d n • K) * cov n * (1 - d n • K)ᵀ) * Hᵀ = (H * (1 - d n • K)) * cov n * (H * (1 - d n • K))ᵀ := by
          rw [Matrix.transpose_mul]
          simp only [Matrix.mul_assoc]
        rw [this, hA, Matrix.transpose_mul, Matrix.diagonal_transpose]
        simp only [Matrix.mul_assoc]
      · rw [Matrix.mul_smul, Matrix.smul_mul]
    rw [e, Matrix.add_apply, Matrix.mul_diagonal, Matrix.diagonal_mul, Matrix.smul_apply, smul_eq_mul]
  have key := fun a b => mode_cov (l a) (l b) ((H * C * Hᵀ) a b) (hl a) (hl b) N d (fun n => (H * cov n * Hᵀ) a b) hd
    (fun n hn => hsm n a hn) (fun n hn => hsm n b hn) (by simp [c0]) (hW a b) n hn
  have ht : Hᵀ * Gᵀ = 1 := by rw [← Matrix.transpose_mul, h.inv, Matrix.transpose_one]
  have e : cov n - covState l G H C (∑ j ∈ range n, d j) =
      G * (Matrix.of fun a b => (H * cov n * Hᵀ) a b -
        (H * C * Hᵀ) a b * ((1 - Real.exp (-(l a + l b) * ∑ j ∈ range n, d j)) / (l a + l b))) * Gᵀ := by
    have e1 : (Matrix.of fun a b => (H * cov n * Hᵀ) a b -
        (H * C * Hᵀ) a b * ((1 - Real.exp (-(l a + l b) * ∑ j ∈ range n, d j)) / (l a + l b))) = H * cov n * Hᵀ -
        Matrix.of fun a b => (H * C * Hᵀ) a b * ((1 - Real.exp (-(l a + l b) * ∑ j ∈ range n, d j)) / (l a + l b)) := by
      ext a b
      rfl
    rw [e1, Matrix.mul_sub, Matrix.sub_mul]
    congr 1
    have : G * (H * cov n * Hᵀ) * Gᵀ = (G * H) * cov n * (Hᵀ * Gᵀ) := by simp only [Matrix.mul_assoc]
    rw [this, h.inv, ht, Matrix.one_mul, Matrix.mul_one]
  have e' := congrFun (congrFun e i) j
  rw [Matrix.sub_apply] at e'
  rw [e']
  simp only [Matrix.mul_apply, Matrix.of_apply, Matrix.transpose_apply, Finset.sum_mul]
  rw [Finset.sum_comm]
  refine (Finset.abs_sum_le_sum_abs _ _).trans (Finset.sum_le_sum fun a _ => ?_)
  refine (Finset.abs_sum_le_sum_abs _ _).trans (Finset.sum_le_sum fun b _ => ?_)
  rw [abs_mul, abs_mul]
  have := key a b
  simp only [Matrix.mul_apply, Matrix.transpose_apply, Finset.sum_mul] at this
  calc _ ≤ _ := mul_le_mul_of_nonneg_right (mul_le_mul_of_nonneg_left this (abs_nonneg _)) (abs_nonneg _)
    _ = _ := by ring

/-- The time from the start to each point of a generated grid, under the conventions with a fixed denominator. -/
theorem grid_elapsed {start stop : PyDatetime} {dt : DtIncrement} {dcc : DayCountConvention} (hf : Forward dt) (hle : start ≤ stop)
    (q : ℚ) (hq : FixedDenominator dcc = some q) (hend : stop.day.ord < PyDate.maxOrd) (grid : List PyDatetime) (dts : List ℚ)
    (hg : BrownianMotion.makeGrid start stop dt = .ok grid) (hs : StepLengths dcc grid dts) (n : Nat) (hn : n < grid.length) :
    dtAccrual start grid[n] dcc = .ok (∑ j ∈ range n, dts.getD j 0) := by
  obtain ⟨hhead, hl, hinc, -⟩ := C55_grid start stop _ hf hle grid hg
  have hlen := hs.1
  have h0 : 0 < grid.length := by omega
  have hg0 : grid[0] = start := by
    rw [List.head?_eq_getElem?, List.getElem?_eq_getElem h0] at hhead
    injection hhead
  have hlast : ∀ g ∈ grid, g.day.ord < PyDate.maxOrd := by
    intro g hgm
    obtain ⟨i, hi, rfl⟩ := List.getElem_of_mem hgm
    rw [List.getLast?_eq_getElem?, List.getElem?_eq_getElem (by omega)] at hl
    injection hl with hl
    have hle' : grid[i].instant ≤ stop.instant := by
      rw [← hl]
      rcases Nat.lt_or_ge i (grid.length - 1) with h' | h'
      · have := List.pairwise_iff_getElem.1 hinc i (grid.length - 1) hi (by omega) h'
        rw [PyDatetime.lt_iff] at this
        exact this.le
      · have : i = grid.length - 1 := by omega
        subst this
        exact le_rfl
    have b1 := grid[i].bounds
    have b2 := stop.bounds
    unfold PyDatetime.instant at hle'
    omega
  rw [← hg0]
  exact elapsed_steps _ q hq grid hinc dts hs hlast n hn h0

/-- C101. Under the conventions with a fixed denominator, positive reversion speeds (eigenvalues of the reversion matrix) and steps
no longer than the reciprocal of each speed: at every grid point the means of the simulated state variables and of the simulated
short rate are the model's own `expected_state_variable_mean` and `expected_short_rate` there, and their covariances are the
entries of the covariance matrix solving the model's equation, up to a discretization error proportional to the sum of the squared
step lengths. -/
theorem C101_closed_forms (hZ : StandardNormals ν Z) (h : MadeMulti μ g θ K S v) (hl : ∀ i, 0 < v.eig.values i)
    (hf : Forward v.core.process.dt) (hle : v.core.bm.start ≤ v.core.bm.stop) (q : ℚ) (hq : FixedDenominator v.core.bm.dcc = some q)
    (hend : v.core.bm.stop.day.ord < PyDate.maxOrd) (x0 : Vec p) (v' : Ω → MultiVasicek p)
    (hv : ∀ ω, v.generatePath x0 true (fun k i => Z k i ω) = (.ok (), v' ω)) (V : ℝ → Mat p)
    (hV : IsCovariance K (S * Matrix.of v.core.bm.chol) V) :
    ∃ (grid : List PyDatetime) (dts : List ℚ) (X : Nat → Fin p → Ω → ℝ) (b : Vec p) (c : Mat p),
      BrownianMotion.makeGrid v.core.bm.start v.core.bm.stop v.core.process.dt = .ok grid ∧
      StepLengths v.core.bm.dcc grid dts ∧
      b = (fun i => ∑ k, |v.eig.vectors i k| * |(v.eig.inverse *ᵥ (x0 - θ)) k| * v.eig.values k ^ 2 / 2) ∧
      c = (fun i j => ∑ k, ∑ m, |v.eig.vectors i k| *
        |(v.eig.inverse * ((S * Matrix.of v.core.bm.chol) * (S * Matrix.of v.core.bm.chol)ᵀ) * v.eig.inverseᵀ) k m| *
        |v.eig.vectors j m| * (v.eig.values k + v.eig.values m)) ∧
      (∀ n (hn : n < grid.length) ω, (v' ω).state grid[n] = .ok (fun i => X n i ω) ∧
        (v' ω).call grid[n] = .ok (μ + g ⬝ᵥ fun i => X n i ω)) ∧
      ((∀ j (hj : j < dts.length) i, v.eig.values i * dts[j] ≤ 1) → ∀ n (hn : n < grid.length),
        ∃ (T : ℚ) (x : Vec p) (r : ℝ), dtAccrual v.core.bm.start grid[n] v.core.bm.dcc = .ok T ∧
          (∀ ω, (v' ω).expectedStateMean grid[n] none = .ok x ∧ (v' ω).expectedShortRate grid[n] none = .ok r) ∧
          (∀ i, |∫ ω, X n i ω ∂ν - x i| ≤ b i * ∑ j ∈ range n, (dts.getD j 0 : ℝ) ^ 2) ∧
          |∫ ω, (μ + g ⬝ᵥ fun i => X n i ω) ∂ν - r| ≤ (∑ i, |g i| * b i) * ∑ j ∈ range n, (dts.getD j 0 : ℝ) ^ 2 ∧
          ∀ i j, |∫ ω, (X n i ω - ∫ ω, X n i ω ∂ν) * (X n j ω - ∫ ω, X n j ω ∂ν) ∂ν - V T i j| ≤
            c i j * ∑ j ∈ range n, (dts.getD j 0 : ℝ) ^ 2) := by
  have hd : v.core.bm.dcc ≠ .thirty360 := by rintro e; rw [e] at hq; simp [FixedDenominator] at hq
  obtain ⟨grid, dts, X, mean, cov, hg, hs, hpos, hX, m0, ms, w0, ws, hm⟩ := C101_moments hZ h.built hf hle hd x0 v' hv
  obtain ⟨hhead, -, -, -⟩ := C55_grid v.core.bm.start v.core.bm.stop _ hf hle grid hg
  obtain ⟨-, -, -, -, -, -, hdg, hl2⟩ := h.params
  refine ⟨grid, dts, X, _, _, hg, hs, rfl, rfl, hX, fun hsmall => ?_⟩
  have hlen := hs.1
  have h0 : 0 < grid.length := by omega
  have hg0 : grid[0] = v.core.bm.start := by
    rw [List.head?_eq_getElem?, List.getElem?_eq_getElem h0] at hhead
    injection hhead
  have hgd : ∀ n (hn : n < dts.length), dts.getD n 0 = dts[n] := fun n hn => by
    rw [List.getD_eq_getElem?_getD, List.getElem?_eq_getElem hn, Option.getD_some]
  have hmean : ∀ n, n ≤ dts.length → ∀ i, |mean n i - meanState v.eig.values v.eig.vectors v.eig.inverse θ x0
      (∑ j ∈ range n, (dts.getD j 0 : ℝ)) i| ≤ (∑ k, |v.eig.vectors i k| * |(v.eig.inverse *ᵥ (x0 - θ)) k| * v.eig.values k ^ 2 / 2) *
        ∑ j ∈ range n, (dts.getD j 0 : ℝ) ^ 2 := by
    intro n hn i
    have := eigen_mean hdg dts.length (fun n => (dts.getD n 0 : ℝ)) mean
      (fun n hn => by rw [hgd n hn]; exact_mod_cast (hpos n hn).le) (fun i => (hl i).le)
      (fun n i hn => by rw [hgd n hn]; exact hsmall n hn i)
      (fun n hn => by rw [hgd n hn]; exact ms n hn) n hn i
    rwa [m0] at this
  have hcov : ∀ n, n ≤ dts.length → ∀ i j, |cov n i j - V (∑ j ∈ range n, (dts.getD j 0 : ℝ)) i j| ≤
      (∑ k, ∑ m, |v.eig.vectors i k| *
        |(v.eig.inverse * ((S * Matrix.of v.core.bm.chol) * (S * Matrix.of v.core.bm.chol)ᵀ) * v.eig.inverseᵀ) k m| *
        |v.eig.vectors j m| * (v.eig.values k + v.eig.values m)) * ∑ j ∈ range n, (dts.getD j 0 : ℝ) ^ 2 := by
    intro n hn i j
    have := eigen_cov hdg dts.length (fun n => (dts.getD n 0 : ℝ)) cov
      (fun n hn => by rw [hgd n hn]; exact_mod_cast (hpos n hn).le) hl
      (fun n i hn => by rw [hgd n hn]; exact hsmall n hn i) w0
      (fun n hn => by rw [hgd n hn]; exact ws n hn) n hn i j
    rw [covariance_unique hdg hl2 hV]
    exact this
  intro n hn
  have hcast : ((∑ j ∈ range n, dts.getD j 0 : ℚ) : ℝ) = ∑ j ∈ range n, (dts.getD j 0 : ℝ) := by push_cast; rfl
  refine ⟨∑ j ∈ range n, dts.getD j 0, meanState v.eig.values v.eig.vectors v.eig.inverse θ x0 (∑ j ∈ range n, (dts.getD j 0 : ℝ)),
    μ + g ⬝ᵥ meanState v.eig.values v.eig.vectors v.eig.inverse θ x0 (∑ j ∈ range n, (dts.getD j 0 : ℝ)),
    grid_elapsed hf hle q hq hend grid dts hg hs n hn, fun ω => ?_, ?_, ?_, ?_⟩
  · have hmk : MadeMulti μ g θ K S (v' ω) := by have := h.generate x0 true (fun k i => Z k i ω); rwa [hv ω] at this
    obtain ⟨c2, -, c1, -⟩ := shortRate_generate_bm v.core x0 true (fun k i => Z k i ω)
    have hcore : (v' ω).core = (v.core.generatePath x0 true (fun k i => Z k i ω)).2 := by
      have := hv ω
      unfold MultiVasicek.generatePath at this
      simp only [Prod.mk.injEq] at this
      rw [← this.2]
    rw [← hcore] at c1 c2
    have hst : (v' ω).state ((v' ω).purchase none) = .ok x0 := by
      show (v' ω).state (v' ω).core.bm.start = _
      obtain ⟨grid', dts', xs, hg', -, a1, a2, -, -, a4, -⟩ := multi_simulated h.built hf hle x0 _ _ (hv ω)
      rw [hg] at hg'
      injection hg' with hg'
      subst hg'
      have l0 : 0 < xs.length := by omega
      rw [c1, ← hg0, (a4 0 h0 l0).1]
      rw [List.head?_eq_getElem?, List.getElem?_eq_getElem l0] at a2
      injection a2 with a2
      rw [a2]
    have htime : (v' ω).time ((v' ω).purchase none) grid[n] = .ok (∑ j ∈ range n, dts.getD j 0) := by
      show dtAccrual (v' ω).core.bm.start grid[n] (v' ω).core.bm.dcc = _
      rw [c1, c2]
      exact grid_elapsed hf hle q hq hend grid dts hg hs n hn
    have := C65_mean hmk grid[n] none _ x0 _ htime hst (meanState_spec hdg θ x0)
    rwa [hcast] at this
  · intro i
    rw [(hm n hn i i).2.1]
    exact hmean n (by omega) i
  · have e1 : ∫ ω, (μ + g ⬝ᵥ fun i => X n i ω) ∂ν = μ + g ⬝ᵥ mean n := by
      simp only [dotProduct]
      rw [integral_add (integrable_const _) (integrable_finset_sum _ fun i _ => ((hm n hn i i).1).const_mul _),
        integral_finset_sum _ fun i _ => ((hm n hn i i).1).const_mul _, integral_const, probReal_univ, one_smul]
      simp only [integral_const_mul]
      congr 1
      exact Finset.sum_congr rfl fun i _ => by rw [(hm n hn i i).2.1]
    rw [e1, add_sub_add_left_eq_sub, ← dotProduct_sub, Finset.sum_mul, dotProduct]
    refine (Finset.abs_sum_le_sum_abs _ _).trans (Finset.sum_le_sum fun i _ => ?_)
    rw [abs_mul, mul_assoc]
    exact mul_le_mul_of_nonneg_left (hmean n (by omega) i) (abs_nonneg _)
  · intro i j
    rw [(hm n hn i i).2.1, (hm n hn j j).2.1, (hm n hn i j).2.2.2, hcast]
    exact hcov n (by omega) i j

end

/-- Concrete case for C101: a probability space with standard normal draws, and on it, for every outcome, a simulated path of a
two-factor model with reversion speeds 1 and 2, one factor pulling the other, and correlated shocks, on the grid of 1, 2 and
3 January 2023. -/
example : ∃ (Ω : Type) (_ : MeasurableSpace Ω) (ν : Measure Ω) (_ : IsProbabilityMeasure ν) (Z : Nat → Fin 2 → Ω → ℝ)
    (v : MultiVasicek 2) (v' : Ω → MultiVasicek 2) (V : ℝ → Mat 2), StandardNormals ν Z ∧
    MadeMulti (1 / 100) ![1, 1] ![1, 2] !![1, 0; 1, 2] !![1, 0; 1 / 2, 1] v ∧ (∀ i, 0 < v.eig.values i) ∧
    Forward v.core.process.dt ∧ v.core.bm.start ≤ v.core.bm.stop ∧ FixedDenominator v.core.bm.dcc = some 365 ∧
    v.core.bm.stop.day.ord < PyDate.maxOrd ∧
    (∀ ω, v.generatePath ![1 / 50, 3] true (fun k i => Z k i ω) = (.ok (), v' ω)) ∧
    IsCovariance !![1, 0; 1, 2] (!![1, 0; 1 / 2, 1] * Matrix.of v.core.bm.chol) V ∧
    ∃ grid, BrownianMotion.makeGrid v.core.bm.start v.core.bm.stop v.core.process.dt = .ok grid ∧ grid.length = 3 ∧
      ∀ dts, StepLengths v.core.bm.dcc grid dts → ∀ j (hj : j < dts.length) i, v.eig.values i * dts[j] ≤ 1 := by
  obtain ⟨Ω, mΩ, ν, hν, Z, hZ⟩ := standardNormals_exist 2
  let bm : BrownianMotion 2 := ⟨T 2023 1 1, T 2023 1 3, fun i j => if i = j then 1 else 0, .act365, none, none⟩
  let dt : DtIncrement := .timedelta 86400000000
  let e : Eig 2 := ⟨![1, 2], !![1, 0; -1, 1], !![1, 0; 1, 1]⟩
  have hdg : Diagonalizes (!![1, 0; 1, 2] : Mat 2) e.values e.vectors e.inverse := by
    constructor
    · ext i j
      rw [Matrix.mul_apply, Fin.sum_univ_two, Matrix.mul_diagonal, Matrix.mul_diagonal]
      fin_cases i <;> fin_cases j <;> norm_num [e]
    · ext i j; fin_cases i <;> fin_cases j <;> norm_num [e, Matrix.mul_apply, Fin.sum_univ_two]
  have hsum : ∀ i j, e.values i + e.values j ≠ 0 := by intro i j; fin_cases i <;> fin_cases j <;> norm_num [e]
  have hgrid : BrownianMotion.makeGrid bm.start bm.stop dt = .ok [T 2023 1 1, T 2023 1 2, T 2023 1 3] := by decide +kernel
  let v : MultiVasicek 2 := MultiVasicek.init (1 / 100) ![1, 1] ![1, 2] !![1, 0; 1, 2] !![1, 0; 1 / 2, 1] e bm dt
  have hgen : ∀ ω, ∃ v', v.generatePath ![1 / 50, 3] true (fun k i => Z k i ω) = (.ok (), v') := by
    intro ω
    unfold MultiVasicek.generatePath ShortRateModel.generatePath Diffusion.generatePath
    have hb : v.core.bm = bm := rfl
    have hdt : v.core.process.dt = dt := rfl
    rw [hb, hdt]
    rw [generateIncrements_total bm dt _ [T 2023 1 1, T 2023 1 2, T 2023 1 3] [1 / 365, 1 / 365] hgrid (by decide +kernel)]
    exact ⟨_, rfl⟩
  choose v' hv' using hgen
  refine ⟨Ω, mΩ, ν, hν, Z, v, v', _, hZ, ⟨e, bm, dt, [], hdg, hsum, rfl⟩, ?_, ?_, ?_, rfl, ?_, hv', covState_spec hdg hsum _,
    [T 2023 1 1, T 2023 1 2, T 2023 1 3], hgrid, rfl, ?_⟩
  · intro i; show 0 < e.values i; fin_cases i <;> norm_num [e]
  · show Forward dt; norm_num [Forward, dt]
  · show T 2023 1 1 ≤ T 2023 1 3; decide +kernel
  · show (T 2023 1 3).day.ord < PyDate.maxOrd; decide +kernel
  · show ∀ dts, StepLengths .act365 _ dts → _
    intro dts hs j hj i
    show e.values i * _ ≤ 1
    have hl : dts.length = 2 := by have := hs.1; simp only [List.length_cons, List.length_nil] at this; omega
    have e' : dts[j] = 1 / 365 := by
      have := hs.2 j hj (by simp only [List.length_cons, List.length_nil]; omega) (by simp only [List.length_cons, List.length_nil]; omega)
      have h2 : j = 0 ∨ j = 1 := by omega
      rcases h2 with rfl | rfl
      · have e : dtAccrual (T 2023 1 1) (T 2023 1 2) .act365 = .ok (1 / 365) := by decide +kernel
        exact (Except.ok.inj (e.symm.trans this)).symm
      · have e : dtAccrual (T 2023 1 2) (T 2023 1 3) .act365 = .ok (1 / 365) := by decide +kernel
        exact (Except.ok.inj (e.symm.trans this)).symm
    rw [e']
    fin_cases i <;> norm_num [e]

end Verif.Props
