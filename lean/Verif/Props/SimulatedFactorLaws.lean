/- The joint law of the factors of a simulated multivariate Vasicek model: C133. -/
import Verif.Props.NormalLaws
import Verif.Props.SimulatedFactors

namespace Verif.Props
open Verif.Spec (Forward StepLengths shock FixedDenominator JointlyNormal)
open Verif.Spec.Multi Verif.Multi Matrix MeasureTheory ProbabilityTheory Finset

section
variable {Ω : Type} [MeasurableSpace Ω] {ν : Measure Ω} [IsProbabilityMeasure ν] {p : Nat} {Z : Nat → Fin p → Ω → ℝ}

/-- C133. With independent standard normal draws, the factors of a simulated multivariate Vasicek model at each grid point are jointly normal,
and so the simulated short rate is normal; means and covariances are those of the discretized equation. -/
theorem C133_factors {μ : ℝ} {g θ : Vec p} {K S : Mat p} {v : MultiVasicek p} (hZ : StandardNormals ν Z) (h : BuiltMulti μ g θ K S v)
    (hf : Forward v.core.process.dt) (hle : v.core.bm.start ≤ v.core.bm.stop) (hd : v.core.bm.dcc ≠ .thirty360) (x0 : Vec p)
    (v' : Ω → MultiVasicek p) (hv : ∀ ω, v.generatePath x0 true (fun k i => Z k i ω) = (.ok (), v' ω)) :
    ∃ (grid : List PyDatetime) (dts : List ℚ) (X : Nat → Fin p → Ω → ℝ) (mean : Nat → Vec p) (cov : Nat → Mat p),
      BrownianMotion.makeGrid v.core.bm.start v.core.bm.stop v.core.process.dt = .ok grid ∧ StepLengths v.core.bm.dcc grid dts ∧
      (∀ n (hn : n < grid.length) ω, (v' ω).state grid[n] = .ok (fun i => X n i ω) ∧
        (v' ω).call grid[n] = .ok (μ + g ⬝ᵥ fun i => X n i ω)) ∧
      mean 0 = x0 ∧ (∀ n (hn : n < dts.length), mean (n + 1) = mean n + (dts[n] : ℝ) • (K *ᵥ (θ - mean n))) ∧
      cov 0 = 0 ∧ (∀ n (hn : n < dts.length), cov (n + 1) =
        (1 - (dts[n] : ℝ) • K) * cov n * (1 - (dts[n] : ℝ) • K)ᵀ +
          (dts[n] : ℝ) • ((S * Matrix.of v.core.bm.chol) * (S * Matrix.of v.core.bm.chol)ᵀ)) ∧
      ∀ n, n < grid.length → JointlyNormal ν univ (X n) (mean n) (cov n) ∧
        ν.map (fun ω => μ + g ⬝ᵥ fun i => X n i ω) = gaussianReal (μ + g ⬝ᵥ mean n) (g ⬝ᵥ (cov n *ᵥ g)).toNNReal := by
  obtain ⟨grid, dts, X, mean, cov, hg, hs, -, hX, m0, ms, c0, cs, hmom⟩ := C101_moments hZ h hf hle hd x0 v' hv
  have hlen := hs.1
  have hrec : ∀ ω, (∀ i, X 0 i ω = x0 i) ∧ ∀ n (hn : n < dts.length) i, X (n + 1) i ω =
      X n i ω + (dts[n] : ℝ) * ∑ j, K i j * (θ j - X n j ω) + ∑ j, S i j * shock v.core.bm.chol (fun k i => Z k i ω) dts n hn j := by
    intro ω
    obtain ⟨grid', dts', xs, hg', hs', a1, a2, a3, -, a4, -⟩ := multi_simulated h hf hle x0 _ _ (hv ω)
    rw [hg] at hg'
    injection hg' with hg'
    subst hg'
    have hdts : dts' = dts := by
      apply List.ext_getElem
      · have := hs'.1; omega
      · intro j hj hj'
        have e1 := hs.2 j hj' (by omega) (by omega)
        have e2 := hs'.2 j hj (by omega) (by omega)
        rw [e1] at e2
        injection e2 with e2
        exact e2.symm
    subst hdts
    have hx : ∀ n (h1 : n < xs.length), (fun i => X n i ω) = xs[n] := by
      intro n h1
      have := (hX n (by omega) ω).1
      rw [(a4 n (by omega) h1).1] at this
      injection this with this
      exact this.symm
    constructor
    · intro i
      have := congrFun (hx 0 (by omega)) i
      rw [this]
      rw [List.head?_eq_getElem?, List.getElem?_eq_getElem (by omega)] at a2
      injection a2 with a2
      rw [a2]
    · intro n hn i
      have e1 := congrFun (hx (n + 1) (by omega)) i
      have e0 : ∀ j, X n j ω = xs[n] j := fun j => congrFun (hx n (by omega)) j
      simp only [e1, e0, a3 n hn (by omega)]
      rfl
  have haff : ∀ n, n < grid.length → ∀ i, AffineIn Z n (X n i) := by
    intro n
    induction n with
    | zero =>
      intro _ i
      have : X 0 i = fun _ => x0 i := funext fun ω => (hrec ω).1 i
      rw [this]
      exact AffineIn.const _ _
    | succ n ih =>
      intro hn i
      have hn' : n < dts.length := by omega
      have e : X (n + 1) i = fun ω => (X n i ω + (dts[n] : ℝ) * ∑ j, K i j * (θ j + (-1) * X n j ω)) +
          ∑ j, S i j * shock v.core.bm.chol (fun k i => Z k i ω) dts n hn' j := by
        funext ω
        rw [(hrec ω).2 n hn' i]
        simp only [sub_eq_add_neg, neg_mul, one_mul]
      rw [e]
      have hx : ∀ j, AffineIn Z (n + 1) (X n j) := fun j => (ih (by omega) j).mono (Nat.le_succ n)
      exact ((hx i).add ((AffineIn.sum _ fun j _ => ((AffineIn.const _ _).add ((hx j).const_mul _)).const_mul _).const_mul _)).add
        (AffineIn.sum _ fun j _ => (AffineIn.shock _ dts n hn' (Nat.lt_succ_self n) j).const_mul _)
  refine ⟨grid, dts, X, mean, cov, hg, hs, hX, m0, ms, c0, cs, fun n hn => ?_⟩
  have hJ : JointlyNormal ν univ (X n) (mean n) (cov n) :=
    jointly_normal hZ (N := n) _ (fun i _ => haff n hn i) (fun i _ => (hmom n hn i i).2.1) (fun i _ j _ => (hmom n hn i j).2.2.2)
  refine ⟨hJ, ?_⟩
  have hl := (hJ g).2
  have hmeasS : Measurable (fun ω => ∑ a, g a * X n a ω) :=
    ((AffineIn.sum (Z := Z) (N := n) univ fun a _ => (haff n hn a).const_mul (g a)).law hZ rfl rfl).2.1
  have hadd : Measurable (μ + · : ℝ → ℝ) := measurable_const.add measurable_id
  have e : ν.map (fun ω => μ + g ⬝ᵥ fun i => X n i ω) = (ν.map (fun ω => ∑ a, g a * X n a ω)).map (μ + ·) := by
    rw [Measure.map_map hadd hmeasS]
    rfl
  rw [e, hl, gaussianReal_map_const_add, add_comm]
  congr 2
  show _ = ∑ a, g a * ∑ b, cov n a b * g b
  refine Finset.sum_congr rfl fun a _ => ?_
  rw [Finset.mul_sum]
  exact Finset.sum_congr rfl fun b _ => by ring

end

end Verif.Props
