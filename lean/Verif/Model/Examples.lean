/-
Model of the computations of examples/rates/principal_components_of_yield_curves.py and examples/equities/beta_calculation.py.  Floats are real
numbers; reading and plotting data, `numpy.linalg.svd` and sklearn's `LinearRegression` are not modelled (the last two enter by what they are
asked for, see Spec/Examples).
-/
import Verif.Model.Date
import Mathlib.LinearAlgebra.Matrix.DotProduct
import Mathlib.Analysis.SpecialFunctions.Exp
import Mathlib.Data.Real.Sqrt

namespace Verif.Examples
open Matrix

/-- principal_components_of_yield_curves.py:16-21, `yield_curve(t, coeffs)`.  (At `t = 0` numpy gives nan, here the quotients are 0.) -/
noncomputable def yieldCurve (b0 b1 b2 b3 tau1 tau2 t : ℝ) : ℝ :=
  let intercept := b0
  let termOne := b1 * (1 - Real.exp (-t / tau1)) / (t / tau1)
  let termTwo := b2 * ((1 - Real.exp (-t / tau1)) / (t / tau1) - Real.exp (t / tau1))
  let termThree := b3 * ((1 - Real.exp (-t / tau2)) / (t / tau2) - Real.exp (t / tau2))
  intercept + termOne + termTwo + termThree

/-- principal_components_of_yield_curves.py:58, 79, 180, `.mean()`: the mean of every column. -/
noncomputable def columnMeans {n d : Nat} (data : Matrix (Fin n) (Fin d) ℝ) : Fin d → ℝ := fun j => (∑ i, data i j) / n

/-- principal_components_of_yield_curves.py:58, 80, 181: every row less the means. -/
noncomputable def centered {n d : Nat} (data : Matrix (Fin n) (Fin d) ℝ) : Matrix (Fin n) (Fin d) ℝ := fun i j => data i j - columnMeans data j

/-- principal_components_of_yield_curves.py:57, `.diff()` without its first row: the changes from each row to the next.  (Rows with missing
values, which `dropna` removes as well, are not modelled.) -/
def changes {n d : Nat} (data : Matrix (Fin (n + 1)) (Fin d) ℝ) : Matrix (Fin n) (Fin d) ℝ := fun i j => data i.succ j - data i.castSucc j

/-- principal_components_of_yield_curves.py:62-64, 84-87, 184-186, `Vt.T[:, i]`: the `i`-th principal component. -/
def component {d : Nat} (vt : Matrix (Fin d) (Fin d) ℝ) (i : Fin d) : Fin d → ℝ := fun j => vtᵀ j i

/-- principal_components_of_yield_curves.py:88-89: the first component is turned over if its entries sum to less than zero. -/
noncomputable def levelComponent {d : Nat} (vt : Matrix (Fin d) (Fin d) ℝ) (i : Fin d) : Fin d → ℝ :=
  if ∑ j, component vt i j < 0 then -component vt i else component vt i

/-- principal_components_of_yield_curves.py:110-113: the time series of one component. -/
noncomputable def scores {n d : Nat} (data : Matrix (Fin n) (Fin d) ℝ) (pc : Fin d → ℝ) : Fin n → ℝ := centered data *ᵥ pc

/-- principal_components_of_yield_curves.py:131-136: the reconstruction of one curve from the given components. -/
def reconstruct {d : Nat} (means : Fin d → ℝ) (pcs : List (Fin d → ℝ)) (curve : Fin d → ℝ) : Fin d → ℝ :=
  (pcs.map fun pc => (pc ⬝ᵥ (curve - means)) • pc).sum + means

/-- principal_components_of_yield_curves.py:84-89: the `k` components used (`k = 4`), the first one turned over if needed. -/
noncomputable def levelComponents {d : Nat} (vt : Matrix (Fin d) (Fin d) ℝ) (k : Nat) (hk : k ≤ d) : List (Fin d → ℝ) :=
  List.ofFn fun i : Fin k => if (i : Nat) = 0 then levelComponent vt (Fin.castLE hk i) else component vt (Fin.castLE hk i)

/-- beta_calculation.py:18-21, 39-42: `diff(1) / Close` without its first row. -/
noncomputable def dailyReturns : List ℝ → List ℝ
  | c0 :: c1 :: rest => (c1 - c0) / c1 :: dailyReturns (c1 :: rest)
  | _ => []

/-- `numpy.std`, beta_calculation.py:105-107. -/
noncomputable def std {n : Nat} (x : Fin n → ℝ) : ℝ := Real.sqrt ((∑ i, (x i - (∑ j, x j) / n) ^ 2) / n)

/-- beta_calculation.py:57, 60, 63: the part of the returns explained by the market. -/
def marketPart {n : Nat} (beta : ℝ) (market : Fin n → ℝ) : Fin n → ℝ := fun i => beta * market i

/-- beta_calculation.py:58, 61, 64: the rest. -/
def idioPart {n : Nat} (beta : ℝ) (market returns : Fin n → ℝ) : Fin n → ℝ := fun i => returns i - marketPart beta market i

/-- beta_calculation.py:105. -/
noncomputable def reconstructedRisk {n : Nat} (beta : ℝ) (market returns : Fin n → ℝ) : ℝ :=
  Real.sqrt (std (marketPart beta market) ^ 2 + std (idioPart beta market returns) ^ 2)

/-- A numpy array with one or two axes. -/
inductive NdArray where
  | vec (entries : List ℝ)
  | mat (rows : List (List ℝ))

/-- `a[indices, :]`: rows of an array with two axes; with one axis numpy raises IndexError (too many indices). -/
def NdArray.takeRows (indices : List Nat) : NdArray → Except PyErr NdArray
  | .vec _ => .error .indexError
  | .mat rows => do
    let rs ← indices.mapM fun i => match rows[i]? with
      | some r => .ok r
      | none => .error .indexError
    .ok (.mat rs)

/-- beta_calculation.py:118, 128, 185: one bootstrap sample.  The name `returns` is first given to the table of daily returns of the assets and then
to the target returns of the frontier, before the rows are drawn from it. -/
def bootstrapSample (dailyReturns : List (List ℝ)) (frontierReturns : List ℝ) (indices : List Nat) : Except PyErr NdArray :=
  let _returns := NdArray.mat dailyReturns
  let returns := NdArray.vec frontierReturns
  returns.takeRows indices

end Verif.Examples
