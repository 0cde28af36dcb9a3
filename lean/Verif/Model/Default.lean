/-
Model of fixedIncome/src/curves/credit_curves/default_models.py.  Floats are real numbers; the uniform draws of numpy are a given
sequence, consumed in order.
-/
import Verif.Model.Date
import Mathlib.Data.Real.Basic
import Mathlib.Data.Real.Archimedean
import Mathlib.Algebra.Order.Floor.Ring
import Mathlib.Algebra.Order.Floor.Semiring

namespace Verif
namespace DefaultModels
open Classical

/-- default_models.py:29-36, the `while` loop of one path from time `time`, the next draw being number `pos`.  Returns the default
time (`none` is NaN, line 26) and the number of draws used so far.  The first argument bounds the number of iterations. -/
noncomputable def pathLoop (hazard : ℝ → ℝ) (maturity dt : ℝ) (draw : Nat → ℝ) : Nat → ℝ → Nat → Except PyErr (Option ℝ × Nat)
  | 0, _, _ => .error .fuel
  | n + 1, time, pos =>
    if time < maturity then
      let prob := hazard time * dt
      if draw pos ≤ prob then .ok (some time, pos + 1)
      else pathLoop hazard maturity dt draw n (time + dt) (pos + 1)
    else .ok (none, pos)

/-- default_models.py:27-36, the loop over the paths. -/
noncomputable def pathsFrom (hazard : ℝ → ℝ) (maturity dt : ℝ) (draw : Nat → ℝ) (fuel : Nat) : Nat → Nat →
    Except PyErr (List (Option ℝ))
  | 0, _ => .ok []
  | n + 1, pos => do
    let (t, pos') ← pathLoop hazard maturity dt draw fuel dt pos
    let ts ← pathsFrom hazard maturity dt draw fuel n pos'
    .ok (t :: ts)

/-- default_models.py:20-38.  The bound on the iterations of each path is never reached for a positive step
(`C76_default_times`); for other steps the loop may run forever (`C76_diverges`). -/
noncomputable def defaultBernoulliPaths (hazard : ℝ → ℝ) (maturity dt : ℝ) (numPaths : Nat) (draw : Nat → ℝ) :
    Except PyErr (List (Option ℝ)) :=
  pathsFrom hazard maturity dt draw (⌈maturity / dt⌉₊ + 1) numPaths 0

end DefaultModels
end Verif
