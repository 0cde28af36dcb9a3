/-
default_models.py with floating-point rounding: the product and the running time of the loop are rounded.  The hazard function is the
float function passed in, the uniform draws are a given sequence of floats.
-/
import Verif.Model.Date
import Mathlib.Data.Rat.Defs
import Mathlib.Algebra.Order.Ring.Rat

namespace Verif.Rounded

/-- default_models.py:28-36, the `while` loop of one path, as `DefaultModels.pathLoop`; `time += dt` (line 36) and
`hazard_rate_fxcn(time) * dt` (line 30) are rounded.  The first argument of type `Nat` bounds the number of iterations. -/
def defaultLoop (rnd : ℚ → ℚ) (hazard : ℚ → ℚ) (maturity dt : ℚ) (draw : Nat → ℚ) : Nat → ℚ → Nat → Except PyErr (Option ℚ × Nat)
  | 0, _, _ => .error .fuel
  | n + 1, time, pos =>
    if time < maturity then
      let prob := rnd (hazard time * dt)
      if draw pos ≤ prob then .ok (some time, pos + 1)
      else defaultLoop rnd hazard maturity dt draw n (rnd (time + dt)) (pos + 1)
    else .ok (none, pos)

/-- default_models.py:25-38: the loop over the paths, with at most `fuel` iterations for each. -/
def defaultPaths (rnd : ℚ → ℚ) (hazard : ℚ → ℚ) (maturity dt : ℚ) (draw : Nat → ℚ) (fuel : Nat) : Nat → Nat →
    Except PyErr (List (Option ℚ))
  | 0, _ => .ok []
  | n + 1, pos => do
    let (t, pos') ← defaultLoop rnd hazard maturity dt draw fuel dt pos
    let ts ← defaultPaths rnd hazard maturity dt draw fuel n pos'
    .ok (t :: ts)

end Verif.Rounded
