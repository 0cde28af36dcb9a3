/- The builtin `sum` of Python floats since CPython 3.12, which keeps a running compensation, and the sum over key-rate
collections computed with it. -/
import Verif.Model.Rounded

namespace Verif.Rounded

/-- One step of CPython's compensated summation (`builtin_sum`, Python/bltinmodule.c since 3.12; not part of the repository):
the running sum `f`, the running compensation `c`, and the next float `x`. -/
def compensatedStep (rnd : ℚ → ℚ) (fc : ℚ × ℚ) (x : ℚ) : ℚ × ℚ :=
  let t := rnd (fc.1 + x)
  if |x| ≤ |fc.1| then (t, rnd (fc.2 + rnd (rnd (fc.1 - t) + x)))
  else (t, rnd (fc.2 + rnd (rnd (x - t) + fc.1)))

/-- The builtin `sum` over Python floats since CPython 3.12: the first is added to the integer 0, the others with compensation,
and the compensation is added at the end unless it is zero. -/
def sumCompensated (rnd : ℚ → ℚ) : List ℚ → ℚ
  | [] => 0
  | x :: xs =>
    let fc := xs.foldl (compensatedStep rnd) (rnd (0 + x), 0)
    if fc.2 = 0 then fc.1 else rnd (fc.1 + fc.2)

/-- key_rate.py:279-285 and 496-504 on CPython 3.12 and later, as `combined`: the values summed are Python floats. -/
def combinedCompensated (rnd : ℚ → ℚ) (h : KRHeap) (c : KeyRateCollection) (d : PyDate) : Except PyErr ℚ := do
  let xs ← collect (fun i => keyRateCall rnd (h i) d) c.keyRates
  .ok (sumCompensated rnd xs)

end Verif.Rounded
