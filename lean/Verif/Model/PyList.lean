/-
Python library pieces used by /repo: `sorted(xs, key=...)`, `bisect`, `list.insert`, and `dict`.
No file of /repo defines these; see the citations at each use.
-/
import Verif.Lemmas.Date

namespace Verif

/-- Insertion of an element before the first element with an equal or larger key. -/
def pyInsert {α κ : Type} [LinearOrder κ] (key : α → κ) (a : α) : List α → List α
  | [] => [a]
  | b :: bs => if key a ≤ key b then a :: b :: bs else b :: pyInsert key a bs

/-- `sorted(xs, key=key)` (stable), e.g. assets/base_cashflow.py:27, curves/base_curve.py:40, risk/key_rate.py:270.
Modelled by stable insertion sort; `pySorted_unique` shows that being a stable sorted rearrangement determines the
result. -/
def pySorted {α κ : Type} [LinearOrder κ] (key : α → κ) (l : List α) : List α := l.foldr (pyInsert key) []

/-- CPython Lib/bisect.py `bisect_right`/`bisect_left` loop, with `goRight a[mid]` deciding `lo = mid + 1`; fuel is
`hi - lo`.  Used by assets/base_cashflow.py:60 (insort_right) and stochastics/brownian_motion.py (bisect_left). -/
def bisectLoop {α : Type} (goRight : α → Bool) (l : List α) : Nat → Nat → Nat → Nat
  | 0, lo, _ => lo
  | n + 1, lo, hi =>
    if lo < hi then
      let mid := (lo + hi) / 2
      match l[mid]? with
      | some a => if goRight a then bisectLoop goRight l n (mid + 1) hi else bisectLoop goRight l n lo mid
      | none => lo
    else lo

/-- `bisect.bisect_right(l, x, key=key)` with `kx = key(x)`. -/
def bisectRight {α κ : Type} [LinearOrder κ] (key : α → κ) (l : List α) (kx : κ) : Nat :=
  bisectLoop (fun a => !decide (kx < key a)) l l.length 0 l.length

/-- `bisect.bisect_left(l, x, key=key)` with `kx = key(x)`. -/
def bisectLeft {α κ : Type} [LinearOrder κ] (key : α → κ) (l : List α) (kx : κ) : Nat :=
  bisectLoop (fun a => decide (key a < kx)) l l.length 0 l.length

/-- `bisect.insort_right(l, x, key=key)`: `l.insert(bisect_right(...), x)`. -/
def insortRight {α κ : Type} [LinearOrder κ] (key : α → κ) (l : List α) (x : α) : List α :=
  let i := bisectRight key l (key x)
  l.take i ++ x :: l.drop i

/-- A python `dict` as its items in insertion order. -/
abbrev PyDict (κ ν : Type) := List (κ × ν)

/-- `d[k] = v`: replaces the value in place or appends a new item. -/
def PyDict.set {κ ν : Type} [DecidableEq κ] : PyDict κ ν → κ → ν → PyDict κ ν
  | [], k, v => [(k, v)]
  | (k', v') :: d, k, v => if k' = k then (k', v) :: d else (k', v') :: PyDict.set d k v

/-- `d.get(k)`. -/
def PyDict.get? {κ ν : Type} [DecidableEq κ] : PyDict κ ν → κ → Option ν
  | [], _ => none
  | (k', v') :: d, k => if k' = k then some v' else PyDict.get? d k

/-- Dict comprehension / `dict(zip(ks, vs))`: successive assignments. -/
def PyDict.ofList {κ ν : Type} [DecidableEq κ] (l : List (κ × ν)) : PyDict κ ν :=
  l.foldl (fun d kv => PyDict.set d kv.1 kv.2) []

end Verif
