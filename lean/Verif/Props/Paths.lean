/- Properties of reading simulated paths: C44. -/
import Verif.Props.Stochastic

namespace Verif.Props
open Verif Verif.Spec Verif.DayCount Finset

/-! ## C44: path lookup -/

/-- A grid from start to stop, with one path column per datetime. -/
structure Gridded {p : Nat} (start stop : PyDatetime) (grid : List PyDatetime) (path : List (Vec p)) : Prop where
  increasing : grid.Pairwise (· < ·)
  first : grid.head? = some start
  last : grid.getLast? = some stop
  columns : path.length = grid.length

theorem pyGet_nat {α : Type} (l : List α) (k : Nat) (h : k < l.length) : pyGet l k = .ok l[k] := by
  unfold pyGet
  rw [if_pos (by omega)]
  simp [h]

theorem grid_sorted {l : List PyDatetime} (h : l.Pairwise (· < ·)) : KeySorted (id : PyDatetime → PyDatetime) l :=
  h.imp (fun {a b} hab => le_of_lt hab)

theorem grid_lt {l : List PyDatetime} (h : l.Pairwise (· < ·)) {i j : Nat} (hij : i < j) (hj : j < l.length) : l[i] < l[j] :=
  List.pairwise_iff_getElem.1 h i j (by omega) hj hij

theorem grid_le {l : List PyDatetime} (h : l.Pairwise (· < ·)) {i j : Nat} (hij : i ≤ j) (hj : j < l.length) : l[i] ≤ l[j] := by
  rcases Nat.eq_or_lt_of_le hij with rfl | hlt
  · exact le_refl _
  · exact le_of_lt (grid_lt h hlt hj)

/-- The lookup index of a query after grid point `k - 1` and not after grid point `k`. -/
theorem bisect_index {l : List PyDatetime} (h : l.Pairwise (· < ·)) {q : PyDatetime} {k : Nat} (hk : k < l.length)
    (h1 : q ≤ l[k]) (h2 : ∀ j (hj : j < k), l[j]'(by omega) < q) : bisectLeft id l q = k := by
  obtain ⟨hn, a, b⟩ := bisectLeft_spec id l (grid_sorted h) q
  by_contra hne
  rcases Nat.lt_or_gt_of_ne hne with hlt | hgt
  · have := b (bisectLeft id l q) (by omega) (le_refl _)
    exact absurd (h2 _ hlt) (not_lt.2 this)
  · exact absurd (a k hk hgt) (not_lt.2 h1)

theorem Gridded.bounds {p : Nat} {start stop : PyDatetime} {grid : List PyDatetime} {path : List (Vec p)}
    (hg : Gridded start stop grid path) (k : Nat) (hk : k < grid.length) : start ≤ grid[k] ∧ grid[k] ≤ stop := by
  have hpos : 0 < grid.length := by omega
  have h0 : grid[0] = start := by
    have := hg.first
    rw [List.head?_eq_getElem?, List.getElem?_eq_getElem hpos] at this
    injection this
  have h1 : grid[grid.length - 1] = stop := by
    have := hg.last
    rw [List.getLast?_eq_getElem?, List.getElem?_eq_getElem (by omega)] at this
    injection this
  exact ⟨by rw [← h0]; exact grid_le hg.increasing (by omega) hk, by rw [← h1]; exact grid_le hg.increasing (by omega) (by omega)⟩

/-- C44. At a grid datetime the lookup returns the simulated value, under every day count convention. -/
theorem C44_at_grid {p : Nat} (dcc : DayCountConvention) (start stop : PyDatetime) (grid : List PyDatetime) (path : List (Vec p))
    (hg : Gridded start stop grid path) (k : Nat) (hk : k < grid.length) :
    PathCall.call dcc start stop grid (some path) grid[k] = .ok (path[k]'(by rw [hg.columns]; exact hk)) := by
  obtain ⟨b1, b2⟩ := hg.bounds k hk
  unfold PathCall.call
  simp only
  rw [if_neg (by rintro (h | h); exacts [absurd b1 (not_le.2 h), absurd b2 (not_le.2 h)])]
  rw [bisect_index hg.increasing hk (le_refl _) (fun j hj => grid_lt hg.increasing hj hk)]
  rw [pyGet_nat _ _ hk, ok_bind, if_pos rfl, pyGet_nat]

/-- C44. Without a path, or outside the grid, the lookup raises ValueError. -/
theorem C44_raises {p : Nat} (dcc : DayCountConvention) (start stop : PyDatetime) (grid : List PyDatetime)
    (path : Option (List (Vec p))) (q : PyDatetime) (h : path = none ∨ q < start ∨ stop < q) :
    PathCall.call dcc start stop grid path q = .error .valueError := by
  cases path with
  | none => rfl
  | some path =>
    rcases h with h | h
    · cases h
    · unfold PathCall.call
      simp only
      rw [if_pos h]

/-- The lookup strictly between grid points `k` and `k + 1`. -/
theorem call_between {p : Nat} (dcc : DayCountConvention) (start stop : PyDatetime) (grid : List PyDatetime) (path : List (Vec p))
    (hg : Gridded start stop grid path) (k : Nat) (hk : k + 1 < grid.length) (q : PyDatetime) (h1 : grid[k] < q)
    (h2 : q < grid[k + 1]) :
    PathCall.call dcc start stop grid (some path) q = (do
      let since ← dtAccrual grid[k] q dcc
      let toNext ← dtAccrual q grid[k + 1] dcc
      let w ← pyDiv toNext (toNext + since)
      .ok (fun i => (path[k + 1]'(by rw [hg.columns]; exact hk)) i * (w : ℝ) +
        (path[k]'(by rw [hg.columns]; omega)) i * (1 - (w : ℝ)))) := by
  have b1 := (hg.bounds k (by omega)).1
  have b2 := (hg.bounds (k + 1) hk).2
  unfold PathCall.call
  simp only
  rw [if_neg (by rintro (h | h); exacts [absurd (b1.trans_lt h1) (not_lt.2 h.le), absurd (h2.trans_le b2) (not_lt.2 h.le)])]
  rw [bisect_index hg.increasing hk h2.le (fun j hj => lt_of_le_of_lt (grid_le hg.increasing (by omega) (by omega)) h1)]
  rw [pyGet_nat _ _ hk, ok_bind, if_neg (ne_of_lt h2)]
  unfold PathCall.between
  have e : ((k + 1 : Nat) : Int) - 1 = (k : Nat) := by omega
  simp only [e]
  rw [pyGet_nat _ _ (by omega), ok_bind]
  congr 1; funext since
  congr 1; funext toNext
  congr 1; funext w
  rw [pyGet_nat _ _ (by rw [hg.columns]; omega), ok_bind, pyGet_nat _ _ (by rw [hg.columns]; omega), ok_bind]
  rfl

/-- C44. Under every convention but 30/360, a lookup strictly between two neighbouring grid points which returns, returns a proper
mixture of the two neighbouring values (so it lies between them, coordinate by coordinate). -/
theorem C44_between_values {p : Nat} (dcc : DayCountConvention) (hd : dcc ≠ .thirty360) (start stop : PyDatetime)
    (grid : List PyDatetime) (path : List (Vec p)) (hg : Gridded start stop grid path) (k : Nat) (hk : k + 1 < grid.length)
    (hk' : k + 1 < path.length) (q : PyDatetime) (h1 : grid[k] < q) (h2 : q < grid[k + 1]) (v : Vec p)
    (hv : PathCall.call dcc start stop grid (some path) q = .ok v) :
    ∃ w : ℝ, 0 < w ∧ w < 1 ∧ v = fun i => path[k] i + w * (path[k + 1] i - path[k] i) := by
  rw [call_between dcc start stop grid path hg k hk q h1 h2] at hv
  rw [bind_ok] at hv; obtain ⟨since, hs, hv⟩ := hv
  rw [bind_ok] at hv; obtain ⟨toNext, hn, hv⟩ := hv
  have ps := dtAccrual_pos hd h1 hs
  have pn := dtAccrual_pos hd h2 hn
  rw [pyDiv_of_ne (by positivity), ok_bind] at hv
  injection hv with hv
  refine ⟨((toNext / (toNext + since) : ℚ) : ℝ), ?_, ?_, ?_⟩
  · have : 0 < toNext / (toNext + since) := by positivity
    exact_mod_cast this
  · have : toNext / (toNext + since) < 1 := by rw [div_lt_one (by positivity)]; linarith
    exact_mod_cast this
  · rw [← hv]
    funext i
    ring

/-- Linear interpolation in time between two values. -/
noncomputable def linear (t0 t1 q : Int) (a b : ℝ) : ℝ := a + ((q - t0 : Int) : ℝ) / ((t1 - t0 : Int) : ℝ) * (b - a)

/-- C44 (partial). Under the actual/360, /365 and /365.25 conventions a lookup strictly between two grid points returns the
linear interpolation with the two values exchanged: the weights are swapped, so the result tends to the farther value.  Missing:
the intended interpolation, which is false (see `C44_not_linear`). -/
theorem C44_between_partial {p : Nat} (dcc : DayCountConvention) (den : ℚ) (hden : FixedDenominator dcc = some den)
    (start stop : PyDatetime)
    (grid : List PyDatetime) (path : List (Vec p)) (hg : Gridded start stop grid path) (k : Nat) (hk : k + 1 < grid.length)
    (hk' : k + 1 < path.length) (q : PyDatetime) (h1 : grid[k] < q) (h2 : q < grid[k + 1])
    (hmax : grid[k + 1].day.ord < PyDate.maxOrd) :
    PathCall.call dcc start stop grid (some path) q =
      .ok (fun i => linear grid[k].instant grid[k + 1].instant q.instant (path[k + 1] i) (path[k] i)) := by
  have hpos : 0 < den := by cases dcc <;> simp [FixedDenominator] at hden <;> subst hden <;> norm_num
  have mono : ∀ {a b : PyDatetime}, a < b → a.day.ord ≤ b.day.ord := by
    intro a b hab
    rw [PyDatetime.lt_iff] at hab
    unfold PyDatetime.instant at hab
    have := a.bounds
    have := b.bounds
    omega
  have m1 := mono h1
  have m2 := mono h2
  rw [call_between dcc start stop grid path hg k hk q h1 h2]
  have e1 := C16_act_fixed_datetimes dcc den hden grid[k].like q.like (le_of_lt h1)
    (fun _ => by show (PyDatetime.day _).ord < _; omega) (fun _ => by show (PyDatetime.day _).ord < _; omega)
  have e2 := C16_act_fixed_datetimes dcc den hden q.like grid[k + 1].like (le_of_lt h2)
    (fun _ => by show (PyDatetime.day _).ord < _; omega) (fun _ => by show (PyDatetime.day _).ord < _; omega)
  have i1 : grid[k].instant < q.instant := h1
  have i2 : q.instant < grid[k + 1].instant := h2
  have c1 : ((0 : Int) : ℚ) < ((q.instant - grid[k].instant : Int) : ℚ) := by
    rw [Int.cast_lt]; omega
  have c2 : ((0 : Int) : ℚ) < ((grid[k + 1].instant - q.instant : Int) : ℚ) := by
    rw [Int.cast_lt]; omega
  simp only [Int.cast_zero] at c1 c2
  have e1' : dtAccrual grid[k] q dcc = .ok (((q.instant - grid[k].instant : Int) : ℚ) / (den * 86400000000)) := e1
  have e2' : dtAccrual q grid[k + 1] dcc = .ok (((grid[k + 1].instant - q.instant : Int) : ℚ) / (den * 86400000000)) := e2
  rw [e1', e2', ok_bind, ok_bind, pyDiv_of_ne (by positivity), ok_bind]
  congr 1
  funext i
  have hw : (((grid[k + 1].instant - q.instant : Int) : ℚ) / (den * 86400000000)) /
      (((grid[k + 1].instant - q.instant : Int) : ℚ) / (den * 86400000000) +
        ((q.instant - grid[k].instant : Int) : ℚ) / (den * 86400000000)) =
      ((grid[k + 1].instant - q.instant : Int) : ℚ) / ((grid[k + 1].instant - grid[k].instant : Int) : ℚ) := by
    have c3 : ((grid[k + 1].instant - grid[k].instant : Int) : ℚ) =
        ((grid[k + 1].instant - q.instant : Int) : ℚ) + ((q.instant - grid[k].instant : Int) : ℚ) := by push_cast; ring
    rw [c3]
    field_simp
  rw [hw]
  unfold linear
  have hne : ((grid[k + 1].instant : ℝ) - (grid[k].instant : ℝ)) ≠ 0 := by
    have : grid[k + 1].instant - grid[k].instant ≠ 0 := by omega
    exact_mod_cast this
  push_cast
  field_simp
  ring

/-- C44 does not hold as intended: between grid points the lookup is the linear interpolation only where the neighbouring values
agree, or exactly halfway. -/
theorem C44_not_linear {p : Nat} (dcc : DayCountConvention) (den : ℚ) (hden : FixedDenominator dcc = some den)
    (start stop : PyDatetime)
    (grid : List PyDatetime) (path : List (Vec p)) (hg : Gridded start stop grid path) (k : Nat) (hk : k + 1 < grid.length)
    (hk' : k + 1 < path.length) (q : PyDatetime) (h1 : grid[k] < q) (h2 : q < grid[k + 1])
    (hmax : grid[k + 1].day.ord < PyDate.maxOrd) :
    PathCall.call dcc start stop grid (some path) q =
        .ok (fun i => linear grid[k].instant grid[k + 1].instant q.instant (path[k] i) (path[k + 1] i)) ↔
      (path[k] = path[k + 1] ∨ 2 * q.instant = grid[k].instant + grid[k + 1].instant) := by
  rw [C44_between_partial dcc den hden start stop grid path hg k hk hk' q h1 h2 hmax]
  have i1 : grid[k].instant < q.instant := h1
  have i2 : q.instant < grid[k + 1].instant := h2
  have hne : ((grid[k + 1].instant : ℝ) - (grid[k].instant : ℝ)) ≠ 0 := by
    have : grid[k + 1].instant - grid[k].instant ≠ 0 := by omega
    exact_mod_cast this
  have key : ∀ a b : ℝ, linear grid[k].instant grid[k + 1].instant q.instant b a =
      linear grid[k].instant grid[k + 1].instant q.instant a b ↔
      (a = b ∨ 2 * q.instant = grid[k].instant + grid[k + 1].instant) := by
    intro a b
    unfold linear
    push_cast
    constructor
    · intro h
      field_simp at h
      have : (a - b) * (2 * (q.instant : ℝ) - ((grid[k].instant : ℝ) + (grid[k + 1].instant : ℝ))) = 0 := by linarith
      rcases mul_eq_zero.1 this with h | h
      · left; linarith
      · right
        have : (2 * (q.instant : ℝ)) = (grid[k].instant : ℝ) + (grid[k + 1].instant : ℝ) := by linarith
        exact_mod_cast this
    · rintro (h | h)
      · rw [h]
      · have : (2 * (q.instant : ℝ)) = (grid[k].instant : ℝ) + (grid[k + 1].instant : ℝ) := by exact_mod_cast h
        field_simp
        linear_combination (a - b) * this
  rw [Except.ok.injEq]
  constructor
  · intro h
    by_cases hm : 2 * q.instant = grid[k].instant + grid[k + 1].instant
    · exact .inr hm
    · left
      funext i
      rcases (key _ _).1 (congrFun h i) with h | h
      · exact h
      · exact absurd h hm
  · rintro (h | h)
    · rw [h]
    · funext i
      exact (key _ _).2 (.inr h)

/-- C44. Under 30/360 a lookup between grid points can divide by zero: the times of the 30th of January are at distance zero from
each other. -/
theorem C44_thirty360_raises (path : List (Vec 1)) :
    PathCall.call .thirty360 (T 2023 1 30) (T 2023 1 30 (micros := 7200000000)) [T 2023 1 30, T 2023 1 30 (micros := 7200000000)]
      (some path) (T 2023 1 30 (micros := 3600000000)) = .error .zeroDivisionError := by
  have e1 : dtAccrual (T 2023 1 30) (T 2023 1 30 (micros := 3600000000)) .thirty360 = .ok 0 := by decide +kernel
  have e2 : dtAccrual (T 2023 1 30 (micros := 3600000000)) (T 2023 1 30 (micros := 7200000000)) .thirty360 = .ok 0 := by
    decide +kernel
  have hb : bisectLeft id [T 2023 1 30, T 2023 1 30 (micros := 7200000000)] (T 2023 1 30 (micros := 3600000000)) = 1 := by
    decide +kernel
  unfold PathCall.call
  simp only
  rw [if_neg (by decide +kernel), hb]
  have g1 : pyGet [T 2023 1 30, T 2023 1 30 (micros := 7200000000)] ((1 : Nat) : Int) = .ok (T 2023 1 30 (micros := 7200000000)) := by
    decide +kernel
  have g0 : pyGet [T 2023 1 30, T 2023 1 30 (micros := 7200000000)] (((1 : Nat) : Int) - 1) = .ok (T 2023 1 30) := by
    decide +kernel
  rw [g1, ok_bind, if_neg (by decide +kernel)]
  unfold PathCall.between
  simp only [g0, ok_bind, e1, e2, show pyDiv 0 (0 + 0) = .error .zeroDivisionError by decide +kernel]
  rfl

/-- Concrete case for C44: a path rising from 0 to 1 over four hours, read after one hour, gives 3/4. -/
example : Gridded (p := 1) (T 2023 1 30) (T 2023 1 30 (micros := 14400000000))
      [T 2023 1 30, T 2023 1 30 (micros := 14400000000)] [fun _ => 0, fun _ => 1] ∧
    PathCall.call .act365 (T 2023 1 30) (T 2023 1 30 (micros := 14400000000)) [T 2023 1 30, T 2023 1 30 (micros := 14400000000)]
      (some [fun _ => 0, fun _ => 1]) (T 2023 1 30 (micros := 3600000000)) = .ok (fun _ : Fin 1 => 3 / 4) := by
  have hg : Gridded (p := 1) (T 2023 1 30) (T 2023 1 30 (micros := 14400000000))
      [T 2023 1 30, T 2023 1 30 (micros := 14400000000)] [fun _ => 0, fun _ => 1] :=
    ⟨by decide +kernel, rfl, rfl, rfl⟩
  refine ⟨hg, ?_⟩
  rw [C44_between_partial .act365 365 rfl _ _ _ _ hg 0 (by simp) (by simp) _ (by decide +kernel) (by decide +kernel) (by decide +kernel)]
  congr 1
  funext i
  unfold linear
  have a1 : (T 2023 1 30 (micros := 3600000000)).instant - (T 2023 1 30).instant = 3600000000 := by decide +kernel
  have a2 : (T 2023 1 30 (micros := 14400000000)).instant - (T 2023 1 30).instant = 14400000000 := by decide +kernel
  show (1 : ℝ) + (((T 2023 1 30 (micros := 3600000000)).instant - (T 2023 1 30).instant : Int) : ℝ) /
    (((T 2023 1 30 (micros := 14400000000)).instant - (T 2023 1 30).instant : Int) : ℝ) * (0 - 1) = 3 / 4
  rw [a1, a2]
  norm_num

end Verif.Props
