/- Properties of processes and short-rate models built on simulated paths: C46, C57, C58, C59. -/
import Verif.Props.Paths
import Mathlib.Tactic.Positivity
import Mathlib.Tactic.IntervalCases

namespace Verif.Props
open Verif Verif.Spec Verif.DayCount Finset

/-! ## C58: reading a process whose Brownian motion may be shared -/

theorem C45_gridded {p : Nat} {start stop : PyDatetime} {dt : DtIncrement} (hf : Forward dt) (hle : start ≤ stop)
    {grid : List PyDatetime} (h : BrownianMotion.makeGrid start stop dt = .ok grid) {path : List (Vec p)}
    (hl : path.length = grid.length) : Gridded start stop grid path := by
  obtain ⟨h1, h2, h3, -, -⟩ := C55_grid start stop dt hf hle grid h
  exact ⟨h3, h1, h2, hl⟩

/-- C58. After a path is generated and kept, reading the process at each datetime of the grid gives the generated column. -/
theorem C58_read_back {p : Nat} (d d' : Diffusion p) (b b' : BrownianMotion p) (hf : Forward d.dt) (hle : b.start ≤ b.stop)
    (x0 : Vec p) (normals : Nat → Vec p) (path : List (Vec p))
    (h : d.generatePath b x0 true normals = (.ok path, d', b')) :
    ∃ grid, b'.grid = some grid ∧ grid.length = path.length ∧
      ∀ k (h1 : k < grid.length) (h2 : k < path.length), d'.call b' grid[k] = .ok path[k] := by
  obtain ⟨grid, dts, hg, -, hb, hd, hl, -, -⟩ := C45_euler d d' b b' x0 true normals path h
  have hG := C45_gridded hf hle hg hl
  refine ⟨grid, by rw [hb], hl.symm, ?_⟩
  intro k h1 h2
  unfold Diffusion.call
  rw [hb, hd]
  exact C44_at_grid b.dcc b.start b.stop grid path hG k h1

/-- The same for a Brownian motion itself. -/
theorem C58_read_back_brownian {p : Nat} (b b' : BrownianMotion p) (dt : DtIncrement) (hf : Forward dt) (hle : b.start ≤ b.stop)
    (normals : Nat → Vec p) (path : List (Vec p)) (h : b.generatePath dt true normals = (.ok path, b')) :
    ∃ grid, b'.grid = some grid ∧ grid.length = path.length ∧
      ∀ k (h1 : k < grid.length) (h2 : k < path.length), b'.call grid[k] = .ok path[k] := by
  have hb' : b'.start = b.start ∧ b'.stop = b.stop ∧ b'.dcc = b.dcc := by
    unfold BrownianMotion.generatePath at h
    split at h
    · simp at h
    · next r b1 hr =>
      obtain ⟨incs, dts⟩ := r
      obtain ⟨grid, -, hb1, -⟩ := generateIncrements_spec b b1 dt normals incs dts hr
      simp only [Prod.mk.injEq] at h
      rw [← h.2, hb1]
      simp
  obtain ⟨grid, dts, hg, -, hgr, hp, hl, -, -⟩ := C45_brownian b b' dt true normals path h
  have hG := C45_gridded hf hle hg hl
  refine ⟨grid, hgr, hl.symm, ?_⟩
  intro k h1 h2
  unfold BrownianMotion.call
  rw [hgr, hp, hb'.1, hb'.2.1, hb'.2.2]
  exact C44_at_grid b.dcc b.start b.stop grid path hG k h1

/-- C58. If another process sharing the Brownian motion then generates a path with the same step, the first process reads the
same values as before, at every datetime. -/
theorem C58_same_step {p : Nat} (d e d' e' : Diffusion p) (b b' b'' : BrownianMotion p) (hdt : e.dt = d.dt) (x0 y0 : Vec p)
    (set : Bool) (normals normals' : Nat → Vec p) (path path' : List (Vec p))
    (h : d.generatePath b x0 true normals = (.ok path, d', b'))
    (h' : e.generatePath b' y0 set normals' = (.ok path', e', b'')) (q : PyDatetime) :
    d'.call b'' q = d'.call b' q := by
  obtain ⟨grid, dts, hg, -, hb, -⟩ := C45_euler d d' b b' x0 true normals path h
  obtain ⟨grid', dts', hg', -, hb', -⟩ := C45_euler e e' b' b'' y0 set normals' path' h'
  rw [hdt, hb] at hg'
  simp only at hg'
  rw [hg] at hg'
  injection hg' with hg'
  subst hg'
  unfold Diffusion.call
  rw [hb', hb]

/-- C58 fails for a different step: if the other process makes a longer grid, then reading the first process at a grid datetime
beyond its number of columns raises IndexError, although the datetime is in range. -/
theorem C58_other_step_fails {p : Nat} (d e d' e' : Diffusion p) (b b' b'' : BrownianMotion p) (hf : Forward e.dt)
    (hle : b.start ≤ b.stop) (x0 y0 : Vec p)
    (set : Bool) (normals normals' : Nat → Vec p) (path path' : List (Vec p))
    (h : d.generatePath b x0 true normals = (.ok path, d', b'))
    (h' : e.generatePath b' y0 set normals' = (.ok path', e', b'')) (hlen : path.length < path'.length) :
    b''.start ≤ b''.stop ∧ d'.call b'' b''.stop = .error .indexError := by
  obtain ⟨grid, dts, hg, -, hb, hd, -⟩ := C45_euler d d' b b' x0 true normals path h
  obtain ⟨grid', dts', hg', -, hb', -, hl', -⟩ := C45_euler e e' b' b'' y0 set normals' path' h'
  rw [hb] at hg' hb'
  simp only at hg' hb'
  have hG := C45_gridded hf hle hg' hl'
  subst hb'
  refine ⟨hle, ?_⟩
  unfold Diffusion.call
  rw [hd]
  simp only [if_true, Option.getD_some]
  have hpos : 0 < grid'.length := by omega
  have hst : grid'[grid'.length - 1] = b.stop := by
    have := hG.last
    rw [List.getLast?_eq_getElem?, List.getElem?_eq_getElem (by omega)] at this
    injection this
  unfold PathCall.call
  simp only
  rw [if_neg (by rintro (h | h); exacts [absurd hle (not_le.2 h), lt_irrefl _ h])]
  have hk : grid'.length - 1 < grid'.length := by omega
  rw [bisect_index hG.increasing hk hst.ge (fun j hj => by rw [← hst]; exact grid_lt hG.increasing hj hk)]
  rw [pyGet_nat _ _ hk, ok_bind, if_pos hst.symm]
  unfold pyGet
  rw [if_pos (by omega), List.getElem?_eq_none (by simp; omega)]

/-! ## C46: the integrated short rate -/

/-- C46. The area of one step is the trapezoid, whatever the signs of the rates. -/
theorem C46_trapezoid (a b t : ℝ) : ShortRateModel.trapezoid a b t = (a + b) / 2 * t := by
  unfold ShortRateModel.trapezoid
  simp only
  rcases le_total a b with h | h
  · rw [min_eq_left h, max_eq_right h]; split <;> ring
  · rw [min_eq_right h, max_eq_left h]; split <;> ring

theorem integrateLoop_eq {p : Nat} (m : ShortRateModel p) (ts : List PyDatetime) (r : Nat → ℝ) (a : Nat → ℚ)
    (hr : ∀ k (h : k < ts.length), m.call ts[k] = .ok (r k))
    (ha : ∀ k (h : k < ts.length), dtAccrual m.bm.start ts[k] m.bm.dcc = .ok (a k)) (run : ℝ) :
    ShortRateModel.integrateLoop m (BrownianMotion.pairs ts) run =
      .ok ((List.range (ts.length - 1)).map fun k => run + ∑ j ∈ range (k + 1), (r j + r (j + 1)) / 2 * (a (j + 1) : ℝ)) := by
  induction ts generalizing r a run with
  | nil => rfl
  | cons s l ih =>
    cases l with
    | nil => rfl
    | cons e rest =>
      simp only [BrownianMotion.pairs, ShortRateModel.integrateLoop]
      have h0 := hr 0 (by simp)
      have h1 := hr 1 (by simp)
      have h2 := ha 1 (by simp)
      simp only [List.getElem_cons_zero, List.getElem_cons_succ, zero_add] at h0 h1 h2
      rw [h0, ok_bind, h1, ok_bind, h2, ok_bind]
      rw [ih (fun k => r (k + 1)) (fun k => a (k + 1)) (fun k h => hr (k + 1) (by simpa using h))
        (fun k h => ha (k + 1) (by simpa using h)), ok_bind]
      congr 1
      simp only [List.length_cons, Nat.add_sub_cancel, List.range_succ_eq_map, List.map_cons, List.map_map]
      congr 1
      · rw [C46_trapezoid]; simp
      · apply List.map_congr_left
        intro k _
        simp only [Function.comp_apply, C46_trapezoid]
        rw [Finset.sum_range_succ' _ (k + 1)]
        simp
        ring

/-- C46. What the integrated path is: entry `k` sums the average rates of the steps before `k`, each weighted with the time since
the start of the simulation rather than the length of the step. -/
theorem C46_computed {p : Nat} (m : ShortRateModel p) (l : List ℝ) (hp : m.path = some l) (ts : List PyDatetime) (hne : ts ≠ [])
    (r : Nat → ℝ) (a : Nat → ℚ) (hr : ∀ k (h : k < ts.length), m.call ts[k] = .ok (r k))
    (ha : ∀ k (h : k < ts.length), dtAccrual m.bm.start ts[k] m.bm.dcc = .ok (a k)) :
    m.generateIntegratedPath (some ts) =
      (.ok ((List.range ts.length).map fun k => ∑ j ∈ range k, (r j + r (j + 1)) / 2 * (a (j + 1) : ℝ)),
        { m with integrated := some ((List.range ts.length).map fun k => ∑ j ∈ range k, (r j + r (j + 1)) / 2 * (a (j + 1) : ℝ)) }) := by
  have key : m.integratedValues (some ts) =
      .ok ((List.range ts.length).map fun k => ∑ j ∈ range k, (r j + r (j + 1)) / 2 * (a (j + 1) : ℝ)) := by
    unfold ShortRateModel.integratedValues
    rw [hp]
    simp only [ok_bind]
    rw [integrateLoop_eq m ts r a hr ha, ok_bind]
    congr 1
    obtain ⟨n, hn⟩ : ∃ n, ts.length = n + 1 := ⟨ts.length - 1, by have := List.length_pos_iff.2 hne; omega⟩
    rw [hn, List.range_succ_eq_map, List.map_cons, List.map_map]
    congr 1
    apply List.map_congr_left
    intro k _
    simp
  unfold ShortRateModel.generateIntegratedPath
  rw [key]

/-- C46 (partial). For a first datetime at the start of the simulation, the first two entries are the trapezoidal integral of the
rates over the day-count lengths of the steps.  Missing: all later entries, where it is false (`C46_false`). -/
theorem C46_first_step_partial {p : Nat} (m m' : ShortRateModel p) (l : List ℝ) (hp : m.path = some l) (ts : List PyDatetime)
    (r : Nat → ℝ) (a : Nat → ℚ) (dts : List ℚ) (hr : ∀ k (h : k < ts.length), m.call ts[k] = .ok (r k))
    (ha : ∀ k (h : k < ts.length), dtAccrual m.bm.start ts[k] m.bm.dcc = .ok (a k)) (hs : StepLengths m.bm.dcc ts dts)
    (h0 : ts.head? = some m.bm.start) (vs : List ℝ) (hv : m.generateIntegratedPath (some ts) = (.ok vs, m')) (k : Nat)
    (hk : k < vs.length) (hk1 : k ≤ 1) : vs[k] = trapezoidal r (fun j => ((dts.getD j 0 : ℚ) : ℝ)) k := by
  have hne : ts ≠ [] := by rintro rfl; cases h0
  rw [C46_computed m l hp ts hne r a hr ha] at hv
  simp only [Prod.mk.injEq, Except.ok.injEq] at hv
  obtain ⟨hv, -⟩ := hv
  subst hv
  simp only [List.getElem_map, List.getElem_range]
  unfold trapezoidal
  interval_cases k
  · simp
  · simp only [Finset.sum_range_one]
    congr 1
    have hlen : 1 < ts.length := by simpa using hk
    have h1 : 0 < dts.length := by have := hs.1; omega
    have e1 := hs.2 0 h1 (by omega) (by omega)
    have e2 := ha 1 hlen
    have e3 : ts[0] = m.bm.start := by
      rw [List.head?_eq_getElem?, List.getElem?_eq_getElem (by omega)] at h0
      injection h0
    rw [e3] at e1
    simp only [zero_add] at e1 e2 ⊢
    rw [e2] at e1
    injection e1 with e1
    rw [List.getD_eq_getElem?_getD, List.getElem?_eq_getElem h1, Option.getD_some, e1]

/-- Under the fixed-denominator conventions accruals of datetimes add up. -/
theorem dtAccrual_sub {dcc : DayCountConvention} {den : ℚ} (hden : FixedDenominator dcc = some den) {o s e : PyDatetime} {x y z : ℚ}
    (hx : dtAccrual o s dcc = .ok x) (hy : dtAccrual o e dcc = .ok y) (hz : dtAccrual s e dcc = .ok z) : z = y - x := by
  have hpos : den ≠ 0 := by cases dcc <;> simp [FixedDenominator] at hden <;> subst hden <;> norm_num
  have key : ∀ (u v : PyDatetime) (w : ℚ), dtAccrual u v dcc = .ok w →
      w = ((v.instant - u.instant : Int) : ℚ) / (den * 86400000000) := by
    intro u v w hw
    have hle : u.like.instant ≤ v.like.instant := by
      by_contra hc
      unfold dtAccrual computeAccrualLength at hw
      rw [if_neg (by simpa [checkDates] using hc)] at hw
      cases hw
    have hmax : u.day.ord < PyDate.maxOrd ∧ v.day.ord < PyDate.maxOrd := by
      have : ∃ f, includeDatetimes f u.like v.like = .ok w := by
        unfold dtAccrual computeAccrualLength at hw
        rw [if_pos (by simpa [checkDates] using hle)] at hw
        cases dcc <;> simp [FixedDenominator] at hden <;> exact ⟨_, hw⟩
      obtain ⟨f, hf⟩ := this
      obtain ⟨s', e', _, _, h1, h2, _⟩ := includeDatetimes_datetimes hf
      have b1 := s'.ord_bounds
      have b2 := e'.ord_bounds
      omega
    have := C16_act_fixed_datetimes dcc den hden u.like v.like hle (fun _ => hmax.1) (fun _ => hmax.2)
    unfold dtAccrual at hw
    rw [this] at hw
    injection hw with hw
    exact hw.symm
  rw [key _ _ _ hx, key _ _ _ hy, key _ _ _ hz]
  push_cast
  field_simp
  ring

/-- C46. Under the fixed-denominator conventions entry `k` exceeds the trapezoidal integral by the sum of the average rates of its
steps times the time from the start to the beginning of the step. -/
theorem C46_excess {p : Nat} (m m' : ShortRateModel p) (l : List ℝ) (hp : m.path = some l) (ts : List PyDatetime) (hne : ts ≠ [])
    (r : Nat → ℝ) (a : Nat → ℚ) (dts : List ℚ) (hr : ∀ k (h : k < ts.length), m.call ts[k] = .ok (r k))
    (ha : ∀ k (h : k < ts.length), dtAccrual m.bm.start ts[k] m.bm.dcc = .ok (a k)) (hs : StepLengths m.bm.dcc ts dts)
    (den : ℚ) (hden : FixedDenominator m.bm.dcc = some den) (vs : List ℝ)
    (hv : m.generateIntegratedPath (some ts) = (.ok vs, m')) (k : Nat) (hk : k < vs.length) :
    vs[k] = trapezoidal r (fun j => ((dts.getD j 0 : ℚ) : ℝ)) k + ∑ j ∈ range k, (r j + r (j + 1)) / 2 * (a j : ℝ) := by
  rw [C46_computed m l hp ts hne r a hr ha] at hv
  simp only [Prod.mk.injEq, Except.ok.injEq] at hv
  obtain ⟨hv, -⟩ := hv
  subst hv
  simp only [List.getElem_map, List.getElem_range]
  unfold trapezoidal
  rw [← Finset.sum_add_distrib]
  apply Finset.sum_congr rfl
  intro j hj
  have hj := Finset.mem_range.1 hj
  have hlen : k < ts.length := by simpa using hk
  have h1 : j < dts.length := by have := hs.1; omega
  have e := dtAccrual_sub hden (ha j (by omega)) (ha (j + 1) (by omega)) (hs.2 j h1 (by omega) (by omega))
  simp only []
  rw [List.getD_eq_getElem?_getD, List.getElem?_eq_getElem h1, Option.getD_some, e]
  push_cast
  ring

/-- C46 is false from the second step on: with positive rates and increasing datetimes, every entry from the third is larger than
the trapezoidal integral. -/
theorem C46_false {p : Nat} (m m' : ShortRateModel p) (l : List ℝ) (hp : m.path = some l) (ts : List PyDatetime)
    (r : Nat → ℝ) (a : Nat → ℚ) (dts : List ℚ) (hr : ∀ k (h : k < ts.length), m.call ts[k] = .ok (r k))
    (ha : ∀ k (h : k < ts.length), dtAccrual m.bm.start ts[k] m.bm.dcc = .ok (a k)) (hs : StepLengths m.bm.dcc ts dts)
    (den : ℚ) (hden : FixedDenominator m.bm.dcc = some den) (vs : List ℝ)
    (hv : m.generateIntegratedPath (some ts) = (.ok vs, m')) (h0 : ts.head? = some m.bm.start) (hinc : ts.Pairwise (· < ·))
    (hpos : ∀ k, 0 < r k) (k : Nat) (hk : k < vs.length) (hk2 : 2 ≤ k) :
    trapezoidal r (fun j => ((dts.getD j 0 : ℚ) : ℝ)) k < vs[k] := by
  have hne : ts ≠ [] := by rintro rfl; cases h0
  rw [C46_excess m m' l hp ts hne r a dts hr ha hs den hden vs hv k hk]
  have hlen : k < ts.length := by
    have hv' := hv
    rw [C46_computed m l hp ts hne r a hr ha] at hv'
    simp only [Prod.mk.injEq, Except.ok.injEq] at hv'
    rw [← hv'.1] at hk
    simpa using hk
  have e3 : ts[0] = m.bm.start := by
    rw [List.head?_eq_getElem?, List.getElem?_eq_getElem (by omega)] at h0
    injection h0
  have hd : m.bm.dcc ≠ .thirty360 := by rintro h; rw [h] at hden; cases hden
  have hapos : ∀ j (hj : j < ts.length), 0 < j → 0 < a j := by
    intro j hj hj0
    exact dtAccrual_pos hd (by rw [← e3]; exact grid_lt hinc hj0 hj) (ha j hj)
  have h00 : a 0 = 0 := by
    have h1 : 0 < dts.length := by have := hs.1; omega
    have e0 := ha 0 (by omega)
    have e := dtAccrual_sub hden e0 (ha 1 (by omega)) (hs.2 0 h1 (by omega) (by omega))
    have e1 := hs.2 0 h1 (by omega) (by omega)
    rw [e3] at e1
    have e1 := (ha 1 (by omega)).symm.trans e1
    injection e1 with e1
    linarith
  have hsum : 0 < ∑ j ∈ range k, (r j + r (j + 1)) / 2 * (a j : ℝ) := by
    apply Finset.sum_pos'
    · intro j hj
      have hj := Finset.mem_range.1 hj
      have := hpos j
      have := hpos (j + 1)
      have : (0 : ℝ) ≤ (a j : ℝ) := by
        rcases Nat.eq_zero_or_pos j with rfl | hj0
        · rw [h00]; simp
        · exact_mod_cast le_of_lt (hapos j (by omega) hj0)
      positivity
    · refine ⟨1, Finset.mem_range.2 (by omega), ?_⟩
      have := hpos 1
      have := hpos 2
      have : (0 : ℝ) < (a 1 : ℝ) := by exact_mod_cast hapos 1 (by omega) (by omega)
      positivity
  linarith

/-- A model whose simulated short rate is constantly 1 on three consecutive days. -/
noncomputable def unitModel : ShortRateModel 1 where
  transform x := x 0
  process := { coords := fun _ => ⟨fun _ _ => 0, fun _ _ _ => 0⟩, dt := .timedelta 86400000000,
               path := some [fun _ => 1, fun _ => 1, fun _ => 1] }
  dt := .timedelta 86400000000
  bm := { start := T 2023 1 1, stop := T 2023 1 3, chol := fun _ _ => 1, dcc := .act365,
          grid := some [T 2023 1 1, T 2023 1 2, T 2023 1 3], path := none }
  path := some [1, 1, 1]
  integrated := none

theorem unitModel_call (k : Nat) (h : k < [T 2023 1 1, T 2023 1 2, T 2023 1 3].length) :
    unitModel.call [T 2023 1 1, T 2023 1 2, T 2023 1 3][k] = .ok 1 := by
  unfold ShortRateModel.call Diffusion.call
  have hG : Gridded (p := 1) (T 2023 1 1) (T 2023 1 3) [T 2023 1 1, T 2023 1 2, T 2023 1 3] [fun _ => 1, fun _ => 1, fun _ => 1] :=
    ⟨by decide +kernel, rfl, rfl, rfl⟩
  have := C44_at_grid .act365 (T 2023 1 1) (T 2023 1 3) _ _ hG k h
  have e : unitModel.process.path = some [fun _ => 1, fun _ => 1, fun _ => 1] := rfl
  show (do let x ← PathCall.call .act365 (T 2023 1 1) (T 2023 1 3) [T 2023 1 1, T 2023 1 2, T 2023 1 3]
            (some [fun _ => 1, fun _ => 1, fun _ => 1]) _; Except.ok (x 0)) = _
  rw [this, ok_bind]
  congr 1
  simp at h
  interval_cases k <;> rfl

/-- Concrete case for C46: the rate is 1 throughout, and after two days the integral is 3/365 instead of 2/365. -/
theorem unitModel_integrated : (unitModel.generateIntegratedPath (some [T 2023 1 1, T 2023 1 2, T 2023 1 3])).1 = .ok [0, 1 / 365, 3 / 365] := by
  rw [C46_computed unitModel [1, 1, 1] rfl _ (by simp) (fun _ => 1) (fun k => (k : ℚ) / 365) unitModel_call]
  · simp [List.range_succ, Finset.sum_range_succ]
    norm_num
  · intro k h
    simp at h
    interval_cases k
    · exact (by decide +kernel : dtAccrual (T 2023 1 1) (T 2023 1 1) .act365 = .ok (((0 : Nat) : ℚ) / 365))
    · exact (by decide +kernel : dtAccrual (T 2023 1 1) (T 2023 1 2) .act365 = .ok (((1 : Nat) : ℚ) / 365))
    · exact (by decide +kernel : dtAccrual (T 2023 1 1) (T 2023 1 3) .act365 = .ok (((2 : Nat) : ℚ) / 365))

/-- C46. By default the integrated path stops at the last whole step before the end of the simulation: an off-grid end is left
out. -/
theorem C46_default_stops_early (m : ShortRateModel 1) (h1 : m.bm.start = T 2023 1 1)
    (h2 : m.bm.stop = T 2023 1 2 (micros := 43200000000)) (h3 : m.dt = .timedelta 86400000000) :
    m.defaultDatetimes = .ok [T 2023 1 1, T 2023 1 2] ∧
    BrownianMotion.makeGrid m.bm.start m.bm.stop m.dt = .ok [T 2023 1 1, T 2023 1 2, T 2023 1 2 (micros := 43200000000)] := by
  unfold ShortRateModel.defaultDatetimes
  rw [h1, h2, h3]
  constructor <;> decide +kernel

/-! ## C57: curves reflect the latest path -/

/-- C57. From a model with a path and no integrated path, the discount curve's knots are the exponentials of minus the integrated
path along the given datetimes. -/
theorem C57_fresh {p : Nat} (m : ShortRateModel p) (l : List ℝ) (hp : m.path = some l) (hi : m.integrated = none)
    (ts : List PyDatetime) (vs : List ℝ) (hv : m.integratedValues (some ts) = .ok vs) :
    m.discountKnots (some ts) = (.ok (ts.zip (vs.map fun v => Real.exp (-v))), { m with integrated := some vs }) := by
  unfold ShortRateModel.discountKnots
  rw [hp]
  simp only
  rw [hi]
  unfold ShortRateModel.generateIntegratedPath
  rw [hv, hp]

/-- C57 fails after regeneration: generating a new path keeps the old integrated path, and the discount and accrual curves are
still those of the old path. -/
theorem C57_stale {p : Nat} (m m' : ShortRateModel p) (vs : List ℝ) (hi : m.integrated = some vs) (x0 : Vec p) (set : Bool)
    (normals : Nat → Vec p) (h : m.generatePath x0 set normals = (.ok (), m')) (ts : List PyDatetime) :
    m'.integrated = some vs ∧ m'.discountKnots (some ts) = (.ok (ts.zip (vs.map fun v => Real.exp (-v))), m') ∧
      m'.accrualKnots (some ts) = .ok ((m'.bm.start, 1) :: ts.zip (vs.map Real.exp)) := by
  unfold ShortRateModel.generatePath at h
  split at h
  · simp at h
  · next cols d b hg =>
    split at h
    · simp at h
    · next c hc =>
      simp only [Prod.mk.injEq, true_and] at h
      subst h
      refine ⟨hi, ?_, ?_⟩
      · unfold ShortRateModel.discountKnots
        simp only [hi]
      · unfold ShortRateModel.accrualKnots
        simp only [hi, ok_bind]

/-- C57. Generating without keeping the path: on a fresh process this raises AttributeError; otherwise the model's path is
recomputed from the process's OLD path, while the grid is replaced. -/
theorem C57_unset {p : Nat} (m m' : ShortRateModel p) (x0 : Vec p) (normals : Nat → Vec p) (res : Except PyErr Unit)
    (h : m.generatePath x0 false normals = (res, m')) :
    (m.process.path = none → res ≠ .ok () ∧
      ∀ grid dts, BrownianMotion.makeGrid m.bm.start m.bm.stop m.process.dt = .ok grid → BrownianMotion.accruals m.bm.dcc grid = .ok dts →
        res = .error .attributeError) ∧
    (∀ cols, m.process.path = some cols → res = .ok () → m'.path = some (cols.map m.transform)) := by
  have hd : ∀ r d b, m.process.generatePath m.bm x0 false normals = (r, d, b) → d = m.process := by
    intro r d b hg
    unfold Diffusion.generatePath at hg
    split at hg
    · simp only [Prod.mk.injEq] at hg; exact hg.2.1.symm
    · simp only [Prod.mk.injEq] at hg; exact hg.2.1.symm
  unfold ShortRateModel.generatePath at h
  split at h
  · next e d b hg =>
    simp only [Prod.mk.injEq] at h
    constructor
    · intro _
      refine ⟨fun hc => (by rw [hc] at h; cases h.1), ?_⟩
      intro grid dts h1 h2
      obtain ⟨path, d2, b2, h3⟩ := C45_succeeds m.process m.bm x0 false normals grid dts h1 h2
      rw [h3] at hg
      cases hg
    · intro cols _ hc; rw [hc] at h; cases h.1
  · next c d b hg =>
    have := hd _ _ _ hg
    subst this
    split at h
    · next hn =>
      simp only [Prod.mk.injEq] at h
      constructor
      · intro _
        exact ⟨fun hc => (by rw [hc] at h; cases h.1), fun _ _ _ _ => h.1.symm⟩
      · intro cols hc
        rw [hn] at hc
        cases hc
    · next cols' hc' =>
      simp only [Prod.mk.injEq] at h
      refine ⟨fun hc => absurd (hc'.symm.trans hc) (by simp), ?_⟩
      intro cols hc _
      rw [hc'] at hc
      injection hc with hc
      rw [← h.2, hc]

/-- C57. The accrual curve of a model with a path but no integrated path raises TypeError. -/
theorem C57_accrual_fresh {p : Nat} (m : ShortRateModel p) (l : List ℝ) (hp : m.path = some l) (hi : m.integrated = none)
    (ts : List PyDatetime) : m.accrualKnots (some ts) = .error .typeError := by
  unfold ShortRateModel.accrualKnots
  rw [hp]
  simp only [ok_bind]
  rw [hi]

/-- C57. Setting a new step on a short-rate model does not change the step of the paths it generates: the outcome of the next
generation is the same as without setting it, apart from the model's own step and reset outputs. -/
theorem C57_set_dt_ignored {p : Nat} (m : ShortRateModel p) (dt : DtIncrement) (x0 : Vec p) (set : Bool) (normals : Nat → Vec p) :
    ((m.setDt dt).generatePath x0 set normals).1 = (m.generatePath x0 set normals).1 ∧
    ((m.setDt dt).generatePath x0 set normals).2.bm = (m.generatePath x0 set normals).2.bm ∧
    ((m.setDt dt).generatePath x0 set normals).2.process = (m.generatePath x0 set normals).2.process := by
  unfold ShortRateModel.generatePath
  have h1 : (m.setDt dt).process = m.process := rfl
  have h2 : (m.setDt dt).bm = m.bm := rfl
  rw [h1, h2]
  split
  · exact ⟨rfl, rfl, rfl⟩
  · split <;> exact ⟨rfl, rfl, rfl⟩

/-- C57. Setting a new step drops the model's path and integrated path: curves are refused until a new path is generated, and then
computed from it. -/
theorem C57_set_dt_resets {p : Nat} (m m' : ShortRateModel p) (dt : DtIncrement) (ts : List PyDatetime) :
    ((m.setDt dt).discountKnots (some ts)).1 = .error .valueError ∧ (m.setDt dt).accrualKnots (some ts) = .error .valueError ∧
    ∀ x0 normals vs, (m.setDt dt).generatePath x0 true normals = (.ok (), m') → m'.integratedValues (some ts) = .ok vs →
      (m'.discountKnots (some ts)).1 = .ok (ts.zip (vs.map fun v => Real.exp (-v))) := by
  refine ⟨rfl, rfl, ?_⟩
  intro x0 normals vs h hv
  have hi : m'.integrated = none ∧ ∃ l, m'.path = some l := by
    unfold ShortRateModel.generatePath at h
    split at h
    · simp at h
    · split at h
      · simp at h
      · simp only [Prod.mk.injEq, true_and] at h
        subst h
        exact ⟨rfl, _, rfl⟩
  obtain ⟨hi, l, hl⟩ := hi
  rw [C57_fresh m' l hl hi ts vs hv]

/-- C58. Setting a new step on a process drops its path: it cannot be read until a new path is generated, which then uses the new
step. -/
theorem C58_set_dt {p : Nat} (d d' : Diffusion p) (b b' : BrownianMotion p) (dt : DtIncrement) (q : PyDatetime) :
    (d.setDt dt).call b q = .error .valueError ∧
    ∀ x0 normals path, (d.setDt dt).generatePath b x0 true normals = (.ok path, d', b') →
      ∃ grid, BrownianMotion.makeGrid b.start b.stop dt = .ok grid ∧ b'.grid = some grid ∧ d'.path = some path := by
  refine ⟨rfl, ?_⟩
  intro x0 normals path h
  obtain ⟨grid, dts, hg, -, hb, hd, -⟩ := C45_euler _ _ _ _ _ _ _ _ h
  rw [if_pos rfl] at hd
  exact ⟨grid, hg, by rw [hb], by rw [hd]⟩

/-! ## C59: geometric Brownian motion -/

theorem geometric_spec {p : Nat} (mu sigma : ℝ) (l : List (Vec p × ℚ)) (x : Vec p) :
    (Geometric.loop mu sigma l x).length = l.length + 1 ∧
    ∀ k (h : k < (Geometric.loop mu sigma l x).length) (i : Fin p),
      (Geometric.loop mu sigma l x)[k] i =
        x i * ((l.take k).map fun s => 1 + mu * (s.2 : ℝ) + sigma * s.1 i).prod := by
  induction l generalizing x with
  | nil =>
    refine ⟨rfl, ?_⟩
    intro k h i
    simp only [Geometric.loop, List.length_singleton] at h ⊢
    interval_cases k
    simp
  | cons s l ih =>
    obtain ⟨sh, dt⟩ := s
    obtain ⟨h1, h2⟩ := ih (Geometric.step mu sigma x sh dt)
    refine ⟨by simp [Geometric.loop, h1], ?_⟩
    intro k h i
    cases k with
    | zero =>
      simp only [List.take_zero, List.map_nil, List.prod_nil, mul_one]
      rfl
    | succ k =>
      have hk : k < (Geometric.loop mu sigma l (Geometric.step mu sigma x sh dt)).length := by
        rw [h1]; simp [Geometric.loop, h1] at h; omega
      simp only [List.take_succ_cons, List.map_cons, List.prod_cons]
      refine Eq.trans (show _ = (Geometric.loop mu sigma l (Geometric.step mu sigma x sh dt))[k] i from rfl) ?_
      rw [h2 k hk i]
      simp only [Geometric.step]
      ring

/-- C59. Each coordinate of a geometric Brownian path is its starting value times the product of the step factors
`1 + drift * dt + volatility * dW`, with one column per grid datetime. -/
theorem C59_product {p : Nat} (mu sigma : ℝ) (b b' : BrownianMotion p) (dt : DtIncrement) (x0 : Vec p) (normals : Nat → Vec p)
    (path : List (Vec p)) (h : Geometric.generatePath mu sigma b dt x0 normals = (.ok path, b')) :
    ∃ grid dts, BrownianMotion.makeGrid b.start b.stop dt = .ok grid ∧ StepLengths b.dcc grid dts ∧ path.length = grid.length ∧
      ∃ dW : Nat → Vec p, (∀ k (h1 : k < dts.length), dW k = shock b.chol normals dts k h1) ∧
      ∀ k (h1 : k < path.length) (i : Fin p),
        path[k] i = x0 i * ∏ j ∈ range k, (1 + mu * ((dts.getD j 0 : ℚ) : ℝ) + sigma * dW j i) := by
  unfold Geometric.generatePath at h
  split at h
  · simp at h
  · next r b1 hr =>
    obtain ⟨incs, dts⟩ := r
    obtain ⟨grid, hg, hb, hs, hlen, hinc⟩ := generateIncrements_spec b b1 dt normals incs dts hr
    simp only [Prod.mk.injEq, Except.ok.injEq] at h
    obtain ⟨hp, -⟩ := h
    obtain ⟨c1, c2⟩ := geometric_spec mu sigma (incs.zip dts) x0
    have hz : (incs.zip dts).length = dts.length := by rw [List.length_zip]; omega
    refine ⟨grid, dts, hg, hs, by rw [← hp, c1, hz, hs.1], fun k => incs.getD k (fun _ => 0), ?_, ?_⟩
    · intro k h1
      have h2 : k < incs.length := by omega
      simp only []
      rw [List.getD_eq_getElem?_getD, List.getElem?_eq_getElem h2, Option.getD_some]
      exact hinc k h1 h2
    · subst hp
      intro k h1 i
      rw [c2 k h1 i]
      congr 1
      have hk : k ≤ dts.length := by rw [c1, hz] at h1; omega
      clear c2 h1
      induction k with
      | zero => simp
      | succ k ih =>
        have hk2 : k < (incs.zip dts).length := by omega
        rw [Finset.prod_range_succ, List.take_succ, List.getElem?_eq_getElem hk2]
        simp only [Option.toList_some, List.map_append, List.map_cons, List.map_nil, List.prod_append, List.prod_cons,
          List.prod_nil, mul_one]
        rw [ih (by omega), List.getElem_zip]
        have h2 : k < incs.length := by omega
        have h3 : k < dts.length := by omega
        simp [List.getElem?_eq_getElem h2, List.getElem?_eq_getElem h3]

/-- C59. A positive start stays positive as long as every step factor is; and zero stays zero. -/
theorem C59_sign {p : Nat} (mu sigma : ℝ) (b b' : BrownianMotion p) (dt : DtIncrement) (x0 : Vec p) (normals : Nat → Vec p)
    (path : List (Vec p)) (h : Geometric.generatePath mu sigma b dt x0 normals = (.ok path, b')) (i : Fin p) :
    (x0 i = 0 → ∀ k (h1 : k < path.length), path[k] i = 0) ∧
    (∀ dts grid, BrownianMotion.makeGrid b.start b.stop dt = .ok grid → StepLengths b.dcc grid dts → 0 < x0 i →
      (∀ k (h1 : k < dts.length), 0 < 1 + mu * (dts[k] : ℝ) + sigma * shock b.chol normals dts k h1 i) →
      ∀ k (h1 : k < path.length), 0 < path[k] i) := by
  obtain ⟨grid, dts, hg, hs, hl, dW, hW, hpr⟩ := C59_product mu sigma b b' dt x0 normals path h
  constructor
  · intro h0 k h1
    rw [hpr k h1 i, h0, zero_mul]
  · intro dts' grid' hg' hs' h0 hpos k h1
    rw [hg] at hg'
    injection hg' with hg'
    subst hg'
    have hdts : dts' = dts := by
      apply List.ext_getElem
      · have := hs.1; have := hs'.1; omega
      · intro j hj hj'
        have e1 := hs.2 j hj' (by have := hs.1; omega) (by have := hs.1; omega)
        have e2 := hs'.2 j hj (by have := hs.1; omega) (by have := hs.1; omega)
        rw [e1] at e2
        injection e2 with e2
        exact e2.symm
    subst hdts
    rw [hpr k h1 i]
    apply mul_pos h0
    apply Finset.prod_pos
    intro j hj
    have hj' : j < dts'.length := by
      have := Finset.mem_range.1 hj
      have := hs.1
      omega
    rw [hW j hj']
    have := hpos j hj'
    rw [List.getD_eq_getElem?_getD, List.getElem?_eq_getElem hj', Option.getD_some]
    exact this

end Verif.Props
