/- Property C103: the discount and accrual curves of a simulated short-rate path. -/
import Verif.Model.PathCurve
import Verif.Props.ShortRate
import Verif.Props.ActActDatetimes

namespace Verif.Props
open Verif Verif.Spec Verif.DayCount Finset

/-! ## Interpolation in real values -/

theorem interpReal_knot : ∀ (g : List (ℚ × ℝ)), g.Pairwise (fun a b => a.1 < b.1) → ∀ k (h : k < g.length),
    interpLinearReal g g[k].1 = .ok g[k].2
  | [], _, k, h => by simp at h
  | [(x, y)], _, k, h => by
    have : k = 0 := by simp at h; omega
    subst this
    simp [interpLinearReal]
  | (x0, y0) :: (x1, y1) :: rest, hs, k, h => by
    have hs' := (List.pairwise_cons.1 hs).2
    have h01 : x0 < x1 := (List.pairwise_cons.1 hs).1 (x1, y1) (by simp)
    cases k with
    | zero =>
      simp only [List.getElem_cons_zero, interpLinearReal]
      rw [if_neg (lt_irrefl _), if_pos h01]
      simp
    | succ k =>
      have hk : k < ((x1, y1) :: rest).length := by simpa using h
      have hge : x1 ≤ ((x1, y1) :: rest)[k].1 := by
        cases k with
        | zero => exact le_refl _
        | succ j => exact le_of_lt ((List.pairwise_cons.1 hs').1 _ (List.getElem_mem (by simpa using hk)))
      simp only [List.getElem_cons_succ, interpLinearReal]
      rw [if_neg (not_lt.2 (le_trans h01.le hge)), if_neg (not_lt.2 hge)]
      exact interpReal_knot _ hs' k hk

theorem interpReal_between : ∀ (g : List (ℚ × ℝ)), g.Pairwise (fun a b => a.1 < b.1) → ∀ k (h : k + 1 < g.length) (x : ℚ),
    g[k].1 ≤ x → x < g[k + 1].1 →
    interpLinearReal g x = .ok (g[k].2 + ((x - g[k].1 : ℚ) : ℝ) * ((g[k + 1].2 - g[k].2) / ((g[k + 1].1 - g[k].1 : ℚ) : ℝ)))
  | [], _, k, h, _, _, _ => by simp at h
  | [_], _, k, h, _, _, _ => by simp at h
  | (x0, y0) :: (x1, y1) :: rest, hs, k, h, x, ha, hb => by
    have hs' := (List.pairwise_cons.1 hs).2
    have h01 : x0 < x1 := (List.pairwise_cons.1 hs).1 (x1, y1) (by simp)
    cases k with
    | zero =>
      simp only [List.getElem_cons_zero, List.getElem_cons_succ, zero_add] at ha hb ⊢
      simp only [interpLinearReal]
      rw [if_neg (not_lt.2 ha), if_pos hb]
    | succ k =>
      have hk : k + 1 < ((x1, y1) :: rest).length := by simpa using h
      simp only [List.getElem_cons_succ] at ha hb ⊢
      have hge : x1 ≤ ((x1, y1) :: rest)[k].1 := by
        cases k with
        | zero => exact le_refl _
        | succ j => exact le_of_lt ((List.pairwise_cons.1 hs').1 _ (List.getElem_mem _))
      simp only [interpLinearReal]
      rw [if_neg (not_lt.2 (le_trans h01.le (le_trans hge ha))), if_neg (not_lt.2 (le_trans hge ha))]
      exact interpReal_between _ hs' k hk x ha hb

/-- A second knot at the same place replaces the first. -/
theorem interpReal_duplicate (x0 : ℚ) (y0 y1 : ℝ) (rest : List (ℚ × ℝ)) (x : ℚ) (h : x0 ≤ x) :
    interpLinearReal ((x0, y0) :: (x0, y1) :: rest) x = interpLinearReal ((x0, y1) :: rest) x := by
  rw [interpLinearReal, if_neg (not_lt.2 h), if_neg (not_lt.2 h)]

/-! ## Times of a simulation -/

/-- Datetimes which start at the start of the simulation and whose accruals from it exist and increase. -/
structure SimTimes (start : PyDatetime) (dcc : DayCountConvention) (ts : List PyDatetime) (a : PyDatetime → ℚ) : Prop where
  first : ts.head? = some start
  increasing : ts.Pairwise (· < ·)
  accrual : ∀ t ∈ ts, dtAccrual start t dcc = .ok (a t)
  strict : ∀ s ∈ ts, ∀ t ∈ ts, s < t → a s < a t

/-- Under the actual/fixed conventions the accrual of a datetime from an earlier one is the elapsed time. -/
theorem dtAccrual_elapsed {dcc : DayCountConvention} {den : ℚ} (hden : FixedDenominator dcc = some den) {s e : PyDatetime} (h : s ≤ e)
    (hmax : e.day.ord < PyDate.maxOrd) : dtAccrual s e dcc = .ok (((e.instant - s.instant : Int) : ℚ) / (den * 86400000000)) := by
  have hs : s.day.ord < PyDate.maxOrd := by
    rw [PyDatetime.le_iff] at h
    unfold PyDatetime.instant at h
    have := s.bounds
    have := e.bounds
    omega
  exact C16_act_fixed_datetimes dcc den hden s.like e.like h (fun _ => hs) (fun _ => hmax)

theorem den_pos {dcc : DayCountConvention} {den : ℚ} (hden : FixedDenominator dcc = some den) : 0 < den := by
  cases dcc <;> simp [FixedDenominator] at hden <;> subst hden <;> norm_num

/-- C103. Under the actual/fixed conventions every increasing list of datetimes from the start of the simulation on, before the last
day of the calendar, is such a list. -/
theorem C103_fixed_times {dcc : DayCountConvention} {den : ℚ} (hden : FixedDenominator dcc = some den) {start : PyDatetime}
    {ts : List PyDatetime} (h0 : ts.head? = some start) (hinc : ts.Pairwise (· < ·))
    (hmax : ∀ t ∈ ts, t.day.ord < PyDate.maxOrd) :
    SimTimes start dcc ts (fun t => ((t.instant - start.instant : Int) : ℚ) / (den * 86400000000)) := by
  have hpos := den_pos hden
  have hge : ∀ t ∈ ts, start ≤ t := by
    intro t ht
    cases ts with
    | nil => simp at ht
    | cons s l =>
      simp only [List.head?_cons, Option.some.injEq] at h0
      subst h0
      rcases List.mem_cons.1 ht with rfl | ht
      · exact le_refl _
      · exact le_of_lt ((List.pairwise_cons.1 hinc).1 t ht)
  refine ⟨h0, hinc, fun t ht => dtAccrual_elapsed hden (hge t ht) (hmax t ht), ?_⟩
  intro s _ t _ hst
  rw [PyDatetime.lt_iff] at hst
  have : ((s.instant - start.instant : Int) : ℚ) < ((t.instant - start.instant : Int) : ℚ) := by
    exact_mod_cast (by omega : s.instant - start.instant < t.instant - start.instant)
  exact div_lt_div_of_pos_right this (by positivity)

/-- C103. Under actual/actual the same holds when all datetimes have the time of day of the start (daily, monthly … steps). -/
theorem C103_daily_times {start : PyDatetime} {ts : List PyDatetime} (h0 : ts.head? = some start) (hinc : ts.Pairwise (· < ·))
    (hmax : ∀ t ∈ ts, t.day.ord < PyDate.maxOrd) (hy : 2 ≤ start.day.year) (hm : ∀ t ∈ ts, t.micros = start.micros) :
    SimTimes start .actAct ts (fun t => match dtAccrual start t .actAct with
      | .ok x => x
      | .error _ => 0) := by
  have next : ∀ d : PyDate, d.ord < PyDate.maxOrd → ∃ d' : PyDate, d'.ord = d.ord + 1 := by
    intro d hd
    have hb := d.ord_bounds
    obtain ⟨d', -, hd'⟩ := PyDate.ofOrd?_some (d.ord + 1) (by omega) (by omega)
    exact ⟨d', hd'⟩
  have hge : ∀ t ∈ ts, start ≤ t := by
    intro t ht
    cases ts with
    | nil => simp at ht
    | cons s l =>
      simp only [List.head?_cons, Option.some.injEq] at h0
      subst h0
      rcases List.mem_cons.1 ht with rfl | ht
      · exact le_refl _
      · exact le_of_lt ((List.pairwise_cons.1 hinc).1 t ht)
  have hstart : start ∈ ts := List.mem_of_head? h0
  obtain ⟨s', hs'⟩ := next _ (hmax _ hstart)
  refine ⟨h0, hinc, ?_, ?_⟩
  · intro t ht
    obtain ⟨t', ht'⟩ := next _ (hmax t ht)
    have := C104_value start t s' t' (hge t ht) hy hs' ht'
    rw [this]
  · intro s hs t ht hst
    obtain ⟨u', hu'⟩ := next _ (hmax s hs)
    obtain ⟨t', ht'⟩ := next _ (hmax t ht)
    obtain ⟨x, y, z, e1, -, e3, -, h5⟩ := C104_same_time start s t s' u' t' (hge s hs) hst.le hy hs' hu' ht' (hm s hs).symm
      ((hm s hs).trans (hm t ht).symm)
    rw [e1, e3]
    exact h5 hst

namespace SimTimes
variable {start : PyDatetime} {dcc : DayCountConvention} {ts : List PyDatetime} {a : PyDatetime → ℚ}

theorem head (h : SimTimes start dcc ts a) : ∃ l, ts = start :: l := by
  have := h.first
  cases ts with
  | nil => simp at this
  | cons s l => simp at this; exact ⟨l, by rw [this]⟩

theorem start_le (h : SimTimes start dcc ts a) {t : PyDatetime} (ht : t ∈ ts) : start ≤ t := by
  obtain ⟨l, rfl⟩ := h.head
  rcases List.mem_cons.1 ht with rfl | ht
  · exact le_refl _
  · exact le_of_lt ((List.pairwise_cons.1 h.increasing).1 t ht)

end SimTimes

/-- The knots of a curve along the datetimes `ts` with the values `vs`. -/
def knotsOf (ts : List PyDatetime) (vs : List ℝ) : List DtKnot := (ts.zip vs).map fun kv => ⟨kv.1, kv.2⟩

theorem knotsOf_sorted {ts : List PyDatetime} {vs : List ℝ} (h : ts.Pairwise (· < ·)) :
    (knotsOf ts vs).Pairwise (fun a b => a.knot < b.knot) := by
  unfold knotsOf
  rw [List.pairwise_map]
  have : ((ts.zip vs).map Prod.fst).Pairwise (· < ·) := by
    have : (ts.zip vs).map Prod.fst = ts.take (min ts.length vs.length) := by
      clear h
      induction ts generalizing vs with
      | nil => simp
      | cons t ts ih =>
        cases vs with
        | nil => simp
        | cons v vs => simp [ih, Nat.succ_min_succ]
    rw [this]
    exact h.sublist (List.take_sublist _ _)
  exact List.pairwise_map.1 this

theorem makeGrid_eq {start : PyDatetime} {dcc : DayCountConvention} {a : PyDatetime → ℚ} :
    ∀ {ks : List DtKnot}, (∀ k ∈ ks, dtAccrual start k.knot dcc = .ok (a k.knot)) →
      DtCurve.makeGrid start dcc ks = .ok (ks.map fun k => (a k.knot, k.value))
  | [], _ => rfl
  | k :: ks, h => by
    have ih := makeGrid_eq (ks := ks) (fun x hx => h x (by simp [hx]))
    unfold DtCurve.makeGrid at ih ⊢
    simp only [collect]
    rw [h k (by simp), ok_bind, ok_bind, ih]
    rfl

/-- The curve built from knots along `ts`. -/
theorem create_path {start : PyDatetime} {dcc : DayCountConvention} {ts : List PyDatetime} {a : PyDatetime → ℚ}
    (h : SimTimes start dcc ts a) (vs : List ℝ) (l r : EndBehavior) :
    DtCurve.create (knotsOf ts vs) dcc start l r =
      .ok ⟨knotsOf ts vs, dcc, start, l, r, (knotsOf ts vs).map fun k => (a k.knot, k.value)⟩ := by
  unfold DtCurve.create
  have hs : KeySorted DtKnot.knot (knotsOf ts vs) := (knotsOf_sorted h.increasing).imp (fun {a b} hab => le_of_lt hab)
  simp only [pySorted_of_sorted DtKnot.knot hs]
  rw [makeGrid_eq (a := a) (ks := knotsOf ts vs), ok_bind]
  intro k hk
  unfold knotsOf at hk
  obtain ⟨kv, hkv, rfl⟩ := List.mem_map.1 hk
  exact h.accrual _ (List.of_mem_zip hkv).1

theorem knotsOf_length {ts : List PyDatetime} {vs : List ℝ} (h : vs.length = ts.length) : (knotsOf ts vs).length = ts.length := by
  simp [knotsOf, h]

theorem knotsOf_get {ts : List PyDatetime} {vs : List ℝ} (k : Nat) (h1 : k < ts.length) (h2 : k < vs.length)
    (h3 : k < (knotsOf ts vs).length) : (knotsOf ts vs)[k] = ⟨ts[k], vs[k]⟩ := by
  simp [knotsOf]

theorem knotsOf_head {start : PyDatetime} {ts : List PyDatetime} {vs : List ℝ} (h0 : ts.head? = some start)
    (hl : vs.length = ts.length) : ∃ v, (knotsOf ts vs).head? = some ⟨start, v⟩ ∧ vs.head? = some v := by
  cases ts with
  | nil => simp at h0
  | cons s l =>
    cases vs with
    | nil => simp at hl
    | cons v vs =>
      simp at h0
      subst h0
      exact ⟨v, by simp [knotsOf], rfl⟩

theorem knotsOf_last {last : PyDatetime} {ts : List PyDatetime} {vs : List ℝ} (h0 : ts.getLast? = some last)
    (hl : vs.length = ts.length) : ∃ v, (knotsOf ts vs).getLast? = some ⟨last, v⟩ ∧ vs.getLast? = some v := by
  have hpos : 0 < ts.length := by
    cases ts with
    | nil => simp at h0
    | cons s l => simp
  have hk := knotsOf_length hl
  refine ⟨vs[ts.length - 1]'(by omega), ?_, ?_⟩
  · rw [List.getLast?_eq_getElem?, hk, List.getElem?_eq_getElem (by omega), knotsOf_get _ (by omega) (by omega)]
    rw [List.getLast?_eq_getElem?, List.getElem?_eq_getElem (by omega)] at h0
    injection h0 with h0
    rw [h0]
  · rw [List.getLast?_eq_getElem?, List.getElem?_eq_getElem (by omega)]
    congr 1
    simp only [hl]

/-- The value of the curve at a datetime between the first and the last of its times. -/
theorem call_path {start : PyDatetime} {dcc : DayCountConvention} {ts : List PyDatetime} {vs : List ℝ} (hl : vs.length = ts.length)
    {g : List (ℚ × ℝ)} {l r : EndBehavior} (h0 : ts.head? = some start) {last : PyDatetime} (hlast : ts.getLast? = some last)
    {q : PyDatetime} (h1 : start ≤ q) (h2 : q ≤ last) :
    (⟨knotsOf ts vs, dcc, start, l, r, g⟩ : DtCurve).call q.like = (do
      let x ← dtAccrual start q dcc
      interpLinearReal g x) := by
  obtain ⟨v, hv, _⟩ := knotsOf_head h0 hl
  obtain ⟨w, hw, _⟩ := knotsOf_last hlast hl
  unfold DtCurve.call PyDatetime.like
  simp only [hv, hw]
  rw [if_neg (not_lt.2 h1), if_neg (not_lt.2 h2)]

/-! ## C103 -/

/-- What a curve along the datetimes `ts` with values `vs` does: it returns the value at each of them, the straight line in time
(as measured by `a`) between neighbours, and raises ValueError outside and TypeError for a date. -/
structure PathCurveSpec (c : DtCurve) (ts : List PyDatetime) (vs : List ℝ) (dcc : DayCountConvention) (start : PyDatetime)
    (a : PyDatetime → ℚ) : Prop where
  length : vs.length = ts.length
  knot : ∀ k (h : k < ts.length) (h' : k < vs.length), c.call ts[k].like = .ok vs[k]
  between : ∀ k (h : k + 1 < ts.length) (h' : k + 1 < vs.length) (q : PyDatetime) (x : ℚ), dtAccrual start q dcc = .ok x →
    ts[k] ≤ q → q ≤ ts[k + 1] → a ts[k] ≤ x → x < a ts[k + 1] → ∃ w : ℝ, w = ((x - a ts[k] : ℚ) : ℝ) / ((a ts[k + 1] - a ts[k] : ℚ) : ℝ) ∧
      0 ≤ w ∧ w < 1 ∧ c.call q.like = .ok ((1 - w) * vs[k] + w * vs[k + 1])
  before : ∀ q, q < start → c.call q.like = .error .valueError
  after : ∀ q last, ts.getLast? = some last → last < q → c.call q.like = .error .valueError
  date : ∀ d : PyDate, c.call (.date d) = .error .typeError

theorem getLast_of {start : PyDatetime} {dcc : DayCountConvention} {ts : List PyDatetime} {a : PyDatetime → ℚ}
    (h : SimTimes start dcc ts a) : ∃ last, ts.getLast? = some last ∧ ∀ t ∈ ts, t ≤ last := by
  obtain ⟨l, hl⟩ := h.head
  have hpos : 0 < ts.length := by rw [hl]; simp
  refine ⟨ts[ts.length - 1], ?_, ?_⟩
  · rw [List.getLast?_eq_getElem?, List.getElem?_eq_getElem (by omega)]
  · intro t ht
    obtain ⟨k, hk, rfl⟩ := List.mem_iff_getElem.1 ht
    exact grid_le h.increasing (by omega) (by omega)

/-- The two ways of building the interpolation data used below agree on this specification. -/
theorem pathSpec_of {start : PyDatetime} {dcc : DayCountConvention} {ts : List PyDatetime} {a : PyDatetime → ℚ}
    (h : SimTimes start dcc ts a) {vs : List ℝ} (hl : vs.length = ts.length) (c : DtCurve)
    (hd : ∀ d : PyDate, c.call (.date d) = .error .typeError)
    (hb : ∀ q, q < start → c.call q.like = .error .valueError)
    (ha : ∀ q last, ts.getLast? = some last → last < q → c.call q.like = .error .valueError)
    (hi : ∀ q last, ts.getLast? = some last → start ≤ q → q ≤ last → c.call q.like = (do
      let x ← dtAccrual start q dcc
      interpLinearReal ((knotsOf ts vs).map fun k => (a k.knot, k.value)) x)) :
    PathCurveSpec c ts vs dcc start a := by
  obtain ⟨last, hlast, hmax⟩ := getLast_of h
  have hp : ((knotsOf ts vs).map fun k => (a k.knot, k.value)).Pairwise (fun x y : ℚ × ℝ => x.1 < y.1) := by
    rw [List.pairwise_map]
    refine List.Pairwise.imp_of_mem ?_ (knotsOf_sorted (vs := vs) h.increasing)
    intro x y hx hy hxy
    have mem : ∀ z ∈ knotsOf ts vs, z.knot ∈ ts := by
      intro z hz
      unfold knotsOf at hz
      obtain ⟨kv, hkv, rfl⟩ := List.mem_map.1 hz
      exact (List.of_mem_zip hkv).1
    exact h.strict _ (mem x hx) _ (mem y hy) hxy
  have hlen : ((knotsOf ts vs).map fun k => (a k.knot, k.value)).length = ts.length := by
    rw [List.length_map, knotsOf_length hl]
  have hget : ∀ k (h1 : k < ts.length) (h2 : k < vs.length) (h3 : k < ((knotsOf ts vs).map fun k => (a k.knot, k.value)).length),
      ((knotsOf ts vs).map fun k => (a k.knot, k.value))[k] = (a ts[k], vs[k]) := by
    intro k h1 h2 h3
    rw [List.getElem_map, knotsOf_get k h1 h2]
  refine ⟨hl, ?_, ?_, hb, ha, hd⟩
  · intro k hk hk'
    have hm : ts[k] ∈ ts := List.getElem_mem _
    rw [hi _ last hlast (h.start_le hm) (hmax _ hm), h.accrual _ hm, ok_bind]
    have := interpReal_knot _ hp k (by rw [hlen]; exact hk)
    rw [hget k hk hk' (by rw [hlen]; exact hk)] at this
    exact this
  · intro k hk hk' q x hx h1 h2 h3 h4
    have hm : ts[k] ∈ ts := List.getElem_mem _
    have hm' : ts[k + 1] ∈ ts := List.getElem_mem _
    rw [hi _ last hlast (le_trans (h.start_le hm) h1) (le_trans h2 (hmax _ hm')), hx, ok_bind]
    have := interpReal_between _ hp k (by rw [hlen]; exact hk) x
    rw [hget k (by omega) (by omega) (by rw [hlen]; omega), hget (k + 1) hk hk' (by rw [hlen]; exact hk)] at this
    rw [this h3 h4]
    have hpos : (0 : ℝ) < ((a ts[k + 1] - a ts[k] : ℚ) : ℝ) := by
      have : 0 < a ts[k + 1] - a ts[k] := by linarith
      exact_mod_cast this
    refine ⟨_, rfl, ?_, ?_, ?_⟩
    · apply div_nonneg _ hpos.le
      have : 0 ≤ x - a ts[k] := by linarith
      exact_mod_cast this
    · rw [div_lt_one hpos]
      have : x - a ts[k] < a ts[k + 1] - a ts[k] := by linarith
      exact_mod_cast this
    · congr 1
      field_simp
      ring

/-- The curve along `ts` with the values `vs` meets the specification. -/
theorem pathSpec_create {start : PyDatetime} {dcc : DayCountConvention} {ts : List PyDatetime} {a : PyDatetime → ℚ}
    (h : SimTimes start dcc ts a) {vs : List ℝ} (hl : vs.length = ts.length) :
    ∃ c, DtCurve.create (knotsOf ts vs) dcc start .error .error = .ok c ∧ PathCurveSpec c ts vs dcc start a ∧ c.reference = start := by
  refine ⟨_, create_path h vs .error .error, ?_, rfl⟩
  obtain ⟨v, hv, _⟩ := knotsOf_head h.first hl
  apply pathSpec_of h hl
  · intro d
    obtain ⟨last, hlast, _⟩ := getLast_of h
    obtain ⟨w, hw, _⟩ := knotsOf_last hlast hl
    unfold DtCurve.call
    simp only [hv, hw]
  · intro q hq
    obtain ⟨last, hlast, _⟩ := getLast_of h
    obtain ⟨w, hw, _⟩ := knotsOf_last hlast hl
    unfold DtCurve.call PyDatetime.like
    simp only [hv, hw]
    rw [if_pos hq]
  · intro q last hlast hq
    obtain ⟨w, hw, _⟩ := knotsOf_last hlast hl
    unfold DtCurve.call PyDatetime.like
    simp only [hv, hw]
    have : start ≤ last := h.start_le (List.mem_of_getLast? hlast)
    rw [if_neg (not_lt.2 (le_of_lt (lt_of_le_of_lt this hq))), if_pos hq]
  · intro q last hlast h1 h2
    exact call_path hl h.first hlast h1 h2

theorem integrateLoop_length {p : Nat} (m : ShortRateModel p) : ∀ (l : List (PyDatetime × PyDatetime)) (run : ℝ) (vs : List ℝ),
    ShortRateModel.integrateLoop m l run = .ok vs → vs.length = l.length
  | [], _, vs, h => by
    unfold ShortRateModel.integrateLoop at h
    injection h with h
    rw [← h]; rfl
  | (s, e) :: rest, run, vs, h => by
    unfold ShortRateModel.integrateLoop at h
    rw [bind_ok] at h; obtain ⟨_, _, h⟩ := h
    rw [bind_ok] at h; obtain ⟨_, _, h⟩ := h
    rw [bind_ok] at h; obtain ⟨_, _, h⟩ := h
    simp only at h
    rw [bind_ok] at h; obtain ⟨ws, hws, h⟩ := h
    injection h with h
    rw [← h, List.length_cons, integrateLoop_length m rest _ ws hws, List.length_cons]

/-- The integrated path has one entry per datetime and starts at zero. -/
theorem integratedValues_shape {p : Nat} {m : ShortRateModel p} {ts : List PyDatetime} (hne : ts ≠ []) {vs : List ℝ}
    (h : m.integratedValues (some ts) = .ok vs) : vs.length = ts.length ∧ vs.head? = some 0 := by
  unfold ShortRateModel.integratedValues at h
  cases hp : m.path with
  | none => rw [hp] at h; cases h
  | some l =>
  rw [hp] at h
  simp only [ok_bind] at h
  rw [bind_ok] at h; obtain ⟨ws, hws, h⟩ := h
  injection h with h
  subst h
  have := integrateLoop_length m _ _ _ hws
  rw [pairs_length] at this
  have := List.length_pos_iff.2 hne
  exact ⟨by simp; omega, rfl⟩

/-- C103. From a simulated model whose path has not been integrated, the discount curve along the simulation's datetimes is the
exponential of minus the integrated path at each of them (1 at the start), linear in time between them, and defined nowhere else. -/
theorem C103_discount_curve {p : Nat} (m : ShortRateModel p) (l : List ℝ) (hp : m.path = some l) (hi : m.integrated = none)
    (ts : List PyDatetime) (a : PyDatetime → ℚ) (ht : SimTimes m.bm.start m.bm.dcc ts a) (vs : List ℝ)
    (hv : m.integratedValues (some ts) = .ok vs) :
    ∃ c m', m.createDiscountCurve (some ts) = (.ok c, m') ∧ m'.integrated = some vs ∧ c.reference = m.bm.start ∧
      PathCurveSpec c ts (vs.map fun v => Real.exp (-v)) m.bm.dcc m.bm.start a ∧ c.call m.bm.start.like = .ok 1 := by
  obtain ⟨l0, hl0⟩ := ht.head
  have hsh := integratedValues_shape (by rw [hl0]; simp) hv
  obtain ⟨c, hc, hs, hr⟩ := pathSpec_create (vs := vs.map fun v => Real.exp (-v)) ht (by rw [List.length_map]; exact hsh.1)
  refine ⟨c, { m with integrated := some vs }, ?_, rfl, hr, hs, ?_⟩
  · unfold ShortRateModel.createDiscountCurve
    rw [C57_fresh m l hp hi ts vs hv]
    simp only
    rw [← hc]
    rfl
  · have hpos : 0 < ts.length := by rw [hl0]; simp
    have := hs.knot 0 hpos (by rw [List.length_map]; omega)
    have e0 : ts[0] = m.bm.start := by simp [hl0]
    rw [e0, List.getElem_map] at this
    rw [this]
    have : vs[0]'(by omega) = 0 := by
      have h2 := hsh.2
      rw [List.head?_eq_getElem?, List.getElem?_eq_getElem (by omega)] at h2
      injection h2
    rw [this]
    simp

/-- Nothing accrues between a datetime and itself, except possibly under 30/360. -/
theorem dtAccrual_self {dcc : DayCountConvention} (hd : dcc ≠ .thirty360) {s : PyDatetime} {x : ℚ} (h : dtAccrual s s dcc = .ok x) :
    x = 0 := by
  have key : ∀ {f : PyDate → PyDate → Except PyErr ℚ} {Y : PyDate → ℚ}, (∀ a b i, f a b = .ok i → i = Y b - Y a) →
      includeDatetimes f s.like s.like = .ok x → x = 0 := by
    intro f Y hf h
    obtain ⟨s', e', i, o, hs, he, hi, ho, hx⟩ := includeDatetimes_datetimes h
    have : s' = e' := PyDate.ord_injective (by omega)
    subst this
    rw [hx, hf _ _ _ hi, hf _ _ _ ho]
    push_cast
    ring
  have over : ∀ (q : ℚ) a b i, actOver q a b = .ok i → i = (fun d : PyDate => (d.ord : ℚ) / q) b - (fun d : PyDate => (d.ord : ℚ) / q) a := by
    intro q a b i hi
    unfold actOver at hi
    injection hi with hi
    rw [← hi]; push_cast; ring
  unfold dtAccrual computeAccrualLength at h
  split at h
  · cases dcc with
    | act360 => exact key (over _) h
    | act365 => exact key (over _) h
    | act36525 => exact key (over _) h
    | actAct => exact key (Y := yearCoord) (fun a b i => actAct_diff) h
    | thirty360 => exact absurd rfl hd
    | unknown => cases h
  · cases h

/-- The accrual curve along `ts`: the extra first knot at the start changes nothing. -/
theorem pathSpec_accrual {start : PyDatetime} {dcc : DayCountConvention} {ts : List PyDatetime} {a : PyDatetime → ℚ}
    (h : SimTimes start dcc ts a) (hdcc : dcc ≠ .thirty360) {vs : List ℝ} (hl : vs.length = ts.length) (z : ℝ) :
    ∃ c, DtCurve.create (⟨start, z⟩ :: knotsOf ts vs) dcc start .error .error = .ok c ∧ PathCurveSpec c ts vs dcc start a := by
  obtain ⟨l0, hl0⟩ := h.head
  have hstart : start ∈ ts := by rw [hl0]; simp
  have mem : ∀ k ∈ knotsOf ts vs, k.knot ∈ ts := by
    intro k hk
    unfold knotsOf at hk
    obtain ⟨kv, hkv, rfl⟩ := List.mem_map.1 hk
    exact (List.of_mem_zip hkv).1
  have hsort : KeySorted DtKnot.knot (⟨start, z⟩ :: knotsOf ts vs) := by
    refine List.pairwise_cons.2 ⟨fun k hk => h.start_le (mem k hk), ?_⟩
    exact (knotsOf_sorted h.increasing).imp (fun {a b} hab => le_of_lt hab)
  have hc : DtCurve.create (⟨start, z⟩ :: knotsOf ts vs) dcc start .error .error =
      .ok ⟨⟨start, z⟩ :: knotsOf ts vs, dcc, start, .error, .error, (a start, z) :: (knotsOf ts vs).map fun k => (a k.knot, k.value)⟩ := by
    unfold DtCurve.create
    simp only [pySorted_of_sorted DtKnot.knot hsort]
    rw [makeGrid_eq (a := a), ok_bind]
    · rfl
    · intro k hk
      rcases List.mem_cons.1 hk with rfl | hk
      · exact h.accrual _ hstart
      · exact h.accrual _ (mem k hk)
  obtain ⟨v, hv, _⟩ := knotsOf_head h.first hl
  have hlst : ∀ last, ts.getLast? = some last → ∃ w, (⟨start, z⟩ :: knotsOf ts vs).getLast? = some ⟨last, w⟩ := by
    intro last hlast
    obtain ⟨w, hw, _⟩ := knotsOf_last hlast hl
    refine ⟨w, ?_⟩
    cases hk : knotsOf ts vs with
    | nil => rw [hk] at hw; simp at hw
    | cons x xs => rw [List.getLast?_cons_cons, ← hk, hw]
  refine ⟨_, hc, ?_⟩
  apply pathSpec_of h hl
  · intro d
    obtain ⟨last, hlast, _⟩ := getLast_of h
    obtain ⟨w, hw⟩ := hlst last hlast
    unfold DtCurve.call
    simp only [List.head?_cons, hw]
  · intro q hq
    obtain ⟨last, hlast, _⟩ := getLast_of h
    obtain ⟨w, hw⟩ := hlst last hlast
    unfold DtCurve.call PyDatetime.like
    simp only [List.head?_cons, hw]
    rw [if_pos hq]
  · intro q last hlast hq
    obtain ⟨w, hw⟩ := hlst last hlast
    unfold DtCurve.call PyDatetime.like
    simp only [List.head?_cons, hw]
    have : start ≤ last := h.start_le (List.mem_of_getLast? hlast)
    rw [if_neg (not_lt.2 (le_of_lt (lt_of_le_of_lt this hq))), if_pos hq]
  · intro q last hlast h1 h2
    obtain ⟨w, hw⟩ := hlst last hlast
    unfold DtCurve.call PyDatetime.like
    simp only [List.head?_cons, hw]
    rw [if_neg (not_lt.2 h1), if_neg (not_lt.2 h2)]
    cases hx : dtAccrual start ⟨q.day, q.micros, q.bounds⟩ dcc with
    | error e => rfl
    | ok x =>
      rw [ok_bind, ok_bind]
      have hge : a start ≤ x := by
        have e0 := h.accrual _ hstart
        rcases lt_or_eq_of_le h1 with hlt | heq
        · have := dtAccrual_pos hdcc hlt hx
          rw [dtAccrual_self hdcc e0]
          exact this.le
        · subst heq
          rw [show dtAccrual start start dcc = .ok x from hx] at e0
          injection e0 with e0
          exact e0.ge
      cases hk : knotsOf ts vs with
      | nil => rw [hk] at hv; simp at hv
      | cons k ks =>
        rw [hk] at hv
        simp only [List.head?_cons, Option.some.injEq] at hv
        subst hv
        exact interpReal_duplicate _ _ _ _ _ hge

/-- C103. The order in which the knots are supplied does not matter. -/
theorem C103_order_independent (values values' : List DtKnot) (hp : values.Perm values') (hd : (values.map DtKnot.knot).Nodup)
    (dcc : DayCountConvention) (ref : PyDatetime) (l r : EndBehavior) :
    DtCurve.create values dcc ref l r = DtCurve.create values' dcc ref l r := by
  unfold DtCurve.create
  rw [pySorted_perm_eq DtKnot.knot hp hd]

/-- C103. Once the path has been integrated along the same datetimes, the accrual curve is the exponential of the integrated path at
each of them, linear in time between them, and defined nowhere else. -/
theorem C103_accrual_curve {p : Nat} (m : ShortRateModel p) (l : List ℝ) (hp : m.path = some l) (hd : m.bm.dcc ≠ .thirty360)
    (ts : List PyDatetime) (a : PyDatetime → ℚ) (ht : SimTimes m.bm.start m.bm.dcc ts a) (vs : List ℝ) (hl : vs.length = ts.length)
    (hi : m.integrated = some vs) :
    ∃ c, m.accrualCurve (some ts) = .ok c ∧ PathCurveSpec c ts (vs.map Real.exp) m.bm.dcc m.bm.start a := by
  obtain ⟨c, hc, hs⟩ := pathSpec_accrual ht hd (vs := vs.map Real.exp) (by rw [List.length_map]; exact hl) 1
  refine ⟨c, ?_, hs⟩
  unfold ShortRateModel.accrualCurve ShortRateModel.accrualKnots
  rw [hp]
  simp only [ok_bind]
  rw [hi]
  simp only [ok_bind]
  rw [← hc]
  rfl

/-- C103. At the simulation's datetimes the accrual and discount curves are inverse to each other; between them their product is
at least one. -/
theorem C103_inverse {ts : List PyDatetime} {vs : List ℝ} {dcc : DayCountConvention} {start : PyDatetime} {a : PyDatetime → ℚ}
    {disc acc : DtCurve} (hdc : PathCurveSpec disc ts (vs.map fun v => Real.exp (-v)) dcc start a)
    (hac : PathCurveSpec acc ts (vs.map Real.exp) dcc start a) :
    (∀ t ∈ ts, ∃ x y, disc.call t.like = .ok x ∧ acc.call t.like = .ok y ∧ 0 < x ∧ x * y = 1) ∧
    (∀ k (h : k + 1 < ts.length) (q : PyDatetime) (x : ℚ), dtAccrual start q dcc = .ok x → ts[k] ≤ q → q ≤ ts[k + 1] →
      a ts[k] ≤ x → x < a ts[k + 1] → ∃ u v, disc.call q.like = .ok u ∧ acc.call q.like = .ok v ∧ 0 < u ∧ 1 ≤ u * v) := by
  have hl := hdc.length
  rw [List.length_map] at hl
  constructor
  · intro t ht
    obtain ⟨k, hk, rfl⟩ := List.mem_iff_getElem.1 ht
    have h1 := hdc.knot k hk (by rw [List.length_map]; omega)
    have h2 := hac.knot k hk (by rw [List.length_map]; omega)
    rw [List.getElem_map] at h1 h2
    refine ⟨_, _, h1, h2, Real.exp_pos _, ?_⟩
    rw [← Real.exp_add]; simp
  · intro k hk q x hx h1 h2 h3 h4
    obtain ⟨w, hw, w0, w1, e1⟩ := hdc.between k hk (by rw [List.length_map]; omega) q x hx h1 h2 h3 h4
    obtain ⟨w', hw', _, _, e2⟩ := hac.between k hk (by rw [List.length_map]; omega) q x hx h1 h2 h3 h4
    rw [← hw] at hw'
    subst hw'
    rw [List.getElem_map, List.getElem_map] at e1 e2
    refine ⟨_, _, e1, e2, ?_, ?_⟩
    · have := Real.exp_pos (-vs[k])
      have := Real.exp_pos (-vs[k + 1])
      have : 0 < (1 - w') * Real.exp (-vs[k]) := mul_pos (by linarith) (by assumption)
      have : 0 ≤ w' * Real.exp (-vs[k + 1]) := mul_nonneg w0 (Real.exp_pos _).le
      linarith
    · rw [Real.exp_neg, Real.exp_neg]
      have p1 := Real.exp_pos vs[k]
      have p2 := Real.exp_pos vs[k + 1]
      generalize Real.exp vs[k] = A at *
      generalize Real.exp vs[k + 1] = B at *
      have key : ((1 - w') * A⁻¹ + w' * B⁻¹) * ((1 - w') * A + w' * B) = 1 + w' * (1 - w') * ((A - B) ^ 2 / (A * B)) := by
        field_simp
        ring
      rw [key]
      have : 0 ≤ w' * (1 - w') * ((A - B) ^ 2 / (A * B)) :=
        mul_nonneg (mul_nonneg w0 (by linarith)) (div_nonneg (sq_nonneg _) (mul_pos p1 p2).le)
      linarith

/-- C103. Discounting a cashflow on the curve: payments before its start are dropped and payments at the simulation's datetimes are
multiplied by the curve's values there. -/
theorem C103_present_value {ts : List PyDatetime} {vs : List ℝ} {dcc : DayCountConvention} {start : PyDatetime} {a : PyDatetime → ℚ}
    (ht : SimTimes start dcc ts a) {c : DtCurve} (hc : PathCurveSpec c ts vs dcc start a) (hr : c.reference = start)
    (early : List (PyDatetime × ℝ)) (he : ∀ e ∈ early, e.1 < start) (pays : List (Fin ts.length × ℝ)) :
    c.presentValue (early.map (fun pa => ⟨pa.1.like, some pa.2⟩) ++ pays.map (fun ka => ⟨ts[ka.1].like, some ka.2⟩)) =
      .ok ((pays.map fun ka => (vs[ka.1]'(by rw [hc.length]; exact ka.1.2)) * ka.2).sum) := by
  induction early with
  | cons e early ih =>
    have := ih (fun x hx => he x (by simp [hx]))
    rw [List.map_cons, List.cons_append]
    unfold DtCurve.presentValue
    simp only [PyDatetime.like]
    rw [hr, if_neg (not_le.2 (he e (by simp)))]
    exact this
  | nil =>
    rw [List.map_nil, List.nil_append]
    induction pays with
    | nil => rfl
    | cons ka pays ih =>
      obtain ⟨k, x⟩ := ka
      rw [List.map_cons, List.map_cons, List.sum_cons]
      unfold DtCurve.presentValue
      have h1 : start ≤ ts[k] := ht.start_le (List.getElem_mem _)
      have hk : c.call ts[k].like = .ok (vs[k]'(by rw [hc.length]; exact k.2)) := hc.knot k k.2 (by rw [hc.length]; exact k.2)
      simp only [PyDatetime.like] at hk ⊢
      rw [hr, if_pos h1, hk, ok_bind]
      simp only [PyDatetime.like] at ih
      rw [ih, ok_bind]

/-- C103. A first payment after the last of the simulation's datetimes raises ValueError. -/
theorem C103_late_payment {ts : List PyDatetime} {vs : List ℝ} {dcc : DayCountConvention} {start : PyDatetime} {a : PyDatetime → ℚ}
    (ht : SimTimes start dcc ts a) {c : DtCurve} (hc : PathCurveSpec c ts vs dcc start a) (hr : c.reference = start) (last q : PyDatetime)
    (hlast : ts.getLast? = some last) (hq : last < q) (x : ℝ) (rest : List DtCurve.RealPayment) :
    c.presentValue (⟨q.like, some x⟩ :: rest) = .error .valueError := by
  have h1 := hc.after q last hlast hq
  have h2 : start ≤ q := le_trans (ht.start_le (List.mem_of_getLast? hlast)) hq.le
  unfold DtCurve.presentValue
  simp only [PyDatetime.like] at h1 ⊢
  rw [hr, if_pos h2, h1]
  rfl

/-- C103. A cashflow with an actual payment on a plain date cannot be priced on the curve: TypeError, whatever the payments before
it were worth. -/
theorem C103_date_cashflow (c : DtCurve) (before after : List DtCurve.RealPayment) (d : PyDate) (x v : ℝ)
    (hb : c.presentValue before = .ok v) : c.presentValue (before ++ ⟨.date d, some x⟩ :: after) = .error .typeError := by
  induction before generalizing v with
  | nil => rfl
  | cons p ps ih =>
    rw [List.cons_append]
    unfold DtCurve.presentValue at hb ⊢
    cases ha : p.amount with
    | none =>
      rw [ha] at hb
      simp only at hb ⊢
      exact ih v hb
    | some y =>
      rw [ha] at hb
      simp only at hb ⊢
      cases hq : p.date with
      | date e => rfl
      | datetime e micros h =>
        rw [hq] at hb
        simp only at hb ⊢
        by_cases hle : c.reference ≤ (⟨e, micros, h⟩ : PyDatetime)
        · rw [if_pos hle] at hb ⊢
          rw [bind_ok] at hb; obtain ⟨df, hdf, hb⟩ := hb
          rw [bind_ok] at hb; obtain ⟨rest, hrest, hb⟩ := hb
          rw [hdf, ok_bind, ih rest hrest, error_bind]
        · rw [if_neg hle] at hb ⊢
          exact ih v hb

/-- C103. Under the actual/fixed conventions the curve between two neighbouring datetimes is the straight line in elapsed time. -/
theorem C103_linear {ts : List PyDatetime} {vs : List ℝ} {dcc : DayCountConvention} {den : ℚ} (hden : FixedDenominator dcc = some den)
    {start : PyDatetime} {c : DtCurve}
    (hc : PathCurveSpec c ts vs dcc start (fun t => ((t.instant - start.instant : Int) : ℚ) / (den * 86400000000)))
    (h0 : ts.head? = some start) (hinc : ts.Pairwise (· < ·)) (k : Nat) (hk : k + 1 < ts.length) (hk' : k + 1 < vs.length)
    (hmax : ts[k + 1].day.ord < PyDate.maxOrd) (q : PyDatetime) (h1 : ts[k] ≤ q) (h2 : q < ts[k + 1]) :
    c.call q.like = .ok (linear ts[k].instant ts[k + 1].instant q.instant vs[k] vs[k + 1]) := by
  have hpos := den_pos hden
  have hs : start ≤ ts[k] := by
    have : ts[0]'(by omega) = start := by
      rw [List.head?_eq_getElem?, List.getElem?_eq_getElem (by omega)] at h0
      injection h0
    rw [← this]
    exact grid_le hinc (by omega) (by omega)
  have i1 : ts[k].instant ≤ q.instant := h1
  have i2 : q.instant < ts[k + 1].instant := h2
  have hm : q.day.ord < PyDate.maxOrd := by
    unfold PyDatetime.instant at i2
    have := q.bounds
    have := ts[k + 1].bounds
    omega
  have hx := dtAccrual_elapsed hden (le_trans hs h1) hm
  have hp : (0 : ℚ) < den * 86400000000 := by positivity
  obtain ⟨w, hw, _, _, e⟩ := hc.between k hk hk' q _ hx h1 h2.le
    (div_le_div_of_nonneg_right (by exact_mod_cast (by omega : ts[k].instant - start.instant ≤ q.instant - start.instant)) hp.le)
    (div_lt_div_of_pos_right (by exact_mod_cast (by omega : q.instant - start.instant < ts[k + 1].instant - start.instant)) hp)
  rw [e]
  congr 1
  have hw' : w = ((q.instant - ts[k].instant : Int) : ℝ) / ((ts[k + 1].instant - ts[k].instant : Int) : ℝ) := by
    rw [hw]
    have hpr : (0 : ℝ) < (den : ℝ) * 86400000000 := by exact_mod_cast hp
    have hne : ((ts[k + 1].instant : ℝ) - (ts[k].instant : ℝ)) ≠ 0 := by
      have : ts[k + 1].instant - ts[k].instant ≠ 0 := by omega
      exact_mod_cast this
    push_cast
    rw [div_sub_div_same, div_sub_div_same, div_div_div_cancel_right₀ hpr.ne']
    congr 1 <;> ring
  rw [hw']
  unfold linear
  ring

/-- C103. Without a list of datetimes the curve uses those of the simulation's step: increasing, from the start on, the last one not
after the end of the simulation and less than a step before it, unless the limit of 1000001 times is reached. -/
theorem C103_default_times {p : Nat} (m : ShortRateModel p) (hf : Forward m.dt) (hse : m.bm.start ≤ m.bm.stop) (ts : List PyDatetime)
    (h : m.defaultDatetimes = .ok ts) :
    ts.head? = some m.bm.start ∧ ts.Pairwise (· < ·) ∧ (∀ t ∈ ts, t ≤ m.bm.stop) ∧ ts.length ≤ 1000001 ∧
      (ts.length ≤ 1000000 → ∀ last, ts.getLast? = some last → ∃ y, DtGrid.addIncrement last m.dt = .ok y ∧ m.bm.stop < y) ∧
      (m.createDiscountCurve none).1 = (m.createDiscountCurve (some ts)).1 ∧ m.accrualCurve none = m.accrualCurve (some ts) := by
  have hgen := h
  unfold ShortRateModel.defaultDatetimes DtGrid.generate at h
  rw [bind_ok] at h
  obtain ⟨b, hb, h⟩ := h
  have := DtGrid.isPositive_of_forward hf hb
  subst this
  obtain ⟨h1, h2, h3, h4, h5⟩ := DtGrid.loop_spec h
  refine ⟨?_, ?_, h2, h1, fun hl last hlast => h5 last hlast (by omega), ?_, ?_⟩
  · rw [h4, if_pos ⟨by omega, hse⟩]
  · have : List.IsChain (· < ·) ts := h3.imp (fun x y hxy => DtGrid.advances_of_forward hf x y hxy)
    exact List.isChain_iff_pairwise.1 this
  · unfold ShortRateModel.createDiscountCurve ShortRateModel.discountKnots
    rw [hgen]
  · unfold ShortRateModel.accrualCurve ShortRateModel.accrualKnots
    rw [hgen]

/-- Concrete case for C103: the times of a two-day simulation, and the values of its discount curve. -/
example : SimTimes (T 2023 1 1) .act365 [T 2023 1 1, T 2023 1 2, T 2023 1 3]
    (fun t => ((t.instant - (T 2023 1 1).instant : Int) : ℚ) / (365 * 86400000000)) :=
  C103_fixed_times rfl rfl (by decide +kernel) (by decide +kernel)

example : ∃ c m', unitModel.createDiscountCurve (some [T 2023 1 1, T 2023 1 2, T 2023 1 3]) = (.ok c, m') ∧
    c.call (T 2023 1 3).like = .ok (Real.exp (-(3 / 365))) ∧
    c.call (T 2023 1 1 (micros := 43200000000)).like = .ok ((1 + Real.exp (-(1 / 365))) / 2) ∧
    c.call (.date (D 2023 1 2)) = .error .typeError := by
  have hv : unitModel.integratedValues (some [T 2023 1 1, T 2023 1 2, T 2023 1 3]) = .ok [0, 1 / 365, 3 / 365] := by
    have h := unitModel_integrated
    unfold ShortRateModel.generateIntegratedPath at h
    split at h
    · next l hl => rw [hl]; exact h
    · cases h
  have ht : SimTimes unitModel.bm.start unitModel.bm.dcc [T 2023 1 1, T 2023 1 2, T 2023 1 3]
      (fun t => ((t.instant - (T 2023 1 1).instant : Int) : ℚ) / (365 * 86400000000)) :=
    C103_fixed_times (den := 365) rfl rfl (by decide +kernel) (by decide +kernel)
  obtain ⟨c, m', h1, -, -, h4, -⟩ := C103_discount_curve unitModel [1, 1, 1] rfl rfl _ _ ht _ hv
  refine ⟨c, m', h1, ?_, ?_, h4.date _⟩
  · exact h4.knot 2 (by simp) (by simp)
  · rw [C103_linear (dcc := .act365) (den := 365) rfl h4 rfl (by decide +kernel) 0 (by simp) (by simp) (by decide +kernel)
      (T 2023 1 1 (micros := 43200000000)) (by decide +kernel) (by decide +kernel)]
    congr 1
    unfold linear
    have e1 : (T 2023 1 1 (micros := 43200000000)).instant - (T 2023 1 1).instant = 43200000000 := by decide +kernel
    have e2 : (T 2023 1 2).instant - (T 2023 1 1).instant = 86400000000 := by decide +kernel
    simp only [List.getElem_cons_zero, List.getElem_cons_succ, zero_add, List.map_cons]
    rw [e1, e2]
    simp
    norm_num
    ring

end Verif.Props
