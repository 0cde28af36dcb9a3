/- Properties C73 and C74: the yield-curve factory. -/
import Verif.Model.CurveFactory
import Verif.Props.YieldCurve
import Verif.Props.Bond

namespace Verif.Props
open Verif Verif.Spec Verif.DayCount Verif.CurveFactory

/-! ## Specification -/

/-- The present value of an asset on a new yield curve with the given knots, in the settings of the factory. -/
def newCurveValue (exp : ℚ → ℚ) (method : InterpolationMethod) (ref : PyDate) (knots : List Knot) (asset : PresentValueable) :
    Except PyErr ℚ := do
  let yc ← YieldCurve.create knots [] method .actAct .continuouslyCompoundedYield ref .constant .constant
  (yc.presentValue exp asset noAdjustment).1

/-- The value of the asset only depends on the reference date and on the discount factors up to a date. -/
def FixedUpTo (last : PyDate) (asset : PresentValueable) : Prop :=
  ∀ f g : DiscountFn, f.referenceDate = g.referenceDate → (∀ d, d ≤ last → f.call d = g.call d) → asset f = asset g

/-- The last point of the search number `i` (the first one is the start, zero). -/
def lastPoint (points : Nat → List ℚ) (i : Nat) : ℚ := (0 :: points i).getLast (by simp)

/-! ## States -/

/-- A yield curve in the factory: its knots are `ks`, in date order. -/
structure InFactory (exp : ℚ → ℚ) (method : InterpolationMethod) (ref : PyDate) (ks : List Knot) (yc : YieldCurve) : Prop where
  sorted : KnotSorted ks
  input : CurveInput ks .actAct ref
  space : yc.space = .continuouslyCompoundedYield
  settings : Settings exp yc
  base : Curve.create ks method .actAct (some ref) .constant .constant = .ok yc.base

theorem yieldCurve_create {ks : List Knot} {m : InterpolationMethod} {dcc : DayCountConvention} {sp : InterpolationSpace} {ref : PyDate}
    {l r : EndBehavior} {c : Curve} (h : Curve.create ks m dcc (some ref) l r = .ok c) :
    YieldCurve.create ks [] m dcc sp ref l r = .ok ⟨c, sp, none⟩ := by
  unfold YieldCurve.create
  split
  · rename_i h'; cases h'
  · rw [h, ok_bind]

theorem InFactory.value {exp : ℚ → ℚ} {m : InterpolationMethod} {ref : PyDate} {ks : List Knot} {yc : YieldCurve}
    (h : InFactory exp m ref ks yc) (asset : PresentValueable) :
    (yc.presentValue exp asset noAdjustment).1 = newCurveValue exp m ref ks asset ∧
    InFactory exp m ref ks (yc.presentValue exp asset noAdjustment).2 := by
  have h1 := presentValue_eq h.settings asset noAdjustment
  have h2 := toDiscountCurve_eq h.settings noAdjustment
  refine ⟨?_, ?_⟩
  · rw [h1.1, newCurveValue, yieldCurve_create h.base, ok_bind, h.space]
  · rw [h1.2]
    exact ⟨h.sorted, h.input, h2.2.2.2.2.trans h.space, h2.2.2.1, by rw [h2.2.2.2.1]; exact h.base⟩

theorem InFactory.used {exp : ℚ → ℚ} {m : InterpolationMethod} {ref : PyDate} {ks : List Knot} {yc yc' : YieldCurve}
    (h : InFactory exp m ref ks yc) (hu : Used exp yc yc') : InFactory exp m ref ks yc' := by
  obtain ⟨h1, h2, h3⟩ := used_inv h.settings hu
  exact ⟨h.sorted, h.input, h3.trans h.space, h1, by rw [h2]; exact h.base⟩

theorem map_date_set {ks : List Knot} {i : Nat} {k : Knot} (hk : ks[i]? = some k) (x : ℚ) :
    (ks.set i ⟨k.date, x⟩).map Knot.date = ks.map Knot.date := by
  apply List.ext_getElem?
  intro j
  simp only [List.getElem?_map, List.getElem?_set]
  split
  · rename_i hij
    subst hij
    obtain ⟨hlt, rfl⟩ := List.getElem?_eq_some_iff.1 hk
    simp [hlt]
  · rfl

theorem knotSorted_iff_map {ks : List Knot} : KnotSorted ks ↔ (ks.map Knot.date).Pairwise (· < ·) := by
  rw [List.pairwise_map]; rfl

theorem CurveInput.of_dates {ks ks' : List Knot} {dcc : DayCountConvention} {ref : PyDate} (h : CurveInput ks dcc ref)
    (he : ks'.map Knot.date = ks.map Knot.date) : CurveInput ks' dcc ref := by
  refine ⟨h.convention, h.refOk, ?_, by rw [he]; exact h.distinct, ?_⟩
  · intro h0
    rw [h0] at he
    exact h.nonempty (List.map_eq_nil_iff.1 he.symm)
  · intro k hk
    have : k.date ∈ ks.map Knot.date := by rw [← he]; exact List.mem_map_of_mem hk
    obtain ⟨k', hk', hd⟩ := List.mem_map.1 this
    rw [← hd]; exact h.notBefore k' hk'

theorem pySorted_knots {ks : List Knot} (h : KnotSorted ks) : pySorted Knot.date ks = ks :=
  pySorted_of_sorted Knot.date (h.imp fun hab => le_of_lt hab)

/-- Resetting one knot value gives the curve with that knot value. -/
theorem InFactory.reset {exp : ℚ → ℚ} {m : InterpolationMethod} {ref : PyDate} {ks : List Knot} {yc : YieldCurve}
    (h : InFactory exp m ref ks yc) {i : Nat} {k : Knot} (hk : ks[i]? = some k) (x : ℚ) :
    ∃ base, yc.base.resetValue ⟨k.date, x⟩ i = (.ok (), base) ∧ yc.base.knots[i]? = some k ∧
      InFactory exp m ref (ks.set i ⟨k.date, x⟩) ⟨base, yc.space, yc.discountCurve⟩ := by
  obtain ⟨τ, hτ⟩ := h.input.axis
  have hb := h.base
  rw [create_curve hτ h.input.refOk h.input.notBefore, pySorted_knots h.sorted] at hb
  have hin : CurveInput (ks.set i ⟨k.date, x⟩) .actAct ref := h.input.of_dates (map_date_set hk x)
  have hso : KnotSorted (ks.set i ⟨k.date, x⟩) := by
    rw [knotSorted_iff_map, map_date_set hk, ← knotSorted_iff_map]; exact h.sorted
  have hlt : i < ks.length := (List.getElem?_eq_some_iff.1 hk).1
  have hset := h.settings
  have hsp := h.space
  obtain ⟨base, space, dc⟩ := yc
  injection hb with hb
  simp only at hb hset hsp ⊢
  subst hb
  refine ⟨⟨ks.set i ⟨k.date, x⟩, m, .actAct, ref, .constant, .constant,
    (ks.set i ⟨k.date, x⟩).map (fun k => (τ k.date - τ ref, k.value))⟩, ?_, hk, hso, hin, hsp, hset, ?_⟩
  · unfold Curve.resetValue
    simp only [hlt, if_true, makeGrid_axis hτ h.input.refOk hin.notBefore]
  · rw [create_curve hτ hin.refOk hin.notBefore, pySorted_knots hso]

/-- Resetting all knot values. -/
theorem InFactory.resetAll {exp : ℚ → ℚ} {m : InterpolationMethod} {ref : PyDate} {ks : List Knot} {yc : YieldCurve}
    (h : InFactory exp m ref ks yc) {values : List Knot} (hv : CurveInput values .actAct ref) :
    ∃ base, yc.base.resetValues values = (.ok (), base) ∧
      InFactory exp m ref (pySorted Knot.date values) ⟨base, yc.space, yc.discountCurve⟩ := by
  obtain ⟨τ, hτ⟩ := h.input.axis
  have hb := h.base
  rw [create_curve hτ h.input.refOk h.input.notBefore, pySorted_knots h.sorted] at hb
  have hp := pySorted_perm Knot.date values
  have hso := knotSorted_pySorted hv.distinct
  have hin : CurveInput (pySorted Knot.date values) .actAct ref :=
    ⟨hv.convention, hv.refOk, fun h0 => hv.nonempty (by rw [h0] at hp; exact List.Perm.eq_nil hp.symm),
      (hp.map Knot.date).nodup_iff.2 hv.distinct, fun k hk => hv.notBefore k (hp.mem_iff.1 hk)⟩
  have hset := h.settings
  have hsp := h.space
  obtain ⟨base, space, dc⟩ := yc
  injection hb with hb
  simp only at hb hset hsp ⊢
  subst hb
  refine ⟨⟨pySorted Knot.date values, m, .actAct, ref, .constant, .constant,
    (pySorted Knot.date values).map (fun k => (τ k.date - τ ref, k.value))⟩, ?_, hso, hin, hsp, hset, ?_⟩
  · unfold Curve.resetValues
    simp only [makeGrid_axis hτ h.input.refOk hin.notBefore]
  · rw [create_curve hτ hin.refOk hin.notBefore, pySorted_knots hso]

theorem inFactory_initial {exp : ℚ → ℚ} {m : InterpolationMethod} {ref : PyDate} {instruments : List FactoryInstrument} {knots : List Knot}
    (hk : collect FactoryInstrument.knotValue instruments = .ok knots) (h : CurveInput knots .actAct ref) :
    ∃ yc, initialCurve instruments m ref = .ok yc ∧ InFactory exp m ref (pySorted Knot.date knots) yc := by
  obtain ⟨c, hc, _⟩ := (C27_builds knots m .actAct .constant .constant).1 ref h
  have hy := yieldCurve_create (sp := .continuouslyCompoundedYield) hc
  have hp := pySorted_perm Knot.date knots
  have hso := knotSorted_pySorted h.distinct
  have hin : CurveInput (pySorted Knot.date knots) .actAct ref :=
    ⟨h.convention, h.refOk, fun h0 => h.nonempty (by rw [h0] at hp; exact List.Perm.eq_nil hp.symm),
      (hp.map Knot.date).nodup_iff.2 h.distinct, fun k hk => h.notBefore k (hp.mem_iff.1 hk)⟩
  refine ⟨⟨c, .continuouslyCompoundedYield, none⟩, ?_, hso, hin, rfl, fun c hc => (by cases hc), ?_⟩
  · unfold initialCurve
    rw [hk, ok_bind, hy]
  · rw [← hc]
    exact C27_order_independent _ _ hp hin.distinct _ _ _ _ _

/-! ## The searches -/

theorem bootstrapDiff_spec {exp : ℚ → ℚ} {m : InterpolationMethod} {ref : PyDate} {ks : List Knot} {yc : YieldCurve}
    (h : InFactory exp m ref ks yc) {i : Nat} {k : Knot} (hk : ks[i]? = some k) (a : FactoryInstrument) (x : ℚ) :
    (bootstrapDiff exp i a yc x).1 = (do
      let v ← newCurveValue exp m ref (ks.set i ⟨k.date, x⟩) a.value
      .ok (v - a.price)) ∧
    InFactory exp m ref (ks.set i ⟨k.date, x⟩) (bootstrapDiff exp i a yc x).2 := by
  obtain ⟨base, hr, hkn, hst⟩ := h.reset hk x
  obtain ⟨h1, h2⟩ := hst.value a.value
  unfold bootstrapDiff
  simp only [hkn, hr]
  rcases hpv : YieldCurve.presentValue exp ⟨base, yc.space, yc.discountCurve⟩ a.value noAdjustment with ⟨r, yc'⟩
  rw [hpv] at h1 h2
  simp only at h1 h2
  rw [← h1]
  cases r with
  | error e => exact ⟨rfl, h2⟩
  | ok v => exact ⟨rfl, h2⟩

theorem evaluate_spec {exp : ℚ → ℚ} {m : InterpolationMethod} {ref : PyDate} {i : Nat} {k : Knot} (a : FactoryInstrument) :
    ∀ (xs : List ℚ) {ks : List Knot} {yc yc' : YieldCurve} {vs : List ℚ} (_ : InFactory exp m ref ks yc) (_ : ks[i]? = some k)
      (_ : evaluate (bootstrapDiff exp i a) xs yc = (.ok vs, yc')),
      List.Forall₂ (fun x v => newCurveValue exp m ref (ks.set i ⟨k.date, x⟩) a.value = .ok (a.price + v)) xs vs ∧
      (∀ hne : xs ≠ [], InFactory exp m ref (ks.set i ⟨k.date, xs.getLast hne⟩) yc')
  | [], ks, yc, yc', vs, h, hk, he => by
    simp only [evaluate, Prod.mk.injEq, Except.ok.injEq] at he
    obtain ⟨rfl, rfl⟩ := he
    exact ⟨.nil, fun hne => absurd rfl hne⟩
  | x :: xs, ks, yc, yc', vs, h, hk, he => by
    obtain ⟨h1, h2⟩ := bootstrapDiff_spec h hk a x
    simp only [evaluate] at he
    rcases hd : bootstrapDiff exp i a yc x with ⟨r, yc1⟩
    rw [hd] at h1 h2 he
    simp only at h1 h2 he
    cases r with
    | error e => simp at he
    | ok v =>
      simp only at he
      have hk' : (ks.set i ⟨k.date, x⟩)[i]? = some ⟨k.date, x⟩ := by
        rw [List.getElem?_set_self (List.getElem?_eq_some_iff.1 hk).1]
      rcases he' : evaluate (bootstrapDiff exp i a) xs yc1 with ⟨r2, yc2⟩
      rw [he'] at he
      cases r2 with
      | error e => simp at he
      | ok ws =>
        simp only [Prod.mk.injEq, Except.ok.injEq] at he
        obtain ⟨rfl, rfl⟩ := he
        obtain ⟨ih1, ih2⟩ := evaluate_spec (k := ⟨k.date, x⟩) a xs h2 hk' he'
        simp only [List.set_set] at ih1 ih2
        refine ⟨.cons ?_ ih1, ?_⟩
        · symm at h1
          rw [bind_ok] at h1
          obtain ⟨w, hw, h1⟩ := h1
          injection h1 with h1
          rw [hw, ← h1]
          congr 1; ring
        · intro _
          cases xs with
          | nil =>
            simp only [evaluate, Prod.mk.injEq] at he'
            rw [← he'.2]; exact h2
          | cons y ys =>
            rw [List.getLast_cons (by simp)]
            exact ih2 (by simp)

/-- The knots while the search number `i` looks at `x`: before it the last points of the earlier searches, after it the initial values. -/
def stageKnots (points : Nat → List ℚ) (ks : List Knot) (i : Nat) (x : ℚ) : List Knot :=
  ks.mapIdx fun j k => ⟨k.date, if j < i then lastPoint points j else if j = i then x else k.value⟩

/-- The knots after all searches. -/
def finalKnots (points : Nat → List ℚ) (ks : List Knot) : List Knot := ks.mapIdx fun j k => ⟨k.date, lastPoint points j⟩

/-- The knots before the search number `i`. -/
def beforeKnots (points : Nat → List ℚ) (ks : List Knot) (i : Nat) : List Knot :=
  ks.mapIdx fun j k => ⟨k.date, if j < i then lastPoint points j else k.value⟩

theorem beforeKnots_set (points : Nat → List ℚ) (ks : List Knot) {i : Nat} {k : Knot} (hk : ks[i]? = some k) (x : ℚ) :
    (beforeKnots points ks i).set i ⟨k.date, x⟩ = stageKnots points ks i x := by
  apply List.ext_getElem?
  intro j
  have hlt : i < ks.length := (List.getElem?_eq_some_iff.1 hk).1
  simp only [beforeKnots, stageKnots, List.getElem?_set, List.getElem?_mapIdx, List.length_mapIdx]
  by_cases hij : i = j
  · subst hij
    obtain ⟨_, rfl⟩ := List.getElem?_eq_some_iff.1 hk
    simp [hlt]
  · have hji : ¬ j = i := fun h => hij h.symm
    simp only [hij, if_false, hji]

theorem stageKnots_last (points : Nat → List ℚ) (ks : List Knot) (i : Nat) :
    stageKnots points ks i (lastPoint points i) = beforeKnots points ks (i + 1) := by
  apply List.ext_getElem?
  intro j
  simp only [beforeKnots, stageKnots, List.getElem?_mapIdx]
  congr 1
  funext k
  rcases lt_trichotomy j i with h | h | h
  · simp [h, Nat.lt_succ_of_lt h]
  · simp [h]
  · have h1 : ¬ j < i := by omega
    have h2 : ¬ j = i := by omega
    have h3 : ¬ j < i + 1 := by omega
    simp [h1, h2, h3]

theorem extraPresentValue_spec {exp : ℚ → ℚ} {m : InterpolationMethod} {ref : PyDate} {ks : List Knot} {yc yc' : YieldCurve}
    (h : InFactory exp m ref ks yc) {i : Nat} {a : FactoryInstrument} {u : Unit} (he : extraPresentValue exp i a yc = (.ok u, yc')) :
    InFactory exp m ref ks yc' := by
  unfold extraPresentValue at he
  split at he
  · have h2 := (h.value a.value).2
    rcases hpv : yc.presentValue exp a.value noAdjustment with ⟨r, y1⟩
    rw [hpv] at he h2
    cases r with
    | error e => simp at he
    | ok v =>
      simp only [Prod.mk.injEq] at he
      rw [← he.2]; exact h2
  · simp only [Prod.mk.injEq] at he
    rw [← he.2]; exact h

theorem bootstrapLoop_spec {exp : ℚ → ℚ} {m : InterpolationMethod} {ref : PyDate} (points : Nat → List ℚ) (ks : List Knot) :
    ∀ (as : List FactoryInstrument) (i : Nat) {yc yc' : YieldCurve} {vss : List (List ℚ)} (_ : i + as.length = ks.length)
      (_ : InFactory exp m ref (beforeKnots points ks i) yc) (_ : bootstrapLoop exp points i as yc = (.ok vss, yc')),
      InFactory exp m ref (beforeKnots points ks ks.length) yc' ∧ vss.length = as.length ∧
      ∀ j a vs, as[j]? = some a → vss[j]? = some vs →
        List.Forall₂ (fun x v => newCurveValue exp m ref (stageKnots points ks (i + j) x) a.value = .ok (a.price + v))
          (0 :: points (i + j)) vs
  | [], i, yc, yc', vss, hn, h, he => by
    simp only [bootstrapLoop, Prod.mk.injEq, Except.ok.injEq] at he
    obtain ⟨rfl, rfl⟩ := he
    simp only [List.length_nil, Nat.add_zero] at hn
    rw [← hn]
    exact ⟨h, rfl, by simp⟩
  | a :: as, i, yc, yc', vss, hn, h, he => by
    simp only [List.length_cons] at hn
    have hlt : i < ks.length := by omega
    obtain ⟨k, hk⟩ : ∃ k, ks[i]? = some k := ⟨ks[i], List.getElem?_eq_getElem hlt⟩
    have hk' : (beforeKnots points ks i)[i]? = some k := by
      simp [beforeKnots, hk]
    simp only [bootstrapLoop] at he
    rcases h1 : evaluate (bootstrapDiff exp i a) (0 :: points i) yc with ⟨r1, yc1⟩
    rw [h1] at he
    cases r1 with
    | error e => simp at he
    | ok vs =>
      simp only at he
      obtain ⟨e1, e2⟩ := evaluate_spec a _ h hk' h1
      have e2 := e2 (by simp)
      rcases h2 : extraPresentValue exp i a yc1 with ⟨r2, yc2⟩
      rw [h2] at he
      cases r2 with
      | error e => simp at he
      | ok u =>
        simp only at he
        have e3 := extraPresentValue_spec e2 h2
        rw [beforeKnots_set points ks hk] at e3
        have e4 : InFactory exp m ref (beforeKnots points ks (i + 1)) yc2 := by
          rw [← stageKnots_last]; exact e3
        rcases h3 : bootstrapLoop exp points (i + 1) as yc2 with ⟨r3, yc3⟩
        rw [h3] at he
        cases r3 with
        | error e => simp at he
        | ok wss =>
          simp only [Prod.mk.injEq, Except.ok.injEq] at he
          obtain ⟨rfl, rfl⟩ := he
          obtain ⟨i1, i2, i3⟩ := bootstrapLoop_spec points ks as (i + 1) (by omega) e4 h3
          refine ⟨i1, by simp [i2], ?_⟩
          intro j b ws hb hw
          cases j with
          | zero =>
            simp only [List.getElem?_cons_zero, Option.some.injEq] at hb hw
            subst hb; subst hw
            refine e1.imp ?_
            intro x v hx
            rw [beforeKnots_set points ks hk] at hx
            exact hx
          | succ j =>
            simp only [List.getElem?_cons_succ] at hb hw
            have := i3 j b ws hb hw
            have e : i + 1 + j = i + (j + 1) := by omega
            rw [e] at this
            exact this

theorem beforeKnots_zero (points : Nat → List ℚ) (ks : List Knot) : beforeKnots points ks 0 = ks := by
  apply List.ext_getElem?
  intro j
  simp [beforeKnots, List.getElem?_mapIdx]

theorem beforeKnots_all (points : Nat → List ℚ) (ks : List Knot) : beforeKnots points ks ks.length = finalKnots points ks := by
  apply List.ext_getElem?
  intro j
  simp only [beforeKnots, finalKnots, List.getElem?_mapIdx]
  cases hj : ks[j]? with
  | none => rfl
  | some k =>
    have := (List.getElem?_eq_some_iff.1 hj).1
    simp [this]

theorem bootstrap_spec {exp : ℚ → ℚ} {instruments : List FactoryInstrument} {m : InterpolationMethod} {ref : PyDate} {points : Nat → List ℚ}
    {knots : List Knot} (hk : collect FactoryInstrument.knotValue instruments = .ok knots) (h : CurveInput knots .actAct ref)
    {yc : YieldCurve} {vss : List (List ℚ)} (hb : bootstrapYieldCurve exp instruments m ref points = .ok (yc, vss)) :
    InFactory exp m ref (finalKnots points (pySorted Knot.date knots)) yc ∧ vss.length = instruments.length ∧
      ∀ j a vs, instruments[j]? = some a → vss[j]? = some vs →
        List.Forall₂ (fun x v => newCurveValue exp m ref (stageKnots points (pySorted Knot.date knots) j x) a.value = .ok (a.price + v))
          (0 :: points j) vs := by
  obtain ⟨y0, hy0, hst⟩ := inFactory_initial (exp := exp) (m := m) hk h
  unfold bootstrapYieldCurve at hb
  rw [hy0, ok_bind] at hb
  rcases hl : bootstrapLoop exp points 0 instruments y0 with ⟨r, y1⟩
  rw [hl] at hb
  cases r with
  | error e => simp at hb
  | ok wss =>
    simp only [Except.ok.injEq, Prod.mk.injEq] at hb
    obtain ⟨rfl, rfl⟩ := hb
    have hlen : (pySorted Knot.date knots).length = instruments.length := by
      rw [(pySorted_perm Knot.date knots).length_eq]; exact (collect_length hk)
    obtain ⟨h1, h2, h3⟩ := bootstrapLoop_spec points (pySorted Knot.date knots) instruments 0 (by omega)
      (by rw [beforeKnots_zero]; exact hst) hl
    rw [beforeKnots_all] at h1
    refine ⟨h1, h2, ?_⟩
    intro j a vs ha hv
    have := h3 j a vs ha hv
    rw [Nat.zero_add] at this
    exact this

/-! ## Locality -/

/-- Two curves with the same knot dates and the same values up to a knot date agree up to that date. -/
theorem call_local {m : InterpolationMethod} (hm : m = .linear ∨ m = .previous) {ref : PyDate} {vs ws : List Knot}
    {dcc : DayCountConvention} {r : EndBehavior}
    (hv : CurveInput vs dcc ref) (hw : CurveInput ws dcc ref) (hd : vs.map Knot.date = ws.map Knot.date) {last : PyDate}
    (hlast : last ∈ vs.map Knot.date) (heq : ∀ k, k.date ≤ last → (k ∈ vs ↔ k ∈ ws)) {c c' : Curve}
    (hc : Curve.create vs m dcc (some ref) .constant r = .ok c)
    (hc' : Curve.create ws m dcc (some ref) .constant r = .ok c') {d : PyDate} (hdl : d ≤ last) :
    c.call d = c'.call d := by
  obtain ⟨τ, hτ⟩ := hv.axis
  obtain ⟨kl, hkl, hkld⟩ := List.mem_map.1 hlast
  have hdates : ∀ x ∈ ws, ∃ y ∈ vs, y.date = x.date := by
    intro x hx
    have : x.date ∈ vs.map Knot.date := by rw [hd]; exact List.mem_map_of_mem hx
    exact List.mem_map.1 this
  have hknot : ∀ k ∈ vs, k.date ≤ last → c.call k.date = c'.call k.date := by
    intro k hk hkd
    rw [C27_knots vs m (.basic hm _) dcc ref .constant r hv c hc k hk,
      C27_knots ws m (.basic hm _) dcc ref .constant r hw c' hc' k ((heq k hkd).1 hk)]
  by_cases h0 : ∃ k ∈ vs, k.date ≤ d
  · rcases bracket h0 ⟨kl, hkl, by rw [hkld]; exact hdl⟩ with ⟨k, hk, rfl⟩ | ⟨a, b, hab, ha, hb⟩
    · exact hknot k hk hdl
    · have hal : a.date ≤ last := le_trans ha hdl
      rcases lt_or_eq_of_le hdl with hlt | rfl
      · have hbl : b.date ≤ last := by
          rcases hab.2.2.2 kl hkl with h | h
          · rw [hkld] at h
            exact absurd hlt (not_lt.2 (le_trans h ha))
          · rw [← hkld]; exact h
        have hab' : Adjacent ws a b := by
          refine ⟨(heq a hal).1 hab.1, (heq b hbl).1 hab.2.1, hab.2.2.1, fun x hx => ?_⟩
          obtain ⟨y, hy, hyx⟩ := hdates x hx
          rw [← hyx]; exact hab.2.2.2 y hy
        have e1 := C27_between vs dcc ref .constant r hv τ hτ a b hab d ha hb
        have e2 := C27_between ws dcc ref .constant r hw τ hτ a b hab' d ha hb
        rcases hm with rfl | rfl
        · obtain ⟨w, hw1, hw2, hw3, e1⟩ := e1.1 c hc
          obtain ⟨w', hw1', _, _, e2⟩ := e2.1 c' hc'
          rw [e1, e2]
          have : w = w' := by rw [hw1, hw1']
          rw [this]
        · rw [e1.2 c hc, e2.2 c' hc']
      · rw [← hkld]; exact hknot kl hkl (le_of_eq hkld)
  · push Not at h0
    obtain ⟨k, hk, hmin⟩ := Finset.exists_min_image vs.toFinset Knot.date ⟨kl, by simp [hkl]⟩
    simp only [List.mem_toFinset] at hk hmin
    have hkl' : k.date ≤ last := by rw [← hkld]; exact hmin kl hkl
    rw [(C27_outside vs m dcc ref .constant r hv c hc k hk d).1 hmin (h0 k hk),
      (C27_outside ws m dcc ref .constant r hw c' hc' k ((heq k hkl').1 hk) d).1
        (fun x hx => by obtain ⟨y, hy, hyx⟩ := hdates x hx; rw [← hyx]; exact hmin y hy) (h0 k hk)]

/-- The discount curve of a new yield curve of the factory. -/
theorem newCurve_discount {exp : ℚ → ℚ} {m : InterpolationMethod} {ref : PyDate} {ks : List Knot} (hm : Interpolates m ks.length)
    (h : CurveInput ks .actAct ref) {τ : PyDate → ℚ} (hτ : timeAxis .actAct = some τ) :
    ∃ (base : Curve) (f : DiscountFn) (y : PyDate → ℚ), Curve.create ks m .actAct (some ref) .constant .constant = .ok base ∧
      f.referenceDate = ref ∧
      (∀ d, ref ≤ d → (∃ k ∈ ks, d ≤ k.date) → base.call d = .ok (y d) ∧ f.call d = .ok (exp (-(y d) * (τ d - τ ref)))) ∧
      (∀ d, d < ref → f.call d = .error .valueError) ∧
      ∀ asset, newCurveValue exp m ref ks asset = asset f := by
  obtain ⟨base, hbase, _⟩ := (C27_builds ks m .actAct .constant .constant).1 ref h
  have hdef : ∀ d, ∃ y, ref ≤ d → (∃ k ∈ ks, d ≤ k.date) → base.call d = .ok y := by
    intro d
    by_cases h1 : ref ≤ d ∧ ∃ k ∈ ks, d ≤ k.date
    · obtain ⟨y, hy⟩ := curve_defined hm h hbase (d := d) (Or.inl rfl) h1.2
      exact ⟨y, fun _ _ => hy⟩
    · exact ⟨0, fun a b => absurd ⟨a, b⟩ h1⟩
  choose y hy using hdef
  obtain ⟨values', c, hto, hmem, hin, hc, href⟩ := yield_curve_knots (exp := exp) hm h (Or.inl rfl) hτ hbase noAdjustment (fun _ => 0) y
    (fun d _ _ => rfl) hy
  refine ⟨base, c.toDiscountFn, y, hbase, href, ?_, ?_, ?_⟩
  · intro d hd1 hd2
    refine ⟨hy d hd1 hd2, ?_⟩
    have hcall := C27_knots values' .linear (Or.inl rfl) .actAct ref .error .error hin c hc
      ⟨d, exp (-(y d + 0) * (τ d - τ ref))⟩ ((hmem _).2 ⟨hd1, hd2, rfl⟩)
    rw [add_zero] at hcall
    exact hcall
  · intro d hd
    obtain ⟨k, hk⟩ := List.exists_mem_of_ne_nil ks h.nonempty
    have hr : ref ≤ k.date := h.notBefore k hk
    exact (C27_outside values' .linear .actAct ref .error .error hin c hc ⟨ref, exp (-(y ref + 0) * (τ ref - τ ref))⟩ ((hmem _).2 ⟨le_refl _, ⟨k, hk, hr⟩, rfl⟩) d).1
      (fun x hx => hin.notBefore x hx) hd
  · intro asset
    unfold newCurveValue
    rw [yieldCurve_create hbase, ok_bind]
    unfold YieldCurve.presentValue
    simp only [hto]

/-- An asset fixed up to a knot date has the same value on two curves which agree up to it. -/
theorem newCurveValue_local {exp : ℚ → ℚ} {m : InterpolationMethod} (hm : m = .linear ∨ m = .previous) {ref : PyDate} {vs ws : List Knot}
    (hv : CurveInput vs .actAct ref) (hw : CurveInput ws .actAct ref) (hd : vs.map Knot.date = ws.map Knot.date) {last : PyDate}
    (hlast : last ∈ vs.map Knot.date) (heq : ∀ k, k.date ≤ last → (k ∈ vs ↔ k ∈ ws)) {asset : PresentValueable}
    (ha : FixedUpTo last asset) : newCurveValue exp m ref vs asset = newCurveValue exp m ref ws asset := by
  obtain ⟨τ, hτ⟩ := hv.axis
  obtain ⟨c, f, y, hc, hf1, hf2, hf3, hf4⟩ := newCurve_discount (exp := exp) (.basic hm _) hv hτ
  obtain ⟨c', g, z, hc', hg1, hg2, hg3, hg4⟩ := newCurve_discount (exp := exp) (.basic hm _) hw hτ
  rw [hf4, hg4]
  apply ha f g (hf1.trans hg1.symm)
  intro d hdl
  rcases lt_or_ge d ref with h | h
  · rw [hf3 d h, hg3 d h]
  · obtain ⟨kl, hkl, hkld⟩ := List.mem_map.1 hlast
    have hklw : kl ∈ ws := (heq kl (le_of_eq hkld)).1 hkl
    obtain ⟨a1, a2⟩ := hf2 d h ⟨kl, hkl, by rw [hkld]; exact hdl⟩
    obtain ⟨b1, b2⟩ := hg2 d h ⟨kl, hklw, by rw [hkld]; exact hdl⟩
    have := call_local hm hv hw hd hlast heq hc hc' hdl
    rw [a1, b1] at this
    injection this with this
    rw [a2, b2, this]

/-! ## C73 -/

theorem map_date_mapIdx (g : Nat → Knot → ℚ) (ks : List Knot) :
    (ks.mapIdx fun j k => (⟨k.date, g j k⟩ : Knot)).map Knot.date = ks.map Knot.date := by
  apply List.ext_getElem?
  intro j
  simp only [List.getElem?_map, List.getElem?_mapIdx]
  cases ks[j]? <;> rfl

theorem mem_mapIdx_agree {g g' : Nat → Knot → ℚ} {ks : List Knot} (hs : KnotSorted ks) {i : Nat} {k : Knot} (hk : ks[i]? = some k)
    (hg : ∀ j k', j ≤ i → g j k' = g' j k') (x : Knot) (hx : x.date ≤ k.date)
    (hm : x ∈ ks.mapIdx fun j k => (⟨k.date, g j k⟩ : Knot)) : x ∈ ks.mapIdx fun j k => (⟨k.date, g' j k⟩ : Knot) := by
  obtain ⟨j, hj, rfl⟩ := List.mem_mapIdx.1 hm
  obtain ⟨hi, rfl⟩ := List.getElem?_eq_some_iff.1 hk
  have hji : j ≤ i := by
    by_contra hc
    push Not at hc
    have := List.pairwise_iff_getElem.1 hs i j hi hj hc
    exact absurd hx (not_le.2 this)
  exact List.mem_mapIdx.2 ⟨j, hj, by simp only [hg j _ hji]⟩

/-- C73. Bootstrapping instruments given in order of their knot dates (strictly increasing, not before the reference date), each of
which only depends on discount factors up to its own knot date: on the curve returned, and after any later use of it, each instrument is
worth its price plus the last value the root search of this instrument has seen.  So it is repriced exactly if and only if the last point
at which scipy evaluated the function was a root; later searches do not disturb earlier instruments. -/
theorem C73_reprices_partial (exp : ℚ → ℚ) (instruments : List FactoryInstrument) (m : InterpolationMethod)
    (hm : m = .linear ∨ m = .previous) (ref : PyDate) (points : Nat → List ℚ) (knots : List Knot)
    (hk : collect FactoryInstrument.knotValue instruments = .ok knots) (h : CurveInput knots .actAct ref)
    (hsorted : knots.Pairwise fun a b => a.date < b.date)
    (hfix : ∀ a ∈ instruments, ∀ k, a.knotValue = .ok k → FixedUpTo k.date a.value)
    (yc yc' : YieldCurve) (vss : List (List ℚ)) (hb : bootstrapYieldCurve exp instruments m ref points = .ok (yc, vss))
    (hu : Used exp yc yc') (i : Nat) (a : FactoryInstrument) (ha : instruments[i]? = some a) :
    ∃ vs v, vss[i]? = some vs ∧ vs.getLast? = some v ∧
      (yc'.presentValue exp a.value noAdjustment).1 = .ok (a.price + v) := by
  obtain ⟨hst, hlen, hlog⟩ := bootstrap_spec hk h hb
  rw [pySorted_knots hsorted] at hst hlog
  have hilt : i < instruments.length := (List.getElem?_eq_some_iff.1 ha).1
  obtain ⟨vs, hvs⟩ : ∃ vs, vss[i]? = some vs := ⟨vss[i], List.getElem?_eq_getElem (by omega)⟩
  have hall := hlog i a vs ha hvs
  have hvl : vs.length = (0 :: points i).length := hall.length_eq.symm
  have hne : vs ≠ [] := by intro h0; rw [h0] at hvl; simp at hvl
  refine ⟨vs, vs.getLast hne, hvs, List.getLast?_eq_some_getLast hne, ?_⟩
  -- the last evaluation
  have hlast : newCurveValue exp m ref (stageKnots points knots i (lastPoint points i)) a.value = .ok (a.price + vs.getLast hne) := by
    have hn : vs.length - 1 < vs.length := Nat.sub_lt (List.length_pos_iff.2 hne) one_pos
    have := (List.forall₂_iff_get.1 hall).2 (vs.length - 1) (by rw [← hvl]; exact hn) hn
    simp only [List.get_eq_getElem] at this
    rw [List.getLast_eq_getElem hne, lastPoint, List.getLast_eq_getElem]
    simp only [← hvl]
    exact this
  -- the instrument's own knot
  have hforall := collect_ok.1 hk
  have hkl : i < knots.length := by rw [collect_length hk]; exact hilt
  have hak : a.knotValue = .ok knots[i] := by
    have := (List.forall₂_iff_get.1 hforall).2 i hilt hkl
    simp only [List.get_eq_getElem] at this
    rw [← this]
    rw [List.getElem?_eq_some_iff] at ha
    rw [ha.2]
  have hki : knots[i]? = some knots[i] := List.getElem?_eq_getElem hkl
  have hmem : a ∈ instruments := List.mem_of_getElem? ha
  rw [((hst.used hu).value a.value).1, ← hlast]
  have hd : ∀ g : Nat → Knot → ℚ, (knots.mapIdx fun j k => (⟨k.date, g j k⟩ : Knot)).map Knot.date = knots.map Knot.date :=
    fun g => map_date_mapIdx g knots
  refine newCurveValue_local hm (h.of_dates (hd _)) (h.of_dates (hd _)) ((hd _).trans (hd _).symm) (last := knots[i].date) ?_ ?_
    (hfix a hmem _ hak)
  · rw [hd]; exact List.mem_map_of_mem (List.getElem_mem hkl)
  · intro x hx
    constructor
    · exact mem_mapIdx_agree hsorted hki (fun j k' hj => by
        rcases lt_or_eq_of_le hj with h | h
        · simp [h]
        · simp [h]) x hx
    · exact mem_mapIdx_agree hsorted hki (fun j k' hj => by
        rcases lt_or_eq_of_le hj with h | h
        · simp [h]
        · simp [h]) x hx

/-- C73. In whatever order the instruments are given, the curve returned values every asset like a new yield curve whose i-th earliest
knot holds the last point of the i-th search. -/
theorem C73_curve (exp : ℚ → ℚ) (instruments : List FactoryInstrument) (m : InterpolationMethod) (ref : PyDate) (points : Nat → List ℚ)
    (knots : List Knot) (hk : collect FactoryInstrument.knotValue instruments = .ok knots) (h : CurveInput knots .actAct ref)
    (yc yc' : YieldCurve) (vss : List (List ℚ)) (hb : bootstrapYieldCurve exp instruments m ref points = .ok (yc, vss))
    (hu : Used exp yc yc') (ks : List Knot) (hperm : (ks.map Knot.date).Perm (knots.map Knot.date))
    (hsorted : ks.Pairwise fun a b => a.date < b.date) (hval : ∀ i k, ks[i]? = some k → k.value = (0 :: points i).getLast (by simp))
    (asset : PresentValueable) : (yc'.presentValue exp asset noAdjustment).1 = newCurveValue exp m ref ks asset := by
  obtain ⟨hst, _, _⟩ := bootstrap_spec hk h hb
  rw [((hst.used hu).value asset).1]
  congr 1
  have hp := pySorted_perm Knot.date knots
  have hd : ks.map Knot.date = (pySorted Knot.date knots).map Knot.date := by
    refine List.Perm.eq_of_pairwise (le := fun a b : PyDate => a < b) ?_ (knotSorted_iff_map.1 hsorted)
      (knotSorted_iff_map.1 (knotSorted_pySorted h.distinct)) (hperm.trans (hp.map Knot.date).symm)
    intro a b _ _ h1 h2
    exact absurd h1 (lt_asymm h2)
  apply List.ext_getElem?
  intro j
  have hj := congrArg (fun l : List PyDate => l[j]?) hd
  simp only [List.getElem?_map] at hj
  simp only [finalKnots, List.getElem?_mapIdx]
  cases h1 : (pySorted Knot.date knots)[j]? with
  | none => rw [h1] at hj; simp only [Option.map_none, Option.map_eq_none_iff] at hj; rw [hj]; rfl
  | some x =>
    rw [h1] at hj
    simp only [Option.map_some, Option.map_eq_some_iff] at hj
    obtain ⟨k, hkj, hkd⟩ := hj
    rw [hkj]
    simp only [Option.map_some, Option.some.injEq]
    have := hval j k hkj
    cases k
    simp only at hkd this
    rw [← hkd, this]; rfl


theorem collect_congr_mem {α β : Type} {f g : α → Except PyErr β} {l : List α} (h : ∀ a ∈ l, f a = g a) : collect f l = collect g l := by
  induction l with
  | nil => rfl
  | cons a as ih => simp only [collect, h a (by simp), ih (fun b hb => h b (by simp [hb]))]

theorem forall₂_mem_right {α β : Type} {R : α → β → Prop} {l : List α} {r : List β} (h : List.Forall₂ R l r) {b : β} (hb : b ∈ r) :
    ∃ a ∈ l, R a b := by
  induction h with
  | nil => simp at hb
  | cons hab _ ih =>
    rcases List.mem_cons.1 hb with rfl | hb
    · exact ⟨_, by simp, hab⟩
    · obtain ⟨a, ha, hr⟩ := ih hb
      exact ⟨a, by simp [ha], hr⟩

/-- C73. A zero-coupon payment is fixed up to its date, and a bond up to the date of its knot (the later of its last coupon and its
principal payment): such instruments satisfy the hypothesis of C73_reprices_partial. -/
theorem C73_fixed (d : PyDate) (b : Bond) (t : BondTerms) (hb : Bond.create t = .ok b) (k : Knot) (hk : b.toKnotValuePair = .ok k) :
    FixedUpTo d (ZeroCoupon.presentValue d) ∧ FixedUpTo k.date b.presentValue ∧ k.value = t.price := by
  obtain ⟨ht, -, hc, hp, -⟩ := create_ok hb
  obtain ⟨pd, -, hpp⟩ := principalCashflow_ok hp
  have hsorted : b.coupons.Pairwise fun p q => p.date ≤ q.date := by
    unfold BondTerms.couponCashflow at hc
    rw [bind_ok] at hc
    obtain ⟨inc, _, hc⟩ := hc
    cases inc with
    | none =>
      simp only [ok_bind, Except.ok.injEq] at hc
      rw [← hc]
      exact pySorted_sorted BondPayment.date _
    | some i =>
      simp only at hc
      rw [bind_ok] at hc
      obtain ⟨_, _, hc⟩ := hc
      rw [bind_ok] at hc
      obtain ⟨_, _, hc⟩ := hc
      rw [bind_ok] at hc
      obtain ⟨_, _, hc⟩ := hc
      simp only [ok_bind, Except.ok.injEq] at hc
      rw [← hc]
      exact pySorted_sorted BondPayment.date _
  have hle : (∀ p ∈ b.coupons, p.date ≤ k.date) ∧ (∀ p ∈ b.principalPayments, p.date ≤ k.date) ∧ k.value = t.price := by
    unfold Bond.toKnotValuePair at hk
    rw [hpp] at hk ⊢
    simp only [List.head?_cons] at hk
    cases hl : b.coupons.getLast? with
    | none =>
      rw [List.getLast?_eq_none_iff] at hl
      simp only [hl, List.getLast?_nil, Except.ok.injEq] at hk
      subst hk
      simp [hl, ht]
    | some c =>
      simp only [hl, Except.ok.injEq] at hk
      subst hk
      obtain ⟨ys, hys⟩ := List.getLast?_eq_some_iff.1 hl
      rw [hys] at hsorted ⊢
      refine ⟨fun p hp => le_trans ?_ (le_max_left _ _), by simp, by rw [ht]⟩
      rcases List.mem_append.1 hp with hp | hp
      · exact (List.pairwise_append.1 hsorted).2.2 p hp c (by simp)
      · simp only [List.mem_singleton] at hp; rw [hp]
  refine ⟨?_, ?_, hle.2.2⟩
  · intro f g hr hfg
    unfold ZeroCoupon.presentValue Cashflow.presentValue pySum
    rw [hr]
    congr 1
    apply collect_congr_mem
    intro x hx
    obtain ⟨p, hp, hx⟩ := List.mem_filterMap.1 hx
    simp only [ZeroCoupon.cashflow, Cashflow.create, pySorted, List.foldr_cons, List.foldr_nil, pyInsert, List.mem_singleton] at hp
    subst hp
    simp only at hx
    split at hx
    · simp only [Option.some.injEq] at hx
      subst hx
      simp only [hfg d (le_refl d)]
    · cases hx
  · intro f g hr hfg
    have hsum : ∀ (keep : BondPayment → Except PyErr Bool) (l : List BondPayment), (∀ p ∈ l, p.date ≤ k.date) →
        Bond.sumIf keep (fun p => do let df ← f.call p.date; (.ok (df * p.amount) : Except PyErr ℚ)) l =
        Bond.sumIf keep (fun p => do let df ← g.call p.date; (.ok (df * p.amount) : Except PyErr ℚ)) l := by
      intro keep l
      induction l with
      | nil => intro _; rfl
      | cons p ps ih =>
        intro hl
        simp only [Bond.sumIf]
        rw [ih (fun q hq => hl q (by simp [hq])), hfg p.date (hl p (by simp))]
    unfold Bond.presentValue
    simp only [hr]
    rw [hsum _ _ hle.1, hsum _ _ hle.2.1]

/-- C73. Every bond that can be constructed gives a knot: the date of its last payment, with the clean price. -/
theorem C73_bond_knot (b : Bond) (t : BondTerms) (hb : Bond.create t = .ok b) :
    ∃ k, b.toKnotValuePair = .ok k ∧ k.value = t.price ∧ (∀ p ∈ b.coupons ++ b.principalPayments, p.date ≤ k.date) ∧
      ∃ p ∈ b.coupons ++ b.principalPayments, p.date = k.date := by
  obtain ⟨ht, -, hc, hp, -⟩ := create_ok hb
  obtain ⟨pd, -, hpp⟩ := principalCashflow_ok hp
  have hsorted : b.coupons.Pairwise fun p q => p.date ≤ q.date := by
    unfold BondTerms.couponCashflow at hc
    rw [bind_ok] at hc
    obtain ⟨inc, _, hc⟩ := hc
    cases inc with
    | none =>
      simp only [ok_bind, Except.ok.injEq] at hc
      rw [← hc]
      exact pySorted_sorted BondPayment.date _
    | some i =>
      simp only at hc
      rw [bind_ok] at hc
      obtain ⟨_, _, hc⟩ := hc
      rw [bind_ok] at hc
      obtain ⟨_, _, hc⟩ := hc
      rw [bind_ok] at hc
      obtain ⟨_, _, hc⟩ := hc
      simp only [ok_bind, Except.ok.injEq] at hc
      rw [← hc]
      exact pySorted_sorted BondPayment.date _
  unfold Bond.toKnotValuePair
  rw [hpp]
  simp only [List.head?_cons]
  cases hl : b.coupons.getLast? with
  | none =>
    rw [List.getLast?_eq_none_iff] at hl
    refine ⟨_, rfl, by rw [ht], ?_, ?_⟩
    · simp [hl]
    · simp [hl]
  | some c =>
    obtain ⟨ys, hys⟩ := List.getLast?_eq_some_iff.1 hl
    rw [hys] at hsorted ⊢
    refine ⟨_, rfl, by rw [ht], ?_, ?_⟩
    · intro p hp
      simp only [List.mem_append, List.mem_singleton] at hp
      rcases hp with (hp | hp) | hp
      · exact le_trans ((List.pairwise_append.1 hsorted).2.2 p hp c (by simp)) (le_max_left _ _)
      · rw [hp]; exact le_max_left _ _
      · rw [hp]; exact le_max_right _ _
    · rcases le_total c.date pd with h | h
      · exact ⟨⟨t.maturityDate, pd, t.principal⟩, by simp, (max_eq_right h).symm⟩
      · exact ⟨c, by simp, (max_eq_left h).symm⟩

/-! ### The bootstrap succeeds -/

/-- The asset can be valued on every discount curve from the reference date to the last knot. -/
def Priceable (ref last : PyDate) (asset : PresentValueable) : Prop :=
  ∀ f : DiscountFn, f.referenceDate = ref → (∀ d, ref ≤ d → d ≤ last → ∃ v, f.call d = .ok v) → ∃ v, asset f = .ok v

theorem newCurveValue_ok {exp : ℚ → ℚ} {m : InterpolationMethod} {ref last : PyDate} {ks : List Knot}
    (hm : Interpolates m ks.length) (h : CurveInput ks .actAct ref) (hlast : ∃ k ∈ ks, k.date = last) {asset : PresentValueable} (ha : Priceable ref last asset) :
    ∃ v, newCurveValue exp m ref ks asset = .ok v := by
  obtain ⟨τ, hτ⟩ := h.axis
  obtain ⟨c, f, y, hc, hf1, hf2, hf3, hf4⟩ := newCurve_discount (exp := exp) hm h hτ
  rw [hf4]
  refine ha f hf1 (fun d h1 h2 => ⟨_, (hf2 d h1 ?_).2⟩)
  obtain ⟨k, hk, rfl⟩ := hlast
  exact ⟨k, hk, h2⟩

theorem evaluate_ok {exp : ℚ → ℚ} {m : InterpolationMethod} {n : Nat} (hm : Interpolates m n) {ref last : PyDate} {i : Nat}
    {a : FactoryInstrument} (ha : Priceable ref last a.value) :
    ∀ (xs : List ℚ) {ks : List Knot} {yc : YieldCurve} (_ : InFactory exp m ref ks yc) (_ : ks.length = n)
      (_ : i < ks.length) (_ : last ∈ ks.map Knot.date), ∃ vs yc', evaluate (bootstrapDiff exp i a) xs yc = (.ok vs, yc')
  | [], ks, yc, _, _, _, _ => ⟨[], yc, rfl⟩
  | x :: xs, ks, yc, h, hn, hi, hl => by
    have hk : ks[i]? = some ks[i] := List.getElem?_eq_getElem hi
    obtain ⟨h1, h2⟩ := bootstrapDiff_spec h hk a x
    have hl' : last ∈ (ks.set i ⟨ks[i].date, x⟩).map Knot.date := by rw [map_date_set hk]; exact hl
    obtain ⟨v, hv⟩ := newCurveValue_ok (exp := exp) (hm.congr (by rw [List.length_set, hn])) h2.input (List.mem_map.1 hl') ha
    obtain ⟨vs, yc', he⟩ := evaluate_ok hm ha xs h2 (by rw [List.length_set, hn]) (by rw [List.length_set]; exact hi) hl'
    rw [hv, ok_bind] at h1
    refine ⟨(v - a.price) :: vs, yc', ?_⟩
    simp only [evaluate]
    rcases hd : bootstrapDiff exp i a yc x with ⟨r, y1⟩
    rw [hd] at h1 he
    simp only at h1 he
    rw [h1]
    simp only [he]

theorem bootstrapLoop_ok {exp : ℚ → ℚ} {m : InterpolationMethod} {n : Nat} (hm : Interpolates m n) {ref last : PyDate}
    (points : Nat → List ℚ) :
    ∀ (as : List FactoryInstrument) (i : Nat) {ks : List Knot} {yc : YieldCurve} (_ : ∀ a ∈ as, Priceable ref last a.value)
      (_ : InFactory exp m ref ks yc) (_ : ks.length = n) (_ : i + as.length = ks.length) (_ : last ∈ ks.map Knot.date),
      ∃ vss yc', bootstrapLoop exp points i as yc = (.ok vss, yc')
  | [], i, ks, yc, _, _, _, _, _ => ⟨[], yc, rfl⟩
  | a :: as, i, ks, yc, ha, h, hlen, hn, hl => by
    simp only [List.length_cons] at hn
    have hi : i < ks.length := by omega
    have hk : ks[i]? = some ks[i] := List.getElem?_eq_getElem hi
    obtain ⟨vs, y1, he⟩ := evaluate_ok hm (ha a (by simp)) (0 :: points i) h hlen hi hl
    have e2 := (evaluate_spec a _ h hk he).2 (by simp)
    have hl2 := hl
    rw [← map_date_set hk ((0 :: points i).getLast (by simp))] at hl2
    obtain ⟨y2, hx⟩ : ∃ y2, extraPresentValue exp i a y1 = (.ok (), y2) := by
      unfold extraPresentValue
      split
      · obtain ⟨v, hv⟩ := newCurveValue_ok (exp := exp) (hm.congr (by rw [List.length_set, hlen])) e2.input (List.mem_map.1 hl2) (ha a (by simp))
        have := (e2.value a.value).1
        rw [hv] at this
        rcases hp : y1.presentValue exp a.value noAdjustment with ⟨r, y2⟩
        rw [hp] at this
        simp only at this
        rw [this]
        exact ⟨y2, rfl⟩
      · exact ⟨y1, rfl⟩
    have e3 := extraPresentValue_spec e2 hx
    obtain ⟨vss, y3, hr⟩ := bootstrapLoop_ok hm points as (i + 1) (fun b hb => ha b (by simp [hb])) e3
      (by rw [List.length_set, hlen]) (by rw [List.length_set]; omega) hl2
    refine ⟨vs :: vss, y3, ?_⟩
    simp only [bootstrapLoop, he, hx, hr]

/-- C73. The bootstrap returns a curve whenever every instrument can be valued on discount curves reaching to the last knot, whatever
points the searches evaluate. -/
theorem C73_builds (exp : ℚ → ℚ) (instruments : List FactoryInstrument) (m : InterpolationMethod)
    (ref : PyDate) (points : Nat → List ℚ) (knots : List Knot) (hm : Interpolates m knots.length)
    (hk : collect FactoryInstrument.knotValue instruments = .ok knots) (h : CurveInput knots .actAct ref) (last : Knot)
    (hlast : last ∈ knots) (hp : ∀ a ∈ instruments, Priceable ref last.date a.value) :
    ∃ yc vss, bootstrapYieldCurve exp instruments m ref points = .ok (yc, vss) := by
  obtain ⟨y0, hy0, hst⟩ := inFactory_initial (exp := exp) (m := m) hk h
  have hperm := pySorted_perm Knot.date knots
  obtain ⟨vss, yc, hl⟩ := bootstrapLoop_ok hm points instruments 0 hp hst hperm.length_eq
    (by rw [hperm.length_eq, collect_length hk]; omega) (List.mem_map_of_mem (hperm.mem_iff.2 hlast))
  refine ⟨yc, vss, ?_⟩
  unfold bootstrapYieldCurve
  rw [hy0, ok_bind]
  simp only [hl]

theorem zeroCoupon_priceable {ref last d : PyDate} (hd : d ≤ last) : Priceable ref last (ZeroCoupon.presentValue d) := by
  intro f hr hf
  rcases lt_or_ge d ref with h | h
  · exact ⟨_, (C19_zero_coupon d f).2 (by rw [hr]; exact h)⟩
  · obtain ⟨v, hv⟩ := hf d h hd
    exact ⟨_, (C19_zero_coupon d f).1 (by rw [hr]; exact h) v hv⟩

/-- A zero-coupon bond as an instrument of the factory. -/
def zeroInstrument (d : PyDate) (price : ℚ) : FactoryInstrument := ⟨price, .ok ⟨d, price⟩, ZeroCoupon.presentValue d⟩

/-- C73 (failure). Two zero-coupon bonds given in decreasing order of maturity: the search for the first one moves the knot of the other
one, and its function is constant: it never sees anything but the error of the initial value, the price taken as a yield. -/
theorem C73_unsorted_false (exp : ℚ → ℚ) (m : InterpolationMethod) (hm : m = .linear ∨ m = .previous) (ref d1 d2 : PyDate) (p1 p2 : ℚ)
    (hr : AxisOk .actAct ref) (h1 : ref ≤ d1) (h2 : d1 < d2) (points : Nat → List ℚ) (τ : PyDate → ℚ) (hτ : timeAxis .actAct = some τ) :
    ∃ yc vs ws, bootstrapYieldCurve exp [zeroInstrument d2 p2, zeroInstrument d1 p1] m ref points = .ok (yc, [vs, ws]) ∧
      (∀ v ∈ vs, v = exp (-p2 * (τ d2 - τ ref)) - p2) ∧
      (∀ w ∈ ws, w = exp (-((0 :: points 0).getLast (by simp)) * (τ d1 - τ ref)) - p1) ∧
      (yc.presentValue exp (ZeroCoupon.presentValue d2) noAdjustment).1 =
        .ok (exp (-((0 :: points 1).getLast (by simp)) * (τ d2 - τ ref))) := by
  have hk : collect FactoryInstrument.knotValue [zeroInstrument d2 p2, zeroInstrument d1 p1] = .ok [⟨d2, p2⟩, ⟨d1, p1⟩] := rfl
  have hin : CurveInput [(⟨d2, p2⟩ : Knot), ⟨d1, p1⟩] .actAct ref :=
    ⟨by decide, hr, by simp, by simpa using (ne_of_gt h2), by
      intro k hk
      simp only [List.mem_cons, List.not_mem_nil, or_false] at hk
      rcases hk with rfl | rfl
      · exact le_trans h1 (le_of_lt h2)
      · exact h1⟩
  obtain ⟨yc, vss, hb⟩ := C73_builds exp _ m ref points _ (.basic hm _) hk hin ⟨d2, p2⟩ (by simp) (by
    intro a ha
    simp only [List.mem_cons, List.not_mem_nil, or_false] at ha
    rcases ha with rfl | rfl
    · exact zeroCoupon_priceable (le_refl _)
    · exact zeroCoupon_priceable (le_of_lt h2))
  obtain ⟨hst, hlen, hlog⟩ := bootstrap_spec hk hin hb
  have hso : pySorted Knot.date [(⟨d2, p2⟩ : Knot), ⟨d1, p1⟩] = [⟨d1, p1⟩, ⟨d2, p2⟩] := by
    exact (pySorted_perm_eq Knot.date (List.Perm.swap _ _ _) (by simpa using (ne_of_gt h2))).trans
      (pySorted_knots (by simp [KnotSorted, h2]))
  rw [hso] at hst hlog
  -- the value of a zero-coupon bond at a knot of a new curve
  have hval : ∀ (x1 x2 : ℚ), newCurveValue exp m ref [⟨d1, x1⟩, ⟨d2, x2⟩] (ZeroCoupon.presentValue d1) = .ok (exp (-x1 * (τ d1 - τ ref))) ∧
      newCurveValue exp m ref [⟨d1, x1⟩, ⟨d2, x2⟩] (ZeroCoupon.presentValue d2) = .ok (exp (-x2 * (τ d2 - τ ref))) := by
    intro x1 x2
    have hin' : CurveInput [(⟨d1, x1⟩ : Knot), ⟨d2, x2⟩] .actAct ref :=
      ⟨by decide, hr, by simp, by simpa using (ne_of_lt h2), by
        intro k hk
        simp only [List.mem_cons, List.not_mem_nil, or_false] at hk
        rcases hk with rfl | rfl
        · exact h1
        · exact le_trans h1 (le_of_lt h2)⟩
    obtain ⟨c, f, y, hc, hf1, hf2, hf3, hf4⟩ := newCurve_discount (exp := exp) (.basic hm _) hin' hτ
    have key : ∀ k ∈ [(⟨d1, x1⟩ : Knot), ⟨d2, x2⟩], f.call k.date = .ok (exp (-k.value * (τ k.date - τ ref))) := by
      intro k hk
      obtain ⟨a1, a2⟩ := hf2 k.date (hin'.notBefore k hk) ⟨k, hk, le_refl _⟩
      rw [C27_knots _ m (.basic hm _) .actAct ref .constant .constant hin' c hc k hk] at a1
      injection a1 with a1
      rw [a2, a1]
    rw [hf4, hf4]
    exact ⟨(C19_zero_coupon d1 f).1 (by rw [hf1]; exact h1) _ (key ⟨d1, x1⟩ (by simp)),
      (C19_zero_coupon d2 f).1 (by rw [hf1]; exact le_trans h1 (le_of_lt h2)) _ (key ⟨d2, x2⟩ (by simp))⟩
  match vss, hlen with
  | [vs, ws], _ =>
    refine ⟨yc, vs, ws, hb, ?_, ?_, ?_⟩
    · intro v hv
      have := hlog 0 (zeroInstrument d2 p2) vs rfl rfl
      obtain ⟨x, _, hx⟩ := forall₂_mem_right this hv
      rw [show stageKnots points [(⟨d1, p1⟩ : Knot), ⟨d2, p2⟩] 0 x = [⟨d1, x⟩, ⟨d2, p2⟩] from rfl] at hx
      have e := (hval x p2).2
      rw [show (zeroInstrument d2 p2).value = ZeroCoupon.presentValue d2 from rfl, e] at hx
      injection hx with hx
      rw [hx]; show v = p2 + v - p2; ring
    · intro w hw
      have := hlog 1 (zeroInstrument d1 p1) ws rfl rfl
      obtain ⟨x, _, hx⟩ := forall₂_mem_right this hw
      rw [show stageKnots points [(⟨d1, p1⟩ : Knot), ⟨d2, p2⟩] 1 x = [⟨d1, lastPoint points 0⟩, ⟨d2, x⟩] from rfl] at hx
      have e := (hval (lastPoint points 0) x).1
      rw [show (zeroInstrument d1 p1).value = ZeroCoupon.presentValue d1 from rfl, e] at hx
      injection hx with hx
      rw [lastPoint] at hx
      rw [hx]; show w = p1 + w - p1; ring
    · rw [(hst.value _).1]
      exact (hval (lastPoint points 0) (lastPoint points 1)).2

/-! ### A concrete bootstrap: two zero-coupon bonds, the exponential replaced by 1 + x -/

/-- Reference date 1 June 2023, bonds maturing on 1 June 2024 and 2025 at 99/100 and 97/100; the searches go to the roots. -/
def exInstruments : List FactoryInstrument := [zeroInstrument (D 2024 6 1) (99 / 100), zeroInstrument (D 2025 6 1) (97 / 100)]

example : ∃ yc vss, bootstrapYieldCurve (fun x => 1 + x) exInstruments .linear (D 2023 6 1) (fun _ => [1 / 2, 1 / 100]) = .ok (yc, vss) ∧
    ∃ vs v, vss[1]? = some vs ∧ vs.getLast? = some v ∧
      (yc.presentValue (fun x => 1 + x) (ZeroCoupon.presentValue (D 2025 6 1)) noAdjustment).1 = .ok (97 / 100 + v) := by
  have hk : collect FactoryInstrument.knotValue exInstruments = .ok [⟨D 2024 6 1, 99 / 100⟩, ⟨D 2025 6 1, 97 / 100⟩] := rfl
  have hin : CurveInput [⟨D 2024 6 1, 99 / 100⟩, ⟨D 2025 6 1, 97 / 100⟩] .actAct (D 2023 6 1) :=
    ⟨by decide, by decide +kernel, by simp, by decide +kernel, by decide +kernel⟩
  obtain ⟨yc, vss, hb⟩ := C73_builds (fun x => 1 + x) exInstruments .linear (D 2023 6 1) (fun _ => [1 / 2, 1 / 100]) _ (Or.inl rfl) hk hin
    ⟨D 2025 6 1, 97 / 100⟩ (by simp) (by
      intro a ha
      simp only [exInstruments, List.mem_cons, List.not_mem_nil, or_false] at ha
      rcases ha with rfl | rfl <;> exact zeroCoupon_priceable (by decide +kernel))
  obtain ⟨b, t, hbt, k, hbk⟩ : ∃ b t, Bond.create t = .ok b ∧ ∃ k, b.toKnotValuePair = .ok k := by
    obtain ⟨b, h, -, -, h3, h4, -⟩ := exTerms_create
    exact ⟨b, exTerms, h, _, by simp only [Bond.toKnotValuePair, h3, h4]; rfl⟩
  refine ⟨yc, vss, hb, C73_reprices_partial _ exInstruments .linear (Or.inl rfl) _ _ _ hk hin (by decide +kernel) ?_ yc yc vss hb
    (.start) 1 (zeroInstrument (D 2025 6 1) (97 / 100)) rfl⟩
  intro a ha k' hk'
  simp only [exInstruments, List.mem_cons, List.not_mem_nil, or_false] at ha
  rcases ha with rfl | rfl
  · injection hk' with hk'; rw [← hk']; exact (C73_fixed _ b t hbt k hbk).1
  · injection hk' with hk'; rw [← hk']; exact (C73_fixed _ b t hbt k hbk).1

/-! ## C74 -/

/-- The instruments' knots with other values. -/
def withValues (knots : List Knot) (xs : List ℚ) : List Knot := List.zipWith (fun k x => ⟨k.date, x⟩) knots xs

theorem withValues_dates : ∀ {knots : List Knot} {xs : List ℚ}, xs.length = knots.length →
    (withValues knots xs).map Knot.date = knots.map Knot.date
  | [], [], _ => rfl
  | k :: ks, x :: xs, h => by
    simp only [withValues, List.zipWith_cons_cons, List.map_cons]
    rw [show List.zipWith (fun (k : Knot) x => (⟨k.date, x⟩ : Knot)) ks xs = withValues ks xs from rfl,
      withValues_dates (by simpa using h)]

theorem knotsWith_eq {instruments : List FactoryInstrument} {knots : List Knot}
    (hk : collect FactoryInstrument.knotValue instruments = .ok knots) : ∀ (xs : List ℚ),
    knotsWith instruments xs = .ok (withValues knots xs) := by
  have h := collect_ok.1 hk
  clear hk
  induction h with
  | nil => intro xs; rfl
  | @cons a k as ks hak _ ih =>
    intro xs
    cases xs with
    | nil => rfl
    | cons x xs =>
      unfold knotsWith
      simp only [List.zip_cons_cons, collect, hak, ok_bind]
      have := ih xs
      unfold knotsWith at this
      rw [this, ok_bind]; rfl

theorem setKnots_spec {exp : ℚ → ℚ} {m : InterpolationMethod} {ref : PyDate} {ks : List Knot} {yc : YieldCurve}
    {instruments : List FactoryInstrument} {knots : List Knot} (hk : collect FactoryInstrument.knotValue instruments = .ok knots)
    (hin : CurveInput knots .actAct ref) (h : InFactory exp m ref ks yc) {xs : List ℚ} (hx : xs.length = knots.length) :
    ∃ yc', setKnots instruments yc xs = (.ok (), yc') ∧ InFactory exp m ref (pySorted Knot.date (withValues knots xs)) yc' := by
  obtain ⟨base, hb, hst⟩ := h.resetAll (hin.of_dates (withValues_dates hx))
  refine ⟨_, ?_, hst⟩
  unfold setKnots
  rw [knotsWith_eq hk]
  simp only [hb]

theorem newCurveValue_sorted (exp : ℚ → ℚ) (m : InterpolationMethod) {ref : PyDate} {ks : List Knot} (h : CurveInput ks .actAct ref)
    (asset : PresentValueable) : newCurveValue exp m ref (pySorted Knot.date ks) asset = newCurveValue exp m ref ks asset := by
  have hp := pySorted_perm Knot.date ks
  have hd := (hp.map Knot.date).nodup_iff.2 h.distinct
  unfold newCurveValue
  obtain ⟨c, hc, _⟩ := (C27_builds ks m .actAct .constant .constant).1 ref h
  have hc' := hc
  rw [← C27_order_independent _ _ hp hd] at hc'
  rw [yieldCurve_create hc, yieldCurve_create hc']

theorem presentValues_spec {exp : ℚ → ℚ} {m : InterpolationMethod} {ref : PyDate} {ks : List Knot} :
    ∀ (as : List FactoryInstrument) {yc yc' : YieldCurve} {vs : List ℚ} (_ : InFactory exp m ref ks yc)
      (_ : presentValues exp as yc = (.ok vs, yc')),
      List.Forall₂ (fun a v => newCurveValue exp m ref ks a.value = .ok v) as vs ∧ InFactory exp m ref ks yc'
  | [], yc, yc', vs, h, he => by
    simp only [presentValues, Prod.mk.injEq, Except.ok.injEq] at he
    obtain ⟨rfl, rfl⟩ := he
    exact ⟨.nil, h⟩
  | a :: as, yc, yc', vs, h, he => by
    obtain ⟨h1, h2⟩ := h.value a.value
    simp only [presentValues] at he
    rcases hp : yc.presentValue exp a.value noAdjustment with ⟨r, y1⟩
    rw [hp] at he h1 h2
    simp only at he h1 h2
    cases r with
    | error e => simp at he
    | ok v =>
      simp only at he
      rcases hr : presentValues exp as y1 with ⟨r2, y2⟩
      rw [hr] at he
      cases r2 with
      | error e => simp at he
      | ok ws =>
        simp only [Prod.mk.injEq, Except.ok.injEq] at he
        obtain ⟨rfl, rfl⟩ := he
        obtain ⟨i1, i2⟩ := presentValues_spec as h2 hr
        exact ⟨.cons h1.symm i1, i2⟩

theorem presentValues_ok {exp : ℚ → ℚ} {m : InterpolationMethod} {ref : PyDate} {ks : List Knot} :
    ∀ (as : List FactoryInstrument) {yc : YieldCurve} (_ : InFactory exp m ref ks yc)
      (_ : ∀ a ∈ as, ∃ v, newCurveValue exp m ref ks a.value = .ok v), ∃ vs yc', presentValues exp as yc = (.ok vs, yc')
  | [], yc, _, _ => ⟨[], yc, rfl⟩
  | a :: as, yc, h, ha => by
    obtain ⟨h1, h2⟩ := h.value a.value
    obtain ⟨v, hv⟩ := ha a (by simp)
    obtain ⟨vs, yc', hr⟩ := presentValues_ok as h2 (fun b hb => ha b (by simp [hb]))
    rw [hv] at h1
    refine ⟨v :: vs, yc', ?_⟩
    simp only [presentValues]
    rcases hp : yc.presentValue exp a.value noAdjustment with ⟨r, y1⟩
    rw [hp] at h1 hr
    simp only at h1 hr
    rw [h1]
    simp only [hr]

theorem forall₂_errors {f : FactoryInstrument → Except PyErr ℚ} : ∀ {as : List FactoryInstrument} {vs : List ℚ},
    List.Forall₂ (fun a v => f a = .ok v) as vs →
    List.Forall₂ (fun a v => f a = .ok (a.price + v)) as (List.zipWith (fun v (a : FactoryInstrument) => v - a.price) vs as)
  | [], [], _ => .nil
  | a :: as, v :: vs, h => by
    obtain ⟨h1, h2⟩ := List.forall₂_cons.1 h
    exact .cons (by rw [h1]; congr 1; ring) (forall₂_errors h2)

theorem evaluateMany_spec {exp : ℚ → ℚ} {m : InterpolationMethod} {ref : PyDate} {instruments : List FactoryInstrument} {knots : List Knot}
    (hk : collect FactoryInstrument.knotValue instruments = .ok knots) (hin : CurveInput knots .actAct ref) :
    ∀ (xss : List (List ℚ)) {ks : List Knot} {yc yc' : YieldCurve} {vss : List (List ℚ)} (_ : ∀ xs ∈ xss, xs.length = knots.length)
      (_ : InFactory exp m ref ks yc) (_ : evaluateMany (constructDiffs exp instruments) xss yc = (.ok vss, yc')),
      List.Forall₂ (fun xs vs => List.Forall₂ (fun a v =>
        newCurveValue exp m ref (withValues knots xs) a.value = .ok (a.price + v)) instruments vs) xss vss ∧
      ∃ ks', InFactory exp m ref ks' yc'
  | [], ks, yc, yc', vss, _, h, he => by
    simp only [evaluateMany, Prod.mk.injEq, Except.ok.injEq] at he
    obtain ⟨rfl, rfl⟩ := he
    exact ⟨.nil, ks, h⟩
  | xs :: xss, ks, yc, yc', vss, hl, h, he => by
    have hx := hl xs (by simp)
    obtain ⟨y1, hs, hst⟩ := setKnots_spec hk hin h hx
    simp only [evaluateMany, constructDiffs, hs] at he
    rcases hp : presentValues exp instruments y1 with ⟨r, y2⟩
    rw [hp] at he
    cases r with
    | error e => simp at he
    | ok pvs =>
      simp only at he
      obtain ⟨p1, p2⟩ := presentValues_spec instruments hst hp
      rcases hr : evaluateMany (constructDiffs exp instruments) xss y2 with ⟨r2, y3⟩
      rw [hr] at he
      cases r2 with
      | error e => simp at he
      | ok wss =>
        simp only [Prod.mk.injEq, Except.ok.injEq] at he
        obtain ⟨rfl, rfl⟩ := he
        obtain ⟨i1, i2⟩ := evaluateMany_spec hk hin xss (fun ys hy => hl ys (by simp [hy])) p2 hr
        refine ⟨.cons ?_ i1, i2⟩
        refine forall₂_errors (p1.imp ?_)
        intro a v hv
        rw [← newCurveValue_sorted exp m (hin.of_dates (withValues_dates hx))]
        exact hv

theorem evaluateMany_ok {exp : ℚ → ℚ} {m : InterpolationMethod} {ref last : PyDate}
    {instruments : List FactoryInstrument} {knots : List Knot} (hm : Interpolates m knots.length)
    (hk : collect FactoryInstrument.knotValue instruments = .ok knots) (hin : CurveInput knots .actAct ref)
    (hlast : last ∈ knots.map Knot.date) (hp : ∀ a ∈ instruments, Priceable ref last a.value) :
    ∀ (xss : List (List ℚ)) {ks : List Knot} {yc : YieldCurve} (_ : ∀ xs ∈ xss, xs.length = knots.length)
      (_ : InFactory exp m ref ks yc), ∃ vss yc', evaluateMany (constructDiffs exp instruments) xss yc = (.ok vss, yc')
  | [], ks, yc, _, _ => ⟨[], yc, rfl⟩
  | xs :: xss, ks, yc, hl, h => by
    have hx := hl xs (by simp)
    obtain ⟨y1, hs, hst⟩ := setKnots_spec hk hin h hx
    have hin' := hin.of_dates (withValues_dates hx)
    have hlast' : last ∈ (withValues knots xs).map Knot.date := by rw [withValues_dates hx]; exact hlast
    obtain ⟨pvs, y2, hpv⟩ := presentValues_ok instruments hst (fun a ha => by
      rw [newCurveValue_sorted exp m hin']
      exact newCurveValue_ok (hm.congr (by rw [← List.length_map (f := Knot.date), withValues_dates hx, List.length_map])) hin'
        (List.mem_map.1 hlast') (hp a ha))
    obtain ⟨vss, y3, hr⟩ := evaluateMany_ok hm hk hin hlast hp xss (fun ys hy => hl ys (by simp [hy])) (presentValues_spec instruments hst hpv).2
    refine ⟨List.zipWith (fun v (a : FactoryInstrument) => v - a.price) pvs instruments :: vss, y3, ?_⟩
    have hd : constructDiffs exp instruments yc xs =
        (.ok (List.zipWith (fun v (a : FactoryInstrument) => v - a.price) pvs instruments), y2) := by
      simp only [constructDiffs, hs, hpv]
    simp only [evaluateMany, hd, hr]

theorem construct_spec {exp : ℚ → ℚ} {instruments : List FactoryInstrument} {m : InterpolationMethod} {ref : PyDate}
    {points : List (List ℚ)} {solution : List ℚ} {knots : List Knot}
    (hk : collect FactoryInstrument.knotValue instruments = .ok knots) (h : CurveInput knots .actAct ref)
    (hpts : ∀ xs ∈ points, xs.length = instruments.length) (hsol : solution.length = instruments.length)
    {yc : YieldCurve} {vss : List (List ℚ)} (hc : constructYieldCurve exp instruments m ref points solution = .ok (yc, vss)) :
    List.Forall₂ (fun xs vs => List.Forall₂ (fun a v =>
        newCurveValue exp m ref (withValues knots xs) a.value = .ok (a.price + v)) instruments vs)
      (instruments.map (fun _ => 0) :: points) vss ∧
    InFactory exp m ref (pySorted Knot.date (withValues knots solution)) yc := by
  have hlen := collect_length hk
  obtain ⟨y0, hy0, hst⟩ := inFactory_initial (exp := exp) (m := m) hk h
  unfold constructYieldCurve at hc
  rw [hy0, ok_bind] at hc
  rcases he : evaluateMany (constructDiffs exp instruments) (instruments.map (fun _ => 0) :: points) y0 with ⟨r, y1⟩
  rw [he] at hc
  cases r with
  | error e => simp at hc
  | ok wss =>
    simp only at hc
    obtain ⟨e1, ks', e2⟩ := evaluateMany_spec hk h _ (by
      intro xs hxs
      rcases List.mem_cons.1 hxs with rfl | hxs
      · simp [hlen]
      · rw [hpts xs hxs, hlen]) hst he
    obtain ⟨y2, hs, hst2⟩ := setKnots_spec hk h e2 (xs := solution) (by rw [hsol, hlen])
    rw [hs] at hc
    simp only [Except.ok.injEq, Prod.mk.injEq] at hc
    obtain ⟨rfl, rfl⟩ := hc
    exact ⟨e1, hst2⟩

/-- C74. `construct_yield_curve` values every asset like a new yield curve whose knots, at the instruments' knot dates, hold the solver's
solution, whatever the order of the instruments, whatever points the solver evaluated before and however the curve is used later. -/
theorem C74_solution (exp : ℚ → ℚ) (instruments : List FactoryInstrument) (m : InterpolationMethod) (ref : PyDate)
    (points : List (List ℚ)) (solution : List ℚ) (knots : List Knot)
    (hk : collect FactoryInstrument.knotValue instruments = .ok knots) (h : CurveInput knots .actAct ref)
    (hpts : ∀ xs ∈ points, xs.length = instruments.length) (hsol : solution.length = instruments.length)
    (yc yc' : YieldCurve) (vss : List (List ℚ)) (hc : constructYieldCurve exp instruments m ref points solution = .ok (yc, vss))
    (hu : Used exp yc yc') (asset : PresentValueable) :
    (yc'.presentValue exp asset noAdjustment).1 =
      newCurveValue exp m ref (List.zipWith (fun k x => ⟨k.date, x⟩) knots solution) asset := by
  obtain ⟨_, hst⟩ := construct_spec hk h hpts hsol hc
  rw [((hst.used hu).value asset).1]
  exact newCurveValue_sorted exp m (h.of_dates (withValues_dates (by rw [hsol, collect_length hk]))) asset

/-- C74. If the solution is one of the points the solver evaluated (its start included), each instrument is worth its price plus the value
the solver saw there: when those values are all zero, every instrument is repriced exactly. -/
theorem C74_reprices (exp : ℚ → ℚ) (instruments : List FactoryInstrument) (m : InterpolationMethod) (ref : PyDate)
    (points : List (List ℚ)) (solution : List ℚ) (knots : List Knot)
    (hk : collect FactoryInstrument.knotValue instruments = .ok knots) (h : CurveInput knots .actAct ref)
    (hpts : ∀ xs ∈ points, xs.length = instruments.length) (hsol : solution.length = instruments.length)
    (yc yc' : YieldCurve) (vss : List (List ℚ)) (hc : constructYieldCurve exp instruments m ref points solution = .ok (yc, vss))
    (hu : Used exp yc yc') (j : Nat) (hj : (instruments.map (fun _ => (0 : ℚ)) :: points)[j]? = some solution) :
    ∃ vs, vss[j]? = some vs ∧ vs.length = instruments.length ∧ ∀ (i : Nat) (a : FactoryInstrument) (v : ℚ),
      instruments[i]? = some a → vs[i]? = some v →
      (yc'.presentValue exp a.value noAdjustment).1 = .ok (a.price + v) := by
  obtain ⟨hlog, -⟩ := construct_spec hk h hpts hsol hc
  obtain ⟨hjl, hje⟩ := List.getElem?_eq_some_iff.1 hj
  have hjv : j < vss.length := by rw [← hlog.length_eq]; exact hjl
  have hvs := (List.forall₂_iff_get.1 hlog).2 j hjl hjv
  simp only [List.get_eq_getElem] at hvs
  rw [hje] at hvs
  refine ⟨vss[j], List.getElem?_eq_getElem hjv, hvs.length_eq.symm, ?_⟩
  intro i a v ha hv
  obtain ⟨hal, rfl⟩ := List.getElem?_eq_some_iff.1 ha
  obtain ⟨hvl, rfl⟩ := List.getElem?_eq_some_iff.1 hv
  rw [C74_solution exp instruments m ref points solution knots hk h hpts hsol yc yc' vss hc hu]
  have := (List.forall₂_iff_get.1 hvs).2 i hal hvl
  simp only [List.get_eq_getElem] at this
  exact this

/-- C74. A curve is returned whenever every instrument can be valued on discount curves reaching to the last knot. -/
theorem C74_builds (exp : ℚ → ℚ) (instruments : List FactoryInstrument) (m : InterpolationMethod)
    (ref : PyDate) (points : List (List ℚ)) (solution : List ℚ) (knots : List Knot) (hm : Interpolates m knots.length)
    (hk : collect FactoryInstrument.knotValue instruments = .ok knots) (h : CurveInput knots .actAct ref)
    (hpts : ∀ xs ∈ points, xs.length = instruments.length) (hsol : solution.length = instruments.length) (last : Knot)
    (hlast : last ∈ knots) (hp : ∀ a ∈ instruments, Priceable ref last.date a.value) :
    ∃ yc vss, constructYieldCurve exp instruments m ref points solution = .ok (yc, vss) := by
  have hlen := collect_length hk
  obtain ⟨y0, hy0, hst⟩ := inFactory_initial (exp := exp) (m := m) hk h
  have hl : ∀ xs ∈ instruments.map (fun _ => (0 : ℚ)) :: points, xs.length = knots.length := by
    intro xs hxs
    rcases List.mem_cons.1 hxs with rfl | hxs
    · simp [hlen]
    · rw [hpts xs hxs, hlen]
  obtain ⟨vss, y1, he⟩ := evaluateMany_ok hm hk h (List.mem_map_of_mem hlast) hp _ hl hst
  obtain ⟨-, ks', hst'⟩ := evaluateMany_spec hk h _ hl hst he
  obtain ⟨y2, hs, -⟩ := setKnots_spec hk h hst' (xs := solution) (by rw [hsol, hlen])
  refine ⟨y2, vss, ?_⟩
  unfold constructYieldCurve
  rw [hy0, ok_bind]
  simp only [he, hs]

/-- A concrete case for the theorems of C74: the two bonds in decreasing order. -/
example : ∃ yc vss vs, constructYieldCurve (fun x => 1 + x) exInstruments.reverse .linear (D 2023 6 1) [[3 / 200, 1 / 100]]
      [3 / 200, 1 / 100] = .ok (yc, vss) ∧ vss[1]? = some vs ∧ ∀ v, vs[0]? = some v →
    (yc.presentValue (fun x => 1 + x) (ZeroCoupon.presentValue (D 2025 6 1)) noAdjustment).1 = .ok (97 / 100 + v) := by
  have hk : collect FactoryInstrument.knotValue exInstruments.reverse = .ok [⟨D 2025 6 1, 97 / 100⟩, ⟨D 2024 6 1, 99 / 100⟩] := rfl
  have hin : CurveInput [⟨D 2025 6 1, 97 / 100⟩, ⟨D 2024 6 1, 99 / 100⟩] .actAct (D 2023 6 1) :=
    ⟨by decide, by decide +kernel, by simp, by decide +kernel, by decide +kernel⟩
  have hpts : ∀ xs ∈ [[(3 / 200 : ℚ), 1 / 100]], xs.length = exInstruments.reverse.length := by
    intro xs hxs; rw [List.mem_singleton.1 hxs]; rfl
  obtain ⟨yc, vss, hb⟩ := C74_builds (fun x => 1 + x) exInstruments.reverse .linear (D 2023 6 1) [[3 / 200, 1 / 100]]
    [3 / 200, 1 / 100] _ (Or.inl rfl) hk hin hpts rfl ⟨D 2025 6 1, 97 / 100⟩ (by simp) (by
      intro a ha
      simp only [exInstruments, List.reverse_cons, List.reverse_nil, List.nil_append, List.cons_append, List.mem_cons, List.not_mem_nil,
        or_false] at ha
      rcases ha with rfl | rfl <;> exact zeroCoupon_priceable (by decide +kernel))
  obtain ⟨vs, h1, _, h3⟩ := C74_reprices _ _ _ _ _ _ _ hk hin hpts rfl yc yc vss hb .start 1 rfl
  exact ⟨yc, vss, vs, hb, h1, fun v hv => h3 0 (zeroInstrument (D 2025 6 1) (97 / 100)) v rfl hv⟩

/-! ## C75 -/

/-- C75. The curve of `construct_curve_from_yield_to_maturities` takes at each instrument's knot date the instrument's knot value. -/
theorem C75_knots_partial (instruments : List FactoryInstrument) (m : InterpolationMethod)
    (ref : PyDate) (knots : List Knot) (hm : Interpolates m knots.length) (hk : collect FactoryInstrument.knotValue instruments = .ok knots)
    (h : CurveInput knots .actAct ref) :
    ∃ yc, constructCurveFromYields instruments m ref = .ok yc ∧
      ∀ a ∈ instruments, ∃ k, a.knotValue = .ok k ∧ yc.base.call k.date = .ok k.value := by
  obtain ⟨c, hc, _⟩ := (C27_builds knots m .actAct .constant .constant).1 ref h
  refine ⟨⟨c, .other, none⟩, ?_, ?_⟩
  · unfold constructCurveFromYields
    rw [hk, ok_bind, yieldCurve_create hc]
  · intro a ha
    obtain ⟨i, hi, rfl⟩ := List.getElem_of_mem ha
    have hil : i < knots.length := by rw [collect_length hk]; exact hi
    have := (List.forall₂_iff_get.1 (collect_ok.1 hk)).2 i hi hil
    simp only [List.get_eq_getElem] at this
    exact ⟨knots[i], this, C27_knots knots m hm .actAct ref .constant .constant h c hc _ (List.getElem_mem hil)⟩

/-- C75 (failure). For a Treasury bond this value is its price, not its yield: with yields near 1 % the curve says about 100. -/
theorem C75_prices_false (t : BondTerms) (b : Bond) (hb : Bond.create t = .ok b) (k : Knot) (hk : b.toKnotValuePair = .ok k)
    (m : InterpolationMethod) (hm : m = .linear ∨ m = .previous) (ref : PyDate) (hr : AxisOk .actAct ref) (hd : ref ≤ k.date) :
    ∃ yc, constructCurveFromYields [⟨t.price, b.toKnotValuePair, b.presentValue⟩] m ref = .ok yc ∧ yc.base.call k.date = .ok t.price := by
  obtain ⟨yc, hyc, hval⟩ := C75_knots_partial [⟨t.price, b.toKnotValuePair, b.presentValue⟩] m ref [k] (.basic hm _)
    (by simp only [collect, hk, ok_bind]) ⟨by decide, hr, by simp, by simp, by simpa using hd⟩
  refine ⟨yc, hyc, ?_⟩
  obtain ⟨k', hk', hcall⟩ := hval ⟨t.price, b.toKnotValuePair, b.presentValue⟩ (by simp)
  simp only at hk'
  rw [hk] at hk'
  injection hk' with hk'
  subst hk'
  rw [hcall, (C73_fixed k.date b t hb k hk).2.2]

/-- C75 (failure). No asset can be valued on such a curve: TypeError. -/
theorem C75_present_value_raises (exp : ℚ → ℚ) (instruments : List FactoryInstrument) (m : InterpolationMethod) (ref : PyDate)
    (yc yc' : YieldCurve) (h : constructCurveFromYields instruments m ref = .ok yc) (hu : Used exp yc yc') (asset : PresentValueable)
    (adj : Adjustment) : (yc'.presentValue exp asset adj).1 = .error .typeError := by
  unfold constructCurveFromYields at h
  rw [bind_ok] at h
  obtain ⟨knots, _, h⟩ := h
  obtain ⟨hs, base, -, rfl⟩ := settings_create (exp := exp) h
  obtain ⟨-, -, hsp⟩ := used_inv hs hu
  simp only at hsp
  unfold YieldCurve.presentValue YieldCurve.toDiscountCurve
  simp only [hsp]

end Verif.Props
