/- Property C88: hedging a portfolio's key-rate risk with the curve's zero-coupon instruments. -/
import Verif.Props.Risk
import Verif.Props.Bond
import Mathlib.Algebra.BigOperators.Fin

namespace Verif.Props
open Verif Verif.Spec Verif.DayCount Verif.KeyRateCollection Verif.Scheduler

/-! ## C88 -/

/-- An instrument which, seen from `ref`, pays the single amount `q` on the date `x`: its value on every discount curve with
that reference date is `q` times the curve's discount factor. -/
def PaysOnce (ref x : PyDate) (q : ℚ) (asset : PresentValueable) : Prop :=
  ∀ f : DiscountFn, f.referenceDate = ref → ∀ v, f.call x = .ok v → asset f = .ok (q * v)

/-- A zero-coupon payment of 1 that is not past pays once. -/
theorem paysOnce_zeroCoupon {ref x : PyDate} (h : ref ≤ x) : PaysOnce ref x 1 (ZeroCoupon.presentValue x) := by
  intro f hf v hv
  rw [one_mul]
  exact (C19_zero_coupon x f).1 (by rw [hf]; exact h) v hv

/-- A zero-coupon Treasury (or corporate) bond that will still be received pays once, on its adjusted maturity date, the
date of its knot. -/
theorem paysOnce_bond {t : BondTerms} {b : Bond} (hz : t.frequency = .zeroCoupon) (h : Bond.create t = .ok b)
    {ref s : PyDate} (hs : addBusinessDays t.calendar ref 1 = .ok s) (hm : s ≤ t.maturityDate) :
    ∃ x, b.toKnotValuePair = .ok ⟨x, t.price⟩ ∧ PaysOnce ref x t.principal b.presentValue := by
  obtain ⟨ht, -, hc, hp, -⟩ := create_ok h
  obtain ⟨a, ha, hpp⟩ := principalCashflow_ok hp
  rw [(C33_zero_coupon t b.datedDate).1 hz] at hc
  injection hc with hc
  refine ⟨a, ?_, ?_⟩
  · unfold Bond.toKnotValuePair
    rw [← hc, hpp, ht]
    rfl
  · intro f hf v hv
    have := C34_present_value_exists b f s (fun _ => v) (by rw [ht, hf]; exact hs) (by
      rw [← hc, hpp]
      intro p hp' _
      simp only [List.nil_append, List.mem_singleton] at hp'
      rw [hp']; exact hv)
    rw [this, ← hc, hpp]
    simp [weightedSum, hm, mul_comm]

/-- The tails of the key-rate weights at the key dates themselves. -/
theorem tailWeight_at (τ : PyDate → ℚ) (dates : List PyDate) (hs : dates.Pairwise (· < ·)) (j k : Nat) (d : PyDate)
    (hj : dates[j]? = some d) (hk : k ≤ dates.length) :
    tailWeight τ dates d k = if k ≤ j then 1 else 0 := by
  obtain ⟨hjl, rfl⟩ := List.getElem?_eq_some_iff.1 hj
  unfold tailWeight
  by_cases h0 : k = 0
  · simp [h0]
  · rw [if_neg h0]
    have h1 : dates[k - 1]? = some (dates[k - 1]'(by omega)) := List.getElem?_eq_getElem (by omega)
    rw [h1]
    rw [List.pairwise_iff_getElem] at hs
    by_cases hkl : k < dates.length
    · rw [List.getElem?_eq_getElem hkl]
      simp only [rampUp]
      by_cases hkj : k ≤ j
      · have l1 : dates[k - 1]'(by omega) < dates[j] := hs _ _ _ _ (by omega)
        have l2 : dates[k] ≤ dates[j] := by
          rcases Nat.lt_or_ge k j with h | h
          · exact le_of_lt (hs _ _ _ _ h)
          · have : k = j := by omega
            subst this; exact le_refl _
        rw [if_neg (not_le.2 l1), if_pos l2, if_pos hkj]
      · have l1 : dates[j] ≤ dates[k - 1]'(by omega) := by
          rcases Nat.lt_or_ge j (k - 1) with h | h
          · exact le_of_lt (hs _ _ _ _ h)
          · have : j = k - 1 := by omega
            subst this; exact le_refl _
        rw [if_pos l1, if_neg hkj]
    · have : k = dates.length := by omega
      rw [List.getElem?_eq_none (by omega), if_neg (by omega)]

/-- Each key rate of a portfolio's collection is its bump times a weight that is 1 at its own date and 0 at the dates of all
the others. -/
theorem keyRate_weights (dcc : DayCountConvention) (hdcc : dcc ≠ .thirty360 ∧ dcc ≠ .unknown) (knots : List PyDate)
    (hlen : 2 ≤ knots.length) (hax : ∀ k ∈ knots, AxisOk dcc k) (base : Nat) (h h' : KRHeap) (c : KeyRateCollection)
    (hc : Portfolio.toKeyRateCollection dcc knots base h = (.ok c, h')) (i : Nat) (hi : i ∈ c.keyRates) :
    ∃ w : PyDate → ℚ, (∀ b d, ((h' i).setBumpVal b).call d = .ok (b * w d)) ∧
      ∀ x ∈ knots, w x = if x = (h' i).keyDate then 1 else 0 := by
  obtain ⟨τ, hτ⟩ : ∃ τ, timeAxis dcc = some τ := by
    cases dcc <;> simp [timeAxis] at hdcc ⊢
  obtain ⟨hp, hs, hw, -, -⟩ := C23_construction _ _ _ _ hc
  obtain ⟨hsort, hperm, hall, -⟩ := C60_key_rates dcc knots base h h' c hc
  obtain ⟨k, hk⟩ := List.mem_iff_getElem?.1 hi
  have hlen' : c.keyRates.length = knots.length := by
    have := hperm.length_eq
    simpa using this
  refine ⟨fun d => tailWeight τ (c.keyRates.map (fun j => (h' j).keyDate)) d k -
    tailWeight τ (c.keyRates.map (fun j => (h' j).keyDate)) d (k + 1), ?_, ?_⟩
  · intro b d
    have := call_weight (fun j => (h' j).setBumpVal b) c.keyRates hs hw (by rw [hlen']; exact hlen) dcc τ hτ b (by
      intro j hj
      refine ⟨(hall j hj).1, rfl, ?_⟩
      refine hax _ (hperm.mem_iff.1 ?_)
      exact List.mem_map.2 ⟨j, hj, rfl⟩) d k i hk
    exact this
  · intro x hx
    have hx' := hperm.mem_iff.2 hx
    obtain ⟨j, hj⟩ := List.mem_iff_getElem?.1 hx'
    have hkl : k < c.keyRates.length := by
      rcases Nat.lt_or_ge k c.keyRates.length with h | h
      · exact h
      · rw [List.getElem?_eq_none h] at hk; cases hk
    have hkd : (c.keyRates.map (fun j => (h' j).keyDate))[k]? = some (h' i).keyDate := by
      rw [List.getElem?_map, hk]; rfl
    simp only
    rw [tailWeight_at τ _ hsort j k x hj (by simpa using le_of_lt hkl),
      tailWeight_at τ _ hsort j (k + 1) x hj (by simpa using hkl)]
    have hiff : x = (h' i).keyDate ↔ j = k := by
      constructor
      · intro e
        rw [e] at hj
        have hnd : (c.keyRates.map (fun j => (h' j).keyDate)).Nodup := hsort.imp (fun hab => ne_of_lt hab)
        obtain ⟨h1, e1⟩ := List.getElem?_eq_some_iff.1 hj
        obtain ⟨h2, e2⟩ := List.getElem?_eq_some_iff.1 hkd
        exact (List.Nodup.getElem_inj_iff hnd).1 (e1.trans e2.symm)
      · rintro rfl
        rw [hj] at hkd
        injection hkd
    by_cases hjk : j = k
    · rw [if_pos (hiff.2 hjk), if_pos (by omega), if_neg (by omega), sub_zero]
    · rw [if_neg (fun e => hjk (hiff.1 e))]
      rcases Nat.lt_or_ge j k with h | h
      · rw [if_neg (by omega), if_neg (by omega), sub_zero]
      · rw [if_pos (by omega), if_pos (by omega), sub_self]

/-- Pricing an instrument that pays once, whenever the unit payment of the same date has a price. -/
theorem presentValue_paysOnce {exp : ℚ → ℚ} {values : List Knot} {m : InterpolationMethod} {dcc : DayCountConvention}
    {space : InterpolationSpace} {ref : PyDate} {l r : EndBehavior} {yc yc' : YieldCurve}
    (hyc : YieldCurve.create values [] m dcc space ref l r = .ok yc) (hu : Used exp yc yc') {x : PyDate} (hx : ref ≤ x)
    {q v : ℚ} {asset : PresentValueable} (ha : PaysOnce ref x q asset) {adj : Adjustment}
    (hv : (yc'.presentValue exp (ZeroCoupon.presentValue x) adj).1 = .ok v) :
    (yc'.presentValue exp asset adj).1 = .ok (q * v) := by
  obtain ⟨hs, base, hbase, rfl⟩ := settings_create (exp := exp) hyc
  have hbr : base.referenceDate = ref := by
    unfold Curve.create at hbase
    simp only [bind_ok] at hbase
    obtain ⟨rr, e1, g, -, e2⟩ := hbase
    injection e1 with e1
    injection e2 with e2
    rw [← e2]; exact e1.symm
  obtain ⟨hs', hb', -⟩ := used_inv hs (.convert yc' adj hu)
  unfold YieldCurve.presentValue at hv ⊢
  rcases h1 : yc'.toDiscountCurve exp adj with ⟨r1, y⟩
  rw [h1] at hv hs' hb'
  cases r1 with
  | error e => simp only at hv; cases hv
  | ok u =>
    cases u
    simp only at hv ⊢
    cases hc : y.discountCurve with
    | none => simp only [hc] at hv; cases hv
    | some c =>
      simp only [hc] at hv ⊢
      have href : c.toDiscountFn.referenceDate = ref := by
        show c.referenceDate = ref
        rw [(hs' c hc).2.1, hb']; exact hbr
      refine ha _ href v ?_
      cases hcall : c.toDiscountFn.call x with
      | ok z =>
        rw [(C19_zero_coupon x c.toDiscountFn).1 (by rw [href]; exact hx) z hcall] at hv
        exact hv
      | error e =>
        exfalso
        unfold ZeroCoupon.presentValue ZeroCoupon.cashflow Cashflow.presentValue at hv
        have hf : (Cashflow.create [(⟨x, some 1⟩ : Payment)]).filterMap (fun p => match p.amount with
            | some a => if c.toDiscountFn.referenceDate ≤ p.date then some (p.date, a) else none
            | none => none) = [(x, 1)] := by
          have : Cashflow.create [(⟨x, some 1⟩ : Payment)] = [⟨x, some 1⟩] := rfl
          rw [this]
          simp [href, hx]
        have hf' := congrArg (pySum (fun pa : PyDate × ℚ => do
          let df ← c.toDiscountFn.call pa.1
          (.ok (df * pa.2) : Except PyErr ℚ))) hf
        have hv' := hf'.symm.trans hv
        simp only [pySum, collect, hcall] at hv'
        cases hv'

/-- C88. In CONTINUOUSLY_COMPOUNDED_YIELD space, with one key rate per knot of the curve: an instrument that pays once, at a
knot, has PV01 zero against every other key rate; against its own it is the change in value when the yield moves from half
a basis point below to half a basis point above, strictly negative for a positive amount paid after the reference date. -/
theorem C88_diagonal_yield (exp : ℚ → ℚ) (hexp : StrictMono exp) (values : List Knot) (hlen : 2 ≤ values.length)
    (m : InterpolationMethod) (hm : Interpolates m values.length) (dcc : DayCountConvention) (ref : PyDate) (l r : EndBehavior)
    (hin : CurveInput values dcc ref) (hl : l = .constant ∨ ∃ k ∈ values, k.date = ref) (τ : PyDate → ℚ)
    (hτ : timeAxis dcc = some τ) (yc yc' : YieldCurve)
    (hyc : YieldCurve.create values [] m dcc .continuouslyCompoundedYield ref l r = .ok yc) (hu : Used exp yc yc')
    (kdcc : DayCountConvention) (hk : kdcc ≠ .thirty360 ∧ kdcc ≠ .unknown) (hax : ∀ k ∈ values, AxisOk kdcc k.date)
    (base : Nat) (h h' : KRHeap) (c : KeyRateCollection)
    (hc : Portfolio.toKeyRateCollection kdcc (values.map Knot.date) base h = (.ok c, h'))
    (x : Knot) (hx : x ∈ values) (q : ℚ) (asset : PresentValueable) (ha : PaysOnce ref x.date q asset)
    (i : Nat) (hi : i ∈ c.keyRates) :
    (yc'.pv01Risk exp asset (h' i)).1 = .ok ⟨(h' i).keyDate,
      if (h' i).keyDate = x.date then q * (exp (-(x.value + 1 / 20000) * (τ x.date - τ ref)) -
        exp (-(x.value - 1 / 20000) * (τ x.date - τ ref))) else 0, .usTreasury⟩ ∧
    (0 < q → ref < x.date → q * (exp (-(x.value + 1 / 20000) * (τ x.date - τ ref)) -
        exp (-(x.value - 1 / 20000) * (τ x.date - τ ref))) < 0) := by
  obtain ⟨w, hw, hwk⟩ := keyRate_weights kdcc hk (values.map Knot.date) (by simpa using hlen)
    (by intro k hk'; obtain ⟨z, hz, rfl⟩ := List.mem_map.1 hk'; exact hax z hz) base h h' c hc i hi
  have hval : ∀ b, (yc.presentValue exp asset ((h' i).setBumpVal b).asAdjustment).1 =
      .ok (q * exp (-(x.value + b * w x.date) * (τ x.date - τ ref))) := by
    intro b
    obtain ⟨y, hy, hpv⟩ := C29_yield_space exp values m hm dcc ref l r hin hl τ hτ yc yc hyc .start
      ((h' i).setBumpVal b).asAdjustment (fun d => b * w d) (fun d => hw b d) x.date (hin.notBefore x hx) ⟨x, hx, le_refl _⟩
    have hkn : yc.base.call x.date = .ok x.value := by
      obtain ⟨-, bs, hbase, rfl⟩ := settings_create (exp := exp) hyc
      exact C27_knots values m hm dcc ref l r hin bs hbase x hx
    rw [hkn] at hy
    injection hy with hy
    subst hy
    exact presentValue_paysOnce hyc .start (hin.notBefore x hx) ha hpv
  have hcd := (C30_central_difference exp values m dcc .continuouslyCompoundedYield ref l r yc yc' hyc hu asset (h' i)
    (h' i).bump _ _ (hval _) (hval _)).2
  rw [show (h' i).setBumpVal (h' i).bump = h' i from rfl] at hcd
  constructor
  · rw [hcd, hwk x.date (List.mem_map.2 ⟨x, hx, rfl⟩)]
    by_cases he : (h' i).keyDate = x.date
    · rw [if_pos he.symm, if_pos he]
      rw [mul_sub q, mul_one, mul_one, show x.value + -1 / 20000 = x.value - 1 / 20000 by ring]
    · rw [if_neg (fun e => he e.symm), if_neg he, mul_zero, mul_zero, sub_self]
  · intro hq hlt
    have ht : 0 < τ x.date - τ ref := by linarith [axis_strictMono hτ hlt]
    have := hexp (show -(x.value + 1 / 20000) * (τ x.date - τ ref) < -(x.value - 1 / 20000) * (τ x.date - τ ref) by nlinarith)
    exact mul_neg_of_pos_of_neg hq (by linarith)

/-- C88. In DISCOUNT_FACTOR space the same holds, with `q` basis points of discount factor on the diagonal. -/
theorem C88_diagonal_discount (exp : ℚ → ℚ) (values : List Knot) (hlen : 2 ≤ values.length)
    (m : InterpolationMethod) (hm : Interpolates m values.length) (dcc : DayCountConvention) (ref : PyDate) (l r : EndBehavior)
    (hin : CurveInput values dcc ref) (yc yc' : YieldCurve)
    (hyc : YieldCurve.create values [] m dcc .discountFactor ref l r = .ok yc) (hu : Used exp yc yc')
    (kdcc : DayCountConvention) (hk : kdcc ≠ .thirty360 ∧ kdcc ≠ .unknown) (hax : ∀ k ∈ values, AxisOk kdcc k.date)
    (base : Nat) (h h' : KRHeap) (c : KeyRateCollection)
    (hc : Portfolio.toKeyRateCollection kdcc (values.map Knot.date) base h = (.ok c, h'))
    (x : Knot) (hx : x ∈ values) (q : ℚ) (asset : PresentValueable) (ha : PaysOnce ref x.date q asset)
    (i : Nat) (hi : i ∈ c.keyRates) :
    (yc'.pv01Risk exp asset (h' i)).1 =
      .ok ⟨(h' i).keyDate, if (h' i).keyDate = x.date then q / 10000 else 0, .usTreasury⟩ := by
  obtain ⟨w, hw, hwk⟩ := keyRate_weights kdcc hk (values.map Knot.date) (by simpa using hlen)
    (by intro k hk'; obtain ⟨z, hz, rfl⟩ := List.mem_map.1 hk'; exact hax z hz) base h h' c hc i hi
  have hval : ∀ b, (yc.presentValue exp asset ((h' i).setBumpVal b).asAdjustment).1 =
      .ok (q * (x.value + b * w x.date)) := by
    intro b
    refine presentValue_paysOnce hyc .start (hin.notBefore x hx) ha ?_
    obtain ⟨hs, bs, hbase, rfl⟩ := settings_create (exp := exp) hyc
    obtain ⟨values', d, hto, hperm, hin', hd, href⟩ := discountFactor_curve (exp := exp) hm hin hbase
      ((h' i).setBumpVal b).asAdjustment (fun z => b * w z) (fun z _ => hw b z.date)
    unfold YieldCurve.presentValue
    simp only [hto]
    have hcall := C27_knots values' m (hm.congr (by rw [hperm.length_eq, List.length_map])) dcc ref .error .error hin' d hd ⟨x.date, x.value + b * w x.date⟩
      (hperm.mem_iff.2 (List.mem_map.2 ⟨x, hx, rfl⟩))
    exact (C19_zero_coupon x.date d.toDiscountFn).1 (by
      show d.referenceDate ≤ x.date
      rw [href]; exact hin.notBefore x hx) _ hcall
  have hcd := (C30_central_difference exp values m dcc .discountFactor ref l r yc yc' hyc hu asset (h' i)
    (h' i).bump _ _ (hval _) (hval _)).2
  rw [show (h' i).setBumpVal (h' i).bump = h' i from rfl] at hcd
  rw [hcd, hwk x.date (List.mem_map.2 ⟨x, hx, rfl⟩)]
  by_cases he : (h' i).keyDate = x.date
  · rw [if_pos he.symm, if_pos he]
    congr 2
    ring
  · rw [if_neg (fun e => he e.symm), if_neg he]
    congr 2
    ring

theorem pv01_of_deriv {exp : ℚ → ℚ} {yc : YieldCurve} (hs : Settings exp yc) {asset : PresentValueable} {k : KeyRate}
    {d : PyDate} {p : ℚ} {n : CurveIndex} (h : (yc.pv01Risk exp asset k).1 = .ok ⟨d, p, n⟩) :
    (yc.keyRateDeriv exp asset k).1 = .ok (p * 10000) := by
  unfold YieldCurve.pv01Risk at h
  rcases hr : yc.keyRateDeriv exp asset k with ⟨r1, y1, k1⟩
  rw [hr] at h
  cases r1 with
  | error e => simp only at h; cases h
  | ok v =>
    simp only at h
    injection h with h
    injection h with _ h2 _
    simp only
    rw [← h2]
    congr 1
    simp only [oneBasisPoint]
    ring

/-- C88. On any yield curve, for any portfolio whose assets and whose hedging instruments have PV01s `ρ`: if the hedge
quantities solve the linear system "hedge PV01 = portfolio PV01" for every key rate, then the hedge has the same risk
ladder as the portfolio, and the portfolio short the hedge has a ladder of zeros, whatever the cash amounts. -/
theorem C88_hedge (exp : ℚ → ℚ) (values : List Knot) (m : InterpolationMethod) (dcc : DayCountConvention)
    (space : InterpolationSpace) (ref : PyDate) (l r : EndBehavior) (yc yc' : YieldCurve)
    (hyc : YieldCurve.create values [] m dcc space ref l r = .ok yc) (hu : Used exp yc yc')
    (h : KRHeap) (c : KeyRateCollection) (entries hedge : List PortfolioEntry) (hne : entries ≠ []) (hne' : hedge ≠ [])
    (cash cash' cash'' : ℚ) (ρ : Nat → PresentValueable → ℚ)
    (hρ : ∀ i ∈ c.keyRates, ∀ e ∈ entries ++ hedge,
      (yc.pv01Risk exp e.asset (h i)).1 = .ok ⟨(h i).keyDate, ρ i e.asset, .usTreasury⟩)
    (hsolve : ∀ i ∈ c.keyRates, (hedge.map (fun e => e.quantity * ρ i e.asset)).sum =
      (entries.map (fun e => e.quantity * ρ i e.asset)).sum) :
    (yc'.pv01RiskLadder exp (portfolioPresentValue hedge cash') h c).1 =
      (yc'.pv01RiskLadder exp (portfolioPresentValue entries cash) h c).1 ∧
    (yc'.pv01RiskLadder exp (portfolioPresentValue (entries ++ hedge.map (fun e => ⟨-e.quantity, e.asset⟩)) cash'') h c).1 =
      .ok (c.keyRates.map (fun i => ⟨(h i).keyDate, 0, .usTreasury⟩)) := by
  have hs := (settings_create (exp := exp) hyc).1
  have key : ∀ (es : List PortfolioEntry) (hes : es ≠ []) (ca : ℚ),
      (∀ e ∈ es, ∃ e' ∈ entries ++ hedge, e'.asset = e.asset) →
      (yc'.pv01RiskLadder exp (portfolioPresentValue es ca) h c).1 = .ok (c.keyRates.map (fun i =>
        (⟨(h i).keyDate, (es.map (fun e => e.quantity * ρ i e.asset)).sum, .usTreasury⟩ : Risk))) := by
    intro es hes ca hmem
    refine (C30_ladder exp values m dcc space ref l r yc yc' hyc hu (portfolioPresentValue es ca) h c
      (fun i => ⟨(h i).keyDate, (es.map (fun e => e.quantity * ρ i e.asset)).sum, .usTreasury⟩) ?_).1
    intro i hi
    have := (C30_portfolio_linear exp values m dcc space ref l r yc yc hyc .start es hes ca (h i)
      (fun e => ρ i e.asset * 10000) (fun e he => by
        obtain ⟨e', he', ea⟩ := hmem e he
        have := hρ i hi e' he'
        rw [ea] at this
        exact pv01_of_deriv hs this)).2
    rw [this]
    congr 4
    funext e
    ring
  constructor
  · rw [key hedge hne' cash' (fun e he => ⟨e, List.mem_append_right _ he, rfl⟩),
      key entries hne cash (fun e he => ⟨e, List.mem_append_left _ he, rfl⟩)]
    congr 1
    apply List.map_congr_left
    intro i hi
    rw [hsolve i hi]
  · rw [key _ (by simp [hne]) cash'' (by
      intro e he
      rcases List.mem_append.1 he with he | he
      · exact ⟨e, List.mem_append_left _ he, rfl⟩
      · obtain ⟨z, hz, rfl⟩ := List.mem_map.1 he
        exact ⟨z, List.mem_append_right _ hz, rfl⟩)]
    congr 1
    apply List.map_congr_left
    intro i hi
    congr 1
    rw [List.map_append, List.sum_append, ← hsolve i hi, List.map_map]
    have : ∀ es : List PortfolioEntry, (es.map (fun e => e.quantity * ρ i e.asset)).sum +
        (es.map ((fun e => e.quantity * ρ i e.asset) ∘ fun e => (⟨-e.quantity, e.asset⟩ : PortfolioEntry))).sum = 0 := by
      intro es
      induction es with
      | nil => simp
      | cons e es ih => simp only [List.map_cons, List.sum_cons, Function.comp_apply] at ih ⊢; linarith
    exact this hedge

theorem sum_diagonal {ι : Type} [DecidableEq ι] (l : List ι) (hl : l.Nodup) (f g : ι → ℚ) (P : ι → ι → Prop)
    [∀ a b, Decidable (P a b)] (hP : ∀ a ∈ l, ∀ b ∈ l, P a b ↔ a = b) (i : ι) (hi : i ∈ l) :
    (l.map (fun j => f j * (if P i j then g j else 0))).sum = f i * g i := by
  rw [← List.sum_toFinset _ hl, Finset.sum_eq_single i]
  · rw [if_pos ((hP i hi i hi).2 rfl)]
  · intro b hb hne
    rw [if_neg (fun h => hne ((hP i hi b (List.mem_toFinset.1 hb)).1 h).symm), mul_zero]
  · intro h; exact absurd (List.mem_toFinset.2 hi) h

/-- C88, end to end. On a CONTINUOUSLY_COMPOUNDED_YIELD curve through at least two knots after the reference date, with the key
rates of its knots and, for each key rate `i`, an instrument `A i` paying once a positive amount on the key date: for every
portfolio with PV01s the hedge quantities solving the linear system exist and are unique, namely each key rate's exposure
divided by the PV01 `R i` of its own instrument; and the portfolio short that hedge has a ladder of zeros. -/
theorem C88_zero_coupon_hedge (exp : ℚ → ℚ) (hexp : StrictMono exp) (values : List Knot) (hlen : 2 ≤ values.length)
    (m : InterpolationMethod) (hm : Interpolates m values.length) (dcc : DayCountConvention) (ref : PyDate) (r : EndBehavior)
    (hin : CurveInput values dcc ref) (hafter : ∀ k ∈ values, ref < k.date) (yc yc' : YieldCurve)
    (hyc : YieldCurve.create values [] m dcc .continuouslyCompoundedYield ref .constant r = .ok yc) (hu : Used exp yc yc')
    (kdcc : DayCountConvention) (hk : kdcc ≠ .thirty360 ∧ kdcc ≠ .unknown) (hax : ∀ k ∈ values, AxisOk kdcc k.date)
    (base : Nat) (h h' : KRHeap) (c : KeyRateCollection)
    (hc : Portfolio.toKeyRateCollection kdcc (values.map Knot.date) base h = (.ok c, h'))
    (A : Nat → PresentValueable) (q : Nat → ℚ) (hA : ∀ i ∈ c.keyRates, 0 < q i ∧ PaysOnce ref (h' i).keyDate (q i) (A i))
    (entries : List PortfolioEntry) (hne : entries ≠ []) (cash cash' : ℚ) (ρ : Nat → PresentValueable → ℚ)
    (hρ : ∀ i ∈ c.keyRates, ∀ e ∈ entries,
      (yc.pv01Risk exp e.asset (h' i)).1 = .ok ⟨(h' i).keyDate, ρ i e.asset, .usTreasury⟩) :
    ∃ R : Nat → ℚ, (∀ i ∈ c.keyRates, R i < 0 ∧ ∀ j ∈ c.keyRates, (yc.pv01Risk exp (A j) (h' i)).1 =
        .ok ⟨(h' i).keyDate, if i = j then R j else 0, .usTreasury⟩) ∧
      (∀ u : Nat → ℚ, (∀ i ∈ c.keyRates, (c.keyRates.map (fun j => u j * (if i = j then R j else 0))).sum =
          (entries.map (fun e => e.quantity * ρ i e.asset)).sum) ↔
        ∀ i ∈ c.keyRates, u i = (entries.map (fun e => e.quantity * ρ i e.asset)).sum / R i) ∧
      (yc'.pv01RiskLadder exp (portfolioPresentValue (entries ++ c.keyRates.map (fun j =>
          ⟨-((entries.map (fun e => e.quantity * ρ j e.asset)).sum / R j), A j⟩)) cash') h' c).1 =
        .ok (c.keyRates.map (fun i => ⟨(h' i).keyDate, 0, .usTreasury⟩)) := by
  obtain ⟨τ, hτ⟩ := hin.axis
  obtain ⟨hsort, hperm, -, -⟩ := C60_key_rates kdcc _ base h h' c hc
  have hnd : (c.keyRates.map (fun j => (h' j).keyDate)).Nodup := hsort.imp (fun hab => ne_of_lt hab)
  have hnd' : c.keyRates.Nodup := List.Nodup.of_map _ hnd
  have hinj : ∀ a ∈ c.keyRates, ∀ b ∈ c.keyRates, (h' a).keyDate = (h' b).keyDate → a = b :=
    fun a ha b hb e => List.inj_on_of_nodup_map hnd ha hb e
  have hknot : ∀ i : Nat, ∃ x : Knot, i ∈ c.keyRates → x ∈ values ∧ x.date = (h' i).keyDate := by
    intro i
    by_cases hi : i ∈ c.keyRates
    · have := hperm.mem_iff.1 (List.mem_map.2 ⟨i, hi, rfl⟩)
      obtain ⟨x, hx, he⟩ := List.mem_map.1 this
      exact ⟨x, fun _ => ⟨hx, he⟩⟩
    · exact ⟨⟨ref, 0⟩, fun h => absurd h hi⟩
  choose X hX using hknot
  set R : Nat → ℚ := fun i => q i * (exp (-((X i).value + 1 / 20000) * (τ (X i).date - τ ref)) -
        exp (-((X i).value - 1 / 20000) * (τ (X i).date - τ ref))) with hR
  have hdiag : ∀ i ∈ c.keyRates, ∀ j ∈ c.keyRates, (yc.pv01Risk exp (A j) (h' i)).1 =
        .ok ⟨(h' i).keyDate, if i = j then R j else 0, .usTreasury⟩ := by
    intro i hi j hj
    have := (C88_diagonal_yield exp hexp values hlen m hm dcc ref .constant r hin (Or.inl rfl) τ hτ yc yc hyc .start kdcc hk hax
      base h h' c hc (X j) (hX j hj).1 (q j) (A j) (by rw [(hX j hj).2]; exact (hA j hj).2) i hi).1
    rw [this]
    congr 2
    have : ((h' i).keyDate = (X j).date) ↔ i = j := by
      rw [(hX j hj).2]
      exact ⟨fun e => hinj i hi j hj e, fun e => by rw [e]⟩
    by_cases e : i = j
    · rw [if_pos (this.2 e), if_pos e]
    · rw [if_neg (fun z => e (this.1 z)), if_neg e]
  have hneg : ∀ i ∈ c.keyRates, R i < 0 := by
    intro i hi
    exact (C88_diagonal_yield exp hexp values hlen m hm dcc ref .constant r hin (Or.inl rfl) τ hτ yc yc hyc .start kdcc hk hax
      base h h' c hc (X i) (hX i hi).1 (q i) (A i) (by rw [(hX i hi).2]; exact (hA i hi).2) i hi).2 (hA i hi).1
      (hafter _ (hX i hi).1)
  have hsum : ∀ (u : Nat → ℚ), ∀ i ∈ c.keyRates, (c.keyRates.map (fun j => u j * (if i = j then R j else 0))).sum = u i * R i :=
    fun u i hi => sum_diagonal c.keyRates hnd' u R (fun a b => a = b) (fun _ _ _ _ => Iff.rfl) i hi
  have hiff : ∀ u : Nat → ℚ, (∀ i ∈ c.keyRates, (c.keyRates.map (fun j => u j * (if i = j then R j else 0))).sum =
          (entries.map (fun e => e.quantity * ρ i e.asset)).sum) ↔
        ∀ i ∈ c.keyRates, u i = (entries.map (fun e => e.quantity * ρ i e.asset)).sum / R i := by
    intro u
    constructor
    · intro hh i hi
      rw [eq_div_iff (ne_of_lt (hneg i hi)), ← hsum u i hi]
      exact hh i hi
    · intro hh i hi
      rw [hsum u i hi, hh i hi, div_mul_cancel₀ _ (ne_of_lt (hneg i hi))]
  refine ⟨R, fun i hi => ⟨hneg i hi, hdiag i hi⟩, hiff, ?_⟩
  let ρ' : Nat → PresentValueable → ℚ := fun i a => match (yc.pv01Risk exp a (h' i)).1 with
    | .ok z => z.pv01
    | .error _ => 0
  have e1 : ∀ i ∈ c.keyRates, ∀ e ∈ entries, ρ' i e.asset = ρ i e.asset := by
    intro i hi e he
    simp only [ρ', hρ i hi e he]
  have e2 : ∀ i ∈ c.keyRates, ∀ j ∈ c.keyRates, ρ' i (A j) = if i = j then R j else 0 := by
    intro i hi j hj
    simp only [ρ', hdiag i hi j hj]
  have hkne : c.keyRates ≠ [] := by
    intro e0
    have := hperm.length_eq
    rw [e0] at this
    simp at this
    omega
  have hent : ∀ i ∈ c.keyRates, (entries.map (fun e => e.quantity * ρ' i e.asset)).sum =
      (entries.map (fun e => e.quantity * ρ i e.asset)).sum := by
    intro i hi
    congr 1
    apply List.map_congr_left
    intro e he
    rw [e1 i hi e he]
  have := (C88_hedge exp values m dcc .continuouslyCompoundedYield ref .constant r yc yc' hyc hu h' c entries
    (c.keyRates.map (fun j => (⟨(entries.map (fun e => e.quantity * ρ j e.asset)).sum / R j, A j⟩ : PortfolioEntry)))
    hne (by simpa using hkne) cash cash' cash' ρ' (by
      intro i hi e he
      rcases List.mem_append.1 he with he | he
      · rw [hρ i hi e he, e1 i hi e he]
      · obtain ⟨j, hj, rfl⟩ := List.mem_map.1 he
        simp only
        rw [hdiag i hi j hj, e2 i hi j hj]) (by
      intro i hi
      rw [hent i hi, ← (hiff (fun j => (entries.map (fun e => e.quantity * ρ j e.asset)).sum / R j)).2 (fun _ _ => rfl) i hi,
        List.map_map]
      congr 1
      apply List.map_congr_left
      intro j hj
      simp only [Function.comp_apply]
      rw [e2 i hi j hj])).2
  rw [List.map_map] at this
  exact this

/-- Concrete case for C88: the example knots, seen from before all of them, and a key rate per knot. -/
example : 2 ≤ exampleKnots.length ∧ CurveInput exampleKnots .act360 (D 2023 6 1) ∧ (∀ k ∈ exampleKnots, D 2023 6 1 < k.date) ∧
    (∀ k ∈ exampleKnots, AxisOk .act360 k.date) ∧
    (∃ yc, YieldCurve.create exampleKnots [] .linear .act360 .continuouslyCompoundedYield (D 2023 6 1) .constant .error = .ok yc) ∧
    (∃ c, (Portfolio.toKeyRateCollection .act360 (exampleKnots.map Knot.date) 0
      (fun _ => KeyRate.create .act360 (D 2020 1 1) none none)).1 = .ok c) ∧
    ∀ k ∈ exampleKnots, PaysOnce (D 2023 6 1) k.date 1 (ZeroCoupon.presentValue k.date) := by
  have hin : CurveInput exampleKnots .act360 (D 2023 6 1) :=
    ⟨by decide, by decide +kernel, by decide +kernel, by decide +kernel, by decide +kernel⟩
  refine ⟨by decide +kernel, hin, by decide +kernel, by decide +kernel, ?_,
    (C60_raises_iff _ _ _ _).2.2 ⟨by decide, by decide +kernel⟩, fun k hk => paysOnce_zeroCoupon (hin.notBefore k hk)⟩
  obtain ⟨c, hc, _⟩ := (C27_builds exampleKnots .linear .act360 .constant .error).1 _ hin
  exact ⟨⟨c, .continuouslyCompoundedYield, none⟩, by simp [exampleKnots, YieldCurve.create] at hc ⊢; rw [hc]; rfl⟩

/-- The example bill of C37 pays once, at its knot. -/
example : ∃ b x, Bond.create exZero = .ok b ∧ b.toKnotValuePair = .ok ⟨x, exZero.price⟩ ∧
    PaysOnce exZero.purchaseDate x exZero.principal b.presentValue := by
  obtain ⟨b, hb, hz, hm, hs, -⟩ := exZero_create
  obtain ⟨x, h1, h2⟩ := paysOnce_bond hz hb hs hm
  exact ⟨b, x, hb, h1, h2⟩

end Verif.Props
