/- Property C142: on a yield curve a bond is worth, and as risky as, the cashflow of its remaining payments; the workflow of main.py. -/
import Verif.Props.KeyRateSign
import Verif.Props.BondLinear
import Verif.Props.CurveFactory
import Verif.Props.RoundedDiscount
import Verif.Props.Risk
import Verif.Props.UsBonds

namespace Verif.Props
open Verif Verif.Spec Verif.DayCount Verif.CurveFactory Verif.Scheduler

/-! ## Specification -/

/-- The payments of a bond due on or after a date, as a plain cashflow. -/
def remaining (b : Bond) (s : PyDate) : List Payment :=
  ((b.coupons ++ b.principalPayments).filter (fun p => s ≤ p.unadjusted)).map (fun p => ⟨p.date, some p.amount⟩)

/-- Two assets have the same values, where they have any, on the discount curves of a reference date. -/
def SameValues (ref : PyDate) (A B : PresentValueable) : Prop :=
  ∀ f : DiscountFn, f.referenceDate = ref → ∀ v, A f = .ok v ↔ B f = .ok v

/-- A bond as its constructor leaves it, with coupons or without. -/
def Made (b : Bond) : Prop :=
  Bond.create b.terms = .ok b ∧ (b.terms.frequency = .zeroCoupon ∨ ∃ k, couponMonths b.terms.frequency = some k)

/-- A bond as an instrument of the factory: its price, its knot and its present value. -/
def asInstrument (b : Bond) : FactoryInstrument := ⟨b.terms.price, b.toKnotValuePair, b.presentValue⟩

/-- A position in a bond. -/
def asPosition (e : ℚ × Bond) : PortfolioEntry := ⟨e.1, e.2.presentValue⟩

/-! ## Remaining payments -/

theorem made_paidOn {b : Bond} (h : Made b) :
    ∀ p ∈ b.coupons ++ b.principalPayments, PaidOn b.terms.calendar b.terms.adjustment p.unadjusted p.date := by
  obtain ⟨h, hf | ⟨k, hk⟩⟩ := h
  · intro p hp
    have hc := (create_ok h).2.2.1
    rw [(C33_zero_coupon b.terms b.datedDate).1 hf] at hc
    injection hc with hc
    rw [← hc, List.nil_append] at hp
    obtain ⟨a, ha, hpp⟩ := principalCashflow_ok (create_ok h).2.2.2.1
    rw [hpp, List.mem_singleton] at hp
    rw [hp]
    exact adjust_paidOn ha
  · exact payment_paidOn hk h

theorem made_amounts {b : Bond} (h : Made b) (hrate : 0 ≤ b.terms.couponRate) (hpr : 0 < b.terms.principal) :
    ∀ p ∈ b.coupons ++ b.principalPayments, 0 ≤ p.amount := by
  obtain ⟨h, hf⟩ := h
  intro p hp
  rcases List.mem_append.1 hp with hp | hp
  · rcases hf with hf | ⟨k, hk⟩
    · have hc := (create_ok h).2.2.1
      rw [(C33_zero_coupon b.terms b.datedDate).1 hf] at hc
      injection hc with hc
      rw [← hc] at hp; simp at hp
    · rw [((C33_coupons b.terms b k hk h).2.2.1 p hp).1]
      positivity
  · obtain ⟨a, ha, hpp⟩ := principalCashflow_ok (create_ok h).2.2.2.1
    rw [hpp, List.mem_singleton] at hp
    rw [hp]
    exact hpr.le

/-- A payment still to be received is not paid before the next business day. -/
theorem received_after {b : Bond} (h : Made b) {ref s : PyDate} (hs : addBusinessDays b.terms.calendar ref 1 = .ok s)
    {p : BondPayment} (hp : p ∈ b.coupons ++ b.principalPayments) (hsp : s ≤ p.unadjusted) : s ≤ p.date ∧ ref < p.date := by
  obtain ⟨r0, hr0, hlt, hbd, -⟩ := nextSettlement_of_add hs
  have := paidOn_ge hbd hsp (made_paidOn h p hp)
  exact ⟨this, lt_of_le_of_lt hr0.1 (lt_of_lt_of_le hlt this)⟩

theorem mem_remaining {b : Bond} {s : PyDate} {q : Payment} :
    q ∈ remaining b s ↔ ∃ p ∈ b.coupons ++ b.principalPayments, s ≤ p.unadjusted ∧ q = ⟨p.date, some p.amount⟩ := by
  unfold remaining
  simp only [List.mem_map, List.mem_filter, decide_eq_true_eq]
  constructor
  · rintro ⟨p, ⟨h1, h2⟩, rfl⟩; exact ⟨p, h1, h2, rfl⟩
  · rintro ⟨p, h1, h2, rfl⟩; exact ⟨p, ⟨h1, h2⟩, rfl⟩

theorem remaining_contribution {b : Bond} (h : Made b) {ref s : PyDate} (hs : addBusinessDays b.terms.calendar ref 1 = .ok s)
    (df : PyDate → ℚ) : ((remaining b s).map (contribution ref df)).sum =
      weightedSum (fun p => s ≤ p.unadjusted) (fun p => df p.date * p.amount) (b.coupons ++ b.principalPayments) := by
  rw [weightedSum_eq_filter]
  unfold remaining
  rw [List.map_map]
  congr 1
  apply List.map_congr_left
  intro p hp
  obtain ⟨h1, h2⟩ := List.mem_filter.1 hp
  have := (received_after h hs h1 (by simpa using h2)).2.le
  simp only [Function.comp_apply, contribution, if_pos this]

/-- C142. A bond has a value on a discount curve exactly when the cashflow of the payments due from the next business day on has
one, and then they are equal. -/
theorem C142_remaining (b : Bond) (h : Made b) (ref s : PyDate) (hs : addBusinessDays b.terms.calendar ref 1 = .ok s) :
    SameValues ref b.presentValue (Cashflow.presentValue (Cashflow.create (remaining b s))) := by
  rintro curve rfl v
  have hns := nextSettlement_of_add hs
  have hval : ∀ df : PyDate → ℚ, (∀ p ∈ b.coupons ++ b.principalPayments, s ≤ p.unadjusted → curve.call p.date = .ok (df p.date)) →
      Cashflow.presentValue (Cashflow.create (remaining b s)) curve =
        .ok (weightedSum (fun p => s ≤ p.unadjusted) (fun p => df p.date * p.amount) (b.coupons ++ b.principalPayments)) := by
    intro df hdf
    rw [← remaining_contribution h hs]
    refine C19_present_value _ _ df ?_
    intro q hq _ _
    obtain ⟨p, hp, hsp, rfl⟩ := mem_remaining.1 hq
    exact hdf p hp hsp
  constructor
  · intro hv
    obtain ⟨s', df, hs', hdf, rfl⟩ := C34_present_value b.terms b h.1 curve v hv
    have := NextSettlement.unique hns hs'
    subst this
    exact hval df hdf
  · intro hv
    have hdf : ∀ d, ∃ x, (∃ p ∈ b.coupons ++ b.principalPayments, s ≤ p.unadjusted ∧ p.date = d) → curve.call d = .ok x := by
      intro d
      by_cases hd : ∃ p ∈ b.coupons ++ b.principalPayments, s ≤ p.unadjusted ∧ p.date = d
      · obtain ⟨p, hp, hsp, rfl⟩ := hd
        cases hc : curve.call p.date with
        | ok x => exact ⟨x, fun _ => rfl⟩
        | error e =>
          obtain ⟨e', he'⟩ := (C19_raises_iff (remaining b s) curve).2 ⟨⟨p.date, some p.amount⟩, mem_remaining.2 ⟨p, hp, hsp, rfl⟩,
            by simp, (received_after h hs hp hsp).2.le, e, hc⟩
          rw [hv] at he'; cases he'
      · exact ⟨0, fun h' => absurd h' hd⟩
    choose df hdf using hdf
    have hdf' : ∀ p ∈ b.coupons ++ b.principalPayments, s ≤ p.unadjusted → curve.call p.date = .ok (df p.date) :=
      fun p hp hsp => hdf p.date ⟨p, hp, hsp, rfl⟩
    rw [hval df hdf'] at hv
    rw [C34_present_value_exists b curve s df hs hdf']
    exact hv

/-! ## Transfer to yield curves -/

theorem create_referenceDate {values : List Knot} {m : InterpolationMethod} {dcc : DayCountConvention} {ref : PyDate} {l r : EndBehavior}
    {c : Curve} (h : Curve.create values m dcc (some ref) l r = .ok c) : c.referenceDate = ref := by
  unfold Curve.create at h
  simp only [bind_ok] at h
  obtain ⟨rr, e1, g, -, e2⟩ := h
  injection e1 with e1
  injection e2 with e2
  rw [← e2]; exact e1.symm

theorem presentValue_same {exp : ℚ → ℚ} {yc : YieldCurve} (hs : Settings exp yc) {ref : PyDate} (hr : yc.base.referenceDate = ref)
    {A B : PresentValueable} (hAB : SameValues ref A B) (adj : Adjustment) (v : ℚ) :
    (yc.presentValue exp A adj).1 = .ok v ↔ (yc.presentValue exp B adj).1 = .ok v := by
  have h := (toDiscountCurve_eq hs adj).2.2
  unfold YieldCurve.presentValue
  rcases hc : yc.toDiscountCurve exp adj with ⟨r1, y1⟩
  rw [hc] at h
  cases r1 with
  | error e => exact Iff.rfl
  | ok u =>
    cases hd : y1.discountCurve with
    | none => simp only [hd]
    | some c =>
      simp only [hd]
      exact hAB _ (((h.1 c hd).2.1).trans ((congrArg Curve.referenceDate h.2.1).trans hr)) v

theorem keyRateDeriv_same {exp : ℚ → ℚ} {yc : YieldCurve} (hs : Settings exp yc) {ref : PyDate} (hr : yc.base.referenceDate = ref)
    {A B : PresentValueable} (hAB : SameValues ref A B) (k : KeyRate) {v : ℚ} (hv : (yc.keyRateDeriv exp A k).1 = .ok v) :
    (yc.keyRateDeriv exp B k).1 = .ok v := by
  have hf : Settings exp ⟨yc.base, yc.space, none⟩ := fun c hc => by cases hc
  have h2 : ∀ b w, bumpedValue exp yc A k b = .ok w → bumpedValue exp yc B k b = .ok w :=
    fun b w h => (presentValue_same hf hr hAB _ w).1 h
  rw [(keyRateDeriv_eq hs Used.start _ k).1, bind_ok] at hv ⊢
  obtain ⟨down, hd, hv⟩ := hv
  rw [bind_ok] at hv
  obtain ⟨up, hu, hv⟩ := hv
  refine ⟨down, h2 _ _ hd, ?_⟩
  rw [bind_ok]
  exact ⟨up, h2 _ _ hu, hv⟩

theorem pv01Risk_iff {exp : ℚ → ℚ} {yc : YieldCurve} (hs : Settings exp yc) (A : PresentValueable) (k : KeyRate) (r : Risk) :
    (yc.pv01Risk exp A k).1 = .ok r ↔
      ∃ v, (yc.keyRateDeriv exp A k).1 = .ok v ∧ r = ⟨k.keyDate, v * oneBasisPoint, .usTreasury⟩ := by
  have h := (keyRateDeriv_eq hs Used.start A k).2.2.2
  unfold YieldCurve.pv01Risk
  rcases hr : yc.keyRateDeriv exp A k with ⟨r1, y1, k1⟩
  rw [hr] at h
  simp only at h
  cases r1 with
  | error e => simp
  | ok v =>
    have := h v rfl
    subst this
    simp only [Except.ok.injEq, exists_eq_left']
    exact ⟨fun h => h.symm, fun h => h.symm⟩

theorem pv01Risk_same {exp : ℚ → ℚ} {yc : YieldCurve} (hs : Settings exp yc) {ref : PyDate} (hr : yc.base.referenceDate = ref)
    {A B : PresentValueable} (hAB : SameValues ref A B) (k : KeyRate) (r : Risk) (h : (yc.pv01Risk exp A k).1 = .ok r) :
    (yc.pv01Risk exp B k).1 = .ok r := by
  obtain ⟨v, hv, rfl⟩ := (pv01Risk_iff hs A k r).1 h
  exact (pv01Risk_iff hs B k _).2 ⟨v, keyRateDeriv_same hs hr hAB k hv, rfl⟩

theorem pv01Risk_map {exp : ℚ → ℚ} {yc : YieldCurve} (hs : Settings exp yc) (A : PresentValueable) (k : KeyRate) :
    (yc.pv01Risk exp A k).1 = (yc.keyRateDeriv exp A k).1.map (fun v => ⟨k.keyDate, v * oneBasisPoint, .usTreasury⟩) := by
  have h := (keyRateDeriv_eq hs Used.start A k).2.2.2
  unfold YieldCurve.pv01Risk
  rcases hr : yc.keyRateDeriv exp A k with ⟨r1, y1, k1⟩
  rw [hr] at h
  simp only at h
  cases r1 with
  | error e => rfl
  | ok v =>
    have := h v rfl
    subst this
    rfl

/-- A risk does not depend on the history of the curve, nor on the bump value left in the key rate. -/
theorem pv01Risk_fresh {exp : ℚ → ℚ} {y : YieldCurve} (hs : Settings exp y) (A : PresentValueable) {k k0 : KeyRate}
    (hk : k.setBumpVal 0 = k0.setBumpVal 0) :
    (y.pv01Risk exp A k).1 = (YieldCurve.pv01Risk exp ⟨y.base, y.space, none⟩ A k0).1 := by
  have hf : Settings exp ⟨y.base, y.space, none⟩ := fun c hc => by cases hc
  rw [(pv01Risk_used hs Used.start A k k0 hk).1, pv01Risk_map hs, pv01Risk_map hf, (keyRateDeriv_eq hs Used.start A k0).1,
    (keyRateDeriv_eq hf Used.start A k0).1]
  rfl

/-- A ladder computed on a curve with any history holds the risks computed on the curve as new. -/
theorem ladder_iff {exp : ℚ → ℚ} {base : Curve} {space : InterpolationSpace} (asset : PresentValueable) (h : KRHeap) :
    ∀ (ids : List Nat) (y : YieldCurve) (h' : KRHeap) (rs : List Risk), Settings exp y → y.base = base → y.space = space →
      (∀ i, (h' i).setBumpVal 0 = (h i).setBumpVal 0) →
      ((YieldCurve.riskLadderLoop exp asset ids y h').1 = .ok rs ↔
        List.Forall₂ (fun i ρ => (YieldCurve.pv01Risk exp ⟨base, space, none⟩ asset (h i)).1 = .ok ρ) ids rs)
  | [], y, h', rs, _, _, _, _ => by
    simp only [YieldCurve.riskLadderLoop, Except.ok.injEq, List.forall₂_nil_left_iff]
    exact eq_comm
  | i :: is, y, h', rs, hs, hb, hsp, hh => by
    subst hb hsp
    have hp := pv01Risk_used hs Used.start asset (h' i) (h i) (hh i)
    have hfr := pv01Risk_fresh hs asset (hh i)
    unfold YieldCurve.riskLadderLoop
    rcases hv : y.pv01Risk exp asset (h' i) with ⟨r1, y1, k1⟩
    rw [hv] at hp hfr
    simp only at hp hfr
    obtain ⟨-, hu1, hk1⟩ := hp
    obtain ⟨u1, u2, u3⟩ := used_inv hs hu1
    have ih := fun rs => ladder_iff (base := y.base) (space := y.space) asset h is y1 (Function.update h' i k1) rs u1 u2 u3 (by
      intro j
      by_cases hj : j = i
      · subst hj; simp only [Function.update_self]; exact hk1
      · rw [Function.update_of_ne hj]; exact hh j)
    rw [List.forall₂_cons_left_iff]
    cases r1 with
    | error e =>
      simp only [← hfr]
      constructor
      · intro h; cases h
      · rintro ⟨a, u, h, -⟩; cases h
    | ok ρ =>
      simp only [← hfr]
      rcases hv2 : YieldCurve.riskLadderLoop exp asset is y1 (Function.update h' i k1) with ⟨r2, y2, h2⟩
      rw [hv2] at ih
      simp only at ih
      cases r2 with
      | error e =>
        constructor
        · intro h; cases h
        · rintro ⟨a, u, -, h, -⟩
          have := (ih u).2 h
          cases this
      | ok ρs =>
        have h0 := (ih ρs).1 rfl
        constructor
        · intro h
          injection h with h
          exact ⟨ρ, ρs, rfl, h0, h.symm⟩
        · rintro ⟨a, u, ha, hu, rfl⟩
          injection ha with ha
          have := (ih u).2 hu
          injection this with this
          rw [ha, this]

/-- C142. On any yield curve, in either space and after any history of pricings and risk calculations, two assets with the same values
on discount curves have the same values under every adjustment, the same key-rate sensitivities and the same risks. -/
theorem C142_transfer (exp : ℚ → ℚ) (values : List Knot) (m : InterpolationMethod) (dcc : DayCountConvention)
    (space : InterpolationSpace) (ref : PyDate) (l r : EndBehavior) (yc yc' : YieldCurve)
    (hyc : YieldCurve.create values [] m dcc space ref l r = .ok yc) (hu : Used exp yc yc') (A B : PresentValueable)
    (hAB : SameValues ref A B) :
    (∀ adj v, (yc'.presentValue exp A adj).1 = .ok v ↔ (yc'.presentValue exp B adj).1 = .ok v) ∧
    (∀ k v, (yc'.keyRateDeriv exp A k).1 = .ok v ↔ (yc'.keyRateDeriv exp B k).1 = .ok v) ∧
    (∀ k ρ, (yc'.pv01Risk exp A k).1 = .ok ρ ↔ (yc'.pv01Risk exp B k).1 = .ok ρ) ∧
    ∀ h c ρs, (yc'.pv01RiskLadder exp A h c).1 = .ok ρs ↔ (yc'.pv01RiskLadder exp B h c).1 = .ok ρs := by
  obtain ⟨hs, base, hbase, rfl⟩ := settings_create (exp := exp) hyc
  obtain ⟨hs', hb', -⟩ := used_inv hs hu
  have hr : yc'.base.referenceDate = ref := by rw [hb']; exact create_referenceDate hbase
  have hBA : SameValues ref B A := fun f hf v => (hAB f hf v).symm
  refine ⟨presentValue_same hs' hr hAB, fun k v => ⟨keyRateDeriv_same hs' hr hAB k, keyRateDeriv_same hs' hr hBA k⟩,
    fun k ρ => ⟨pv01Risk_same hs' hr hAB k ρ, pv01Risk_same hs' hr hBA k ρ⟩, fun h c ρs => ?_⟩
  have hf : Settings exp ⟨yc'.base, yc'.space, none⟩ := fun c hc => by cases hc
  unfold YieldCurve.pv01RiskLadder
  rw [ladder_iff A h _ _ _ _ hs' rfl rfl (fun _ => rfl), ladder_iff B h _ _ _ _ hs' rfl rfl (fun _ => rfl)]
  exact ⟨List.Forall₂.imp (fun _ _ => pv01Risk_same hf hr hAB _ _), List.Forall₂.imp (fun _ _ => pv01Risk_same hf hr hBA _ _)⟩

/-! ## The risk of one bond -/

/-- C142. On a curve of continuously compounded yields reaching to the last payment to be received, a bond is worth, under any
adjustment, each payment to be received times the exponential of minus its adjusted yield times its time. -/
theorem C142_bond_value (exp : ℚ → ℚ) (values : List Knot) (m : InterpolationMethod) (hm : Interpolates m values.length)
    (dcc : DayCountConvention) (ref : PyDate) (l r : EndBehavior) (h : CurveInput values dcc ref)
    (hl : l = .constant ∨ ∃ k ∈ values, k.date = ref) (τ : PyDate → ℚ) (hτ : timeAxis dcc = some τ)
    (yc : YieldCurve) (hyc : YieldCurve.create values [] m dcc .continuouslyCompoundedYield ref l r = .ok yc)
    (b : Bond) (hb : Made b) (s : PyDate) (hs : addBusinessDays b.terms.calendar ref 1 = .ok s)
    (hin : ∀ p ∈ b.coupons ++ b.principalPayments, s ≤ p.unadjusted → ∃ k ∈ values, p.date ≤ k.date) :
    ∃ y : PyDate → ℚ, (∀ d, ref ≤ d → (∃ k ∈ values, d ≤ k.date) → yc.base.call d = .ok (y d)) ∧
      ∀ (yc' : YieldCurve), Used exp yc yc' → ∀ (adj : Adjustment) (a : PyDate → ℚ), (∀ d, adj (.date d) = .ok (a d)) →
        (yc'.presentValue exp b.presentValue adj).1 =
          .ok (weightedSum (fun p => s ≤ p.unadjusted) (fun p => exp (-(y p.date + a p.date) * (τ p.date - τ ref)) * p.amount)
            (b.coupons ++ b.principalPayments)) := by
  obtain ⟨y, hy, hval⟩ := C123_yield_value exp values m hm dcc ref l r h hl τ hτ yc hyc (remaining b s) (by
    intro q hq _ _
    obtain ⟨p, hp, hsp, rfl⟩ := mem_remaining.1 hq
    exact hin p hp hsp)
  refine ⟨y, hy, fun yc' hu adj a ha => ?_⟩
  rw [((C142_transfer exp values m dcc _ ref l r yc yc' hyc hu _ _ (C142_remaining b hb ref s hs)).1 adj _), hval yc' hu adj a ha,
    remaining_contribution hb hs]

/-- C142. On a curve of continuously compounded yields a key rate's pv01 of a bond without negative payments is never positive, and it is
zero when none of the payments to be received falls strictly between the key rate's neighbours - and, if `exp` is strictly increasing,
only then. -/
theorem C142_bond_risk (exp : ℚ → ℚ) (hexp : Monotone exp) (values : List Knot) (m : InterpolationMethod)
    (hm : Interpolates m values.length) (dcc : DayCountConvention) (ref : PyDate) (l r : EndBehavior)
    (h : CurveInput values dcc ref) (hl : l = .constant ∨ ∃ k ∈ values, k.date = ref) (yc yc' : YieldCurve)
    (hyc : YieldCurve.create values [] m dcc .continuouslyCompoundedYield ref l r = .ok yc) (hu : Used exp yc yc')
    (b : Bond) (hb : Made b) (hrate : 0 ≤ b.terms.couponRate) (hpr : 0 < b.terms.principal)
    (s : PyDate) (hs : addBusinessDays b.terms.calendar ref 1 = .ok s)
    (hin : ∀ p ∈ b.coupons ++ b.principalPayments, s ≤ p.unadjusted → ∃ k ∈ values, p.date ≤ k.date)
    (k : KeyRate) (hk : Neighboured k) :
    ∃ v, (yc'.pv01Risk exp b.presentValue k).1 = .ok ⟨k.keyDate, v, .usTreasury⟩ ∧ v ≤ 0 ∧
      ((∀ p ∈ b.coupons ++ b.principalPayments, s ≤ p.unadjusted → 0 < p.amount → ¬ InWindow k.prior k.next p.date) → v = 0) ∧
      (StrictMono exp → v = 0 →
        ∀ p ∈ b.coupons ++ b.principalPayments, s ≤ p.unadjusted → 0 < p.amount → ¬ InWindow k.prior k.next p.date) := by
  obtain ⟨v, h1, h2, h3, h4⟩ := C123_yield_space exp hexp values m hm dcc ref l r h hl yc yc' hyc hu (remaining b s) (by
    intro q hq _ _
    obtain ⟨p, hp, hsp, rfl⟩ := mem_remaining.1 hq
    exact hin p hp hsp) (by
    intro q hq x hx
    obtain ⟨p, hp, hsp, rfl⟩ := mem_remaining.1 hq
    injection hx with hx
    rw [← hx]
    exact made_amounts hb hrate hpr p hp) k hk
  refine ⟨v, ((C142_transfer exp values m dcc _ ref l r yc yc' hyc hu _ _ (C142_remaining b hb ref s hs)).2.2.1 k _).2 h1, h2, ?_, ?_⟩
  · intro hno
    refine h3 ?_
    intro q hq x hx hx0 _
    obtain ⟨p, hp, hsp, rfl⟩ := mem_remaining.1 hq
    injection hx with hx
    exact hno p hp hsp (by rw [hx]; exact hx0)
  · intro hst hv p hp hsp hpos
    exact h4 hst hv ⟨p.date, some p.amount⟩ (mem_remaining.2 ⟨p, hp, hsp, rfl⟩) p.amount rfl hpos (received_after hb hs hp hsp).2

/-- C142. On a curve of discount factors reaching from the first to the last payment to be received, the risks of a bond over a collection
of two or more key rates add up to one basis point of the sum of those payments: what a parallel shift of the discount factors moves. -/
theorem C142_bond_ladder (exp : ℚ → ℚ) (bonds : List Knot) (m : InterpolationMethod) (hm : Interpolates m bonds.length)
    (dcc : DayCountConvention) (ref : PyDate) (l r : EndBehavior) (h : CurveInput bonds dcc ref) (yc yc' : YieldCurve)
    (hyc : YieldCurve.create bonds [] m dcc .discountFactor ref l r = .ok yc) (hu : Used exp yc yc')
    (b : Bond) (hb : Made b) (s : PyDate) (hs : addBusinessDays b.terms.calendar ref 1 = .ok s)
    (hin : ∀ p ∈ b.coupons ++ b.principalPayments, s ≤ p.unadjusted →
      (∃ k ∈ bonds, k.date ≤ p.date) ∧ ∃ k ∈ bonds, p.date ≤ k.date)
    (heap heap' : KRHeap) (ids : List Nat) (c : KeyRateCollection) (hc : KeyRateCollection.create heap ids = (.ok c, heap'))
    (hlen : 2 ≤ ids.length) (kdcc : DayCountConvention) (hk : kdcc ≠ .thirty360 ∧ kdcc ≠ .unknown)
    (hall : ∀ i ∈ ids, (heap i).dcc = kdcc ∧ AxisOk kdcc (heap i).keyDate) :
    ∃ risks up down, (yc'.pv01RiskLadder exp b.presentValue heap' c).1 = .ok risks ∧
      (yc'.presentValue exp b.presentValue (fun _ => .ok (1 / 20000))).1 = .ok up ∧
      (yc'.presentValue exp b.presentValue (fun _ => .ok (-1 / 20000))).1 = .ok down ∧
      risks.length = ids.length ∧ (risks.map Risk.pv01).sum = up - down ∧
      (risks.map Risk.pv01).sum =
        1 / 10000 * weightedSum (fun p => s ≤ p.unadjusted) (fun p => p.amount) (b.coupons ++ b.principalPayments) := by
  obtain ⟨risks, up, down, h1, h2, h3, h4, h5, h6⟩ := C107_ladder_total exp bonds m hm dcc ref l r h yc yc' hyc hu (remaining b s) (by
    intro q hq _ _
    obtain ⟨p, hp, hsp, rfl⟩ := mem_remaining.1 hq
    exact hin p hp hsp) heap heap' ids c hc hlen kdcc hk hall
  obtain ⟨t1, -, -, t4⟩ := C142_transfer exp bonds m dcc _ ref l r yc yc' hyc hu _ _ (C142_remaining b hb ref s hs)
  refine ⟨risks, up, down, (t4 _ _ _).2 h1, (t1 _ _).2 h2, (t1 _ _).2 h3, h4, h5, ?_⟩
  rw [h6]
  congr 1
  show ((remaining b s).map (contribution ref (fun _ => 1))).sum = _
  rw [remaining_contribution hb hs]
  simp only [one_mul]

/-! ## The workflow of main.py -/

theorem bond_priceable {b : Bond} (hb : Made b) {ref last s : PyDate} (hs : addBusinessDays b.terms.calendar ref 1 = .ok s)
    (hlast : ∀ p ∈ b.coupons ++ b.principalPayments, p.date ≤ last) : Priceable ref last b.presentValue := by
  rintro f rfl hf
  classical
  refine ⟨_, C34_present_value_exists b f s
    (fun d => if hd : f.referenceDate ≤ d ∧ d ≤ last then (hf d hd.1 hd.2).choose else 0) hs ?_⟩
  intro p hp hsp
  have hc : f.referenceDate ≤ p.date ∧ p.date ≤ last := ⟨(received_after hb hs hp hsp).2.le, hlast p hp⟩
  rw [dif_pos hc]
  exact (hf p.date hc.1 hc.2).choose_spec

theorem exists_last {ks : List Knot} (h : ks ≠ []) : ∃ k ∈ ks, ∀ j ∈ ks, j.date ≤ k.date := by
  induction ks with
  | nil => exact absurd rfl h
  | cons a as ih =>
    by_cases ha : as = []
    · subst ha; exact ⟨a, by simp, by simp⟩
    · obtain ⟨k, hk, hm⟩ := ih ha
      rcases le_total a.date k.date with hle | hle
      · exact ⟨k, by simp [hk], fun j hj => by
          rcases List.mem_cons.1 hj with rfl | hj
          · exact hle
          · exact hm j hj⟩
      · exact ⟨a, by simp, fun j hj => by
          rcases List.mem_cons.1 hj with rfl | hj
          · exact le_refl _
          · exact le_trans (hm j hj) hle⟩

/-- C142. The workflow of main.py: bootstrap a curve from two or more bonds whose last payment dates differ, make the key rates of those
bonds, and compute the risk ladder of a portfolio of bonds none of which pays after the last of them.  It never raises, whatever points
the root searches evaluate; the ladder has one risk for each of those last payment dates, in date order; each is the sum, over the
positions, of the quantity times the risk of the bond on its own; and the risks of a portfolio without short positions are not positive. -/
theorem C142_workflow (exp : ℚ → ℚ) (hexp : Monotone exp) (bonds : List Bond) (hmade : ∀ b ∈ bonds, Made b) (hlen : 2 ≤ bonds.length)
    (m : InterpolationMethod) (hm : Interpolates m bonds.length) (ref : PyDate) (points : Nat → List ℚ) (knots : List Knot)
    (hk : collect Bond.toKnotValuePair bonds = .ok knots) (h : CurveInput knots .actAct ref)
    (positions : List (ℚ × Bond)) (hne : positions ≠ []) (cash : ℚ)
    (hpos : ∀ e ∈ positions, Made e.2 ∧ 0 ≤ e.2.terms.couponRate ∧ 0 < e.2.terms.principal)
    (hs : ∀ b, b ∈ bonds ∨ b ∈ positions.map Prod.snd → ∃ s, addBusinessDays b.terms.calendar ref 1 = .ok s)
    (hin : ∀ e ∈ positions, ∀ p ∈ e.2.coupons ++ e.2.principalPayments, ∃ k ∈ knots, p.date ≤ k.date)
    (base : Nat) (heap : KRHeap) :
    ∃ yc vss c heap' risks, bootstrapYieldCurve exp (bonds.map asInstrument) m ref points = .ok (yc, vss) ∧
      Portfolio.toKeyRateCollection .actAct (knots.map Knot.date) base heap = (.ok c, heap') ∧
      (yc.pv01RiskLadder exp (portfolioPresentValue (positions.map asPosition) cash) heap' c).1 = .ok risks ∧
      (risks.map Risk.keyRateDate).Pairwise (· < ·) ∧ (risks.map Risk.keyRateDate).Perm (knots.map Knot.date) ∧
      (∀ ρ ∈ risks, ∃ i ∈ c.keyRates, ρ.keyRateDate = (heap' i).keyDate ∧ ∃ v : Bond → ℚ,
        (∀ e ∈ positions, (yc.pv01Risk exp e.2.presentValue (heap' i)).1 = .ok ⟨(heap' i).keyDate, v e.2, .usTreasury⟩ ∧ v e.2 ≤ 0) ∧
        ρ.pv01 = (positions.map (fun e => e.1 * v e.2)).sum) ∧
      ((∀ e ∈ positions, 0 ≤ e.1) → ∀ ρ ∈ risks, ρ.pv01 ≤ 0) := by
  have hpm : ∀ b, b ∈ positions.map Prod.snd → Made b ∧ 0 ≤ b.terms.couponRate ∧ 0 < b.terms.principal := by
    intro b hb
    obtain ⟨e, he, rfl⟩ := List.mem_map.1 hb
    exact hpos e he
  have hk' : collect FactoryInstrument.knotValue (bonds.map asInstrument) = .ok knots := by
    rw [← hk]
    clear hk hs hm hlen hmade
    induction bonds with
    | nil => rfl
    | cons b bs ih => simp only [List.map_cons, collect, ih]; rfl
  have hF := collect_ok.1 hk
  have hn : knots.length = bonds.length := collect_length hk
  have hbk : ∀ b ∈ bonds, ∃ k ∈ knots, b.toKnotValuePair = .ok k := by
    intro b hb
    obtain ⟨k, hk, he⟩ := forall₂_mem_right hF.flip hb
    exact ⟨k, hk, he⟩
  obtain ⟨last, hlast, hmax⟩ := exists_last h.nonempty
  have hp : ∀ a ∈ bonds.map asInstrument, Priceable ref last.date a.value := by
    intro a ha
    obtain ⟨b, hb, rfl⟩ := List.mem_map.1 ha
    obtain ⟨s, hsb⟩ := hs b (Or.inl hb)
    obtain ⟨k, hkm, hke⟩ := hbk b hb
    obtain ⟨k', hk1, -, hk2, -⟩ := C73_bond_knot b b.terms (hmade b hb).1
    rw [hke] at hk1
    injection hk1 with hk1
    subst hk1
    exact bond_priceable (hmade b hb) hsb (fun p hp => le_trans (hk2 p hp) (hmax k hkm))
  obtain ⟨yc, vss, hb⟩ := C73_builds exp (bonds.map asInstrument) m ref points knots (hm.congr hn) hk' h last hlast hp
  obtain ⟨hfac, -, -⟩ := bootstrap_spec hk' h hb
  set ks := finalKnots points (pySorted Knot.date knots) with hks
  have hdates : (ks.map Knot.date).Perm (knots.map Knot.date) := by
    rw [hks]
    unfold finalKnots
    rw [map_date_mapIdx]
    exact (pySorted_perm Knot.date knots).map _
  have hkslen : ks.length = bonds.length := by
    have := hdates.length_eq
    simp only [List.length_map] at this
    rw [this, hn]
  have hyc := yieldCurve_create (sp := .continuouslyCompoundedYield) hfac.base
  obtain ⟨-, c60⟩ := C60_raises_iff .actAct (knots.map Knot.date) base heap
  obtain ⟨c, hc1⟩ := c60.2 ⟨by simp [h.nonempty], h.distinct⟩
  rcases hc : Portfolio.toKeyRateCollection .actAct (knots.map Knot.date) base heap with ⟨r1, heap'⟩
  rw [hc] at hc1
  simp only at hc1
  subst hc1
  obtain ⟨q1, q2, q3, -⟩ := C60_key_rates .actAct (knots.map Knot.date) base heap heap' c hc
  obtain ⟨w1, -, -, w4, -⟩ := C23_construction _ _ c heap' hc
  have hnb := collection_neighboured _ _ c heap' hc (by simp only [List.length_range', List.length_map]; omega) .actAct
    (by decide) (by
      intro i hi
      have hi' := w1.mem_iff.2 hi
      obtain ⟨e1, e2, -⟩ := w4 i
      rw [← e1, ← e2]
      refine ⟨(q3 i hi').1, ?_⟩
      have : (heap' i).keyDate ∈ knots.map Knot.date := q2.mem_iff.1 (List.mem_map_of_mem hi')
      obtain ⟨k, hk, hke⟩ := List.mem_map.1 this
      rw [← hke]
      intro _
      have := h.refOk rfl
      have := year_mono (h.notBefore k hk)
      omega)
  have hrisk : ∀ i b, ∃ v : ℚ, i ∈ c.keyRates → b ∈ positions.map Prod.snd →
      (YieldCurve.pv01Risk exp ⟨yc.base, .continuouslyCompoundedYield, none⟩ b.presentValue (heap' i)).1 =
        .ok ⟨(heap' i).keyDate, v, .usTreasury⟩ ∧ v ≤ 0 := by
    intro i b
    by_cases hib : i ∈ c.keyRates ∧ b ∈ positions.map Prod.snd
    · obtain ⟨hmb, hrb, hprb⟩ := hpm b hib.2
      obtain ⟨s, hsb⟩ := hs b (Or.inr hib.2)
      obtain ⟨v, h1, h2, -⟩ := C142_bond_risk exp hexp ks m (hm.congr hkslen) .actAct ref .constant .constant hfac.input (Or.inl rfl) _ _
        hyc Used.start b hmb hrb hprb s hsb (by
          intro p hp _
          obtain ⟨e, he, rfl⟩ := List.mem_map.1 hib.2
          obtain ⟨k, hk, hle⟩ := hin e he p hp
          have : k.date ∈ ks.map Knot.date := hdates.mem_iff.2 (List.mem_map_of_mem hk)
          obtain ⟨k', hk', he'⟩ := List.mem_map.1 this
          exact ⟨k', hk', by rw [he']; exact hle⟩) (heap' i) (hnb i hib.1)
      exact ⟨v, fun _ _ => ⟨h1, h2⟩⟩
    · exact ⟨0, fun h1 h2 => absurd ⟨h1, h2⟩ hib⟩
  choose v hv using hrisk
  have hf : Settings exp ⟨yc.base, .continuouslyCompoundedYield, none⟩ := fun c hc => by cases hc
  let ρ : Nat → Risk := fun i => ⟨(heap' i).keyDate, (positions.map (fun e => e.1 * v i e.2)).sum, .usTreasury⟩
  have hport : ∀ i ∈ c.keyRates, (YieldCurve.pv01Risk exp ⟨yc.base, .continuouslyCompoundedYield, none⟩
      (portfolioPresentValue (positions.map asPosition) cash) (heap' i)).1 = .ok (ρ i) := by
    intro i hi
    let δ : PortfolioEntry → ℚ := fun e =>
      match (YieldCurve.keyRateDeriv exp ⟨yc.base, .continuouslyCompoundedYield, none⟩ e.asset (heap' i)).1 with
      | .ok x => x
      | .error _ => 0
    have hd : ∀ e ∈ positions, (YieldCurve.keyRateDeriv exp ⟨yc.base, .continuouslyCompoundedYield, none⟩
        (asPosition e).asset (heap' i)).1 = .ok (δ (asPosition e)) ∧ v i e.2 = δ (asPosition e) * (1 / 10000) := by
      intro e he
      obtain ⟨x, hx, hr⟩ := (pv01Risk_iff hf _ _ _).1 (hv i e.2 hi (List.mem_map_of_mem he)).1
      have hδ : δ (asPosition e) = x := by
        show (match (YieldCurve.keyRateDeriv exp ⟨yc.base, .continuouslyCompoundedYield, none⟩ e.2.presentValue (heap' i)).1 with
          | .ok x => x
          | .error _ => 0) = x
        rw [hx]
      rw [hδ]
      refine ⟨hx, ?_⟩
      injection hr
    have := (C30_portfolio_linear exp ks m .actAct .continuouslyCompoundedYield ref .constant .constant _ _ hyc Used.start
      (positions.map asPosition) (by simp [hne]) cash (heap' i) δ (by
        intro e he
        obtain ⟨a, ha, rfl⟩ := List.mem_map.1 he
        exact (hd a ha).1)).2
    rw [this]
    congr 2
    rw [List.map_map]
    congr 1
    apply List.map_congr_left
    intro e he
    rw [(hd e he).2]
    rfl
  have hlad : (yc.pv01RiskLadder exp (portfolioPresentValue (positions.map asPosition) cash) heap' c).1 = .ok (c.keyRates.map ρ) := by
    unfold YieldCurve.pv01RiskLadder
    rw [ladder_iff _ heap' _ _ _ _ hfac.settings rfl hfac.space (fun _ => rfl), List.forall₂_map_right_iff, List.forall₂_same]
    exact hport
  have hkd : (c.keyRates.map ρ).map Risk.keyRateDate = c.keyRates.map (fun i => (heap' i).keyDate) := by
    rw [List.map_map]; rfl
  refine ⟨yc, vss, c, heap', c.keyRates.map ρ, hb, rfl, hlad, by rw [hkd]; exact q1, by rw [hkd]; exact q2, ?_, ?_⟩
  · intro x hx
    obtain ⟨i, hi, rfl⟩ := List.mem_map.1 hx
    refine ⟨i, hi, rfl, v i, ?_, rfl⟩
    intro e he
    obtain ⟨h1, h2⟩ := hv i e.2 hi (List.mem_map_of_mem he)
    refine ⟨?_, h2⟩
    rw [pv01Risk_fresh hfac.settings e.2.presentValue (k0 := heap' i) rfl, hfac.space]
    exact h1
  · intro hq x hx
    obtain ⟨i, hi, rfl⟩ := List.mem_map.1 hx
    refine sum_nonpos_list ?_
    intro y hy
    obtain ⟨e, he, rfl⟩ := List.mem_map.1 hy
    exact mul_nonpos_of_nonneg_of_nonpos (hq e he) (hv i e.2 hi (List.mem_map_of_mem he)).2

/-! ### A concrete workflow: a one-year zero-coupon bond and the two-year note of C33, a long-short portfolio of both -/

def zcTerms : BondTerms :=
  { exTerms with price := 97, couponRate := 0, tenor := ⟨some 1, 'Y'⟩, maturityDate := D 2024 2 22, frequency := .zeroCoupon }

theorem zcTerms_create : ∃ b, Bond.create zcTerms = .ok b ∧ b.coupons = [] ∧
    b.principalPayments = [⟨D 2024 2 22, D 2024 2 22, 100⟩] := by
  have h1 : zcTerms.datedDate = .ok (D 2023 2 22) := by decide +kernel
  have h2 : zcTerms.principalCashflow = .ok [⟨D 2024 2 22, D 2024 2 22, 100⟩] := by decide +kernel
  have h3 : calculateSettlementDate zcTerms.calendar zcTerms.purchaseDate zcTerms.settlementConvention =
    .ok (D 2023 6 2) := by decide +kernel
  have h0 : zcTerms.couponCashflow (D 2023 2 22) = .ok [] := rfl
  have h4 : Bond.accruedInterestOf zcTerms (D 2023 2 22) [] (D 2023 6 2) none = .ok 0 := by decide +kernel
  have h5 : pyDiv 0 zcTerms.principal = .ok (0 / 100) := pyDiv_of_ne (by decide +kernel)
  unfold Bond.create
  rw [h1, ok_bind, h0, ok_bind, h2, ok_bind, h3, ok_bind, h4, ok_bind, h5, ok_bind]
  exact ⟨_, rfl, rfl, rfl⟩

/-- The workflow: the hypotheses of `C142_workflow` hold, selling two of the notes against one zero-coupon bond. -/
example : ∃ b1 b2, Bond.create exTerms = .ok b1 ∧ Bond.create zcTerms = .ok b2 ∧
    ∃ yc vss c heap' risks, bootstrapYieldCurve (fun x => 1 + x) ([b2, b1].map asInstrument) .linear (D 2023 6 1)
        (fun _ => [1 / 2, 1 / 100]) = .ok (yc, vss) ∧
      Portfolio.toKeyRateCollection .actAct [D 2024 2 22, D 2025 2 18] 7 (fun _ => exKey) = (.ok c, heap') ∧
      (yc.pv01RiskLadder (fun x => 1 + x) (portfolioPresentValue ([(1, b2), (-2, b1)].map asPosition) 5) heap' c).1 = .ok risks ∧
      (risks.map Risk.keyRateDate).Perm [D 2024 2 22, D 2025 2 18] := by
  obtain ⟨b1, h1, -, -, hc1, hp1, -⟩ := exTerms_create
  obtain ⟨b2, h2, hc2, hp2⟩ := zcTerms_create
  have t1 := (create_ok h1).1
  have t2 := (create_ok h2).1
  have m1 : Made b1 := ⟨by rw [t1]; exact h1, Or.inr ⟨6, by rw [t1]; rfl⟩⟩
  have m2 : Made b2 := ⟨by rw [t2]; exact h2, Or.inl (by rw [t2]; rfl)⟩
  have hset : addBusinessDays usFederalHolidays (D 2023 6 1) 1 = .ok (D 2023 6 2) := by decide +kernel
  have hk : collect Bond.toKnotValuePair [b2, b1] = .ok [⟨D 2024 2 22, 97⟩, ⟨D 2025 2 18, 99⟩] := by
    have k1 : b1.toKnotValuePair = .ok ⟨D 2025 2 18, 99⟩ := by
      simp only [Bond.toKnotValuePair, hc1, hp1, t1]; rfl
    have k2 : b2.toKnotValuePair = .ok ⟨D 2024 2 22, 97⟩ := by
      simp only [Bond.toKnotValuePair, hc2, hp2, t2]; rfl
    simp only [collect, k1, k2, ok_bind]
  have hin : CurveInput [⟨D 2024 2 22, 97⟩, ⟨D 2025 2 18, 99⟩] .actAct (D 2023 6 1) :=
    ⟨by decide, by decide +kernel, by simp, by decide +kernel, by decide +kernel⟩
  obtain ⟨yc, vss, c, heap', risks, r1, r2, r3, -, r5, -⟩ := C142_workflow (fun x => 1 + x) (fun a b h => by simpa using h) [b2, b1] (by
      intro b hb
      simp only [List.mem_cons, List.not_mem_nil, or_false] at hb
      rcases hb with rfl | rfl
      · exact m2
      · exact m1) (by simp) .linear (Or.inl rfl) (D 2023 6 1) (fun _ => [1 / 2, 1 / 100]) _ hk hin [(1, b2), (-2, b1)] (by simp) 5 (by
      intro e he
      simp only [List.mem_cons, List.not_mem_nil, or_false] at he
      rcases he with rfl | rfl
      · exact ⟨m2, by simp only [t2]; decide +kernel, by simp only [t2]; decide +kernel⟩
      · exact ⟨m1, by simp only [t1]; decide +kernel, by simp only [t1]; decide +kernel⟩) (by
      intro b hb
      simp only [List.mem_cons, List.map_cons, List.map_nil, List.not_mem_nil, or_false] at hb
      rcases hb with (rfl | rfl) | (rfl | rfl)
      · exact ⟨_, by rw [t2]; exact hset⟩
      · exact ⟨_, by rw [t1]; exact hset⟩
      · exact ⟨_, by rw [t2]; exact hset⟩
      · exact ⟨_, by rw [t1]; exact hset⟩) (by
      intro e he p hp
      refine ⟨⟨D 2025 2 18, 99⟩, by simp, ?_⟩
      simp only [List.mem_cons, List.not_mem_nil, or_false] at he
      rcases he with rfl | rfl
      · simp only [hc2, hp2] at hp
        revert p
        decide +kernel
      · simp only [hc1, hp1] at hp
        revert p
        decide +kernel) 7 (fun _ => exKey)
  exact ⟨b1, b2, h1, h2, yc, vss, c, heap', risks, r1, r2, r3, r5⟩

end Verif.Props
