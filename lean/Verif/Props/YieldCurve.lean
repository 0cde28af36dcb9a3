/- Properties C29-C32: yield curves, key-rate risk and portfolios. -/
import Verif.Props.Curve
import Mathlib.Data.Finset.Max
import Mathlib.Algebra.BigOperators.Ring.List

namespace Verif.Props
open Verif Verif.Spec Verif.DayCount

theorem collect_eq_map {α β : Type} {f : α → Except PyErr β} {g : α → β} {l : List α} (h : ∀ a ∈ l, f a = .ok (g a)) :
    collect f l = .ok (l.map g) := by
  induction l with
  | nil => rfl
  | cons a as ih =>
    simp only [collect, h a (by simp), ok_bind]
    rw [ih (fun b hb => h b (by simp [hb])), ok_bind]; rfl

/-! ## States of a yield curve -/

/-- The settings of the stored discount curve are the ones a fresh one would get. -/
def Settings (exp : ℚ → ℚ) (yc : YieldCurve) : Prop :=
  ∀ c, yc.discountCurve = some c → c.dcc = yc.base.dcc ∧ c.referenceDate = yc.base.referenceDate ∧ c.left = .error ∧
    c.right = .error ∧
    c.method = (match yc.space with
      | .discountFactor => yc.base.method
      | _ => .linear)

/-- The yield curves reachable from `yc` by converting to discount curves, i.e. by any sequence of pricings and risk
calculations. -/
inductive Used (exp : ℚ → ℚ) (yc : YieldCurve) : YieldCurve → Prop
  | start : Used exp yc yc
  | convert (yc' : YieldCurve) (adj : Adjustment) : Used exp yc yc' → Used exp yc (yc'.toDiscountCurve exp adj).2

theorem storeDiscount_eq {exp : ℚ → ℚ} {yc : YieldCurve} (hs : Settings exp yc) (knots : List Knot)
    (m : InterpolationMethod)
    (hm : m = (match yc.space with
      | .discountFactor => yc.base.method
      | _ => .linear)) :
    (yc.storeDiscount knots m).1 = ((⟨yc.base, yc.space, none⟩ : YieldCurve).storeDiscount knots m).1 ∧
    ((yc.storeDiscount knots m).1 = .ok () →
      (yc.storeDiscount knots m).2 = ((⟨yc.base, yc.space, none⟩ : YieldCurve).storeDiscount knots m).2) ∧
    Settings exp (yc.storeDiscount knots m).2 ∧ (yc.storeDiscount knots m).2.base = yc.base ∧
    (yc.storeDiscount knots m).2.space = yc.space := by
  have hfresh : ∀ dc : YieldCurve, dc.discountCurve = none → dc.base = yc.base → dc.space = yc.space →
      Settings exp (dc.storeDiscount knots m).2 ∧ (dc.storeDiscount knots m).2.base = yc.base ∧
      (dc.storeDiscount knots m).2.space = yc.space := by
    intro dc hn hb hsp
    unfold YieldCurve.storeDiscount
    simp only [hn]
    cases hc : Curve.create knots m dc.base.dcc (some dc.base.referenceDate) .error .error with
    | error e => exact ⟨fun c hcc => (by rw [hn] at hcc; cases hcc), hb, hsp⟩
    | ok c =>
      refine ⟨?_, hb, hsp⟩
      intro c' hc'
      simp at hc'
      subst hc'
      unfold Curve.create at hc
      simp only [ok_bind] at hc
      rw [bind_ok] at hc
      obtain ⟨g, _, hc⟩ := hc
      cases hc
      refine ⟨by simp [hb], by simp [hb], rfl, rfl, ?_⟩
      simp only [hsp, hb]
      exact hm
  cases hd : yc.discountCurve with
  | none =>
    have he : (⟨yc.base, yc.space, none⟩ : YieldCurve) = yc := by cases yc; simp_all
    rw [he]
    exact ⟨rfl, fun _ => rfl, hfresh yc hd rfl rfl⟩
  | some c =>
    obtain ⟨h1, h2, h3, h4, h5⟩ := hs c hd
    unfold YieldCurve.storeDiscount
    simp only [hd]
    unfold Curve.resetValues Curve.create
    simp only [ok_bind, h1, h2]
    cases hg : Curve.makeGrid yc.base.referenceDate yc.base.dcc (pySorted Knot.date knots) with
    | error e =>
      simp only [error_bind]
      refine ⟨trivial, fun hh => (by cases hh), ?_, trivial, trivial⟩
      intro c' hc'
      simp at hc'
      subst hc'
      exact ⟨rfl, rfl, h3, h4, h5⟩
    | ok g =>
      simp only [ok_bind]
      refine ⟨trivial, fun _ => ?_, ?_, trivial, trivial⟩
      · cases c
        simp only at h1 h2 h3 h4 h5
        subst h1; subst h2; subst h3; subst h4; subst h5
        rw [hm]
      · intro c' hc'
        simp at hc'
        subst hc'
        exact ⟨rfl, rfl, h3, h4, h5⟩

theorem toDiscountCurve_eq {exp : ℚ → ℚ} {yc : YieldCurve} (hs : Settings exp yc) (adj : Adjustment) :
    (yc.toDiscountCurve exp adj).1 = ((⟨yc.base, yc.space, none⟩ : YieldCurve).toDiscountCurve exp adj).1 ∧
    ((yc.toDiscountCurve exp adj).1 = .ok () →
      (yc.toDiscountCurve exp adj).2 = ((⟨yc.base, yc.space, none⟩ : YieldCurve).toDiscountCurve exp adj).2) ∧
    Settings exp (yc.toDiscountCurve exp adj).2 ∧ (yc.toDiscountCurve exp adj).2.base = yc.base ∧
    (yc.toDiscountCurve exp adj).2.space = yc.space := by
  have hk : YieldCurve.discountFactorKnots ⟨yc.base, yc.space, none⟩ adj = YieldCurve.discountFactorKnots yc adj := rfl
  have hk' : YieldCurve.yieldKnots exp ⟨yc.base, yc.space, none⟩ adj = YieldCurve.yieldKnots exp yc adj := rfl
  unfold YieldCurve.toDiscountCurve
  rw [hk, hk']
  cases hsp : yc.space with
  | discountFactor =>
    simp only
    cases YieldCurve.discountFactorKnots yc adj with
    | error e => exact ⟨rfl, fun h => (by cases h), hs, rfl, hsp⟩
    | ok knots =>
      have := storeDiscount_eq hs knots yc.base.method (by rw [hsp])
      rw [hsp] at this
      exact this
  | continuouslyCompoundedYield =>
    simp only
    cases YieldCurve.yieldKnots exp yc adj with
    | error e => exact ⟨rfl, fun h => (by cases h), hs, rfl, hsp⟩
    | ok knots =>
      have := storeDiscount_eq hs knots .linear (by rw [hsp])
      rw [hsp] at this
      exact this
  | other => exact ⟨rfl, fun h => (by cases h), hs, rfl, hsp⟩

theorem used_inv {exp : ℚ → ℚ} {yc yc' : YieldCurve} (hs : Settings exp yc) (hu : Used exp yc yc') :
    Settings exp yc' ∧ yc'.base = yc.base ∧ yc'.space = yc.space := by
  induction hu with
  | start => exact ⟨hs, rfl, rfl⟩
  | convert yc1 adj _ ih =>
    obtain ⟨h1, h2, h3⟩ := ih
    have := (toDiscountCurve_eq h1 adj).2.2
    exact ⟨this.1, this.2.1.trans h2, this.2.2.trans h3⟩

theorem presentValue_eq {exp : ℚ → ℚ} {yc : YieldCurve} (hs : Settings exp yc) (asset : PresentValueable)
    (adj : Adjustment) :
    (yc.presentValue exp asset adj).1 = ((⟨yc.base, yc.space, none⟩ : YieldCurve).presentValue exp asset adj).1 ∧
    (yc.presentValue exp asset adj).2 = (yc.toDiscountCurve exp adj).2 := by
  have h := toDiscountCurve_eq hs adj
  constructor
  · unfold YieldCurve.presentValue
    rcases h1 : yc.toDiscountCurve exp adj with ⟨r1, y1⟩
    rcases h2 : (⟨yc.base, yc.space, none⟩ : YieldCurve).toDiscountCurve exp adj with ⟨r2, y2⟩
    rw [h1, h2] at h
    simp only at h
    cases r1 with
    | error e => rw [← h.1]
    | ok u =>
      have := h.2.1 rfl
      rw [← h.1, this]
  · unfold YieldCurve.presentValue
    rcases h1 : yc.toDiscountCurve exp adj with ⟨r1, y1⟩
    cases r1 with
    | error e => rfl
    | ok u => cases u; simp only; cases y1.discountCurve <;> rfl

theorem settings_create {exp : ℚ → ℚ} {knots : List Knot} {qa : List ℚ} {m : InterpolationMethod}
    {dcc : DayCountConvention} {space : InterpolationSpace} {ref : PyDate} {l r : EndBehavior} {yc : YieldCurve}
    (h : YieldCurve.create knots qa m dcc space ref l r = .ok yc) :
    Settings exp yc ∧ ∃ base, Curve.create knots m dcc (some ref) l r = .ok base ∧ yc = ⟨base, space, none⟩ := by
  have : ∃ base, Curve.create knots m dcc (some ref) l r = .ok base ∧ yc = ⟨base, space, none⟩ := by
    unfold YieldCurve.create at h
    split at h
    · cases h
    · rw [bind_ok] at h
      obtain ⟨b, hb, h⟩ := h
      cases h
      exact ⟨b, hb, rfl⟩
  obtain ⟨b, hb, rfl⟩ := this
  exact ⟨fun c hc => (by cases hc), b, hb, rfl⟩

/-! ## C29 -/

/-- The discount curve produced in DISCOUNT_FACTOR space: its knots are the yield curve's, shifted by the adjustment. -/
theorem discountFactor_curve {exp : ℚ → ℚ} {values : List Knot} {m : InterpolationMethod}
    (hm : Interpolates m values.length) {dcc : DayCountConvention} {ref : PyDate} {l r : EndBehavior}
    (h : CurveInput values dcc ref) {base : Curve} (hb : Curve.create values m dcc (some ref) l r = .ok base)
    (adj : Adjustment) (a : PyDate → ℚ) (ha : ∀ k ∈ values, adj (.date k.date) = .ok (a k.date)) :
    ∃ values' c, YieldCurve.toDiscountCurve exp ⟨base, .discountFactor, none⟩ adj =
        (.ok (), ⟨base, .discountFactor, some c⟩) ∧
      values'.Perm (values.map (fun k => ⟨k.date, k.value + a k.date⟩)) ∧ CurveInput values' dcc ref ∧
      Curve.create values' m dcc (some ref) .error .error = .ok c ∧ c.referenceDate = ref := by
  obtain ⟨τ, hτ⟩ := h.axis
  have hp := pySorted_perm Knot.date values
  have hb' := hb
  rw [create_curve hτ h.refOk h.notBefore] at hb'
  have hknots : base.knots = pySorted Knot.date values := by cases hb'; rfl
  have hdcc : base.dcc = dcc := by cases hb'; rfl
  have href : base.referenceDate = ref := by cases hb'; rfl
  have hmeth : base.method = m := by cases hb'; rfl
  have hdf : YieldCurve.discountFactorKnots ⟨base, .discountFactor, none⟩ adj =
      .ok ((pySorted Knot.date values).map (fun k => ⟨k.date, k.value + a k.date⟩)) := by
    unfold YieldCurve.discountFactorKnots
    rw [hknots]
    apply collect_eq_map
    intro k hk
    have hk' := hp.mem_iff.1 hk
    have hcall := C27_knots values m hm dcc ref l r h base hb k hk'
    simp only
    rw [C27_adjustment values m dcc ref l r h base hb k.date ⟨k, hk', le_refl _⟩ adj k.value (a k.date) hcall
      (ha k hk'), ok_bind]
  have hperm : ((pySorted Knot.date values).map (fun k => (⟨k.date, k.value + a k.date⟩ : Knot))).Perm
      (values.map (fun k => ⟨k.date, k.value + a k.date⟩)) := hp.map _
  have hinput : CurveInput ((pySorted Knot.date values).map (fun k => (⟨k.date, k.value + a k.date⟩ : Knot))) dcc ref := by
    refine ⟨h.convention, h.refOk, ?_, ?_, ?_⟩
    · intro hh
      rw [List.map_eq_nil_iff] at hh
      rw [hh] at hp
      exact h.nonempty (List.Perm.eq_nil hp.symm)
    · rw [List.map_map]
      exact (hp.map Knot.date).nodup_iff.2 h.distinct
    · intro k hk
      obtain ⟨x, hx, rfl⟩ := List.mem_map.1 hk
      exact h.notBefore x (hp.mem_iff.1 hx)
  have hc := create_curve hτ hinput.refOk hinput.notBefore m .error .error
  refine ⟨_, _, ?_, hperm, hinput, hc, rfl⟩
  unfold YieldCurve.toDiscountCurve
  simp only [hdf]
  unfold YieldCurve.storeDiscount
  simp only [hdcc, href, hmeth, hc]

/-- C29. In DISCOUNT_FACTOR space every zero-coupon bond used to build the curve is repriced exactly. -/
theorem C29_reprices (exp : ℚ → ℚ) (bonds : List Knot) (m : InterpolationMethod) (hm : Interpolates m bonds.length)
    (dcc : DayCountConvention) (ref : PyDate) (l r : EndBehavior) (h : CurveInput bonds dcc ref) (yc yc' : YieldCurve)
    (hyc : YieldCurve.create bonds [] m dcc .discountFactor ref l r = .ok yc) (hu : Used exp yc yc') (b : Knot)
    (hb : b ∈ bonds) :
    (yc'.presentValue exp (ZeroCoupon.presentValue b.date) noAdjustment).1 = .ok b.value := by
  obtain ⟨hs, base, hbase, rfl⟩ := settings_create (exp := exp) hyc
  obtain ⟨hs', hb', hsp'⟩ := used_inv hs hu
  rw [(presentValue_eq hs' _ _).1, hb', hsp']
  obtain ⟨values', c, hto, hperm, hin, hc, href⟩ := discountFactor_curve (exp := exp) hm h hbase noAdjustment (fun _ => 0)
    (fun _ _ => rfl)
  unfold YieldCurve.presentValue
  simp only [hto]
  have hmem : (⟨b.date, b.value + 0⟩ : Knot) ∈ values' := hperm.mem_iff.2 (List.mem_map.2 ⟨b, hb, rfl⟩)
  have hcall := C27_knots values' m (hm.congr (by simpa using hperm.length_eq)) dcc ref .error .error hin c hc _ hmem
  rw [add_zero] at hcall
  exact (C19_zero_coupon b.date c.toDiscountFn).1 (by
    show c.referenceDate ≤ b.date
    rw [href]; exact h.notBefore b hb) b.value hcall

/-- C29. A zero-coupon payment dated between two adjacent bonds is worth a weighted average of their prices (linear
interpolation). -/
theorem C29_between (exp : ℚ → ℚ) (bonds : List Knot) (dcc : DayCountConvention) (ref : PyDate) (l r : EndBehavior)
    (h : CurveInput bonds dcc ref) (yc yc' : YieldCurve)
    (hyc : YieldCurve.create bonds [] .linear dcc .discountFactor ref l r = .ok yc) (hu : Used exp yc yc') (a b : Knot)
    (hab : Adjacent bonds a b) (d : PyDate) (h1 : a.date ≤ d) (h2 : d < b.date) :
    ∃ w, 0 ≤ w ∧ w < 1 ∧
      (yc'.presentValue exp (ZeroCoupon.presentValue d) noAdjustment).1 = .ok ((1 - w) * a.value + w * b.value) := by
  obtain ⟨hs, base, hbase, rfl⟩ := settings_create (exp := exp) hyc
  obtain ⟨hs', hb', hsp'⟩ := used_inv hs hu
  rw [(presentValue_eq hs' _ _).1, hb', hsp']
  obtain ⟨values', c, hto, hperm, hin, hc, href⟩ := discountFactor_curve (exp := exp) (Or.inl rfl) h hbase noAdjustment
    (fun _ => 0) (fun _ _ => rfl)
  obtain ⟨τ, hτ⟩ := h.axis
  have hsame : values'.Perm bonds := by
    refine hperm.trans ?_
    have : bonds.map (fun k => (⟨k.date, k.value + 0⟩ : Knot)) = bonds := by
      conv_rhs => rw [← List.map_id bonds]
      apply List.map_congr_left
      intro k _; cases k; simp
    rw [this]
  have hadj : Adjacent values' a b :=
    ⟨hsame.mem_iff.2 hab.1, hsame.mem_iff.2 hab.2.1, hab.2.2.1, fun x hx => hab.2.2.2 x (hsame.mem_iff.1 hx)⟩
  obtain ⟨w, _, hw0, hw1, hcall⟩ := (C27_between values' dcc ref .error .error hin τ hτ a b hadj d h1 h2).1 c hc
  refine ⟨w, hw0, hw1, ?_⟩
  unfold YieldCurve.presentValue
  simp only [hto]
  exact (C19_zero_coupon d c.toDiscountFn).1 (by
    show c.referenceDate ≤ d
    rw [href]; exact le_trans (h.notBefore a hab.1) h1) _ hcall

/-- A quote adjustment always raises AttributeError, so no adjusted yield curve can be built. -/
theorem C29_quote_adjustments_fail (b : Knot) (bonds : List Knot) (q : ℚ) (qs : List ℚ) (m : InterpolationMethod)
    (dcc : DayCountConvention) (space : InterpolationSpace) (ref : PyDate) (l r : EndBehavior) :
    YieldCurve.create (b :: bonds) (q :: qs) m dcc space ref l r = .error .attributeError := rfl

example : ∃ yc, YieldCurve.create exampleKnots [] .linear .act360 .discountFactor (D 2023 6 1) .error .error = .ok yc := by
  have hin : CurveInput exampleKnots .act360 (D 2023 6 1) :=
    ⟨by decide, by decide +kernel, by decide +kernel, by decide +kernel, by decide +kernel⟩
  obtain ⟨c, hc, _⟩ := (C27_builds exampleKnots .linear .act360 .error .error).1 _ hin
  exact ⟨⟨c, .discountFactor, none⟩, by simp [exampleKnots, YieldCurve.create] at hc ⊢; rw [hc]; rfl⟩

/-! ### CONTINUOUSLY_COMPOUNDED_YIELD space -/

theorem bracket {values : List Knot} {d : PyDate} (h1 : ∃ k ∈ values, k.date ≤ d) (h2 : ∃ k ∈ values, d ≤ k.date) :
    (∃ k ∈ values, k.date = d) ∨ ∃ a b, Adjacent values a b ∧ a.date ≤ d ∧ d < b.date := by
  by_cases hd : ∃ k ∈ values, k.date = d
  · exact Or.inl hd
  · right
    obtain ⟨k, hk, hkd⟩ := h1
    obtain ⟨k', hk', hkd'⟩ := h2
    push Not at hd
    obtain ⟨a, ha, hamax⟩ := Finset.exists_max_image (values.toFinset.filter (fun x => x.date ≤ d)) Knot.date
      ⟨k, by simp [hk, hkd]⟩
    obtain ⟨b, hb, hbmin⟩ := Finset.exists_min_image (values.toFinset.filter (fun x => d < x.date)) Knot.date
      ⟨k', by simp [hk']; exact lt_of_le_of_ne hkd' (fun h => hd k' hk' h.symm)⟩
    simp only [Finset.mem_filter, List.mem_toFinset] at ha hb hamax hbmin
    refine ⟨a, b, ⟨ha.1, hb.1, lt_of_le_of_lt ha.2 hb.2, fun c hc => ?_⟩, ha.2, hb.2⟩
    rcases le_or_gt c.date d with h | h
    · exact Or.inl (hamax c ⟨hc, h⟩)
    · exact Or.inr (hbmin c ⟨hc, h⟩)

/-- The curve has a value at every date from its first to its last knot, and before the first one if it is extended. -/
theorem curve_defined {values : List Knot} {m : InterpolationMethod} (hm : Interpolates m values.length)
    {dcc : DayCountConvention} {ref : PyDate} {l r : EndBehavior} (h : CurveInput values dcc ref) {c : Curve}
    (hc : Curve.create values m dcc (some ref) l r = .ok c) {d : PyDate}
    (h1 : l = .constant ∨ ∃ k ∈ values, k.date ≤ d) (h2 : ∃ k ∈ values, d ≤ k.date) : ∃ y, c.call d = .ok y := by
  by_cases h0 : ∃ k ∈ values, k.date ≤ d
  · obtain ⟨τ, hτ⟩ := h.axis
    rcases bracket h0 h2 with ⟨k, hk, rfl⟩ | ⟨a, b, hab, ha, hb⟩
    · exact ⟨_, C27_knots values m hm dcc ref l r h c hc k hk⟩
    · have := C27_between values dcc ref l r h τ hτ a b hab d ha hb
      rcases hm.cases with (rfl | rfl) | ⟨kind, rfl, hlen⟩
      · obtain ⟨w, _, _, _, hw⟩ := this.1 c hc
        exact ⟨_, hw⟩
      · exact ⟨_, this.2 c hc⟩
      · unfold Curve.call
        rw [call_inside h hτ hc h0 h2]
        rw [create_curve hτ h.refOk h.notBefore] at hc
        have hp := pySorted_perm Knot.date values
        have hs := knotSorted_pySorted h.distinct
        cases hc
        obtain ⟨v, hv⟩ := splineGrid_defined kind hs (X := fun d => τ d - τ ref)
          (fun {a b} hab => by have := axis_strictMono hτ hab; linarith)
          (by rw [hp.length_eq]; exact hlen) (d := d)
          (by obtain ⟨k, hk, hkd⟩ := h0; exact ⟨k, hp.mem_iff.2 hk, hkd⟩)
          (by obtain ⟨k, hk, hkd⟩ := h2; exact ⟨k, hp.mem_iff.2 hk, hkd⟩)
        refine ⟨v, ?_⟩
        unfold Curve.interpolator
        simp only at hv ⊢
        rw [hv]; simp [noAdjustment]
  · obtain rfl : l = .constant := h1.resolve_right h0
    push Not at h0
    obtain ⟨k, hk, hmin⟩ := Finset.exists_min_image values.toFinset Knot.date
      (by obtain ⟨k, hk, _⟩ := h2; exact ⟨k, by simp [hk]⟩)
    simp only [List.mem_toFinset] at hk hmin
    exact ⟨_, (C27_outside values m dcc ref .constant r h c hc k hk d).1 hmin (h0 k hk)⟩

theorem dateRange_ok (start stop : PyDate) (h : start ≤ stop) :
    ∃ dates, YieldCurve.dateRange start stop = .ok dates ∧ dates.Nodup ∧ ∀ d, d ∈ dates ↔ start ≤ d ∧ d ≤ stop := by
  have hex : ∀ i : Nat, ∃ e : PyDate, i ∈ List.range (stop.ord - start.ord + 1).toNat → e.ord = start.ord + i := by
    intro i
    by_cases hi : i ∈ List.range (stop.ord - start.ord + 1).toNat
    · rw [List.mem_range] at hi
      cases he : start.addDays i with
      | ok e => exact ⟨e, fun _ => PyDate.addDays_ok.1 he⟩
      | error x =>
        have := (PyDate.addDays_error.1 he).2
        have b1 := start.ord_bounds
        have b2 := stop.ord_bounds
        omega
    · exact ⟨start, fun h => absurd h hi⟩
  choose g hg using hex
  refine ⟨(List.range (stop.ord - start.ord + 1).toNat).map g, ?_, ?_, ?_⟩
  · unfold YieldCurve.dateRange
    apply collect_eq_map
    intro i hi
    exact PyDate.addDays_ok.2 (hg i hi)
  · refine List.Nodup.map_on ?_ List.nodup_range
    intro a ha b hb hab
    have h1 := hg a ha
    have h2 := hg b hb
    rw [hab] at h1
    omega
  · intro d
    have hso := PyDate.le_iff.1 h
    rw [List.mem_map]
    constructor
    · rintro ⟨i, hi, rfl⟩
      have := hg i hi
      rw [List.mem_range] at hi
      exact ⟨PyDate.le_iff.2 (by omega), PyDate.le_iff.2 (by omega)⟩
    · rintro ⟨h1, h2⟩
      rw [PyDate.le_iff] at h1 h2
      have hi : (d.ord - start.ord).toNat ∈ List.range (stop.ord - start.ord + 1).toNat := by
        rw [List.mem_range]; omega
      exact ⟨_, hi, PyDate.ord_inj.1 (by rw [hg _ hi]; omega)⟩

/-- The discount curve produced in yield space: one knot per day, the exponential of minus yield times time. -/
theorem yield_curve_knots {exp : ℚ → ℚ} {values : List Knot} {m : InterpolationMethod}
    (hm : Interpolates m values.length) {dcc : DayCountConvention} {ref : PyDate} {l r : EndBehavior}
    (h : CurveInput values dcc ref) (hl : l = .constant ∨ ∃ k ∈ values, k.date = ref) {τ : PyDate → ℚ}
    (hτ : timeAxis dcc = some τ) {base : Curve} (hb : Curve.create values m dcc (some ref) l r = .ok base)
    (adj : Adjustment) (a y : PyDate → ℚ)
    (ha : ∀ d, ref ≤ d → (∃ k ∈ values, d ≤ k.date) → adj (.date d) = .ok (a d))
    (hy : ∀ d, ref ≤ d → (∃ k ∈ values, d ≤ k.date) → base.call d = .ok (y d)) :
    ∃ values' c, YieldCurve.toDiscountCurve exp ⟨base, .continuouslyCompoundedYield, none⟩ adj =
        (.ok (), ⟨base, .continuouslyCompoundedYield, some c⟩) ∧
      (∀ k, k ∈ values' ↔ ref ≤ k.date ∧ (∃ x ∈ values, k.date ≤ x.date) ∧
        k.value = exp (-(y k.date + a k.date) * (τ k.date - τ ref))) ∧
      CurveInput values' dcc ref ∧
      Curve.create values' .linear dcc (some ref) .error .error = .ok c ∧ c.referenceDate = ref := by
  have hp := pySorted_perm Knot.date values
  have hs := knotSorted_pySorted h.distinct
  have hb' := hb
  rw [create_curve hτ h.refOk h.notBefore] at hb'
  have hknots : base.knots = pySorted Knot.date values := by cases hb'; rfl
  have hdcc : base.dcc = dcc := by cases hb'; rfl
  have href : base.referenceDate = ref := by cases hb'; rfl
  obtain ⟨last, hlast⟩ : ∃ x, (pySorted Knot.date values).getLast? = some x := by
    cases hh : (pySorted Knot.date values).getLast? with
    | none => rw [List.getLast?_eq_none_iff] at hh; rw [hh] at hp; exact absurd (List.Perm.eq_nil hp.symm) h.nonempty
    | some x => exact ⟨x, rfl⟩
  have hlm := hp.mem_iff.1 (le_last hs hlast).1
  have hlmax : ∀ k ∈ values, k.date ≤ last.date := fun k hk => (le_last hs hlast).2 k (hp.mem_iff.2 hk)
  have hupto : ∀ d : PyDate, (∃ x ∈ values, d ≤ x.date) ↔ d ≤ last.date :=
    fun d => ⟨fun ⟨x, hx, hd⟩ => le_trans hd (hlmax x hx), fun hd => ⟨last, hlm, hd⟩⟩
  obtain ⟨dates, hdates, hnodup, hmem⟩ := dateRange_ok ref last.date (h.notBefore last hlm)
  have hyk : YieldCurve.yieldKnots exp ⟨base, .continuouslyCompoundedYield, none⟩ adj =
      .ok (dates.map (fun d => ⟨d, exp (-(y d + a d) * (τ d - τ ref))⟩)) := by
    unfold YieldCurve.yieldKnots
    simp only [hknots, hlast, href, hdcc, hdates, ok_bind]
    rw [collect_eq_map (f := Curve.axis ref dcc) (g := fun d => τ d - τ ref) (fun d hd => accrual_axis hτ ((hmem d).1 hd).1 h.refOk), ok_bind]
    rw [collect_eq_map (g := fun d => y d + a d) (fun d hd => by
      obtain ⟨h1, h2⟩ := (hmem d).1 hd
      have h2' := (hupto d).2 h2
      exact C27_adjustment values m dcc ref l r h base hb d h2' adj (y d) (a d) (hy d h1 h2') (ha d h1 h2')), ok_bind]
    congr 1
    rw [List.zip_map', List.zipWith_map_right]
    rw [List.zipWith_self]
  refine ⟨dates.map (fun d => ⟨d, exp (-(y d + a d) * (τ d - τ ref))⟩), _, ?_, ?_, ?_,
    create_curve hτ h.refOk ?_ .linear .error .error, rfl⟩
  · unfold YieldCurve.toDiscountCurve
    simp only [hyk]
    unfold YieldCurve.storeDiscount
    simp only [hdcc, href]
    rw [create_curve hτ h.refOk ?_ .linear .error .error]
    intro k hk
    obtain ⟨d, hd, rfl⟩ := List.mem_map.1 hk
    exact ((hmem d).1 hd).1
  · intro k
    rw [List.mem_map]
    constructor
    · rintro ⟨d, hd, rfl⟩
      obtain ⟨h1, h2⟩ := (hmem d).1 hd
      exact ⟨h1, (hupto d).2 h2, rfl⟩
    · rintro ⟨h1, h2, h3⟩
      refine ⟨k.date, (hmem _).2 ⟨h1, (hupto _).1 h2⟩, ?_⟩
      rw [← h3]
  · refine ⟨h.convention, h.refOk, ?_, ?_, ?_⟩
    · intro hh
      rw [List.map_eq_nil_iff] at hh
      have := (hmem ref).2 ⟨le_refl _, h.notBefore last hlm⟩
      rw [hh] at this; simp at this
    · rw [List.map_map]; simpa [Function.comp_def] using hnodup
    · intro k hk
      obtain ⟨d, hd, rfl⟩ := List.mem_map.1 hk
      exact ((hmem d).1 hd).1
  · intro k hk
    obtain ⟨d, hd, rfl⟩ := List.mem_map.1 hk
    exact ((hmem d).1 hd).1

/-- C29. In CONTINUOUSLY_COMPOUNDED_YIELD space, a unit payment on any date from the reference date to the last knot is
worth exp(-(y + a) t), where y is the curve's yield at that date, a the adjustment and t the time from the reference date
in the curve's convention.  The curve must be defined at the reference date (extended to the left, or with a knot there). -/
theorem C29_yield_space (exp : ℚ → ℚ) (values : List Knot) (m : InterpolationMethod) (hm : Interpolates m values.length)
    (dcc : DayCountConvention) (ref : PyDate) (l r : EndBehavior) (h : CurveInput values dcc ref)
    (hl : l = .constant ∨ ∃ k ∈ values, k.date = ref) (τ : PyDate → ℚ) (hτ : timeAxis dcc = some τ)
    (yc yc' : YieldCurve)
    (hyc : YieldCurve.create values [] m dcc .continuouslyCompoundedYield ref l r = .ok yc) (hu : Used exp yc yc')
    (adj : Adjustment) (a : PyDate → ℚ) (ha : ∀ d, adj (.date d) = .ok (a d)) (d : PyDate) (hd1 : ref ≤ d)
    (hd2 : ∃ k ∈ values, d ≤ k.date) :
    ∃ y, yc.base.call d = .ok y ∧
      (yc'.presentValue exp (ZeroCoupon.presentValue d) adj).1 = .ok (exp (-(y + a d) * (τ d - τ ref))) := by
  obtain ⟨hs, base, hbase, rfl⟩ := settings_create (exp := exp) hyc
  obtain ⟨hs', hb', hsp'⟩ := used_inv hs hu
  rw [(presentValue_eq hs' _ _).1, hb', hsp']
  have hdef : ∀ d, ∃ y, ref ≤ d → (∃ k ∈ values, d ≤ k.date) → base.call d = .ok y := by
    intro d
    by_cases h1 : ref ≤ d ∧ ∃ k ∈ values, d ≤ k.date
    · obtain ⟨y, hy⟩ := curve_defined hm h hbase (d := d)
        (hl.imp id (fun ⟨k, hk, he⟩ => ⟨k, hk, by rw [he]; exact h1.1⟩)) h1.2
      exact ⟨y, fun _ _ => hy⟩
    · exact ⟨0, fun a b => absurd ⟨a, b⟩ h1⟩
  choose y hy using hdef
  obtain ⟨values', c, hto, hmem, hin, hc, href⟩ := yield_curve_knots (exp := exp) hm h hl hτ hbase adj a y
    (fun d _ _ => ha d) hy
  refine ⟨y d, hy d hd1 hd2, ?_⟩
  unfold YieldCurve.presentValue
  simp only [hto]
  have hcall := C27_knots values' .linear (.inl rfl) dcc ref .error .error hin c hc
    ⟨d, exp (-(y d + a d) * (τ d - τ ref))⟩ ((hmem _).2 ⟨hd1, hd2, rfl⟩)
  exact (C19_zero_coupon d c.toDiscountFn).1 (by
    show c.referenceDate ≤ d
    rw [href]; exact hd1) _ hcall

example : ∃ yc, YieldCurve.create exampleKnots [] .linear .act360 .continuouslyCompoundedYield (D 2023 6 1) .constant .error
    = .ok yc := by
  have hin : CurveInput exampleKnots .act360 (D 2023 6 1) :=
    ⟨by decide, by decide +kernel, by decide +kernel, by decide +kernel, by decide +kernel⟩
  obtain ⟨c, hc, _⟩ := (C27_builds exampleKnots .linear .act360 .constant .error).1 _ hin
  exact ⟨⟨c, .continuouslyCompoundedYield, none⟩, by simp [exampleKnots, YieldCurve.create] at hc ⊢; rw [hc]; rfl⟩

/-! ## C32 -/

theorem collect_map_weight {α : Type} (f : α → Except PyErr ℚ) (w : α → ℚ) (l : List α) (vs : List ℚ)
    (h : collect f l = .ok vs) :
    collect (fun a => do
      let v ← f a
      .ok (w a * v)) l = .ok (List.zipWith (fun a v => w a * v) l vs) := by
  induction l generalizing vs with
  | nil => cases h; rfl
  | cons a as ih =>
    simp only [collect] at h ⊢
    rw [bind_ok] at h
    obtain ⟨v, hv, h⟩ := h
    rw [bind_ok] at h
    obtain ⟨ws, hws, h⟩ := h
    cases h
    simp only [hv, ok_bind]
    rw [ih ws hws]; rfl

/-- C32. The portfolio is worth its cash plus the quantity-weighted sum of the values of its assets. -/
theorem C32_value (entries : List PortfolioEntry) (cash : ℚ) (curve : DiscountFn) (v : PortfolioEntry → ℚ)
    (hv : ∀ e ∈ entries, e.asset curve = .ok (v e)) :
    portfolioPresentValue entries cash curve = .ok (cash + (entries.map (fun e => e.quantity * v e)).sum) := by
  unfold portfolioPresentValue
  rw [pySum_ok (g := fun e => e.quantity * v e) (fun e he => by simp only [hv e he, ok_bind]), ok_bind, add_comm]

theorem collect_error {α β : Type} {f : α → Except PyErr β} {l : List α} (h : ∃ a ∈ l, ∃ x, f a = .error x) :
    ∃ x, collect f l = .error x := by
  induction l with
  | nil => simp at h
  | cons a as ih =>
    simp only [collect]
    cases ha : f a with
    | error x => exact ⟨x, rfl⟩
    | ok b =>
      obtain ⟨c, hc, x, hx⟩ := h
      rcases List.mem_cons.1 hc with rfl | hc
      · rw [ha] at hx; cases hx
      · obtain ⟨x, hx⟩ := ih ⟨c, hc, x, hx⟩
        exact ⟨x, by rw [ok_bind, hx]; rfl⟩

/-- C32. Conversely the value exists only if every asset has one. -/
theorem C32_value_exists (entries : List PortfolioEntry) (cash : ℚ) (curve : DiscountFn) :
    (∃ x, portfolioPresentValue entries cash curve = .ok x) ↔ ∀ e ∈ entries, ∃ v, e.asset curve = .ok v := by
  constructor
  · rintro ⟨x, hx⟩ e he
    cases hv : e.asset curve with
    | ok v => exact ⟨v, rfl⟩
    | error err =>
      unfold portfolioPresentValue at hx
      rw [bind_ok] at hx
      obtain ⟨s, hs, _⟩ := hx
      unfold pySum at hs
      rw [bind_ok] at hs
      obtain ⟨vs, hvs, _⟩ := hs
      obtain ⟨y, hy⟩ := collect_error (f := fun e : PortfolioEntry => do
        let v ← e.asset curve
        (.ok (e.quantity * v) : Except PyErr ℚ)) (l := entries) ⟨e, he, err, by simp only [hv]; rfl⟩
      rw [hy] at hvs; cases hvs
  · intro h
    have : ∀ e : PortfolioEntry, ∃ v, e ∈ entries → e.asset curve = .ok v := by
      intro e
      by_cases he : e ∈ entries
      · obtain ⟨v, hv⟩ := h e he; exact ⟨v, fun _ => hv⟩
      · exact ⟨0, fun h => absurd h he⟩
    choose v hv using this
    exact ⟨_, C32_value entries cash curve v (fun e he => hv e he)⟩

/-- C32. Order does not matter, portfolios add up, and scaling all positions scales the value. -/
theorem C32_linear (entries : List PortfolioEntry) (cash : ℚ) (curve : DiscountFn) (x : ℚ)
    (hx : portfolioPresentValue entries cash curve = .ok x) :
    (∀ entries', entries.Perm entries' → portfolioPresentValue entries' cash curve = .ok x) ∧
    (∀ others cash' y, portfolioPresentValue others cash' curve = .ok y →
      portfolioPresentValue (entries ++ others) (cash + cash') curve = .ok (x + y)) ∧
    (∀ c, portfolioPresentValue (entries.map (fun e => ⟨c * e.quantity, e.asset⟩)) (c * cash) curve = .ok (c * x)) := by
  have hex := (C32_value_exists entries cash curve).1 ⟨x, hx⟩
  have hval : ∀ (es : List PortfolioEntry), ∃ v : PortfolioEntry → ℚ,
      ∀ e : PortfolioEntry, (∃ u, e.asset curve = .ok u) → e.asset curve = .ok (v e) := by
    intro es
    have : ∀ e : PortfolioEntry, ∃ v, (∃ u, e.asset curve = .ok u) → e.asset curve = .ok v := by
      intro e
      by_cases he : ∃ u, e.asset curve = .ok u
      · obtain ⟨u, hu⟩ := he; exact ⟨u, fun _ => hu⟩
      · exact ⟨0, fun h => absurd h he⟩
    choose v hv using this
    exact ⟨v, hv⟩
  obtain ⟨v, hv⟩ := hval entries
  rw [C32_value entries cash curve v (fun e he => hv e (hex e he))] at hx
  injection hx with hx
  refine ⟨fun es' hp => ?_, fun others cash' y hy => ?_, fun c => ?_⟩
  · rw [C32_value es' cash curve v (fun e he => hv e (hex e (hp.mem_iff.2 he))), ← hx]
    congr 2
    exact (hp.map _).sum_eq.symm
  · have hex' := (C32_value_exists others cash' curve).1 ⟨y, hy⟩
    rw [C32_value others cash' curve v (fun e he => hv e (hex' e he))] at hy
    injection hy with hy
    rw [C32_value (entries ++ others) (cash + cash') curve v (fun e he => by
      rcases List.mem_append.1 he with h | h
      · exact hv e (hex e h)
      · exact hv e (hex' e h)), ← hx, ← hy, List.map_append, List.sum_append]
    congr 1; ring
  · obtain ⟨v', hv'⟩ := hval entries
    have hvv : ∀ e ∈ entries.map (fun e : PortfolioEntry => (⟨c * e.quantity, e.asset⟩ : PortfolioEntry)),
        e.asset curve = .ok (v ⟨1, e.asset⟩) := by
      intro e he
      obtain ⟨e0, he0, rfl⟩ := List.mem_map.1 he
      exact hv ⟨1, e0.asset⟩ (hex e0 he0)
    have hvv0 : ∀ e ∈ entries, v ⟨1, e.asset⟩ = v e := by
      intro e he
      have h1 := hv ⟨1, e.asset⟩ (hex e he)
      have h2 := hv e (hex e he)
      rw [show (PortfolioEntry.mk 1 e.asset).asset curve = e.asset curve from rfl, h2] at h1
      injection h1 with h1
      exact h1.symm
    rw [C32_value _ _ curve (fun e => v ⟨1, e.asset⟩) hvv, ← hx, List.map_map, mul_add]
    congr 2
    rw [← List.sum_map_mul_left]
    congr 1
    apply List.map_congr_left
    intro e he
    simp only [Function.comp]
    rw [hvv0 e he]; ring

/-- Two positions and cash: 2 * 3/4 + (-1) * 1/2 + 1/4. -/
example : portfolioPresentValue [⟨2, fun _ => .ok (3 / 4)⟩, ⟨-1, fun _ => .ok (1 / 2)⟩] (1 / 4)
    ⟨D 2024 1 1, fun _ => .ok 1⟩ = .ok (5 / 4) := by
  rw [C32_value _ _ _ (fun e => if e.quantity = 2 then 3 / 4 else 1 / 2)]
  · norm_num
  · intro e he
    simp at he
    rcases he with rfl | rfl <;> norm_num

/-! ## C30 -/

/-- The present value of an asset on the yield curve with the key rate set to `b`, starting from scratch: the quantity that
key-rate sensitivities are differences of. -/
def bumpedValue (exp : ℚ → ℚ) (yc : YieldCurve) (asset : PresentValueable) (k : KeyRate) (b : ℚ) : Except PyErr ℚ :=
  (YieldCurve.presentValue exp ⟨yc.base, yc.space, none⟩ asset (k.setBumpVal b).asAdjustment).1

theorem presentValue_used {exp : ℚ → ℚ} {yc yc' : YieldCurve} (hs : Settings exp yc) (hu : Used exp yc yc')
    (asset : PresentValueable) (adj : Adjustment) :
    (yc'.presentValue exp asset adj).1 =
      ((⟨yc.base, yc.space, none⟩ : YieldCurve).presentValue exp asset adj).1 ∧
    Used exp yc (yc'.presentValue exp asset adj).2 := by
  obtain ⟨h1, h2, h3⟩ := used_inv hs hu
  obtain ⟨h4, h5⟩ := presentValue_eq h1 asset adj
  rw [h2, h3] at h4
  exact ⟨h4, by rw [h5]; exact Used.convert _ _ hu⟩

/-- The outcome of a sensitivity calculation, whatever the history of the curve and the current bump of the key rate. -/
theorem keyRateDeriv_eq {exp : ℚ → ℚ} {yc yc' : YieldCurve} (hs : Settings exp yc) (hu : Used exp yc yc')
    (asset : PresentValueable) (k : KeyRate) :
    (yc'.keyRateDeriv exp asset k).1 = (do
      let down ← bumpedValue exp yc asset k (-oneBasisPoint / 2)
      let up ← bumpedValue exp yc asset k (oneBasisPoint / 2)
      pyDiv (up - down) oneBasisPoint) ∧
    Used exp yc (yc'.keyRateDeriv exp asset k).2.1 ∧
    ((yc'.keyRateDeriv exp asset k).2.2 = k.setBumpVal (oneBasisPoint / 2) ∨
      (yc'.keyRateDeriv exp asset k).2.2 = k.setBumpVal (-oneBasisPoint / 2)) ∧
    (∀ v, (yc'.keyRateDeriv exp asset k).1 = .ok v →
      (yc'.keyRateDeriv exp asset k).2.2 = k.setBumpVal (oneBasisPoint / 2)) := by
  have hd := presentValue_used hs hu asset (k.setBumpVal (-oneBasisPoint / 2)).asAdjustment
  unfold YieldCurve.keyRateDeriv bumpedValue
  rcases h1 : yc'.presentValue exp asset (k.setBumpVal (-oneBasisPoint / 2)).asAdjustment with ⟨r1, y1⟩
  rw [h1] at hd
  simp only [h1] at hd ⊢
  rw [← hd.1]
  cases r1 with
  | error e => exact ⟨rfl, hd.2, Or.inr rfl, fun v hv => (by cases hv)⟩
  | ok down =>
    have hup := presentValue_used hs hd.2 asset (k.setBumpVal (oneBasisPoint / 2)).asAdjustment
    have hk : (k.setBumpVal (-oneBasisPoint / 2)).setBumpVal (oneBasisPoint / 2) = k.setBumpVal (oneBasisPoint / 2) := rfl
    simp only [hk]
    rcases h2 : y1.presentValue exp asset (k.setBumpVal (oneBasisPoint / 2)).asAdjustment with ⟨r2, y2⟩
    rw [h2] at hup
    simp only [h2] at hup ⊢
    rw [← hup.1]
    cases r2 with
    | error e => exact ⟨rfl, hup.2, Or.inl rfl, fun v hv => (by cases hv)⟩
    | ok up => exact ⟨rfl, hup.2, Or.inl rfl, fun v hv => rfl⟩

/-- C30. A sensitivity is the central difference of the two bumped values over one basis point, and the pv01 is their
difference, independently of everything computed before on the same curve object and of the bump the key rate had. -/
theorem C30_central_difference (exp : ℚ → ℚ) (values : List Knot) (m : InterpolationMethod) (dcc : DayCountConvention)
    (space : InterpolationSpace) (ref : PyDate) (l r : EndBehavior) (yc yc' : YieldCurve)
    (hyc : YieldCurve.create values [] m dcc space ref l r = .ok yc) (hu : Used exp yc yc') (asset : PresentValueable)
    (k : KeyRate) (b up down : ℚ)
    (hup : (yc.presentValue exp asset (k.setBumpVal (1 / 20000)).asAdjustment).1 = .ok up)
    (hdown : (yc.presentValue exp asset (k.setBumpVal (-1 / 20000)).asAdjustment).1 = .ok down) :
    (yc'.keyRateDeriv exp asset (k.setBumpVal b)).1 = .ok ((up - down) / (1 / 10000)) ∧
    (yc'.pv01Risk exp asset (k.setBumpVal b)).1 = .ok ⟨k.keyDate, up - down, .usTreasury⟩ := by
  obtain ⟨hs, base, hbase, rfl⟩ := settings_create (exp := exp) hyc
  have h := keyRateDeriv_eq hs hu asset (k.setBumpVal b)
  have e1 : oneBasisPoint / 2 = 1 / 20000 := by norm_num [oneBasisPoint]
  have e2 : -oneBasisPoint / 2 = -1 / 20000 := by norm_num [oneBasisPoint]
  have e3 : oneBasisPoint = 1 / 10000 := by norm_num [oneBasisPoint]
  have hv : (yc'.keyRateDeriv exp asset (k.setBumpVal b)).1 = .ok ((up - down) / (1 / 10000)) := by
    rw [h.1]
    unfold bumpedValue
    rw [show ((k.setBumpVal b).setBumpVal (-oneBasisPoint / 2)) = k.setBumpVal (-1 / 20000) by rw [e2]; rfl, hdown, ok_bind,
      show ((k.setBumpVal b).setBumpVal (oneBasisPoint / 2)) = k.setBumpVal (1 / 20000) by rw [e1]; rfl, hup, ok_bind]
    unfold pyDiv
    rw [if_neg (by rw [e3]; norm_num), e3]
  refine ⟨hv, ?_⟩
  unfold YieldCurve.pv01Risk
  rcases hr : yc'.keyRateDeriv exp asset (k.setBumpVal b) with ⟨r1, y1, k1⟩
  rw [hr] at hv h
  simp only at hv h
  subst hv
  simp only
  rw [h.2.2.2 _ rfl, e3]
  congr 2
  field_simp

theorem portfolio_bumped {exp : ℚ → ℚ} {yc : YieldCurve} {entries : List PortfolioEntry} {cash : ℚ} {k : KeyRate} {b : ℚ}
    (hne : entries ≠ []) {v : PortfolioEntry → ℚ} (hv : ∀ e ∈ entries, bumpedValue exp yc e.asset k b = .ok (v e)) :
    bumpedValue exp yc (portfolioPresentValue entries cash) k b =
      .ok (cash + (entries.map (fun e => e.quantity * v e)).sum) := by
  unfold bumpedValue YieldCurve.presentValue at hv ⊢
  rcases h1 : YieldCurve.toDiscountCurve exp ⟨yc.base, yc.space, none⟩ (k.setBumpVal b).asAdjustment with ⟨r, y⟩
  rw [h1] at hv
  obtain ⟨e0, he0⟩ := List.exists_mem_of_ne_nil _ hne
  cases r with
  | error e => simp only at hv; exact absurd (hv e0 he0) (by simp)
  | ok u =>
    cases u
    simp only at hv ⊢
    cases hc : y.discountCurve with
    | none => simp only [hc] at hv; exact absurd (hv e0 he0) (by simp)
    | some c =>
      simp only [hc] at hv ⊢
      exact C32_value entries cash c.toDiscountFn v hv

/-- C30. The sensitivity (and pv01) of a portfolio is the quantity-weighted sum of those of its assets, each computed at
any time on the same curve; cash contributes nothing. -/
theorem C30_portfolio_linear (exp : ℚ → ℚ) (values : List Knot) (m : InterpolationMethod) (dcc : DayCountConvention)
    (space : InterpolationSpace) (ref : PyDate) (l r : EndBehavior) (yc yc' : YieldCurve)
    (hyc : YieldCurve.create values [] m dcc space ref l r = .ok yc) (hu : Used exp yc yc')
    (entries : List PortfolioEntry) (hne : entries ≠ []) (cash : ℚ) (k : KeyRate) (δ : PortfolioEntry → ℚ)
    (hδ : ∀ e ∈ entries, (yc.keyRateDeriv exp e.asset k).1 = .ok (δ e)) :
    (yc'.keyRateDeriv exp (portfolioPresentValue entries cash) k).1 =
      .ok (entries.map (fun e => e.quantity * δ e)).sum ∧
    (yc'.pv01Risk exp (portfolioPresentValue entries cash) k).1 =
      .ok ⟨k.keyDate, (entries.map (fun e => e.quantity * (δ e * (1 / 10000)))).sum, .usTreasury⟩ := by
  obtain ⟨hs, base, hbase, rfl⟩ := settings_create (exp := exp) hyc
  have e3 : oneBasisPoint = 1 / 10000 := by norm_num [oneBasisPoint]
  have hne3 : oneBasisPoint ≠ 0 := by rw [e3]; norm_num
  have hpair : ∀ e : PortfolioEntry, ∃ ud : ℚ × ℚ, e ∈ entries →
      bumpedValue exp ⟨base, space, none⟩ e.asset k (-oneBasisPoint / 2) = .ok ud.2 ∧
      bumpedValue exp ⟨base, space, none⟩ e.asset k (oneBasisPoint / 2) = .ok ud.1 ∧
      δ e = (ud.1 - ud.2) / oneBasisPoint := by
    intro e
    by_cases he : e ∈ entries
    · have h := hδ e he
      rw [(keyRateDeriv_eq hs .start e.asset k).1, bind_ok] at h
      obtain ⟨down, hd, h⟩ := h
      rw [bind_ok] at h
      obtain ⟨up, hu', h⟩ := h
      unfold pyDiv at h
      rw [if_neg hne3] at h
      injection h with h
      exact ⟨(up, down), fun _ => ⟨hd, hu', h.symm⟩⟩
    · exact ⟨(0, 0), fun h => absurd h he⟩
  choose ud hud using hpair
  have hdown := portfolio_bumped (cash := cash) hne (fun e he => (hud e he).1)
  have hup := portfolio_bumped (cash := cash) hne (fun e he => (hud e he).2.1)
  have hmain := keyRateDeriv_eq hs hu (portfolioPresentValue entries cash) k
  have hv : (yc'.keyRateDeriv exp (portfolioPresentValue entries cash) k).1 =
      .ok (entries.map (fun e => e.quantity * δ e)).sum := by
    rw [hmain.1, hdown, ok_bind, hup, ok_bind]
    unfold pyDiv
    rw [if_neg hne3]
    congr 1
    have hsum : (entries.map (fun e => e.quantity * δ e)).sum =
        (entries.map (fun e => (e.quantity * (ud e).1 - e.quantity * (ud e).2) / oneBasisPoint)).sum := by
      congr 1
      apply List.map_congr_left
      intro e he
      rw [(hud e he).2.2]; ring
    rw [hsum]
    have hgen : ∀ es : List PortfolioEntry,
        (es.map (fun e => (e.quantity * (ud e).1 - e.quantity * (ud e).2) / oneBasisPoint)).sum =
        ((es.map (fun e => e.quantity * (ud e).1)).sum - (es.map (fun e => e.quantity * (ud e).2)).sum) / oneBasisPoint := by
      intro es
      induction es with
      | nil => simp
      | cons e es ih => simp only [List.map_cons, List.sum_cons, ih]; ring
    rw [hgen]; ring
  refine ⟨hv, ?_⟩
  unfold YieldCurve.pv01Risk
  rcases hr : yc'.keyRateDeriv exp (portfolioPresentValue entries cash) k with ⟨r1, y1, k1⟩
  rw [hr] at hv hmain
  simp only at hv hmain
  subst hv
  simp only
  rw [hmain.2.2.2 _ rfl, e3]
  congr 2
  rw [← List.sum_map_mul_right]
  congr 1
  apply List.map_congr_left
  intro e _
  ring

theorem pv01Risk_used {exp : ℚ → ℚ} {yc yc' : YieldCurve} (hs : Settings exp yc) (hu : Used exp yc yc')
    (asset : PresentValueable) (k k0 : KeyRate) (hk : k.setBumpVal 0 = k0.setBumpVal 0) :
    (yc'.pv01Risk exp asset k).1 = (yc.pv01Risk exp asset k0).1 ∧ Used exp yc (yc'.pv01Risk exp asset k).2.1 ∧
    (yc'.pv01Risk exp asset k).2.2.setBumpVal 0 = k0.setBumpVal 0 := by
  have h1 := keyRateDeriv_eq hs hu asset k
  have h2 := keyRateDeriv_eq hs .start asset k0
  have hb : ∀ b, k.setBumpVal b = k0.setBumpVal b := by
    intro b
    have : ∀ x : KeyRate, x.setBumpVal b = (x.setBumpVal 0).setBumpVal b := fun _ => rfl
    rw [this k, this k0, hk]
  have hbv : ∀ b, bumpedValue exp yc asset k b = bumpedValue exp yc asset k0 b := by
    intro b; unfold bumpedValue; rw [hb b]
  have hkd : (k.setBumpVal 0).keyDate = (k0.setBumpVal 0).keyDate := by rw [hk]
  rw [hbv, hbv, ← h2.1] at h1
  have hst : ∀ x : KeyRate, (x = k.setBumpVal (oneBasisPoint / 2) ∨ x = k.setBumpVal (-oneBasisPoint / 2)) →
      x.setBumpVal 0 = k0.setBumpVal 0 ∧ x.keyDate = k0.keyDate := by
    rintro x (rfl | rfl)
    · exact ⟨hk, hkd⟩
    · exact ⟨hk, hkd⟩
  have hst0 : ∀ x : KeyRate, (x = k0.setBumpVal (oneBasisPoint / 2) ∨ x = k0.setBumpVal (-oneBasisPoint / 2)) →
      x.keyDate = k0.keyDate := by rintro x (rfl | rfl) <;> rfl
  unfold YieldCurve.pv01Risk
  rcases hr : yc'.keyRateDeriv exp asset k with ⟨r1, y1, k1⟩
  rcases hr2 : yc.keyRateDeriv exp asset k0 with ⟨r2, y2, k2⟩
  rw [hr, hr2] at h1
  rw [hr2] at h2
  simp only at h1 h2
  have hs1 := hst _ h1.2.2.1
  have hs2 := hst0 _ h2.2.2.1
  rw [h1.1]
  cases r2 with
  | error e => exact ⟨rfl, h1.2.1, hs1.1⟩
  | ok v => exact ⟨by simp only [hs1.2, hs2], h1.2.1, hs1.1⟩

/-- C30. A risk ladder holds one risk per key rate, in the order of the collection, each equal to the pv01 computed alone on
the original curve with the original key rate: earlier rungs do not influence later ones. -/
theorem C30_ladder (exp : ℚ → ℚ) (values : List Knot) (m : InterpolationMethod) (dcc : DayCountConvention)
    (space : InterpolationSpace) (ref : PyDate) (l r : EndBehavior) (yc yc' : YieldCurve)
    (hyc : YieldCurve.create values [] m dcc space ref l r = .ok yc) (hu : Used exp yc yc') (asset : PresentValueable)
    (h : KRHeap) (c : KeyRateCollection) (risk : Nat → Risk)
    (hr : ∀ i ∈ c.keyRates, (yc.pv01Risk exp asset (h i)).1 = .ok (risk i)) :
    (yc'.pv01RiskLadder exp asset h c).1 = .ok (c.keyRates.map risk) ∧
    (yc'.pv01RiskLadder exp asset h c).1.map (List.map Risk.keyRateDate) =
      .ok (c.keyRates.map (fun i => (h i).keyDate)) := by
  obtain ⟨hs, base, hbase, rfl⟩ := settings_create (exp := exp) hyc
  have key : ∀ (ids : List Nat) (y : YieldCurve) (h' : KRHeap), Used exp ⟨base, space, none⟩ y →
      (∀ i, (h' i).setBumpVal 0 = (h i).setBumpVal 0) →
      (∀ i ∈ ids, (YieldCurve.pv01Risk exp ⟨base, space, none⟩ asset (h i)).1 = .ok (risk i)) →
      (YieldCurve.riskLadderLoop exp asset ids y h').1 = .ok (ids.map risk) := by
    intro ids
    induction ids with
    | nil => intro y h' _ _ _; rfl
    | cons i is ih =>
      intro y h' hy hh hri
      have hp := pv01Risk_used hs hy asset (h' i) (h i) (hh i)
      rw [hri i (by simp)] at hp
      unfold YieldCurve.riskLadderLoop
      rcases hv : y.pv01Risk exp asset (h' i) with ⟨r1, y1, k1⟩
      rw [hv] at hp
      simp only at hp
      obtain ⟨rfl, hu1, hk1⟩ := hp
      have := ih y1 (Function.update h' i k1) hu1 (by
        intro j
        by_cases hj : j = i
        · subst hj; simp only [Function.update_self]; exact hk1
        · rw [Function.update_of_ne hj]; exact hh j) (fun j hj => hri j (by simp [hj]))
      simp only
      rcases hv2 : YieldCurve.riskLadderLoop exp asset is y1 (Function.update h' i k1) with ⟨r2, y2, h2⟩
      rw [hv2] at this
      simp only at this
      subst this
      rfl
  have h1 := key c.keyRates yc' h hu (fun _ => rfl) hr
  refine ⟨h1, ?_⟩
  show (YieldCurve.riskLadderLoop exp asset c.keyRates yc' h).1.map _ = _
  rw [h1]
  simp only [Except.map, List.map_map]
  congr 1
  apply List.map_congr_left
  intro i hi
  have hri := hr i hi
  simp only [Function.comp]
  have hd := (keyRateDeriv_eq hs .start asset (h i)).2.2.1
  unfold YieldCurve.pv01Risk at hri
  rcases hv : YieldCurve.keyRateDeriv exp ⟨base, space, none⟩ asset (h i) with ⟨r1, y1, k1⟩
  rw [hv] at hri hd
  cases r1 with
  | error e => cases hri
  | ok v =>
    simp only at hri
    injection hri with hri
    rw [← hri]
    rcases hd with hd | hd <;> simp only at hd <;> rw [hd] <;> rfl

/-- C30. In DISCOUNT_FACTOR space the sensitivity of a zero-coupon bond maturing at a knot is the height `w` of the key
rate's (unit) bump at that date: 1 at the key rate's own date, 0 at its neighbours. -/
theorem C30_zero_coupon_sensitivity (exp : ℚ → ℚ) (bonds : List Knot) (m : InterpolationMethod)
    (hm : Interpolates m bonds.length) (dcc : DayCountConvention) (ref : PyDate) (l r : EndBehavior)
    (h : CurveInput bonds dcc ref) (yc yc' : YieldCurve)
    (hyc : YieldCurve.create bonds [] m dcc .discountFactor ref l r = .ok yc) (hu : Used exp yc yc') (k : KeyRate)
    (w : PyDate → ℚ) (hw : ∀ x b, x ∈ bonds → (k.setBumpVal b).call x.date = .ok (b * w x.date)) (b : Knot)
    (hb : b ∈ bonds) :
    (yc'.keyRateDeriv exp (ZeroCoupon.presentValue b.date) k).1 = .ok (w b.date) := by
  have hpv : ∀ q, (yc.presentValue exp (ZeroCoupon.presentValue b.date) (k.setBumpVal q).asAdjustment).1 =
      .ok (b.value + q * w b.date) := by
    intro q
    obtain ⟨hs, base, hbase, rfl⟩ := settings_create (exp := exp) hyc
    obtain ⟨values', c, hto, hperm, hin, hc, href⟩ := discountFactor_curve (exp := exp) hm h hbase
      (k.setBumpVal q).asAdjustment (fun d => q * w d) (fun x hx => hw x q hx)
    unfold YieldCurve.presentValue
    simp only [hto]
    have hcall := C27_knots values' m (hm.congr (by simpa using hperm.length_eq)) dcc ref .error .error hin c hc ⟨b.date, b.value + q * w b.date⟩
      (hperm.mem_iff.2 (List.mem_map.2 ⟨b, hb, rfl⟩))
    exact (C19_zero_coupon b.date c.toDiscountFn).1 (by
      show c.referenceDate ≤ b.date
      rw [href]; exact h.notBefore b hb) _ hcall
  have := (C30_central_difference exp bonds m dcc .discountFactor ref l r yc yc' hyc hu (ZeroCoupon.presentValue b.date) k
    k.bump _ _ (hpv _) (hpv _)).1
  rw [show k.setBumpVal k.bump = k from rfl] at this
  rw [this]
  congr 1
  ring

/-- A key rate dated at the last knot, not yet wired to neighbours, moves every knot by its bump. -/
example : ∀ x b, x ∈ exampleKnots → ((⟨.act360, D 2026 1 1, none, none, 1 / 10000⟩ : KeyRate).setBumpVal b).call x.date =
    .ok (b * 1) := by
  intro x b hx
  have hle : x.date ≤ D 2026 1 1 := by
    have : ∀ x ∈ exampleKnots, x.date ≤ D 2026 1 1 := by decide +kernel
    exact this x hx
  simp [KeyRate.setBumpVal, KeyRate.call, hle]

/-! ## C31 -/

/-- C31. Risk calculations never change the yield curve's own knots, settings or interpolator, nor (beyond the bump) the key
rate.  Missing: the bump and earlier returned discount curves, see the two theorems below. -/
theorem C31_curve_unchanged_partial (exp : ℚ → ℚ) (values : List Knot) (m : InterpolationMethod) (dcc : DayCountConvention)
    (space : InterpolationSpace) (ref : PyDate) (l r : EndBehavior) (yc yc' : YieldCurve)
    (hyc : YieldCurve.create values [] m dcc space ref l r = .ok yc) (hu : Used exp yc yc') (asset : PresentValueable)
    (k : KeyRate) :
    (yc'.keyRateDeriv exp asset k).2.1.base = yc.base ∧ (yc'.keyRateDeriv exp asset k).2.1.space = yc.space ∧
    (yc'.keyRateDeriv exp asset k).2.2.setBumpVal k.bump = k := by
  obtain ⟨hs, base, hbase, rfl⟩ := settings_create (exp := exp) hyc
  have h := keyRateDeriv_eq hs hu asset k
  have h2 := used_inv hs h.2.1
  refine ⟨h2.2.1, h2.2.2, ?_⟩
  rcases h.2.2.1 with h | h <;> rw [h] <;> rfl

/-- C31 fails: after every successful sensitivity calculation the key rate is left bumped by +1/2 basis point, so unless it
had that bump already it has changed. -/
theorem C31_key_rate_left_bumped (exp : ℚ → ℚ) (values : List Knot) (m : InterpolationMethod) (dcc : DayCountConvention)
    (space : InterpolationSpace) (ref : PyDate) (l r : EndBehavior) (yc yc' : YieldCurve)
    (hyc : YieldCurve.create values [] m dcc space ref l r = .ok yc) (hu : Used exp yc yc') (asset : PresentValueable)
    (k : KeyRate) (v : ℚ) (hv : (yc'.keyRateDeriv exp asset k).1 = .ok v) :
    (yc'.keyRateDeriv exp asset k).2.2.bump = 1 / 20000 ∧
    (k.bump ≠ 1 / 20000 → (yc'.keyRateDeriv exp asset k).2.2 ≠ k) := by
  obtain ⟨hs, base, hbase, rfl⟩ := settings_create (exp := exp) hyc
  have h := (keyRateDeriv_eq hs hu asset k).2.2.2 v hv
  have hb : (yc'.keyRateDeriv exp asset k).2.2.bump = 1 / 20000 := by
    rw [h]
    show oneBasisPoint / 2 = 1 / 20000
    norm_num [oneBasisPoint]
  exact ⟨hb, fun hne he => hne (by rw [← he]; exact hb)⟩

/-- C31 fails: in DISCOUNT_FACTOR space the discount curve object returned by an earlier conversion is overwritten by a later
one.  After the user's own unadjusted conversion, a conversion with adjustment `a` changes that object's value at every
knot by `a`. -/
theorem C31_discount_curve_overwritten (exp : ℚ → ℚ) (bonds : List Knot) (m : InterpolationMethod)
    (hm : Interpolates m bonds.length) (dcc : DayCountConvention) (ref : PyDate) (l r : EndBehavior)
    (h : CurveInput bonds dcc ref) (yc : YieldCurve)
    (hyc : YieldCurve.create bonds [] m dcc .discountFactor ref l r = .ok yc) (adj : Adjustment) (a : PyDate → ℚ)
    (ha : ∀ d, adj (.date d) = .ok (a d)) (b : Knot) (hb : b ∈ bonds) :
    ∃ c c', (yc.toDiscountCurve exp noAdjustment).2.discountCurve = some c ∧
      ((yc.toDiscountCurve exp noAdjustment).2.toDiscountCurve exp adj).2.discountCurve = some c' ∧
      c.call b.date = .ok b.value ∧ c'.call b.date = .ok (b.value + a b.date) := by
  obtain ⟨hs, base, hbase, rfl⟩ := settings_create (exp := exp) hyc
  have hu : Used exp ⟨base, .discountFactor, none⟩ (YieldCurve.toDiscountCurve exp ⟨base, .discountFactor, none⟩
    noAdjustment).2 := .convert _ _ .start
  obtain ⟨hs', hb', hsp'⟩ := used_inv hs hu
  obtain ⟨v1, c1, ht1, hp1, hin1, hc1, _⟩ := discountFactor_curve (exp := exp) hm h hbase noAdjustment (fun _ => 0)
    (fun _ _ => rfl)
  obtain ⟨v2, c2, ht2, hp2, hin2, hc2, _⟩ := discountFactor_curve (exp := exp) hm h hbase adj a (fun k _ => ha k.date)
  have heq := toDiscountCurve_eq hs' adj
  rw [hb', hsp'] at heq
  simp only at heq
  rw [ht2] at heq
  refine ⟨c1, c2, by rw [ht1], by rw [heq.2.1 heq.1], ?_, ?_⟩
  · have := C27_knots v1 m (hm.congr (by simpa using hp1.length_eq)) dcc ref .error .error hin1 c1 hc1 ⟨b.date, b.value + 0⟩
      (hp1.mem_iff.2 (List.mem_map.2 ⟨b, hb, rfl⟩))
    rw [add_zero] at this
    exact this
  · exact C27_knots v2 m (hm.congr (by simpa using hp2.length_eq)) dcc ref .error .error hin2 c2 hc2 ⟨b.date, b.value + a b.date⟩
      (hp2.mem_iff.2 (List.mem_map.2 ⟨b, hb, rfl⟩))

end Verif.Props
