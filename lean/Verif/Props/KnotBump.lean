/- Property C140: bumping a curve by the key rate of one of its knots is moving that knot. -/
import Verif.Props.KeyRateSign
import Verif.Props.CurveReset
import Verif.Props.CurveFactory
import Verif.Lemmas.RoundedValuation
import Verif.Props.Risk

namespace Verif.Props
open Verif Verif.Spec Verif.DayCount

/-! ## Specification -/

/-- The knots with `b` added to the value at the date `m`. -/
def moveKnot (values : List Knot) (m : PyDate) (b : ℚ) : List Knot :=
  values.map (fun x => if x.date = m then ⟨x.date, x.value + b⟩ else x)

/-- A key rate at one of two or more knots, with the neighbouring knots as its neighbours. -/
structure AtKnot (values : List Knot) (k : KeyRate) : Prop where
  knot : ∃ x ∈ values, x.date = k.keyDate
  first : k.prior = none → ∀ x ∈ values, k.keyDate ≤ x.date
  last : k.next = none → ∀ x ∈ values, x.date ≤ k.keyDate
  prior : ∀ p, k.prior = some p → p < k.keyDate ∧ (∃ x ∈ values, x.date = p) ∧ ∀ x ∈ values, x.date ≤ p ∨ k.keyDate ≤ x.date
  next : ∀ n, k.next = some n → k.keyDate < n ∧ (∃ x ∈ values, x.date = n) ∧ ∀ x ∈ values, x.date ≤ k.keyDate ∨ n ≤ x.date
  neighbour : k.prior ≠ none ∨ k.next ≠ none

/-! ## The weight of the bump -/

/-- The bump is proportional to a weight that is one at the key date, zero at the other knots and linear in time between them. -/
theorem atKnot_weight {values : List Knot} {k : KeyRate} (hk : AtKnot values k) {τ : PyDate → ℚ} (hτ : timeAxis k.dcc = some τ)
    (hax : ∀ x ∈ values, AxisOk k.dcc x.date) :
    ∃ W : PyDate → ℚ, (∀ b d, (k.setBumpVal b).call d = .ok (b * W d)) ∧ W k.keyDate = 1 ∧
      (∀ x ∈ values, x.date ≠ k.keyDate → W x.date = 0) ∧
      (∀ x ∈ values, (∀ y ∈ values, x.date ≤ y.date) → ∀ d, d ≤ x.date → W d = W x.date) ∧
      ∀ x y d, Adjacent values x y → x.date ≤ d → d < y.date →
        W d = (1 - (τ d - τ x.date) / (τ y.date - τ x.date)) * W x.date + (τ d - τ x.date) / (τ y.date - τ x.date) * W y.date := by
  obtain ⟨dcc, m, prior, next, b0⟩ := k
  obtain ⟨hknot, hfirst, hlast, hprior, hnext, hnb⟩ := hk
  simp only at hknot hfirst hlast hprior hnext hnb hτ hax ⊢
  obtain ⟨x0, hx0, rfl⟩ := hknot
  -- what is needed of the weight
  have build : ∀ W : PyDate → ℚ, W x0.date = 1 →
      (∀ p, prior = some p → ∀ d, d ≤ p → W d = 0) → (prior = none → ∀ d, d ≤ x0.date → W d = 1) →
      (∀ n, next = some n → ∀ d, n ≤ d → W d = 0) →
      (∀ p, prior = some p → ∀ d, p ≤ d → d ≤ x0.date → W d = (τ d - τ p) / (τ x0.date - τ p)) →
      (∀ n, next = some n → ∀ d, x0.date ≤ d → d ≤ n → W d = (τ n - τ d) / (τ n - τ x0.date)) →
      W x0.date = 1 ∧ (∀ x ∈ values, x.date ≠ x0.date → W x.date = 0) ∧
      (∀ x ∈ values, (∀ y ∈ values, x.date ≤ y.date) → ∀ d, d ≤ x.date → W d = W x.date) ∧
      ∀ x y d, Adjacent values x y → x.date ≤ d → d < y.date →
        W d = (1 - (τ d - τ x.date) / (τ y.date - τ x.date)) * W x.date + (τ d - τ x.date) / (τ y.date - τ x.date) * W y.date := by
    intro W h1 hl0 hl1 hr0 hup hdown
    have hzero : ∀ x ∈ values, x.date ≠ x0.date → W x.date = 0 := by
      intro x hx hne
      rcases lt_or_gt_of_ne hne with hlt | hgt
      · cases hp : prior with
        | none => exact absurd hlt (not_lt.2 (hfirst hp x hx))
        | some p =>
          rcases (hprior p hp).2.2 x hx with h | h
          · exact hl0 p hp _ h
          · exact absurd hlt (not_lt.2 h)
      · cases hn : next with
        | none => exact absurd hgt (not_lt.2 (hlast hn x hx))
        | some n =>
          rcases (hnext n hn).2.2 x hx with h | h
          · exact absurd hgt (not_lt.2 h)
          · exact hr0 n hn _ h
    refine ⟨h1, hzero, ?_, ?_⟩
    · intro x hx hmin d hd
      cases hp : prior with
      | none =>
        have hm := le_antisymm (hmin x0 hx0) (hfirst hp x hx)
        rw [hl1 hp d (hm ▸ hd), hl1 hp x.date (le_of_eq hm)]
      | some p =>
        obtain ⟨-, ⟨y, hy, rfl⟩, -⟩ := hprior p hp
        rw [hl0 _ hp d (hd.trans (hmin y hy)), hl0 _ hp x.date (hmin y hy)]
    · rintro x y d ⟨hx, hy, hxy, hadj⟩ hxd hdy
      have hpos : τ y.date - τ x.date ≠ 0 := by have := axis_strictMono hτ hxy; linarith
      rcases eq_or_ne x.date x0.date with hxm | hxm
      · -- falling
        cases hn : next with
        | none => exact absurd (hlast hn y hy) (not_le.2 (hxm ▸ hxy))
        | some n =>
          obtain ⟨hmn, ⟨z, hz, rfl⟩, hbetween⟩ := hnext n hn
          have hyn : y.date = z.date := by
            apply le_antisymm
            · rcases hadj z hz with h | h
              · exact absurd hmn (not_lt.2 (hxm ▸ h))
              · exact h
            · rcases hbetween y hy with h | h
              · exact absurd hxy (not_lt.2 (hxm ▸ h))
              · exact h
          have hny : y.date ≠ x0.date := fun e => absurd hxy (not_lt.2 (by rw [e, hxm]))
          rw [hzero y hy hny, hxm, h1, hdown _ hn d (hxm ▸ hxd) (hyn ▸ hdy.le), ← hyn]
          rw [hxm] at hpos
          field_simp
          ring
      · rcases eq_or_ne y.date x0.date with hym | hym
        · -- rising
          cases hp : prior with
          | none => exact absurd (hfirst hp x hx) (not_le.2 (hym ▸ hxy))
          | some p =>
            obtain ⟨hpm, ⟨z, hz, rfl⟩, hbetween⟩ := hprior p hp
            have hxp : x.date = z.date := by
              apply le_antisymm
              · rcases hbetween x hx with h | h
                · exact h
                · exact absurd hxy (not_lt.2 (hym ▸ h))
              · rcases hadj z hz with h | h
                · exact h
                · exact absurd hpm (not_lt.2 (hym ▸ h))
            rw [hzero x hx hxm, hym, h1, hup _ hp d (hxp ▸ hxd) (hym ▸ hdy.le), ← hxp]
            ring
        · -- away from the key date
          rw [hzero x hx hxm, hzero y hy hym]
          simp only [mul_zero, add_zero]
          rcases hadj x0 hx0 with h | h
          · have hlt : x0.date < x.date := lt_of_le_of_ne h (Ne.symm hxm)
            cases hn : next with
            | none => exact absurd hlt (not_lt.2 (hlast hn x hx))
            | some n =>
              rcases (hnext n hn).2.2 x hx with h' | h'
              · exact absurd hlt (not_lt.2 h')
              · exact hr0 n hn d (h'.trans hxd)
          · have hlt : y.date < x0.date := lt_of_le_of_ne h hym
            cases hp : prior with
            | none => exact absurd hlt (not_lt.2 (hfirst hp y hy))
            | some p =>
              rcases (hprior p hp).2.2 y hy with h' | h'
              · exact hl0 p hp d (hdy.le.trans h')
              · exact absurd hlt (not_lt.2 h')
  have hsub : ∀ {u v : PyDate}, u < v → τ v - τ u ≠ 0 := fun huv => by have := axis_strictMono hτ huv; linarith
  cases hp : prior with
  | none =>
    cases hn : next with
    | none => rw [hp, hn] at hnb; simp at hnb
    | some n =>
      have hmn := (hnext n hn).1
      refine ⟨rampDown τ x0.date n, fun b d => ?_, build _ ?_ ?_ ?_ ?_ ?_ ?_⟩
      · exact C22_no_prior dcc τ hτ x0.date n hmn (hax x0 hx0) b d
      · unfold rampDown; rw [if_pos le_rfl]
      · intro p h; rw [hp] at h; cases h
      · intro _ d hd; unfold rampDown; rw [if_pos hd]
      · intro n' h d hd
        rw [hn] at h; cases h
        unfold rampDown; rw [if_neg (not_le.2 (hmn.trans_le hd)), if_pos hd]
      · intro p h; rw [hp] at h; cases h
      · intro n' h d h1 h2
        rw [hn] at h; cases h
        unfold rampDown
        split_ifs with g1 g2
        · rw [le_antisymm g1 h1, div_self (hsub hmn)]
        · rw [le_antisymm h2 g2, sub_self, zero_div]
        · rfl
  | some p =>
    have hpm := (hprior p hp).1
    have haxp : AxisOk dcc p := by
      obtain ⟨-, ⟨z, hz, rfl⟩, -⟩ := hprior p hp
      exact hax z hz
    cases hn : next with
    | none =>
      refine ⟨rampUp τ p x0.date, fun b d => ?_, build _ ?_ ?_ ?_ ?_ ?_ ?_⟩
      · exact C22_no_next dcc τ hτ p x0.date hpm haxp b d
      · unfold rampUp; rw [if_neg (not_le.2 hpm), if_pos le_rfl]
      · intro p' h d hd; rw [hp] at h; cases h
        unfold rampUp; rw [if_pos hd]
      · intro h; rw [hp] at h; cases h
      · intro n' h; rw [hn] at h; cases h
      · intro p' h d h1 h2
        rw [hp] at h; cases h
        unfold rampUp
        split_ifs with g1 g2
        · rw [le_antisymm g1 h1, sub_self, zero_div]
        · rw [le_antisymm h2 g2, div_self (hsub hpm)]
        · rfl
      · intro n' h; rw [hn] at h; cases h
    | some n =>
      have hmn := (hnext n hn).1
      refine ⟨hat τ p x0.date n, fun b d => ?_, build _ ?_ ?_ ?_ ?_ ?_ ?_⟩
      · exact C22_hat dcc τ hτ p x0.date n hpm hmn haxp b d
      · unfold hat
        rw [if_neg (by rintro (h | h); exact absurd hpm (not_lt.2 h); exact absurd hmn (not_lt.2 h)), if_pos le_rfl, div_self (hsub hpm)]
      · intro p' h d hd; rw [hp] at h; cases h
        unfold hat; rw [if_pos (Or.inl hd)]
      · intro h; rw [hp] at h; cases h
      · intro n' h d hd; rw [hn] at h; cases h
        unfold hat; rw [if_pos (Or.inr hd)]
      · intro p' h d h1 h2
        rw [hp] at h; cases h
        unfold hat
        split_ifs with g1
        · rcases g1 with g1 | g1
          · rw [le_antisymm g1 h1, sub_self, zero_div]
          · exact absurd (hmn.trans_le (g1.trans h2)) (lt_irrefl _)
        · rfl
      · intro n' h d h1 h2
        rw [hn] at h; cases h
        unfold hat
        split_ifs with g1 g2
        · rcases g1 with g1 | g1
          · exact absurd (hpm.trans_le (h1.trans g1)) (lt_irrefl _)
          · rw [le_antisymm h2 g1, sub_self, zero_div]
        · rw [le_antisymm g2 h1, div_self (hsub hpm), div_self (hsub hmn)]
        · rfl

/-! ## The bumped curve -/

theorem moveKnot_eq {values : List Knot} {k : KeyRate} {W : PyDate → ℚ} (h1 : W k.keyDate = 1)
    (h0 : ∀ x ∈ values, x.date ≠ k.keyDate → W x.date = 0) (b : ℚ) :
    moveKnot values k.keyDate b = values.map (fun x => ⟨x.date, x.value + b * W x.date⟩) := by
  unfold moveKnot
  apply List.map_congr_left
  intro x hx
  by_cases hd : x.date = k.keyDate
  · rw [if_pos hd, hd, h1, mul_one]
  · rw [if_neg hd, h0 x hx hd, mul_zero, add_zero]

theorem moveKnot_dates (values : List Knot) (m : PyDate) (b : ℚ) : (moveKnot values m b).map Knot.date = values.map Knot.date := by
  unfold moveKnot
  rw [List.map_map]
  apply List.map_congr_left
  intro x _
  simp only [Function.comp]
  split_ifs <;> rfl

/-- C140. On a linearly interpolated curve in the convention of the key rate, adding the key rate's bump to the curve gives the curve
with the knot moved by the bump: at every date up to the last knot, and before the first if the curve is extended. -/
theorem C140_curve (values : List Knot) (dcc : DayCountConvention) (ref : PyDate) (l r : EndBehavior) (h : CurveInput values dcc ref)
    (k : KeyRate) (hk : AtKnot values k) (hdcc : k.dcc = dcc) (b : ℚ) (c c' : Curve)
    (hc : Curve.create values .linear dcc (some ref) l r = .ok c)
    (hc' : Curve.create (moveKnot values k.keyDate b) .linear dcc (some ref) l r = .ok c') (d : PyDate)
    (h1 : l = .constant ∨ ∃ x ∈ values, x.date ≤ d) (h2 : ∃ x ∈ values, d ≤ x.date) :
    ∃ y, c.interpolate d (k.setBumpVal b).asAdjustment = .ok y ∧ c'.call d = .ok y := by
  obtain ⟨τ, hτ⟩ := h.axis
  have h' := h.of_dates (moveKnot_dates values k.keyDate b)
  obtain ⟨W, hW, hone, hzero, hleft, hlin⟩ := atKnot_weight hk (hdcc ▸ hτ)
    (fun x hx => by rw [hdcc]; exact AxisOk_mono (h.notBefore x hx) h.refOk)
  rw [moveKnot_eq hone hzero b] at hc' h'
  have hadd : ∀ y, c.call d = .ok y → c.interpolate d (k.setBumpVal b).asAdjustment = .ok (y + b * W d) := fun y hy =>
    C27_adjustment values .linear dcc ref l r h c hc d h2 _ y _ hy (hW b d)
  have hmem : ∀ x ∈ values, (⟨x.date, x.value + b * W x.date⟩ : Knot) ∈ values.map (fun x => ⟨x.date, x.value + b * W x.date⟩) :=
    fun x hx => List.mem_map.2 ⟨x, hx, rfl⟩
  by_cases h0 : ∃ x ∈ values, x.date ≤ d
  · rcases bracket h0 h2 with ⟨x, hx, rfl⟩ | ⟨x, y, hxy, hx, hy⟩
    · exact ⟨_, hadd _ (C27_knots values .linear (.inl rfl) dcc ref l r h c hc x hx),
        C27_knots _ .linear (.inl rfl) dcc ref l r h' c' hc' _ (hmem x hx)⟩
    · obtain ⟨w, hw, -, -, hv⟩ := (C27_between values dcc ref l r h τ hτ x y hxy d hx hy).1 c hc
      have hxy' : Adjacent (values.map (fun x => (⟨x.date, x.value + b * W x.date⟩ : Knot))) ⟨x.date, x.value + b * W x.date⟩
          ⟨y.date, y.value + b * W y.date⟩ := by
        refine ⟨hmem x hxy.1, hmem y hxy.2.1, hxy.2.2.1, fun z hz => ?_⟩
        obtain ⟨u, hu, rfl⟩ := List.mem_map.1 hz
        exact hxy.2.2.2 u hu
      obtain ⟨w', hw', -, -, hv'⟩ := (C27_between _ dcc ref l r h' τ hτ _ _ hxy' d hx hy).1 c' hc'
      refine ⟨_, hadd _ hv, ?_⟩
      rw [hv', hlin x y d hxy hx hy, hw', hw]
      congr 1
      simp only
      ring
  · obtain rfl : l = .constant := h1.resolve_right h0
    push Not at h0
    obtain ⟨x, hx, hmin⟩ := Finset.exists_min_image values.toFinset Knot.date
      (by obtain ⟨k, hk, _⟩ := h2; exact ⟨k, by simp [hk]⟩)
    simp only [List.mem_toFinset] at hx hmin
    refine ⟨_, hadd _ ((C27_outside values .linear dcc ref .constant r h c hc x hx d).1 hmin (h0 x hx)), ?_⟩
    rw [(C27_outside _ .linear dcc ref .constant r h' c' hc' _ (hmem x hx) d).1 (fun z hz => by
      obtain ⟨u, hu, rfl⟩ := List.mem_map.1 hz
      exact hmin u hu) (h0 x hx)]
    rw [hleft x hx hmin d (h0 x hx).le]

theorem pySorted_map {f : Knot → Knot} (hf : ∀ x, (f x).date = x.date) (l : List Knot) :
    pySorted Knot.date (l.map f) = (pySorted Knot.date l).map f := by
  have := pySorted_forall₂ (key := Knot.date) (r := fun a b => b = f a) (fun a b h => by rw [h, hf]) (l := l) (l' := l.map f)
    (by
      rw [List.forall₂_map_right_iff]
      exact List.forall₂_same.2 (fun _ _ => rfl))
  generalize pySorted Knot.date (l.map f) = m at this
  generalize pySorted Knot.date l = n at this
  induction this with
  | nil => rfl
  | cons ha _ ih => rw [List.map_cons, ih, ha]

/-- C140. In DISCOUNT_FACTOR space, for every interpolation method, every asset is worth on the bumped curve what it is worth on the
curve with the knot moved by the bump, whatever was computed before with either curve; the convention of the key rate is irrelevant. -/
theorem C140_discount_factor (exp : ℚ → ℚ) (values : List Knot) (m : InterpolationMethod) (hm : Interpolates m values.length)
    (dcc : DayCountConvention) (ref : PyDate) (l r : EndBehavior) (h : CurveInput values dcc ref) (k : KeyRate) (hk : AtKnot values k)
    (hkd : k.dcc ≠ .thirty360 ∧ k.dcc ≠ .unknown) (hax : AxisOk k.dcc ref) (b : ℚ) (yc yc' moved moved' : YieldCurve)
    (hyc : YieldCurve.create values [] m dcc .discountFactor ref l r = .ok yc) (hu : Used exp yc yc')
    (hmoved : YieldCurve.create (moveKnot values k.keyDate b) [] m dcc .discountFactor ref l r = .ok moved) (hu' : Used exp moved moved')
    (asset : PresentValueable) :
    (yc'.presentValue exp asset (k.setBumpVal b).asAdjustment).1 = (moved'.presentValue exp asset noAdjustment).1 := by
  obtain ⟨hs, base, hbase, rfl⟩ := settings_create (exp := exp) hyc
  obtain ⟨hs', base', hbase', rfl⟩ := settings_create (exp := exp) hmoved
  rw [(presentValue_used hs hu _ _).1, (presentValue_used hs' hu' _ _).1]
  dsimp only
  obtain ⟨τ, hτ⟩ := h.axis
  obtain ⟨σ, hσ⟩ : ∃ σ, timeAxis k.dcc = some σ := by
    revert hkd
    cases k.dcc <;> simp [timeAxis]
  obtain ⟨W, hW, hone, hzero, -, -⟩ := atKnot_weight hk hσ (fun x hx => AxisOk_mono (h.notBefore x hx) hax)
  have h' := h.of_dates (moveKnot_dates values k.keyDate b)
  have hmk := moveKnot_eq hone hzero b
  rw [hmk] at hbase' h'
  have hm' : Interpolates m (values.map (fun x => (⟨x.date, x.value + b * W x.date⟩ : Knot))).length := hm.congr (by simp)
  have e1 : YieldCurve.discountFactorKnots ⟨base, .discountFactor, none⟩ (k.setBumpVal b).asAdjustment =
      .ok ((pySorted Knot.date values).map (fun x => ⟨x.date, x.value + b * W x.date⟩)) := by
    unfold YieldCurve.discountFactorKnots
    rw [show (YieldCurve.mk base .discountFactor none).base.knots = pySorted Knot.date values by
      have hb := hbase
      rw [create_curve hτ h.refOk h.notBefore] at hb
      cases hb; rfl]
    apply collect_eq_map
    intro x hx
    have hx := (pySorted_perm Knot.date values).mem_iff.1 hx
    dsimp only
    rw [C27_adjustment values m dcc ref l r h base hbase x.date ⟨x, hx, le_rfl⟩ _ _ _
      (C27_knots values m hm dcc ref l r h base hbase x hx) (hW b x.date), ok_bind]
  have e2 : YieldCurve.discountFactorKnots ⟨base', .discountFactor, none⟩ noAdjustment =
      .ok ((pySorted Knot.date values).map (fun x => ⟨x.date, x.value + b * W x.date⟩)) := by
    unfold YieldCurve.discountFactorKnots
    rw [show (YieldCurve.mk base' .discountFactor none).base.knots =
        (pySorted Knot.date values).map (fun x => ⟨x.date, x.value + b * W x.date⟩) by
      have hb := hbase'
      rw [create_curve hτ h'.refOk h'.notBefore, pySorted_map (f := fun x => ⟨x.date, x.value + b * W x.date⟩) (fun _ => rfl)] at hb
      cases hb; rfl]
    rw [collect_eq_map (g := id), List.map_id]
    intro x hx
    have hx' : x ∈ values.map (fun x => (⟨x.date, x.value + b * W x.date⟩ : Knot)) := by
      obtain ⟨y, hy, rfl⟩ := List.mem_map.1 hx
      exact List.mem_map.2 ⟨y, (pySorted_perm Knot.date values).mem_iff.1 hy, rfl⟩
    have := C27_knots _ m hm' dcc ref l r h' base' hbase' x hx'
    unfold Curve.call at this
    dsimp only
    rw [this, ok_bind]; rfl
  have s1 : base.method = base'.method ∧ base.dcc = base'.dcc ∧ base.referenceDate = base'.referenceDate := by
    rw [create_curve hτ h.refOk h.notBefore] at hbase
    rw [create_curve hτ h'.refOk h'.notBefore] at hbase'
    cases hbase; cases hbase'
    exact ⟨rfl, rfl, rfl⟩
  unfold YieldCurve.presentValue YieldCurve.toDiscountCurve
  simp only [e1, e2]
  unfold YieldCurve.storeDiscount
  simp only [s1.1, s1.2.1, s1.2.2]
  cases Curve.create _ base'.method base'.dcc (some base'.referenceDate) .error .error <;> rfl

/-- C140. The same in CONTINUOUSLY_COMPOUNDED_YIELD space, for a linearly interpolated curve in the convention of the key rate. -/
theorem C140_yield (exp : ℚ → ℚ) (values : List Knot) (dcc : DayCountConvention) (ref : PyDate) (l r : EndBehavior)
    (h : CurveInput values dcc ref) (hl : l = .constant ∨ ∃ x ∈ values, x.date = ref) (k : KeyRate) (hk : AtKnot values k)
    (hdcc : k.dcc = dcc) (b : ℚ) (yc yc' moved moved' : YieldCurve)
    (hyc : YieldCurve.create values [] .linear dcc .continuouslyCompoundedYield ref l r = .ok yc) (hu : Used exp yc yc')
    (hmoved : YieldCurve.create (moveKnot values k.keyDate b) [] .linear dcc .continuouslyCompoundedYield ref l r = .ok moved)
    (hu' : Used exp moved moved') (asset : PresentValueable) :
    (yc'.presentValue exp asset (k.setBumpVal b).asAdjustment).1 = (moved'.presentValue exp asset noAdjustment).1 := by
  obtain ⟨hs, base, hbase, rfl⟩ := settings_create (exp := exp) hyc
  obtain ⟨hs', base', hbase', rfl⟩ := settings_create (exp := exp) hmoved
  rw [(presentValue_used hs hu _ _).1, (presentValue_used hs' hu' _ _).1]
  dsimp only
  obtain ⟨τ, hτ⟩ := h.axis
  have h' := h.of_dates (moveKnot_dates values k.keyDate b)
  have s1 : base.dcc = base'.dcc ∧ base.referenceDate = base'.referenceDate ∧ base.referenceDate = ref ∧
      base.knots = pySorted Knot.date values ∧
      base'.knots = (pySorted Knot.date values).map (fun x => if x.date = k.keyDate then ⟨x.date, x.value + b⟩ else x) := by
    have hb := hbase
    have hb' := hbase'
    rw [create_curve hτ h.refOk h.notBefore] at hb
    rw [create_curve hτ h'.refOk h'.notBefore] at hb'
    unfold moveKnot at hb'
    rw [pySorted_map (f := fun x => if x.date = k.keyDate then ⟨x.date, x.value + b⟩ else x) (fun x => by split_ifs <;> rfl)] at hb'
    cases hb; cases hb'
    exact ⟨rfl, rfl, rfl, rfl, rfl⟩
  have e : YieldCurve.yieldKnots exp ⟨base, .continuouslyCompoundedYield, none⟩ (k.setBumpVal b).asAdjustment =
      YieldCurve.yieldKnots exp ⟨base', .continuouslyCompoundedYield, none⟩ noAdjustment := by
    unfold YieldCurve.yieldKnots
    simp only [s1.2.2.2.1, s1.2.2.2.2, List.getLast?_map, ← s1.1, ← s1.2.1]
    cases hlast : (pySorted Knot.date values).getLast? with
    | none => rfl
    | some last =>
      simp only [Option.map_some]
      have hd : (if last.date = k.keyDate then (⟨last.date, last.value + b⟩ : Knot) else last).date = last.date := by
        split_ifs <;> rfl
      rw [hd]
      have hlm := (pySorted_perm Knot.date values).mem_iff.1 (List.mem_of_getLast? hlast)
      obtain ⟨dates, hdates, -, hmem⟩ := dateRange_ok ref last.date (h.notBefore last hlm)
      rw [s1.2.2.1, hdates, ok_bind, ok_bind]
      rw [collect_congr_mem (f := fun d => base.interpolate d (k.setBumpVal b).asAdjustment)
        (g := fun d => base'.interpolate d noAdjustment)]
      intro d hd
      obtain ⟨h1, h2⟩ := (hmem d).1 hd
      obtain ⟨y, hy, hy'⟩ := C140_curve values dcc ref l r h k hk hdcc b base base' hbase hbase' d
        (hl.imp id (fun ⟨x, hx, hr⟩ => ⟨x, hx, by rw [hr]; exact h1⟩)) ⟨last, hlm, h2⟩
      unfold Curve.call at hy'
      rw [hy, hy']
  unfold YieldCurve.presentValue YieldCurve.toDiscountCurve
  simp only [e]
  cases YieldCurve.yieldKnots exp ⟨base', .continuouslyCompoundedYield, none⟩ noAdjustment with
  | error _ => rfl
  | ok knots =>
    unfold YieldCurve.storeDiscount
    simp only [s1.1, s1.2.1]
    cases Curve.create knots .linear base'.dcc (some base'.referenceDate) .error .error <;> rfl

/-- C140. So the pv01 against a key rate at a knot is the value with the knot half a basis point up minus the value with the knot half a
basis point down, without any key rate. -/
theorem C140_risk (exp : ℚ → ℚ) (values : List Knot) (m : InterpolationMethod) (hm : Interpolates m values.length)
    (dcc : DayCountConvention) (space : InterpolationSpace) (ref : PyDate) (l r : EndBehavior) (h : CurveInput values dcc ref)
    (k : KeyRate) (hk : AtKnot values k) (hdcc : k.dcc = dcc)
    (hspace : space = .discountFactor ∨
      space = .continuouslyCompoundedYield ∧ m = .linear ∧ (l = .constant ∨ ∃ x ∈ values, x.date = ref))
    (yc yc' upCurve downCurve : YieldCurve) (hyc : YieldCurve.create values [] m dcc space ref l r = .ok yc) (hu : Used exp yc yc')
    (hup : YieldCurve.create (moveKnot values k.keyDate (1 / 20000)) [] m dcc space ref l r = .ok upCurve)
    (hdown : YieldCurve.create (moveKnot values k.keyDate (-1 / 20000)) [] m dcc space ref l r = .ok downCurve)
    (asset : PresentValueable) (up down : ℚ) (hvup : (upCurve.presentValue exp asset noAdjustment).1 = .ok up)
    (hvdown : (downCurve.presentValue exp asset noAdjustment).1 = .ok down) :
    (yc'.pv01Risk exp asset k).1 = .ok ⟨k.keyDate, up - down, .usTreasury⟩ := by
  have hpv : ∀ b moved, YieldCurve.create (moveKnot values k.keyDate b) [] m dcc space ref l r = .ok moved →
      (yc.presentValue exp asset (k.setBumpVal b).asAdjustment).1 = (moved.presentValue exp asset noAdjustment).1 := by
    intro b moved hmoved
    rcases hspace with rfl | ⟨rfl, rfl, hl⟩
    · exact C140_discount_factor exp values m hm dcc ref l r h k hk (hdcc ▸ h.convention) (hdcc ▸ h.refOk) b yc yc moved moved hyc .start
        hmoved .start asset
    · exact C140_yield exp values dcc ref l r h hl k hk hdcc b yc yc moved moved hyc .start hmoved .start asset
  have := (C30_central_difference exp values m dcc space ref l r yc yc' hyc hu asset k k.bump up down
    ((hpv _ _ hup).trans hvup) ((hpv _ _ hdown).trans hvdown)).2
  exact this

/-! ## The key rates of a portfolio -/

/-- C140. The key rates made from two or more knot dates are key rates at those knots. -/
theorem C140_portfolio (values : List Knot) (dcc : DayCountConvention) (h2 : 2 ≤ values.length) (base : Nat) (h h' : KRHeap)
    (c : KeyRateCollection) (hc : Portfolio.toKeyRateCollection dcc (values.map Knot.date) base h = (.ok c, h')) :
    ∀ i ∈ c.keyRates, AtKnot values (h' i) ∧ (h' i).dcc = dcc := by
  intro i hi
  obtain ⟨hsorted, hperm, hdcc, -⟩ := C60_key_rates _ _ _ _ _ _ hc
  obtain ⟨-, hs, hw, -, -⟩ := C23_construction _ _ _ _ hc
  have hlen : 2 ≤ c.keyRates.length := by
    have := hperm.length_eq
    simp only [List.length_map] at this
    omega
  have hdate : ∀ j ∈ c.keyRates, ∃ x ∈ values, x.date = (h' j).keyDate := by
    intro j hj
    have : (h' j).keyDate ∈ values.map Knot.date := hperm.mem_iff.1 (List.mem_map.2 ⟨j, hj, rfl⟩)
    simpa using this
  have hknot : ∀ x ∈ values, ∃ (n : Nat) (hn : n < c.keyRates.length), (h' c.keyRates[n]).keyDate = x.date := by
    intro x hx
    have : x.date ∈ c.keyRates.map (fun i => (h' i).keyDate) := hperm.mem_iff.2 (List.mem_map.2 ⟨x, hx, rfl⟩)
    obtain ⟨j, hj, hj'⟩ := List.mem_map.1 this
    obtain ⟨n, hn, rfl⟩ := List.mem_iff_getElem.1 hj
    exact ⟨n, hn, hj'⟩
  have hlt : ∀ (a b : Nat) (ha : a < c.keyRates.length) (hb : b < c.keyRates.length), a < b →
      (h' c.keyRates[a]).keyDate < (h' c.keyRates[b]).keyDate := fun a b ha hb hab => List.pairwise_iff_getElem.1 hs a b ha hb hab
  have hle : ∀ (a b : Nat) (ha : a < c.keyRates.length) (hb : b < c.keyRates.length), a ≤ b →
      (h' c.keyRates[a]).keyDate ≤ (h' c.keyRates[b]).keyDate := by
    intro a b ha hb hab
    rcases Nat.eq_or_lt_of_le hab with rfl | h
    · exact le_rfl
    · exact (hlt a b ha hb h).le
  obtain ⟨n, hn, rfl⟩ := List.mem_iff_getElem.1 hi
  obtain ⟨hp, hx⟩ := hw n _ (List.getElem?_eq_getElem hn)
  refine ⟨⟨hdate _ hi, ?_, ?_, ?_, ?_, ?_⟩, (hdcc _ hi).1⟩
  · intro h0 x hx
    obtain ⟨j, hj, hj'⟩ := hknot x hx
    rw [← hj']
    by_cases hn0 : n = 0
    · exact hle n j hn hj (by omega)
    · rw [if_neg hn0, List.getElem?_eq_getElem (by omega)] at hp
      rw [hp] at h0; simp at h0
  · intro h0 x hx'
    obtain ⟨j, hj, hj'⟩ := hknot x hx'
    rw [← hj']
    by_cases hn1 : n + 1 < c.keyRates.length
    · rw [List.getElem?_eq_getElem hn1] at hx
      rw [hx] at h0; simp at h0
    · exact hle j n hj hn (by omega)
  · intro p hpp
    rw [hpp] at hp
    by_cases hn0 : n = 0
    · rw [if_pos hn0] at hp; simp at hp
    · rw [if_neg hn0, List.getElem?_eq_getElem (by omega)] at hp
      simp only [Option.map_some, Option.some.injEq] at hp
      subst hp
      refine ⟨hlt _ _ _ _ (by omega), hdate _ (List.getElem_mem _), fun x hx' => ?_⟩
      obtain ⟨j, hj, hj'⟩ := hknot x hx'
      rw [← hj']
      rcases Nat.lt_or_ge j n with h | h
      · exact Or.inl (hle j (n - 1) hj (by omega) (by omega))
      · exact Or.inr (hle n j hn hj h)
  · intro q hq
    rw [hq] at hx
    by_cases hn1 : n + 1 < c.keyRates.length
    · rw [List.getElem?_eq_getElem hn1] at hx
      simp only [Option.map_some, Option.some.injEq] at hx
      subst hx
      refine ⟨hlt _ _ _ _ (by omega), hdate _ (List.getElem_mem _), fun x hx' => ?_⟩
      obtain ⟨j, hj, hj'⟩ := hknot x hx'
      rw [← hj']
      rcases Nat.lt_or_ge n j with h | h
      · exact Or.inr (hle (n + 1) j hn1 hj h)
      · exact Or.inl (hle j n hj hn h)
    · rw [List.getElem?_eq_none (by omega)] at hx; simp at hx
  · by_cases hn0 : n = 0
    · right
      rw [hx, List.getElem?_eq_getElem (by omega)]; simp
    · left
      rw [hp, if_neg hn0, List.getElem?_eq_getElem (by omega)]; simp

/-! ## Examples -/

/-- The key rate at the middle knot of the example curve. -/
def middleKeyRate : KeyRate := ⟨.act360, D 2025 1 1, some (D 2024 1 1), some (D 2026 1 1), 0⟩

theorem middle_atKnot : AtKnot exampleKnots middleKeyRate := by
  refine ⟨⟨⟨D 2025 1 1, 2⟩, by simp [exampleKnots], rfl⟩, fun h => (by cases h), fun h => (by cases h), ?_, ?_, Or.inl (by simp [middleKeyRate])⟩
  · intro p hp
    cases hp
    refine ⟨by decide +kernel, ⟨⟨D 2024 1 1, 1⟩, by simp [exampleKnots], rfl⟩, by decide +kernel⟩
  · intro p hp
    cases hp
    refine ⟨by decide +kernel, ⟨⟨D 2026 1 1, 3⟩, by simp [exampleKnots], rfl⟩, by decide +kernel⟩

theorem example_input : CurveInput exampleKnots .act360 (D 2023 6 1) :=
  ⟨by decide, by decide +kernel, by decide +kernel, by decide +kernel, by decide +kernel⟩

/-- The knot at the beginning of 2025 raised by a tenth, and the curve of it. -/
example : moveKnot exampleKnots (D 2025 1 1) (1 / 10) = [⟨D 2026 1 1, 3⟩, ⟨D 2024 1 1, 1⟩, ⟨D 2025 1 1, 21 / 10⟩] ∧
    ∃ c, Curve.create (moveKnot exampleKnots (D 2025 1 1) (1 / 10)) .linear .act360 (some (D 2023 6 1)) .constant .error = .ok c := by
  constructor
  · unfold moveKnot exampleKnots
    simp only [List.map_cons, List.map_nil]
    rw [if_neg (by decide +kernel), if_neg (by decide +kernel), if_pos trivial]
    norm_num
  · exact ((C27_builds _ .linear .act360 .constant .error).1 _ (example_input.of_dates (moveKnot_dates _ _ _))).imp fun _ h => h.1

/-- All hypotheses of the pv01 claim can be met, in both spaces, by a zero coupon bond. -/
example (exp : ℚ → ℚ) (space : InterpolationSpace) (hsp : space = .discountFactor ∨ space = .continuouslyCompoundedYield) (b : ℚ) :
    ∃ yc v, YieldCurve.create (moveKnot exampleKnots (D 2025 1 1) b) [] .linear .act360 space (D 2023 6 1) .constant .error = .ok yc ∧
      (yc.presentValue exp (ZeroCoupon.presentValue (D 2025 1 1)) noAdjustment).1 = .ok v := by
  have hin := example_input.of_dates (moveKnot_dates exampleKnots (D 2025 1 1) b)
  obtain ⟨c, hc, -⟩ := (C27_builds _ .linear .act360 .constant .error).1 _ hin
  have hmem : (⟨D 2025 1 1, 2 + b⟩ : Knot) ∈ moveKnot exampleKnots (D 2025 1 1) b := by
    unfold moveKnot exampleKnots
    simp only [List.map_cons, List.map_nil]
    rw [if_neg (by decide +kernel), if_neg (by decide +kernel), if_pos trivial]
    simp
  have hyc : ∀ sp, YieldCurve.create (moveKnot exampleKnots (D 2025 1 1) b) [] .linear .act360 sp (D 2023 6 1) .constant .error =
      .ok ⟨c, sp, none⟩ := by
    intro sp
    unfold YieldCurve.create
    split
    · rename_i h _; simp at *
    · rw [hc, ok_bind]
  rcases hsp with rfl | rfl
  · have hv := C29_reprices exp (moveKnot exampleKnots (D 2025 1 1) b) .linear (.inl rfl) .act360 (D 2023 6 1) .constant .error hin
      ⟨c, .discountFactor, none⟩ ⟨c, .discountFactor, none⟩ (hyc _) .start ⟨D 2025 1 1, 2 + b⟩ hmem
    exact ⟨⟨c, .discountFactor, none⟩, 2 + b, hyc _, hv⟩
  · obtain ⟨τ, hτ⟩ := hin.axis
    obtain ⟨y, -, hv⟩ := C29_yield_space exp (moveKnot exampleKnots (D 2025 1 1) b) .linear (.inl rfl) .act360 (D 2023 6 1) .constant .error
      hin (.inl rfl) τ hτ ⟨c, .continuouslyCompoundedYield, none⟩ ⟨c, .continuouslyCompoundedYield, none⟩ (hyc _)
      .start noAdjustment (fun _ => 0) (fun _ => rfl) (D 2025 1 1) (by decide +kernel) ⟨_, hmem, le_rfl⟩
    exact ⟨⟨c, .continuouslyCompoundedYield, none⟩, _, hyc _, hv⟩

/-- The claim fails for the PREVIOUS method: half way from the middle knot to the last, the bump of a tenth has decayed to less than
0.0504, but moving the knot moves the value by the full tenth. -/
theorem C140_previous_false : ∃ c c' : Curve,
    Curve.create exampleKnots .previous .act360 (some (D 2023 6 1)) .constant .error = .ok c ∧
    Curve.create (moveKnot exampleKnots (D 2025 1 1) (1 / 10)) .previous .act360 (some (D 2023 6 1)) .constant .error = .ok c' ∧
    c.interpolate (D 2025 7 2) (middleKeyRate.setBumpVal (1 / 10)).asAdjustment = .ok (2 + 1 / 10 * (183 / 365)) ∧
    c'.call (D 2025 7 2) = .ok (2 + 1 / 10) := by
  have hin := example_input
  have hin' := example_input.of_dates (moveKnot_dates exampleKnots (D 2025 1 1) (1 / 10))
  obtain ⟨c, hc, -⟩ := (C27_builds _ .previous .act360 .constant .error).1 _ hin
  obtain ⟨c', hc', -⟩ := (C27_builds _ .previous .act360 .constant .error).1 _ hin'
  have hmoved : moveKnot exampleKnots (D 2025 1 1) (1 / 10) = [⟨D 2026 1 1, 3⟩, ⟨D 2024 1 1, 1⟩, ⟨D 2025 1 1, 2 + 1 / 10⟩] := by
    unfold moveKnot exampleKnots
    simp only [List.map_cons, List.map_nil]
    rw [if_neg (by decide +kernel), if_neg (by decide +kernel), if_pos trivial]
  obtain ⟨τ, hτ⟩ := hin.axis
  refine ⟨c, c', hc, hc', ?_, ?_⟩
  · have hv := (C27_between _ .act360 (D 2023 6 1) .constant .error hin τ hτ ⟨D 2025 1 1, 2⟩ ⟨D 2026 1 1, 3⟩
      ⟨by simp [exampleKnots], by simp [exampleKnots], by decide +kernel, by decide +kernel⟩ (D 2025 7 2) (by decide +kernel)
      (by decide +kernel)).2 c hc
    refine C27_adjustment _ .previous .act360 (D 2023 6 1) .constant .error hin c hc (D 2025 7 2)
      ⟨⟨D 2026 1 1, 3⟩, by simp [exampleKnots], by decide +kernel⟩ _ _ _ hv ?_
    refine (C22_hat .act360 τ hτ (D 2024 1 1) (D 2025 1 1) (D 2026 1 1) (by decide +kernel) (by decide +kernel) (by intro h; cases h)
      (1 / 10) (D 2025 7 2)).trans ?_
    congr 2
    cases hτ
    unfold hat
    rw [if_neg (by decide +kernel), if_neg (by decide +kernel)]
    decide +kernel
  · rw [hmoved] at hc' hin'
    exact (C27_between _ .act360 (D 2023 6 1) .constant .error hin' τ hτ ⟨D 2025 1 1, 2 + 1 / 10⟩ ⟨D 2026 1 1, 3⟩
      ⟨by simp, by simp, by decide +kernel, by
        intro x hx
        simp only [List.mem_cons, List.not_mem_nil, or_false] at hx
        rcases hx with rfl | rfl | rfl
        · exact Or.inr (by decide +kernel)
        · exact Or.inl (by decide +kernel)
        · exact Or.inl (by decide +kernel)⟩ (D 2025 7 2) (by decide +kernel) (by decide +kernel)).2 c' hc'

end Verif.Props
