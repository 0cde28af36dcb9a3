/- Property C144: yield curves that price bonds nearly alike are nearly alike. -/
import Verif.Props.CurveUnique
import Mathlib.Tactic.IntervalCases

namespace Verif.Props
open Verif Verif.Spec Verif.DayCount Verif.CurveFactory Verif.Scheduler

/-! ## Specification -/

/-- Between `-B` and `B` the function rises with slopes between `c` and `C`. -/
def SlopesBetween (exp : ℚ → ℚ) (B c C : ℚ) : Prop :=
  ∀ u u', -B ≤ u → u ≤ u' → u' ≤ B → c * (u' - u) ≤ exp u' - exp u ∧ exp u' - exp u ≤ C * (u' - u)

/-- Amount times time, over the payments still to be made on the date `last`. -/
def lastWeight (b : Bond) (s ref last : PyDate) (τ : PyDate → ℚ) : ℚ :=
  weightedSum (fun p => s ≤ p.unadjusted ∧ p.date = last) (fun p => p.amount * (τ p.date - τ ref)) (b.coupons ++ b.principalPayments)

/-- Amount times time, over the payments still to be made before the date `last`. -/
def earlierWeight (b : Bond) (s ref last : PyDate) (τ : PyDate → ℚ) : ℚ :=
  weightedSum (fun p => s ≤ p.unadjusted ∧ p.date < last) (fun p => p.amount * (τ p.date - τ ref)) (b.coupons ++ b.principalPayments)

/-! ## Interpolation -/

/-- `call_le` with a margin. -/
theorem call_le_add {m : InterpolationMethod} (hm : m = .linear ∨ m = .previous) {ref : PyDate} {vs ws : List Knot}
    {dcc : DayCountConvention} {r : EndBehavior} {D : ℚ}
    (hv : CurveInput vs dcc ref) (hw : CurveInput ws dcc ref) (hd : vs.map Knot.date = ws.map Knot.date) {last : PyDate}
    (hlast : last ∈ vs.map Knot.date)
    (hle : ∀ k ∈ vs, ∀ k' ∈ ws, k.date = k'.date → k.date ≤ last → k.value ≤ k'.value + D) {c c' : Curve}
    (hc : Curve.create vs m dcc (some ref) .constant r = .ok c)
    (hc' : Curve.create ws m dcc (some ref) .constant r = .ok c') {d : PyDate} (hdl : d ≤ last) {x x' : ℚ}
    (hx : c.call d = .ok x) (hx' : c'.call d = .ok x') : x ≤ x' + D := by
  obtain ⟨τ, hτ⟩ := hv.axis
  obtain ⟨kl, hkl, hkld⟩ := List.mem_map.1 hlast
  have hdates : ∀ x ∈ ws, ∃ y ∈ vs, y.date = x.date := by
    intro x hx
    have : x.date ∈ vs.map Knot.date := by rw [hd]; exact List.mem_map_of_mem hx
    exact List.mem_map.1 this
  have hdates' : ∀ x ∈ vs, ∃ y ∈ ws, y.date = x.date := by
    intro x hx
    have : x.date ∈ ws.map Knot.date := by rw [← hd]; exact List.mem_map_of_mem hx
    exact List.mem_map.1 this
  have fin : ∀ {u u' : ℚ}, c.call d = .ok u → c'.call d = .ok u' → u ≤ u' + D → x ≤ x' + D := by
    intro u u' h1 h2 h3
    rw [hx] at h1; rw [hx'] at h2
    injection h1 with h1; injection h2 with h2
    rw [h1, h2]; exact h3
  have hknot : ∀ k ∈ vs, k.date ≤ last → k.date = d → x ≤ x' + D := by
    intro k hk hkd he
    subst he
    obtain ⟨k', hk', hkk⟩ := hdates' k hk
    refine fin (C27_knots vs m (.basic hm _) dcc ref .constant r hv c hc k hk) ?_ (hle k hk k' hk' hkk.symm hkd)
    rw [← hkk]
    exact C27_knots ws m (.basic hm _) dcc ref .constant r hw c' hc' k' hk'
  by_cases h0 : ∃ k ∈ vs, k.date ≤ d
  · rcases bracket h0 ⟨kl, hkl, by rw [hkld]; exact hdl⟩ with ⟨k, hk, rfl⟩ | ⟨a, b, hab, ha, hb⟩
    · exact hknot k hk hdl rfl
    · have hal : a.date ≤ last := le_trans ha hdl
      rcases lt_or_eq_of_le hdl with hlt | rfl
      · have hbl : b.date ≤ last := by
          rcases hab.2.2.2 kl hkl with h | h
          · rw [hkld] at h
            exact absurd hlt (not_lt.2 (le_trans h ha))
          · rw [← hkld]; exact h
        obtain ⟨a', ha', haa⟩ := hdates' a hab.1
        obtain ⟨b', hb', hbb⟩ := hdates' b hab.2.1
        have hab' : Adjacent ws a' b' := by
          refine ⟨ha', hb', by rw [haa, hbb]; exact hab.2.2.1, fun x hx => ?_⟩
          obtain ⟨y, hy, hyx⟩ := hdates x hx
          rw [← hyx, haa, hbb]; exact hab.2.2.2 y hy
        have va := hle a hab.1 a' ha' haa.symm hal
        have vb := hle b hab.2.1 b' hb' hbb.symm hbl
        have e1 := C27_between vs dcc ref .constant r hv τ hτ a b hab d ha hb
        have e2 := C27_between ws dcc ref .constant r hw τ hτ a' b' hab' d (by rw [haa]; exact ha) (by rw [hbb]; exact hb)
        rw [haa, hbb] at e2
        rcases hm with rfl | rfl
        · obtain ⟨w, hw1, hw2, hw3, e1⟩ := e1.1 c hc
          obtain ⟨w', hw1', _, _, e2⟩ := e2.1 c' hc'
          have hww : w' = w := by rw [hw1, hw1']
          rw [hww] at e2
          refine fin e1 e2 ?_
          have := mul_le_mul_of_nonneg_left va (sub_nonneg.2 hw3.le)
          have := mul_le_mul_of_nonneg_left vb hw2
          linarith
        · exact fin (e1.2 c hc) (e2.2 c' hc') va
      · exact hknot kl hkl (le_of_eq hkld) hkld
  · push Not at h0
    obtain ⟨k, hk, hmin⟩ := Finset.exists_min_image vs.toFinset Knot.date ⟨kl, by simp [hkl]⟩
    simp only [List.mem_toFinset] at hk hmin
    have hkl' : k.date ≤ last := by rw [← hkld]; exact hmin kl hkl
    obtain ⟨k', hk', hkk⟩ := hdates' k hk
    refine fin ((C27_outside vs m dcc ref .constant r hv c hc k hk d).1 hmin (h0 k hk))
      ((C27_outside ws m dcc ref .constant r hw c' hc' k' hk' d).1
        (fun x hx => by obtain ⟨y, hy, hyx⟩ := hdates x hx; rw [← hyx, hkk]; exact hmin y hy) (by rw [hkk]; exact h0 k hk))
      (hle k hk k' hk' hkk.symm hkl')

/-! ## One bond -/

theorem sum_map_sub' {α : Type} (f g : α → ℚ) (l : List α) : (l.map fun a => f a - g a).sum = (l.map f).sum - (l.map g).sum := by
  induction l with
  | nil => simp
  | cons a as ih => simp only [List.map_cons, List.sum_cons, ih]; ring

/-- One direction of `C144_bond`. -/
theorem bond_upper (exp : ℚ → ℚ) (m : InterpolationMethod) (hm : m = .linear ∨ m = .previous) (dcc : DayCountConvention)
    (ref : PyDate) (r : EndBehavior) (vs ws : List Knot) (hv : CurveInput vs dcc ref) (hd : ws.map Knot.date = vs.map Knot.date)
    (yc yc' zc zc' : YieldCurve)
    (hyc : YieldCurve.create vs [] m dcc .continuouslyCompoundedYield ref .constant r = .ok yc) (hu : Used exp yc yc')
    (hzc : YieldCurve.create ws [] m dcc .continuouslyCompoundedYield ref .constant r = .ok zc) (hz : Used exp zc zc')
    (b : Bond) (hmade : Made b) (hrate : 0 ≤ b.terms.couponRate) (hpr : 0 < b.terms.principal)
    (s : PyDate) (hs : addBusinessDays b.terms.calendar ref 1 = .ok s) (last : PyDate)
    (hin : ∀ p ∈ b.coupons ++ b.principalPayments, s ≤ p.unadjusted → p.date ≤ last) (hlast : last ∈ vs.map Knot.date)
    (τ : PyDate → ℚ) (hτ : timeAxis dcc = some τ) (Y c C : ℚ) (hY : ∀ k, k ∈ vs ∨ k ∈ ws → |k.value| ≤ Y)
    (hslope : SlopesBetween exp (Y * (τ last - τ ref)) c C) (hc0 : 0 ≤ c) (hC : 0 ≤ C) (D ε : ℚ) (hD : 0 ≤ D)
    (hearlier : ∀ k ∈ vs, ∀ k' ∈ ws, k.date = k'.date → k.date < last → |k.value - k'.value| ≤ D)
    (v v' : ℚ) (hval : (yc'.presentValue exp b.presentValue noAdjustment).1 = .ok v)
    (hval' : (zc'.presentValue exp b.presentValue noAdjustment).1 = .ok v') (hε : v - v' ≤ ε)
    (k k' : Knot) (hk : k ∈ vs) (hk' : k' ∈ ws) (hkd : k.date = last) (hkd' : k'.date = last) :
    c * lastWeight b s ref last τ * (k'.value - k.value) ≤ ε + C * earlierWeight b s ref last τ * D ∨ k'.value ≤ k.value := by
  by_cases hle : k'.value ≤ k.value
  · exact Or.inr hle
  left
  push Not at hle
  have hw : CurveInput ws dcc ref := hv.of_dates hd
  have hA : ∀ d, (noAdjustment : Adjustment) (.date d) = .ok ((fun _ => (0 : ℚ)) d) := fun _ => rfl
  obtain ⟨y, hy, g1⟩ := C142_bond_value exp vs m (.basic hm _) dcc ref .constant r hv (Or.inl rfl) τ hτ yc hyc b hmade s hs
    (fun p hp hsp => ⟨k, hk, by rw [hkd]; exact hin p hp hsp⟩)
  obtain ⟨z, hz', g2⟩ := C142_bond_value exp ws m (.basic hm _) dcc ref .constant r hw (Or.inl rfl) τ hτ zc hzc b hmade s hs
    (fun p hp hsp => ⟨k', hk', by rw [hkd']; exact hin p hp hsp⟩)
  rw [g1 _ hu _ _ hA] at hval
  rw [g2 _ hz _ _ hA] at hval'
  injection hval with hval
  injection hval' with hval'
  obtain ⟨-, base, hbase, rfl⟩ := settings_create (exp := exp) hyc
  obtain ⟨-, base', hbase', rfl⟩ := settings_create (exp := exp) hzc
  have uniq : ∀ {us : List Knot}, CurveInput us dcc ref → ∀ k ∈ us, ∀ k' ∈ us, k.date = k'.date → k = k' := fun hus k hk k' hk' he =>
    List.inj_on_of_nodup_map hus.distinct hk hk' he
  have hmargin : ∀ j ∈ vs, ∀ j' ∈ ws, j.date = j'.date → j.date ≤ last → j.value ≤ j'.value + D := by
    intro j hj j' hj' he hjl
    rcases lt_or_eq_of_le hjl with h | h
    · have := abs_le.1 (hearlier j hj j' hj' he h); linarith
    · rw [uniq hv j hj k hk (by rw [h, hkd]), uniq hw j' hj' k' hk' (by rw [← he, h, hkd'])]
      linarith
  -- each payment
  have hpay : ∀ p ∈ b.coupons ++ b.principalPayments,
      (if s ≤ p.unadjusted ∧ p.date = last then p.amount * (τ p.date - τ ref) else 0) * (c * (k'.value - k.value)) -
        (if s ≤ p.unadjusted ∧ p.date < last then p.amount * (τ p.date - τ ref) else 0) * (C * D) ≤
      (if s ≤ p.unadjusted then exp (-(y p.date + 0) * (τ p.date - τ ref)) * p.amount else 0) -
        (if s ≤ p.unadjusted then exp (-(z p.date + 0) * (τ p.date - τ ref)) * p.amount else 0) := by
    intro p hp
    by_cases hsp : s ≤ p.unadjusted
    · have hrc := received_after hmade hs hp hsp
      have hpl := hin p hp hsp
      have ht : 0 < τ p.date - τ ref := by have := axis_strictMono hτ hrc.2; linarith
      have hT : τ p.date - τ ref ≤ τ last - τ ref := by have := axis_mono hτ hpl; linarith
      have ha := made_amounts hmade hrate hpr p hp
      have e1 := hy _ hrc.2.le ⟨k, hk, by rw [hkd]; exact hpl⟩
      have e2 := hz' _ hrc.2.le ⟨k', hk', by rw [hkd']; exact hpl⟩
      have by1 := C90_bounds vs m hm dcc ref .constant r hv base hbase (-Y) Y (fun j hj => abs_le.1 (hY j (Or.inl hj))) _ _ e1
      have by2 := C90_bounds ws m hm dcc ref .constant r hw base' hbase' (-Y) Y (fun j hj => abs_le.1 (hY j (Or.inr hj))) _ _ e2
      have hY0 : 0 ≤ Y := le_trans (abs_nonneg _) (hY k (Or.inl hk))
      have range : ∀ u, -Y ≤ u → u ≤ Y → -(Y * (τ last - τ ref)) ≤ -(u + 0) * (τ p.date - τ ref) ∧
          -(u + 0) * (τ p.date - τ ref) ≤ Y * (τ last - τ ref) := by
        intro u h1 h2
        have a1 := mul_le_mul_of_nonneg_right h2 ht.le
        have a2 := mul_le_mul_of_nonneg_right h1 ht.le
        have a3 := mul_le_mul_of_nonneg_left hT hY0
        constructor <;> nlinarith
      have r1 := range _ by1.1 by1.2
      have r2 := range _ by2.1 by2.2
      rw [if_pos hsp, if_pos hsp]
      rcases lt_or_eq_of_le hpl with hlt | heq
      · rw [if_neg (fun h => absurd h.2 (ne_of_lt hlt)), if_pos ⟨hsp, hlt⟩]
        have hm1 := call_le_add hm hv hw hd.symm hlast hmargin hbase hbase' hpl e1 e2
        rcases le_total (y p.date) (z p.date) with hyz | hyz
        · have h1 := hslope (-(z p.date + 0) * (τ p.date - τ ref)) (-(y p.date + 0) * (τ p.date - τ ref)) r2.1
            (by have := mul_le_mul_of_nonneg_right hyz ht.le; linarith) r1.2
          have h2 : 0 ≤ c * (-(y p.date + 0) * (τ p.date - τ ref) - -(z p.date + 0) * (τ p.date - τ ref)) := by
            refine mul_nonneg hc0 ?_
            have := mul_le_mul_of_nonneg_right hyz ht.le
            linarith
          have h3 := mul_le_mul_of_nonneg_right (h2.trans h1.1) ha
          have h4 : 0 ≤ p.amount * (τ p.date - τ ref) * (C * D) := by positivity
          nlinarith
        · have h1 := (hslope (-(y p.date + 0) * (τ p.date - τ ref)) (-(z p.date + 0) * (τ p.date - τ ref)) r1.1
            (by have := mul_le_mul_of_nonneg_right hyz ht.le; linarith) r2.2).2
          have h2 : C * (-(z p.date + 0) * (τ p.date - τ ref) - -(y p.date + 0) * (τ p.date - τ ref)) ≤ C * (D * (τ p.date - τ ref)) := by
            refine mul_le_mul_of_nonneg_left ?_ hC
            have := mul_le_mul_of_nonneg_right hm1 ht.le
            linarith
          have h3 := mul_le_mul_of_nonneg_right (h1.trans h2) ha
          nlinarith
      · rw [if_pos ⟨hsp, heq⟩, if_neg (fun h => absurd heq (ne_of_lt h.2))]
        have hyk : y p.date = k.value := by
          have a2 := C27_knots vs m (.basic hm _) dcc ref .constant r hv base hbase k hk
          rw [hkd, ← heq] at a2
          rw [e1] at a2; injection a2
        have hzk : z p.date = k'.value := by
          have a2 := C27_knots ws m (.basic hm _) dcc ref .constant r hw base' hbase' k' hk'
          rw [hkd', ← heq] at a2
          rw [e2] at a2; injection a2
        have h1 := (hslope (-(z p.date + 0) * (τ p.date - τ ref)) (-(y p.date + 0) * (τ p.date - τ ref)) r2.1
            (by rw [hyk, hzk]; have := mul_le_mul_of_nonneg_right hle.le ht.le; linarith) r1.2).1
        have h3 := mul_le_mul_of_nonneg_right h1 ha
        rw [hyk, hzk] at h3 ⊢
        nlinarith
    · rw [if_neg (fun h => hsp h.1), if_neg (fun h => hsp h.1), if_neg hsp, if_neg hsp]
      simp
  have hsum := List.sum_le_sum hpay
  rw [sum_map_sub', sum_map_sub', List.sum_map_mul_right, List.sum_map_mul_right] at hsum
  unfold lastWeight earlierWeight
  unfold weightedSum at hval hval' ⊢
  rw [hval, hval'] at hsum
  linarith

theorem lastWeight_nonneg {b : Bond} (hmade : Made b) (hrate : 0 ≤ b.terms.couponRate) (hpr : 0 < b.terms.principal) {ref s : PyDate}
    (hs : addBusinessDays b.terms.calendar ref 1 = .ok s) (last : PyDate) {dcc : DayCountConvention} {τ : PyDate → ℚ}
    (hτ : timeAxis dcc = some τ) : 0 ≤ lastWeight b s ref last τ ∧ 0 ≤ earlierWeight b s ref last τ := by
  have h : ∀ p ∈ b.coupons ++ b.principalPayments, s ≤ p.unadjusted → 0 ≤ p.amount * (τ p.date - τ ref) := by
    intro p hp hsp
    have ht : 0 < τ p.date - τ ref := by have := axis_strictMono hτ (received_after hmade hs hp hsp).2; linarith
    exact mul_nonneg (made_amounts hmade hrate hpr p hp) ht.le
  unfold lastWeight earlierWeight weightedSum
  constructor <;>
  · refine List.sum_nonneg ?_
    intro x hx
    obtain ⟨p, hp, rfl⟩ := List.mem_map.1 hx
    split_ifs with hc
    · exact h p hp hc.1
    · exact le_refl (0 : ℚ)

theorem lastWeight_pos {b : Bond} (hmade : Made b) (hrate : 0 ≤ b.terms.couponRate) (hpr : 0 < b.terms.principal) {ref s last : PyDate}
    (hs : addBusinessDays b.terms.calendar ref 1 = .ok s) {p : BondPayment} (hp : p ∈ b.coupons ++ b.principalPayments)
    (hsp : s ≤ p.unadjusted) (hpos : 0 < p.amount) (hpd : p.date = last) {dcc : DayCountConvention} {τ : PyDate → ℚ}
    (hτ : timeAxis dcc = some τ) : 0 < lastWeight b s ref last τ := by
  have ht : ∀ p ∈ b.coupons ++ b.principalPayments, s ≤ p.unadjusted → 0 < τ p.date - τ ref := by
    intro p hp hsp
    have := axis_strictMono hτ (received_after hmade hs hp hsp).2; linarith
  unfold lastWeight weightedSum
  have h0 : ((b.coupons ++ b.principalPayments).map fun _ => (0 : ℚ)).sum = 0 := by simp
  refine lt_of_eq_of_lt h0.symm (sum_lt_of_le_of_lt (fun a ha => ?_) ⟨p, hp, ?_⟩)
  · show (0 : ℚ) ≤ _
    split_ifs with hc
    · exact mul_nonneg (made_amounts hmade hrate hpr a ha) (ht a ha hc.1).le
    · exact le_refl (0 : ℚ)
  · show (0 : ℚ) < _
    rw [if_pos ⟨hsp, hpd⟩]
    exact mul_pos hpos (ht p hp hsp)

/-- C144. Two yield curves with the same knot dates, whose yields stay within `Y`, value a bond within `ε` of each other, and their knots
before its last payment differ by at most `D`.  Then the knots at its last payment differ by at most
`(ε + C * earlier * D) / (c * last)`, where `last` and `earlier` are the sums of amount times time over the payments on that date and
before it, and `c` and `C` bound the slope of the exponential. -/
theorem C144_bond (exp : ℚ → ℚ) (m : InterpolationMethod) (hm : m = .linear ∨ m = .previous) (dcc : DayCountConvention)
    (ref : PyDate) (r : EndBehavior) (vs ws : List Knot) (hv : CurveInput vs dcc ref) (hd : ws.map Knot.date = vs.map Knot.date)
    (yc yc' zc zc' : YieldCurve)
    (hyc : YieldCurve.create vs [] m dcc .continuouslyCompoundedYield ref .constant r = .ok yc) (hu : Used exp yc yc')
    (hzc : YieldCurve.create ws [] m dcc .continuouslyCompoundedYield ref .constant r = .ok zc) (hz : Used exp zc zc')
    (b : Bond) (hmade : Made b) (hrate : 0 ≤ b.terms.couponRate) (hpr : 0 < b.terms.principal)
    (s : PyDate) (hs : addBusinessDays b.terms.calendar ref 1 = .ok s) (last : PyDate)
    (hin : ∀ p ∈ b.coupons ++ b.principalPayments, s ≤ p.unadjusted → p.date ≤ last)
    (τ : PyDate → ℚ) (hτ : timeAxis dcc = some τ) (Y c C : ℚ) (hY : ∀ k, k ∈ vs ∨ k ∈ ws → |k.value| ≤ Y)
    (hslope : SlopesBetween exp (Y * (τ last - τ ref)) c C) (hc0 : 0 ≤ c) (hC : 0 ≤ C) (D ε : ℚ) (hD : 0 ≤ D)
    (hearlier : ∀ k ∈ vs, ∀ k' ∈ ws, k.date = k'.date → k.date < last → |k.value - k'.value| ≤ D)
    (v v' : ℚ) (hval : (yc'.presentValue exp b.presentValue noAdjustment).1 = .ok v)
    (hval' : (zc'.presentValue exp b.presentValue noAdjustment).1 = .ok v') (hε : |v - v'| ≤ ε)
    (k k' : Knot) (hk : k ∈ vs) (hk' : k' ∈ ws) (hkd : k.date = last) (hkd' : k'.date = last) :
    c * lastWeight b s ref last τ * |k.value - k'.value| ≤ ε + C * earlierWeight b s ref last τ * D := by
  have hw : CurveInput ws dcc ref := hv.of_dates hd
  have hε0 : 0 ≤ ε := le_trans (abs_nonneg _) hε
  obtain ⟨w1, w2⟩ := lastWeight_nonneg hmade hrate hpr hs last hτ
  have hrhs : 0 ≤ ε + C * earlierWeight b s ref last τ * D := by positivity
  have hl : last ∈ vs.map Knot.date := List.mem_map.2 ⟨k, hk, hkd⟩
  have hab := abs_le.1 hε
  rcases le_total k.value k'.value with h | h
  · rw [abs_sub_comm, abs_of_nonneg (sub_nonneg.2 h)]
    rcases bond_upper exp m hm dcc ref r vs ws hv hd yc yc' zc zc' hyc hu hzc hz b hmade hrate hpr s hs last hin hl τ hτ Y c C hY hslope
      hc0 hC D ε hD hearlier v v' hval hval' hab.2 k k' hk hk' hkd hkd' with g | g
    · exact g
    · rw [le_antisymm g h, sub_self, mul_zero]; exact hrhs
  · rw [abs_of_nonneg (sub_nonneg.2 h)]
    rcases bond_upper exp m hm dcc ref r ws vs hw hd.symm zc zc' yc yc' hzc hz hyc hu b hmade hrate hpr s hs last hin (by rw [hd]; exact hl)
      τ hτ Y c C (fun j hj => hY j hj.symm) hslope hc0 hC D ε hD
      (fun j' hj' j hj he hlt => by rw [abs_sub_comm]; exact hearlier j hj j' hj' he.symm (by rw [← he]; exact hlt))
      v' v hval' hval (by linarith) k' k hk' hk hkd' hkd with g | g
    · exact g
    · rw [le_antisymm g h, sub_self, mul_zero]; exact hrhs

theorem count_before : ∀ {l : List PyDate}, l.Pairwise (· < ·) → ∀ (i : Nat) (hi : i < l.length) (d : PyDate), l[i] = d →
    (l.filter (fun x => x < d)).length = i
  | [], _, i, hi, _, _ => absurd hi (by simp)
  | a :: l, hp, i, hi, d, hd => by
    rw [List.pairwise_cons] at hp
    cases i with
    | zero =>
      simp only [List.getElem_cons_zero] at hd
      subst hd
      rw [List.length_eq_zero_iff, List.filter_eq_nil_iff]
      intro x hx
      rcases List.mem_cons.1 hx with rfl | hx
      · simp
      · simpa using (hp.1 x hx).le
    | succ i =>
      simp only [List.getElem_cons_succ] at hd
      have hi' : i < l.length := by simpa using hi
      have had : a < d := by rw [← hd]; exact hp.1 _ (List.getElem_mem hi')
      rw [List.filter_cons_of_pos (by simpa using had), List.length_cons, count_before hp.2 i hi' d hd]

/-! ## The whole curve -/

/-- A bond for the knot at `last` on which a price error of `ε` moves its yield by at most `e`, and an error of the earlier yields by at
most `q` times that error. -/
def Pins (exp : ℚ → ℚ) (b : Bond) (ref last : PyDate) (τ : PyDate → ℚ) (Y ε e q : ℚ) : Prop :=
  PaysUntil b ref last ∧ ∃ s c C, addBusinessDays b.terms.calendar ref 1 = .ok s ∧ 0 < c ∧ 0 ≤ C ∧
    SlopesBetween exp (Y * (τ last - τ ref)) c C ∧ ε ≤ e * (c * lastWeight b s ref last τ) ∧
    C * earlierWeight b s ref last τ ≤ q * (c * lastWeight b s ref last τ)

/-- C144. Two yield curves with the same knot dates which value within `ε` of each other, for each knot, a bond with its last payment on
the date of the knot: the yields at the knot with `n` knots before it differ by at most `e * (1 + q) ^ n`. -/
theorem C144_stable (exp : ℚ → ℚ) (m : InterpolationMethod) (hm : m = .linear ∨ m = .previous) (dcc : DayCountConvention)
    (ref : PyDate) (r : EndBehavior) (vs ws : List Knot) (hv : CurveInput vs dcc ref) (hd : ws.map Knot.date = vs.map Knot.date)
    (yc yc' zc zc' : YieldCurve)
    (hyc : YieldCurve.create vs [] m dcc .continuouslyCompoundedYield ref .constant r = .ok yc) (hu : Used exp yc yc')
    (hzc : YieldCurve.create ws [] m dcc .continuouslyCompoundedYield ref .constant r = .ok zc) (hz : Used exp zc zc')
    (τ : PyDate → ℚ) (hτ : timeAxis dcc = some τ) (Y ε e q : ℚ) (hY : ∀ k, k ∈ vs ∨ k ∈ ws → |k.value| ≤ Y) (he : 0 ≤ e) (hq : 0 ≤ q)
    (hbonds : ∀ k ∈ vs, ∃ b, Pins exp b ref k.date τ Y ε e q ∧ ∃ v v',
      (yc'.presentValue exp b.presentValue noAdjustment).1 = .ok v ∧
      (zc'.presentValue exp b.presentValue noAdjustment).1 = .ok v' ∧ |v - v'| ≤ ε) :
    ∀ k ∈ vs, ∀ k' ∈ ws, k.date = k'.date →
      |k.value - k'.value| ≤ e * (1 + q) ^ (vs.filter (fun j => j.date < k.date)).length := by
  suffices H : ∀ n, ∀ k ∈ vs, ∀ k' ∈ ws, k.date = k'.date → (vs.filter (fun j => j.date < k.date)).length ≤ n →
      |k.value - k'.value| ≤ e * (1 + q) ^ (vs.filter (fun j => j.date < k.date)).length from
    fun k hk k' hk' hkk => H _ k hk k' hk' hkk le_rfl
  have hcount : ∀ j ∈ vs, ∀ k, j.date < k → (vs.filter (fun i => i.date < j.date)).length < (vs.filter (fun i => i.date < k)).length := by
    intro j hj k hjk
    have hsub : (j :: vs.filter (fun i => i.date < j.date)).length ≤ (vs.filter (fun i => i.date < k)).length := by
      have hnd : (j :: vs.filter (fun i => i.date < j.date)).Nodup := by
        refine List.nodup_cons.2 ⟨?_, (List.Nodup.of_map _ hv.distinct).filter _⟩
        intro hmem
        have := (List.mem_filter.1 hmem).2
        simp at this
      refine (List.subperm_of_subset hnd ?_).length_le
      intro i hi
      rcases List.mem_cons.1 hi with rfl | hi
      · exact List.mem_filter.2 ⟨hj, by simpa using hjk⟩
      · obtain ⟨h1, h2⟩ := List.mem_filter.1 hi
        exact List.mem_filter.2 ⟨h1, by simpa using lt_trans (by simpa using h2) hjk⟩
    simpa using hsub
  intro n
  induction n with
  | zero =>
    intro k hk k' hk' hkk hn
    have hnone : ∀ j ∈ vs, ¬ j.date < k.date := by
      intro j hj hlt
      have := hcount j hj k.date hlt
      omega
    obtain ⟨b, ⟨⟨hmade, hrate, hpr, s0, hs0, hin, p0, hp0, hsp0, hpos0, hp0d⟩, s, c, C, hs, hc, hC, hsl, h1, h2⟩, v, v', hv1, hv2, hvv⟩ :=
      hbonds k hk
    rw [hs] at hs0
    injection hs0 with hs0
    subst hs0
    have hb := C144_bond exp m hm dcc ref r vs ws hv hd yc yc' zc zc' hyc hu hzc hz b hmade hrate hpr s hs k.date hin τ hτ Y c C hY hsl hc.le hC
      0 ε le_rfl (fun j hj j' _ _ hlt => absurd hlt (hnone j hj)) v v' hv1 hv2 hvv k k' hk hk' rfl hkk.symm
    have hpos := lastWeight_pos hmade hrate hpr hs hp0 hsp0 hpos0 hp0d hτ
    have hx : (vs.filter (fun j => j.date < k.date)).length = 0 := by omega
    rw [hx, pow_zero, mul_one]
    rw [mul_zero, add_zero] at hb
    have := hb.trans h1
    rw [mul_comm e] at this
    exact le_of_mul_le_mul_left this (mul_pos hc hpos)
  | succ n ih =>
    intro k hk k' hk' hkk hn
    obtain ⟨b, ⟨⟨hmade, hrate, hpr, s0, hs0, hin, p0, hp0, hsp0, hpos0, hp0d⟩, s, c, C, hs, hc, hC, hsl, h1, h2⟩, v, v', hv1, hv2, hvv⟩ :=
      hbonds k hk
    rw [hs] at hs0
    injection hs0 with hs0
    subst hs0
    have hpos := lastWeight_pos hmade hrate hpr hs hp0 hsp0 hpos0 hp0d hτ
    set N := (vs.filter (fun j => j.date < k.date)).length with hN
    have hq1 : (1 : ℚ) ≤ 1 + q := by linarith
    rcases Nat.eq_zero_or_pos N with h0 | hNpos
    · exact ih k hk k' hk' hkk (by omega)
    · have hD0 : 0 ≤ e * (1 + q) ^ (N - 1) := by positivity
      have hb := C144_bond exp m hm dcc ref r vs ws hv hd yc yc' zc zc' hyc hu hzc hz b hmade hrate hpr s hs k.date hin τ hτ Y c C hY hsl hc.le hC
        (e * (1 + q) ^ (N - 1)) ε hD0 (by
          intro j hj j' hj' hjj hlt
          have hcj := hcount j hj k.date hlt
          refine (ih j hj j' hj' hjj (by omega)).trans ?_
          exact mul_le_mul_of_nonneg_left (pow_le_pow_right₀ hq1 (by omega)) he) v v' hv1 hv2 hvv k k' hk hk' rfl hkk.symm
      have h3 : C * earlierWeight b s ref k.date τ * (e * (1 + q) ^ (N - 1)) ≤
          q * (c * lastWeight b s ref k.date τ) * (e * (1 + q) ^ (N - 1)) := mul_le_mul_of_nonneg_right h2 hD0
      have hE : e ≤ e * (1 + q) ^ (N - 1) := le_mul_of_one_le_right he (one_le_pow₀ hq1)
      have hW := mul_pos hc hpos
      have h4 : e * (c * lastWeight b s ref k.date τ) ≤ e * (1 + q) ^ (N - 1) * (c * lastWeight b s ref k.date τ) :=
        mul_le_mul_of_nonneg_right hE hW.le
      have hpow : e * (1 + q) ^ N = e * (1 + q) ^ (N - 1) * (1 + q) := by
        conv_lhs => rw [← Nat.sub_add_cancel hNpos]
        rw [pow_succ]; ring
      rw [hpow]
      refine le_of_mul_le_mul_left ?_ hW
      calc c * lastWeight b s ref k.date τ * |k.value - k'.value| ≤ _ := hb
        _ ≤ e * (1 + q) ^ (N - 1) * (c * lastWeight b s ref k.date τ) +
            q * (c * lastWeight b s ref k.date τ) * (e * (1 + q) ^ (N - 1)) := by linarith
        _ = _ := by ring

/-- C144. Under the hypotheses of `C144_stable`, the yields at every date up to the last knot differ by at most `e * (1 + q) ^ (n - 1)`, where
`n` is the number of knots. -/
theorem C144_yields (exp : ℚ → ℚ) (m : InterpolationMethod) (hm : m = .linear ∨ m = .previous) (dcc : DayCountConvention)
    (ref : PyDate) (r : EndBehavior) (vs ws : List Knot) (hv : CurveInput vs dcc ref) (hd : ws.map Knot.date = vs.map Knot.date)
    (yc yc' zc zc' : YieldCurve)
    (hyc : YieldCurve.create vs [] m dcc .continuouslyCompoundedYield ref .constant r = .ok yc) (hu : Used exp yc yc')
    (hzc : YieldCurve.create ws [] m dcc .continuouslyCompoundedYield ref .constant r = .ok zc) (hz : Used exp zc zc')
    (τ : PyDate → ℚ) (hτ : timeAxis dcc = some τ) (Y ε e q : ℚ) (hY : ∀ k, k ∈ vs ∨ k ∈ ws → |k.value| ≤ Y) (he : 0 ≤ e) (hq : 0 ≤ q)
    (hbonds : ∀ k ∈ vs, ∃ b, Pins exp b ref k.date τ Y ε e q ∧ ∃ v v',
      (yc'.presentValue exp b.presentValue noAdjustment).1 = .ok v ∧
      (zc'.presentValue exp b.presentValue noAdjustment).1 = .ok v' ∧ |v - v'| ≤ ε)
    (d : PyDate) (hin : ∃ k ∈ vs, d ≤ k.date) (y z : ℚ) (hy : yc.base.call d = .ok y) (hz' : zc.base.call d = .ok z) :
    |y - z| ≤ e * (1 + q) ^ (vs.length - 1) := by
  have hst := C144_stable exp m hm dcc ref r vs ws hv hd yc yc' zc zc' hyc hu hzc hz τ hτ Y ε e q hY he hq hbonds
  have hw : CurveInput ws dcc ref := hv.of_dates hd
  obtain ⟨-, base, hbase, rfl⟩ := settings_create (exp := exp) hyc
  obtain ⟨-, base', hbase', rfl⟩ := settings_create (exp := exp) hzc
  obtain ⟨k0, hk0, hdk⟩ := hin
  have hq1 : (1 : ℚ) ≤ 1 + q := by linarith
  have hall : ∀ k ∈ vs, ∀ k' ∈ ws, k.date = k'.date → |k.value - k'.value| ≤ e * (1 + q) ^ (vs.length - 1) := by
    intro k hk k' hk' hkk
    refine (hst k hk k' hk' hkk).trans (mul_le_mul_of_nonneg_left (pow_le_pow_right₀ hq1 ?_) he)
    have : (vs.filter (fun j => j.date < k.date)).length < vs.length := by
      rw [List.length_filter_lt_length_iff_exists]
      exact ⟨k, hk, by simp⟩
    omega
  have hl : k0.date ∈ vs.map Knot.date := List.mem_map_of_mem hk0
  have h1 := call_le_add hm hv hw hd.symm hl (D := e * (1 + q) ^ (vs.length - 1))
    (fun k hk k' hk' hkk _ => by have := (abs_le.1 (hall k hk k' hk' hkk)).2; linarith) hbase hbase' hdk hy hz'
  have h2 := call_le_add hm hw hv hd (by rw [hd]; exact hl) (D := e * (1 + q) ^ (vs.length - 1))
    (fun k hk k' hk' hkk _ => by have := (abs_le.1 (hall k' hk' k hk hkk.symm)).1; linarith) hbase' hbase hdk hz' hy
  exact abs_le.2 ⟨by linarith, by linarith⟩

/-- Amount times time, over the payments still to be made. -/
def totalWeight (b : Bond) (s ref : PyDate) (τ : PyDate → ℚ) : ℚ :=
  weightedSum (fun p => s ≤ p.unadjusted) (fun p => p.amount * (τ p.date - τ ref)) (b.coupons ++ b.principalPayments)

/-- C144. Under the hypotheses of `C144_stable`, the two curves value every other bond paid up to the last knot alike, up to `C` times the
sum of its amounts times times, times the bound on the yields. -/
theorem C144_values (exp : ℚ → ℚ) (m : InterpolationMethod) (hm : m = .linear ∨ m = .previous) (dcc : DayCountConvention)
    (ref : PyDate) (r : EndBehavior) (vs ws : List Knot) (hv : CurveInput vs dcc ref) (hd : ws.map Knot.date = vs.map Knot.date)
    (yc yc' zc zc' : YieldCurve)
    (hyc : YieldCurve.create vs [] m dcc .continuouslyCompoundedYield ref .constant r = .ok yc) (hu : Used exp yc yc')
    (hzc : YieldCurve.create ws [] m dcc .continuouslyCompoundedYield ref .constant r = .ok zc) (hz : Used exp zc zc')
    (τ : PyDate → ℚ) (hτ : timeAxis dcc = some τ) (Y ε e q : ℚ) (hY : ∀ k, k ∈ vs ∨ k ∈ ws → |k.value| ≤ Y) (he : 0 ≤ e) (hq : 0 ≤ q)
    (hbonds : ∀ k ∈ vs, ∃ b, Pins exp b ref k.date τ Y ε e q ∧ ∃ v v',
      (yc'.presentValue exp b.presentValue noAdjustment).1 = .ok v ∧
      (zc'.presentValue exp b.presentValue noAdjustment).1 = .ok v' ∧ |v - v'| ≤ ε)
    (last : Knot) (hlast : last ∈ vs) (c C : ℚ) (hc0 : 0 ≤ c) (hC : 0 ≤ C) (hslope : SlopesBetween exp (Y * (τ last.date - τ ref)) c C)
    (b : Bond) (hmade : Made b) (hrate : 0 ≤ b.terms.couponRate) (hpr : 0 < b.terms.principal)
    (s : PyDate) (hs : addBusinessDays b.terms.calendar ref 1 = .ok s)
    (hin : ∀ p ∈ b.coupons ++ b.principalPayments, s ≤ p.unadjusted → p.date ≤ last.date) :
    ∃ v v', (yc'.presentValue exp b.presentValue noAdjustment).1 = .ok v ∧ (zc'.presentValue exp b.presentValue noAdjustment).1 = .ok v' ∧
      |v - v'| ≤ C * totalWeight b s ref τ * (e * (1 + q) ^ (vs.length - 1)) := by
  have hyields := C144_yields exp m hm dcc ref r vs ws hv hd yc yc' zc zc' hyc hu hzc hz τ hτ Y ε e q hY he hq hbonds
  have hw : CurveInput ws dcc ref := hv.of_dates hd
  have hlast' : ∃ k ∈ ws, k.date = last.date := by
    have : last.date ∈ ws.map Knot.date := by rw [hd]; exact List.mem_map_of_mem hlast
    exact List.mem_map.1 this
  obtain ⟨last', hl', hld⟩ := hlast'
  have hA : ∀ d, (noAdjustment : Adjustment) (.date d) = .ok ((fun _ => (0 : ℚ)) d) := fun _ => rfl
  obtain ⟨y, hy, g1⟩ := C142_bond_value exp vs m (.basic hm _) dcc ref .constant r hv (Or.inl rfl) τ hτ yc hyc b hmade s hs
    (fun p hp hsp => ⟨last, hlast, hin p hp hsp⟩)
  obtain ⟨z, hz', g2⟩ := C142_bond_value exp ws m (.basic hm _) dcc ref .constant r hw (Or.inl rfl) τ hτ zc hzc b hmade s hs
    (fun p hp hsp => ⟨last', hl', by rw [hld]; exact hin p hp hsp⟩)
  refine ⟨_, _, g1 _ hu _ _ hA, g2 _ hz _ _ hA, ?_⟩
  obtain ⟨-, base, hbase, rfl⟩ := settings_create (exp := exp) hyc
  obtain ⟨-, base', hbase', rfl⟩ := settings_create (exp := exp) hzc
  set E := e * (1 + q) ^ (vs.length - 1) with hE
  have hY0 : 0 ≤ Y := le_trans (abs_nonneg _) (hY last (Or.inl hlast))
  have hpay : ∀ p ∈ b.coupons ++ b.principalPayments,
      |(if s ≤ p.unadjusted then exp (-(y p.date + 0) * (τ p.date - τ ref)) * p.amount else 0) -
        (if s ≤ p.unadjusted then exp (-(z p.date + 0) * (τ p.date - τ ref)) * p.amount else 0)| ≤
      (if s ≤ p.unadjusted then p.amount * (τ p.date - τ ref) else 0) * (C * E) := by
    intro p hp
    by_cases hsp : s ≤ p.unadjusted
    · have hrc := received_after hmade hs hp hsp
      have hpl := hin p hp hsp
      have ht : 0 < τ p.date - τ ref := by have := axis_strictMono hτ hrc.2; linarith
      have hT : τ p.date - τ ref ≤ τ last.date - τ ref := by have := axis_mono hτ hpl; linarith
      have ha := made_amounts hmade hrate hpr p hp
      have e1 := hy _ hrc.2.le ⟨last, hlast, hpl⟩
      have e2 := hz' _ hrc.2.le ⟨last', hl', by rw [hld]; exact hpl⟩
      have hyz := hyields p.date ⟨last, hlast, hpl⟩ _ _ e1 e2
      have by1 := C90_bounds vs m hm dcc ref .constant r hv base hbase (-Y) Y (fun j hj => abs_le.1 (hY j (Or.inl hj))) _ _ e1
      have by2 := C90_bounds ws m hm dcc ref .constant r hw base' hbase' (-Y) Y (fun j hj => abs_le.1 (hY j (Or.inr hj))) _ _ e2
      have range : ∀ u, -Y ≤ u → u ≤ Y → -(Y * (τ last.date - τ ref)) ≤ -(u + 0) * (τ p.date - τ ref) ∧
          -(u + 0) * (τ p.date - τ ref) ≤ Y * (τ last.date - τ ref) := by
        intro u h1 h2
        have a1 := mul_le_mul_of_nonneg_right h2 ht.le
        have a2 := mul_le_mul_of_nonneg_right h1 ht.le
        have a3 := mul_le_mul_of_nonneg_left hT hY0
        constructor <;> nlinarith
      have r1 := range _ by1.1 by1.2
      have r2 := range _ by2.1 by2.2
      rw [if_pos hsp, if_pos hsp, if_pos hsp]
      have main : ∀ u u', |u - u'| ≤ E → -(u + 0) * (τ p.date - τ ref) ≤ -(u' + 0) * (τ p.date - τ ref) →
          -(Y * (τ last.date - τ ref)) ≤ -(u + 0) * (τ p.date - τ ref) → -(u' + 0) * (τ p.date - τ ref) ≤ Y * (τ last.date - τ ref) →
          0 ≤ exp (-(u' + 0) * (τ p.date - τ ref)) * p.amount - exp (-(u + 0) * (τ p.date - τ ref)) * p.amount ∧
          exp (-(u' + 0) * (τ p.date - τ ref)) * p.amount - exp (-(u + 0) * (τ p.date - τ ref)) * p.amount ≤
            p.amount * (τ p.date - τ ref) * (C * E) := by
        intro u u' huu hle h1 h2
        obtain ⟨k1, k2⟩ := hslope _ _ h1 hle h2
        have k0 : 0 ≤ c * (-(u' + 0) * (τ p.date - τ ref) - -(u + 0) * (τ p.date - τ ref)) := mul_nonneg hc0 (by linarith)
        have k3 : C * (-(u' + 0) * (τ p.date - τ ref) - -(u + 0) * (τ p.date - τ ref)) ≤ C * (E * (τ p.date - τ ref)) := by
          refine mul_le_mul_of_nonneg_left ?_ hC
          have := mul_le_mul_of_nonneg_right (abs_le.1 huu).2 ht.le
          linarith
        have k4 := mul_le_mul_of_nonneg_right (k0.trans k1) ha
        have k5 := mul_le_mul_of_nonneg_right (k2.trans k3) ha
        constructor <;> nlinarith
      rcases le_total (-(y p.date + 0) * (τ p.date - τ ref)) (-(z p.date + 0) * (τ p.date - τ ref)) with hle | hle
      · have := main _ _ hyz hle r1.1 r2.2
        rw [abs_sub_comm, abs_of_nonneg this.1]
        exact this.2
      · have := main _ _ (by rw [abs_sub_comm]; exact hyz) hle r2.1 r1.2
        rw [abs_of_nonneg this.1]
        exact this.2
    · rw [if_neg hsp, if_neg hsp, if_neg hsp]; simp
  have hup := List.sum_le_sum fun p hp => (abs_le.1 (hpay p hp)).2
  have hdn := List.sum_le_sum fun p hp => (abs_le.1 (hpay p hp)).1
  have hneg : ((b.coupons ++ b.principalPayments).map fun p =>
      -((if s ≤ p.unadjusted then p.amount * (τ p.date - τ ref) else 0) * (C * E))).sum =
      -((b.coupons ++ b.principalPayments).map fun p => (if s ≤ p.unadjusted then p.amount * (τ p.date - τ ref) else 0) * (C * E)).sum := by
    generalize b.coupons ++ b.principalPayments = l
    induction l with
    | nil => simp
    | cons a l ih => simp only [List.map_cons, List.sum_cons, ih]; ring
  rw [hneg] at hdn
  rw [sum_map_sub', List.sum_map_mul_right] at hup hdn
  unfold totalWeight weightedSum
  refine abs_le.2 ⟨?_, ?_⟩
  · nlinarith
  · nlinarith

/-! ## The bootstrap -/

/-- C144. Two bootstraps of the same bonds whose root searches, whatever points they evaluate, end within `δ` of a root: the points at which
the two searches of the `i`-th bond ended differ by at most `e * (1 + q) ^ i`. -/
theorem C144_bootstrap (exp : ℚ → ℚ) (m : InterpolationMethod) (hm : m = .linear ∨ m = .previous) (ref : PyDate)
    (bonds : List Bond) (knots : List Knot) (hk : collect Bond.toKnotValuePair bonds = .ok knots) (h : CurveInput knots .actAct ref)
    (hsorted : knots.Pairwise fun a b => a.date < b.date)
    (τ : PyDate → ℚ) (hτ : timeAxis .actAct = some τ) (Y δ e q : ℚ) (he : 0 ≤ e) (hq : 0 ≤ q)
    (hpins : ∀ b ∈ bonds, ∀ k, b.toKnotValuePair = .ok k → Pins exp b ref k.date τ Y (2 * δ) e q)
    (points points' : Nat → List ℚ) (yc zc : YieldCurve) (vss wss : List (List ℚ))
    (hb : bootstrapYieldCurve exp (bonds.map asInstrument) m ref points = .ok (yc, vss))
    (hb' : bootstrapYieldCurve exp (bonds.map asInstrument) m ref points' = .ok (zc, wss))
    (hroot : ∀ vs, vs ∈ vss ∨ vs ∈ wss → ∀ v, vs.getLast? = some v → |v| ≤ δ)
    (hY : ∀ i, i < bonds.length → |(0 :: points i).getLast (by simp)| ≤ Y ∧ |(0 :: points' i).getLast (by simp)| ≤ Y)
    (i : Nat) (hi : i < bonds.length) :
    |(0 :: points i).getLast (by simp) - (0 :: points' i).getLast (by simp)| ≤ e * (1 + q) ^ i := by
  have hF := collect_ok.1 hk
  have hn : knots.length = bonds.length := collect_length hk
  have hy := (bootstrap_spec (collect_asInstrument hk) h hb).1
  have hz := (bootstrap_spec (collect_asInstrument hk) h hb').1
  rw [pySorted_knots hsorted] at hy hz
  have hfix : ∀ a ∈ bonds.map asInstrument, ∀ k, a.knotValue = .ok k → FixedUpTo k.date a.value := by
    intro a ha k hak
    obtain ⟨c, hc, rfl⟩ := List.mem_map.1 ha
    exact (C73_fixed k.date c c.terms (hpins c hc k hak).1.1.1 k hak).2.1
  have hyc := yieldCurve_create (sp := .continuouslyCompoundedYield) hy.base
  have hzc := yieldCurve_create (sp := .continuouslyCompoundedYield) hz.base
  have hdate : ∀ q, (finalKnots q knots).map Knot.date = knots.map Knot.date := fun q => map_date_mapIdx _ _
  have hmem : ∀ (q : Nat → List ℚ) (k : Knot), k ∈ finalKnots q knots → ∃ (j : Nat) (k0 : Knot), j < bonds.length ∧ knots[j]? = some k0 ∧
      k = ⟨k0.date, (0 :: q j).getLast (by simp)⟩ := by
    intro q k hkm
    obtain ⟨j, hj, rfl⟩ := List.mem_mapIdx.1 hkm
    exact ⟨j, knots[j], by omega, List.getElem?_eq_getElem hj, rfl⟩
  have key := C144_stable exp m hm .actAct ref .constant (finalKnots points knots) (finalKnots points' knots) hy.input
    (by rw [hdate, hdate]) _ _ _ _ hyc Used.start hzc Used.start τ hτ Y (2 * δ) e q
    (by
      rintro k (hkm | hkm)
      · obtain ⟨j, k0, hj, -, rfl⟩ := hmem _ _ hkm
        exact (hY j hj).1
      · obtain ⟨j, k0, hj, -, rfl⟩ := hmem _ _ hkm
        exact (hY j hj).2) he hq
    (by
      intro k hkm
      obtain ⟨j, k0, hj, hk0, rfl⟩ := hmem _ _ hkm
      have hj' : j < knots.length := by omega
      have hbj : bonds[j]? = some bonds[j] := List.getElem?_eq_getElem hj
      have hr : bonds[j].toKnotValuePair = .ok k0 := by
        have := (List.forall₂_iff_get.1 hF).2 j hj hj'
        rw [List.getElem?_eq_getElem hj'] at hk0
        injection hk0 with hk0
        rw [← hk0]; exact this
      refine ⟨bonds[j], hpins _ (List.getElem_mem hj) k0 hr, ?_⟩
      have hai : (bonds.map asInstrument)[j]? = some (asInstrument bonds[j]) := by rw [List.getElem?_map, hbj]; rfl
      obtain ⟨us, u, a1, a2, a3⟩ := C73_reprices_partial exp (bonds.map asInstrument) m hm ref points knots (collect_asInstrument hk) h hsorted
        hfix yc yc vss hb Used.start j _ hai
      obtain ⟨us', u', b1, b2, b3⟩ := C73_reprices_partial exp (bonds.map asInstrument) m hm ref points' knots (collect_asInstrument hk) h
        hsorted hfix zc zc wss hb' Used.start j _ hai
      rw [(hy.value _).1] at a3
      rw [(hz.value _).1] at b3
      unfold newCurveValue at a3 b3
      rw [hyc, ok_bind] at a3
      rw [hzc, ok_bind] at b3
      refine ⟨_, _, a3, b3, ?_⟩
      have c1 := abs_le.1 (hroot us (Or.inl (List.mem_of_getElem? a1)) u a2)
      have c2 := abs_le.1 (hroot us' (Or.inr (List.mem_of_getElem? b1)) u' b2)
      refine abs_le.2 ⟨?_, ?_⟩ <;> linarith [c1.1, c1.2, c2.1, c2.2])
  have hi' : i < knots.length := by omega
  have m1 : (⟨knots[i].date, (0 :: points i).getLast (by simp)⟩ : Knot) ∈ finalKnots points knots := List.mem_mapIdx.2 ⟨i, hi', rfl⟩
  have m2 : (⟨knots[i].date, (0 :: points' i).getLast (by simp)⟩ : Knot) ∈ finalKnots points' knots := List.mem_mapIdx.2 ⟨i, hi', rfl⟩
  have hfin := key _ m1 _ m2 rfl
  -- `i` knots precede the `i`-th
  have hcount : ((finalKnots points knots).filter (fun j => j.date < knots[i].date)).length = i := by
    have e1 : ((finalKnots points knots).filter (fun j => j.date < knots[i].date)).length =
        ((knots.map Knot.date).filter (fun d => d < knots[i].date)).length := by
      rw [← hdate points, List.filter_map, List.length_map]; rfl
    rw [e1]
    have hs : (knots.map Knot.date).Pairwise (· < ·) := List.pairwise_map.2 hsorted
    exact count_before hs i (by simpa using hi') _ (by simp)
  rw [hcount] at hfin
  exact hfin

/-! ## Examples -/

/-- Every bond with a payment left, under slopes positive between the bounds on the yields, pins its yield for some `e` and `q`. -/
theorem pins_of_slopes {exp : ℚ → ℚ} {b : Bond} {ref last : PyDate} {dcc : DayCountConvention} {τ : PyDate → ℚ} (hτ : timeAxis dcc = some τ)
    (hb : PaysUntil b ref last) {Y c C : ℚ} (hc : 0 < c) (hC : 0 ≤ C) (hsl : SlopesBetween exp (Y * (τ last - τ ref)) c C) (ε : ℚ) :
    ∃ e q, 0 ≤ e ∧ 0 ≤ q ∧ ∀ e' q', e ≤ e' → q ≤ q' → Pins exp b ref last τ Y ε e' q' := by
  obtain ⟨hmade, hrate, hpr, s, hs, hin, p, hp, hsp, hpos, hpd⟩ := id hb
  have hw := mul_pos hc (lastWeight_pos hmade hrate hpr hs hp hsp hpos hpd hτ)
  have hE := mul_nonneg hC (lastWeight_nonneg hmade hrate hpr hs last hτ).2
  refine ⟨max 0 (ε / (c * lastWeight b s ref last τ)), C * earlierWeight b s ref last τ / (c * lastWeight b s ref last τ), le_max_left _ _,
    div_nonneg hE hw.le, fun e' q' he hq => ⟨hb, s, c, C, hs, hc, hC, hsl, ?_, ?_⟩⟩
  · exact (div_le_iff₀ hw).1 (le_trans (le_max_right _ _) he)
  · exact (div_le_iff₀ hw).1 hq

theorem exists_last_bound : ∀ vss : List (List ℚ), ∃ δ, 0 ≤ δ ∧ ∀ vs ∈ vss, ∀ v, vs.getLast? = some v → |v| ≤ δ
  | [] => ⟨0, le_rfl, by simp⟩
  | us :: vss => by
    obtain ⟨δ, h0, h⟩ := exists_last_bound vss
    have : ∃ δ', 0 ≤ δ' ∧ ∀ v, us.getLast? = some v → |v| ≤ δ' := by
      cases hu : us.getLast? with
      | none => exact ⟨0, le_rfl, by simp⟩
      | some u => exact ⟨|u|, abs_nonneg _, fun v hv => by injection hv with hv; rw [hv]⟩
    obtain ⟨δ', h0', h'⟩ := this
    refine ⟨max δ δ', le_trans h0 (le_max_left _ _), fun vs hvs v hv => ?_⟩
    rcases List.mem_cons.1 hvs with rfl | hvs
    · exact (h' v hv).trans (le_max_right _ _)
    · exact (h vs hvs v hv).trans (le_max_left _ _)

/-- The hypotheses of `C144_bootstrap` are met by a bill-like bond and a note: the first bootstrap ends on a flat curve at zero, the second
on one of yields 1/1000 and 1/500. -/
example : ∃ b1 b2, Bond.create notePar = .ok b1 ∧ Bond.create zcPar = .ok b2 ∧ ∃ yc zc vss wss δ e q,
    bootstrapYieldCurve (fun x => 1 + x) ([b2, b1].map asInstrument) .linear (D 2023 6 1) (fun _ => []) = .ok (yc, vss) ∧
    bootstrapYieldCurve (fun x => 1 + x) ([b2, b1].map asInstrument) .linear (D 2023 6 1) (fun i : Nat => [((i : ℚ) + 1) / 1000]) = .ok (zc, wss) ∧
    (∀ vs, vs ∈ vss ∨ vs ∈ wss → ∀ v, vs.getLast? = some v → |v| ≤ δ) ∧
    ∀ i : Nat, i < 2 → |(0 : ℚ) - ((i : ℚ) + 1) / 1000| ≤ e * (1 + q) ^ i := by
  obtain ⟨b1, h1, hc1, hp1⟩ := notePar_create
  obtain ⟨b2, h2, hc2, hp2⟩ := zcPar_create
  have t1 := (create_ok h1).1
  have t2 := (create_ok h2).1
  have m1 : Made b1 := ⟨by rw [t1]; exact h1, Or.inr ⟨6, by rw [t1]; rfl⟩⟩
  have m2 : Made b2 := ⟨by rw [t2]; exact h2, Or.inl (by rw [t2]; rfl)⟩
  have hset : addBusinessDays usFederalHolidays (D 2023 6 1) 1 = .ok (D 2023 6 2) := by decide +kernel
  have s1 : addBusinessDays b1.terms.calendar (D 2023 6 1) 1 = .ok (D 2023 6 2) := by rw [t1]; exact hset
  have s2 : addBusinessDays b2.terms.calendar (D 2023 6 1) 1 = .ok (D 2023 6 2) := by rw [t2]; exact hset
  have k1 : b1.toKnotValuePair = .ok ⟨D 2025 2 18, 108⟩ := by
    simp only [Bond.toKnotValuePair, hc1, hp1, t1]; rfl
  have k2 : b2.toKnotValuePair = .ok ⟨D 2024 2 22, 100⟩ := by
    simp only [Bond.toKnotValuePair, hc2, hp2, t2]; rfl
  have hk : collect Bond.toKnotValuePair [b2, b1] = .ok [⟨D 2024 2 22, 100⟩, ⟨D 2025 2 18, 108⟩] := by
    simp only [collect, k1, k2, ok_bind]
  have hin : CurveInput [⟨D 2024 2 22, 100⟩, ⟨D 2025 2 18, 108⟩] .actAct (D 2023 6 1) :=
    ⟨by decide, by decide +kernel, by simp, by decide +kernel, by decide +kernel⟩
  have hsorted : ([⟨D 2024 2 22, 100⟩, ⟨D 2025 2 18, 108⟩] : List Knot).Pairwise fun a b => a.date < b.date := by decide +kernel
  have p1 : PaysUntil b1 (D 2023 6 1) (D 2025 2 18) :=
    ⟨m1, by simp only [t1]; decide +kernel, by simp only [t1]; decide +kernel, D 2023 6 2, s1,
      by simp only [hc1, hp1]; decide +kernel, by simp only [hc1, hp1]; decide +kernel⟩
  have p2 : PaysUntil b2 (D 2023 6 1) (D 2024 2 22) :=
    ⟨m2, by simp only [t2]; decide +kernel, by simp only [t2]; decide +kernel, D 2023 6 2, s2,
      by simp only [hc2, hp2]; decide +kernel, by simp only [hc2, hp2]; decide +kernel⟩
  have hable : ∀ a ∈ [b2, b1].map asInstrument, Priceable (D 2023 6 1) (D 2025 2 18) a.value := by
    intro a ha
    simp only [List.map_cons, List.map_nil, List.mem_cons, List.not_mem_nil, or_false] at ha
    rcases ha with rfl | rfl
    · exact bond_priceable m2 s2 (by simp only [hc2, hp2]; decide +kernel)
    · exact bond_priceable m1 s1 (by simp only [hc1, hp1]; decide +kernel)
  have build := fun points => C73_builds (fun x : ℚ => 1 + x) ([b2, b1].map asInstrument) .linear (D 2023 6 1) points _ (Or.inl rfl)
    (collect_asInstrument hk) hin ⟨D 2025 2 18, 108⟩ (by simp) hable
  obtain ⟨yc, vss, e1⟩ := build (fun _ => [])
  obtain ⟨zc, wss, e2⟩ := build (fun i : Nat => [((i : ℚ) + 1) / 1000])
  obtain ⟨δ, -, hδ⟩ := exists_last_bound (vss ++ wss)
  obtain ⟨τ, hτ⟩ := hin.axis
  have hsl : ∀ B, SlopesBetween (fun x : ℚ => 1 + x) B 1 1 := fun B u u' _ _ _ => ⟨by simp, by simp⟩
  obtain ⟨ea, qa, ha0, ha1, ha⟩ := pins_of_slopes hτ p1 one_pos zero_le_one (hsl _) (2 * δ) (Y := 1)
  obtain ⟨eb, qb, hb0, hb1, hb⟩ := pins_of_slopes hτ p2 one_pos zero_le_one (hsl _) (2 * δ) (Y := 1)
  have hroot : ∀ vs, vs ∈ vss ∨ vs ∈ wss → ∀ v, vs.getLast? = some v → |v| ≤ δ := fun vs hvs => hδ vs (by simpa using hvs)
  refine ⟨b1, b2, h1, h2, yc, zc, vss, wss, δ, max ea eb, max qa qb, e1, e2, hroot, fun i hi => ?_⟩
  exact C144_bootstrap _ .linear (Or.inl rfl) _ [b2, b1] _ hk hin hsorted τ hτ 1 δ (max ea eb) (max qa qb) (le_trans ha0 (le_max_left _ _))
    (le_trans ha1 (le_max_left _ _)) (by
      intro b hb' k hbk
      simp only [List.mem_cons, List.not_mem_nil, or_false] at hb'
      rcases hb' with rfl | rfl
      · rw [k2] at hbk; injection hbk with hbk; rw [← hbk]; exact hb _ _ (le_max_right _ _) (le_max_right _ _)
      · rw [k1] at hbk; injection hbk with hbk; rw [← hbk]; exact ha _ _ (le_max_left _ _) (le_max_left _ _))
    _ _ yc zc vss wss e1 e2 hroot (by
      intro j hj
      have : j < 2 := hj
      interval_cases j <;> norm_num) i hi

/-- The hypotheses of `C144_bond`, `C144_stable`, `C144_yields` and `C144_values` are met by two curves whose yields differ by a tenth of a
percent, the bond and the note. -/
example : ∃ b1 b2, Bond.create notePar = .ok b1 ∧ Bond.create zcPar = .ok b2 ∧ ∃ yc zc,
    YieldCurve.create [⟨D 2024 2 22, 10 / 1000⟩, ⟨D 2025 2 18, 20 / 1000⟩] [] .linear .actAct .continuouslyCompoundedYield (D 2023 6 1)
      .constant .constant = .ok yc ∧
    YieldCurve.create [⟨D 2024 2 22, 11 / 1000⟩, ⟨D 2025 2 18, 19 / 1000⟩] [] .linear .actAct .continuouslyCompoundedYield (D 2023 6 1)
      .constant .constant = .ok zc ∧ ∃ τ e q v v',
      (yc.presentValue (fun x => 1 + x) b1.presentValue noAdjustment).1 = .ok v ∧
      (zc.presentValue (fun x => 1 + x) b1.presentValue noAdjustment).1 = .ok v' ∧
      |v - v'| ≤ 1 * totalWeight b1 (D 2023 6 2) (D 2023 6 1) τ * (e * (1 + q) ^ 1) := by
  obtain ⟨b1, h1, hc1, hp1⟩ := notePar_create
  obtain ⟨b2, h2, hc2, hp2⟩ := zcPar_create
  have t1 := (create_ok h1).1
  have t2 := (create_ok h2).1
  have m1 : Made b1 := ⟨by rw [t1]; exact h1, Or.inr ⟨6, by rw [t1]; rfl⟩⟩
  have m2 : Made b2 := ⟨by rw [t2]; exact h2, Or.inl (by rw [t2]; rfl)⟩
  have hset : addBusinessDays usFederalHolidays (D 2023 6 1) 1 = .ok (D 2023 6 2) := by decide +kernel
  have s1 : addBusinessDays b1.terms.calendar (D 2023 6 1) 1 = .ok (D 2023 6 2) := by rw [t1]; exact hset
  have s2 : addBusinessDays b2.terms.calendar (D 2023 6 1) 1 = .ok (D 2023 6 2) := by rw [t2]; exact hset
  have r1 : 0 ≤ b1.terms.couponRate := by simp only [t1]; decide +kernel
  have q1 : 0 < b1.terms.principal := by simp only [t1]; decide +kernel
  have in1 : ∀ p ∈ b1.coupons ++ b1.principalPayments, D 2023 6 2 ≤ p.unadjusted → p.date ≤ D 2025 2 18 := by
    simp only [hc1, hp1]; decide +kernel
  have in2 : ∀ p ∈ b2.coupons ++ b2.principalPayments, D 2023 6 2 ≤ p.unadjusted → p.date ≤ D 2024 2 22 := by
    simp only [hc2, hp2]; decide +kernel
  have p1 : PaysUntil b1 (D 2023 6 1) (D 2025 2 18) :=
    ⟨m1, r1, q1, D 2023 6 2, s1, in1, by simp only [hc1, hp1]; decide +kernel⟩
  have p2 : PaysUntil b2 (D 2023 6 1) (D 2024 2 22) :=
    ⟨m2, by simp only [t2]; decide +kernel, by simp only [t2]; decide +kernel, D 2023 6 2, s2, in2,
      by simp only [hc2, hp2]; decide +kernel⟩
  have hin : ∀ x y : ℚ, CurveInput [⟨D 2024 2 22, x⟩, ⟨D 2025 2 18, y⟩] .actAct (D 2023 6 1) := fun x y =>
    ⟨by decide, by decide +kernel, by simp, by
      simp only [List.map_cons, List.map_nil]; decide +kernel, by
      simp only [List.mem_cons, List.not_mem_nil, or_false, forall_eq_or_imp, forall_eq]; decide +kernel⟩
  have made : ∀ x y : ℚ, ∃ yc, YieldCurve.create [⟨D 2024 2 22, x⟩, ⟨D 2025 2 18, y⟩] [] .linear .actAct .continuouslyCompoundedYield
      (D 2023 6 1) .constant .constant = .ok yc := by
    intro x y
    obtain ⟨c, hc, -⟩ := (C27_builds [⟨D 2024 2 22, x⟩, ⟨D 2025 2 18, y⟩] .linear .actAct .constant .constant).1 _ (hin x y)
    exact ⟨_, yieldCurve_create hc⟩
  obtain ⟨yc, hyc⟩ := made (10 / 1000) (20 / 1000)
  obtain ⟨zc, hzc⟩ := made (11 / 1000) (19 / 1000)
  obtain ⟨τ, hτ⟩ := (hin 0 0).axis
  have value : ∀ (x y : ℚ) (c : YieldCurve), YieldCurve.create [⟨D 2024 2 22, x⟩, ⟨D 2025 2 18, y⟩] [] .linear .actAct
      .continuouslyCompoundedYield (D 2023 6 1) .constant .constant = .ok c → ∀ b, Made b →
      addBusinessDays b.terms.calendar (D 2023 6 1) 1 = .ok (D 2023 6 2) →
      (∀ p ∈ b.coupons ++ b.principalPayments, D 2023 6 2 ≤ p.unadjusted → p.date ≤ D 2025 2 18) →
      ∃ v, (c.presentValue (fun x => 1 + x) b.presentValue noAdjustment).1 = .ok v := by
    intro x y c hc b hb hs hle
    obtain ⟨_, -, hval⟩ := C142_bond_value (fun x => 1 + x) _ .linear (.basic (Or.inl rfl) _) .actAct _ .constant .constant (hin x y)
      (Or.inl rfl) τ hτ c hc b hb _ hs (fun p hp hsp => ⟨⟨D 2025 2 18, y⟩, by simp, hle p hp hsp⟩)
    exact ⟨_, hval c Used.start noAdjustment (fun _ => 0) (fun _ => rfl)⟩
  have in2' : ∀ p ∈ b2.coupons ++ b2.principalPayments, D 2023 6 2 ≤ p.unadjusted → p.date ≤ D 2025 2 18 := fun p hp hsp =>
    le_trans (in2 p hp hsp) (by decide +kernel)
  obtain ⟨v1, e1⟩ := value _ _ yc hyc b1 m1 s1 in1
  obtain ⟨v2, e2⟩ := value _ _ yc hyc b2 m2 s2 in2'
  obtain ⟨w1, f1⟩ := value _ _ zc hzc b1 m1 s1 in1
  obtain ⟨w2, f2⟩ := value _ _ zc hzc b2 m2 s2 in2'
  have hsl : ∀ B, SlopesBetween (fun x : ℚ => 1 + x) B 1 1 := fun B u u' _ _ _ => ⟨by simp, by simp⟩
  obtain ⟨ea, qa, ha0, ha1, ha⟩ := pins_of_slopes hτ p1 one_pos zero_le_one (hsl _) (max |v1 - w1| |v2 - w2|) (Y := 1)
  obtain ⟨eb, qb, hb0, hb1, hb⟩ := pins_of_slopes hτ p2 one_pos zero_le_one (hsl _) (max |v1 - w1| |v2 - w2|) (Y := 1)
  obtain ⟨v, v', g1, g2, g3⟩ := C144_values (fun x => 1 + x) .linear (Or.inl rfl) .actAct _ .constant _ _ (hin (10 / 1000) (20 / 1000)) (by rfl)
    yc yc zc zc hyc Used.start hzc Used.start τ hτ 1 (max |v1 - w1| |v2 - w2|) (max ea eb) (max qa qb) (by
      intro k hk
      simp only [List.mem_cons, List.not_mem_nil, or_false] at hk
      rcases hk with (rfl | rfl) | (rfl | rfl) <;> (simp only; rw [abs_of_nonneg (by norm_num)]; norm_num))
    (le_trans ha0 (le_max_left _ _)) (le_trans ha1 (le_max_left _ _)) (by
      intro k hk
      simp only [List.mem_cons, List.not_mem_nil, or_false] at hk
      rcases hk with rfl | rfl
      · exact ⟨b2, hb _ _ (le_max_right _ _) (le_max_right _ _), v2, w2, e2, f2, le_max_right _ _⟩
      · exact ⟨b1, ha _ _ (le_max_left _ _) (le_max_left _ _), v1, w1, e1, f1, le_max_left _ _⟩)
    ⟨D 2025 2 18, 20 / 1000⟩ (by simp) 1 1 zero_le_one zero_le_one (hsl _) b1 m1 r1 q1 _ s1 in1
  exact ⟨b1, b2, h1, h2, yc, zc, hyc, hzc, τ, _, _, v, v', g1, g2, g3⟩

end Verif.Props
