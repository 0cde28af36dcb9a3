/- Property C143: the prices of bonds paying last at the knots determine the yield curve, so all ways of building it give the same one. -/
import Verif.Props.BondRisk
import Verif.Props.NoArbitrage

namespace Verif.Props
open Verif Verif.Spec Verif.DayCount Verif.CurveFactory Verif.Scheduler

/-! ## Specification -/

/-- On the reference date `ref` the bond, its constructor's, still makes payments, none negative, the last ones on the date `last`. -/
def PaysUntil (b : Bond) (ref last : PyDate) : Prop :=
  Made b ∧ 0 ≤ b.terms.couponRate ∧ 0 < b.terms.principal ∧ ∃ s, addBusinessDays b.terms.calendar ref 1 = .ok s ∧
    (∀ p ∈ b.coupons ++ b.principalPayments, s ≤ p.unadjusted → p.date ≤ last) ∧
    ∃ p ∈ b.coupons ++ b.principalPayments, s ≤ p.unadjusted ∧ 0 < p.amount ∧ p.date = last

/-! ## Interpolation is monotone in the knots -/

/-- Of two curves with the same knot dates, the one whose knots are not lower up to a knot date is not lower up to that date. -/
theorem call_le {m : InterpolationMethod} (hm : m = .linear ∨ m = .previous) {ref : PyDate} {vs ws : List Knot}
    {dcc : DayCountConvention} {r : EndBehavior}
    (hv : CurveInput vs dcc ref) (hw : CurveInput ws dcc ref) (hd : vs.map Knot.date = ws.map Knot.date) {last : PyDate}
    (hlast : last ∈ vs.map Knot.date)
    (hle : ∀ k ∈ vs, ∀ k' ∈ ws, k.date = k'.date → k.date ≤ last → k.value ≤ k'.value) {c c' : Curve}
    (hc : Curve.create vs m dcc (some ref) .constant r = .ok c)
    (hc' : Curve.create ws m dcc (some ref) .constant r = .ok c') {d : PyDate} (hdl : d ≤ last) {x x' : ℚ}
    (hx : c.call d = .ok x) (hx' : c'.call d = .ok x') : x ≤ x' := by
  obtain ⟨τ, hτ⟩ := hv.axis
  obtain ⟨kl, hkl, hkld⟩ := List.mem_map.1 hlast
  have hdates : ∀ x ∈ ws, ∃ y ∈ vs, y.date = x.date := by
    intro x hx
    have : x.date ∈ vs.map Knot.date := by rw [hd]; exact List.mem_map_of_mem hx
    exact List.mem_map.1 this
  have hdates' : ∀ x ∈ vs, ∃ y ∈ ws, y.date = x.date := by
    intro x hx
    have : x.date ∈ ws.map Knot.date := by rw [← hd]; exact List.mem_map_of_mem hx
    exact List.mem_map.1 this
  have fin : ∀ {u u' : ℚ}, c.call d = .ok u → c'.call d = .ok u' → u ≤ u' → x ≤ x' := by
    intro u u' h1 h2 h3
    rw [hx] at h1; rw [hx'] at h2
    injection h1 with h1; injection h2 with h2
    rw [h1, h2]; exact h3
  have hknot : ∀ k ∈ vs, k.date ≤ last → k.date = d → x ≤ x' := by
    intro k hk hkd he
    subst he
    obtain ⟨k', hk', hkk⟩ := hdates' k hk
    refine fin (C27_knots vs m (.basic hm _) dcc ref .constant r hv c hc k hk) ?_ (hle k hk k' hk' hkk.symm hkd)
    rw [← hkk]
    exact C27_knots ws m (.basic hm _) dcc ref .constant r hw c' hc' k' hk'
  by_cases h0 : ∃ k ∈ vs, k.date ≤ d
  · rcases bracket h0 ⟨kl, hkl, by rw [hkld]; exact hdl⟩ with ⟨k, hk, rfl⟩ | ⟨a, b, hab, ha, hb⟩
    · exact hknot k hk hdl rfl
    · have hal : a.date ≤ last := le_trans ha hdl
      rcases lt_or_eq_of_le hdl with hlt | rfl
      · have hbl : b.date ≤ last := by
          rcases hab.2.2.2 kl hkl with h | h
          · rw [hkld] at h
            exact absurd hlt (not_lt.2 (le_trans h ha))
          · rw [← hkld]; exact h
        obtain ⟨a', ha', haa⟩ := hdates' a hab.1
        obtain ⟨b', hb', hbb⟩ := hdates' b hab.2.1
        have hab' : Adjacent ws a' b' := by
          refine ⟨ha', hb', by rw [haa, hbb]; exact hab.2.2.1, fun x hx => ?_⟩
          obtain ⟨y, hy, hyx⟩ := hdates x hx
          rw [← hyx, haa, hbb]; exact hab.2.2.2 y hy
        have va := hle a hab.1 a' ha' haa.symm hal
        have vb := hle b hab.2.1 b' hb' hbb.symm hbl
        have e1 := C27_between vs dcc ref .constant r hv τ hτ a b hab d ha hb
        have e2 := C27_between ws dcc ref .constant r hw τ hτ a' b' hab' d (by rw [haa]; exact ha) (by rw [hbb]; exact hb)
        rw [haa, hbb] at e2
        rcases hm with rfl | rfl
        · obtain ⟨w, hw1, hw2, hw3, e1⟩ := e1.1 c hc
          obtain ⟨w', hw1', _, _, e2⟩ := e2.1 c' hc'
          have hww : w' = w := by rw [hw1, hw1']
          rw [hww] at e2
          refine fin e1 e2 ?_
          have := mul_le_mul_of_nonneg_left va (sub_nonneg.2 hw3.le)
          have := mul_le_mul_of_nonneg_left vb hw2
          linarith
        · exact fin (e1.2 c hc) (e2.2 c' hc') va
      · exact hknot kl hkl (le_of_eq hkld) hkld
  · push Not at h0
    obtain ⟨k, hk, hmin⟩ := Finset.exists_min_image vs.toFinset Knot.date ⟨kl, by simp [hkl]⟩
    simp only [List.mem_toFinset] at hk hmin
    have hkl' : k.date ≤ last := by rw [← hkld]; exact hmin kl hkl
    obtain ⟨k', hk', hkk⟩ := hdates' k hk
    refine fin ((C27_outside vs m dcc ref .constant r hv c hc k hk d).1 hmin (h0 k hk))
      ((C27_outside ws m dcc ref .constant r hw c' hc' k' hk' d).1
        (fun x hx => by obtain ⟨y, hy, hyx⟩ := hdates x hx; rw [← hyx, hkk]; exact hmin y hy) (by rw [hkk]; exact h0 k hk))
      (hle k hk k' hk' hkk.symm hkl')

/-! ## Bond values are decreasing in the knots -/

theorem sum_lt_of_le_of_lt {α : Type} {f g : α → ℚ} : ∀ {l : List α}, (∀ a ∈ l, f a ≤ g a) → (∃ a ∈ l, f a < g a) →
    (l.map f).sum < (l.map g).sum
  | [], _, h => by obtain ⟨a, ha, _⟩ := h; simp at ha
  | a :: as, h1, h2 => by
    simp only [List.map_cons, List.sum_cons]
    have h3 : (as.map f).sum ≤ (as.map g).sum := List.sum_le_sum (fun b hb => h1 b (by simp [hb]))
    obtain ⟨b, hb, hlt⟩ := h2
    rcases List.mem_cons.1 hb with rfl | hb
    · linarith
    · have := sum_lt_of_le_of_lt (fun c hc => h1 c (List.mem_cons_of_mem _ hc)) ⟨b, hb, hlt⟩
      have := h1 a (by simp)
      linarith

/-- C143. Raise knots of a yield curve, at or before the date of the last payment of a bond: its value does not rise - and it falls, if the
knot at that date is among those raised. -/
theorem C143_decreasing (exp : ℚ → ℚ) (hexp : StrictMono exp) (m : InterpolationMethod) (hm : m = .linear ∨ m = .previous)
    (dcc : DayCountConvention) (ref : PyDate) (r : EndBehavior) (vs ws : List Knot) (hv : CurveInput vs dcc ref)
    (hd : ws.map Knot.date = vs.map Knot.date) (yc yc' zc zc' : YieldCurve)
    (hyc : YieldCurve.create vs [] m dcc .continuouslyCompoundedYield ref .constant r = .ok yc) (hu : Used exp yc yc')
    (hzc : YieldCurve.create ws [] m dcc .continuouslyCompoundedYield ref .constant r = .ok zc) (hz : Used exp zc zc')
    (b : Bond) (last : PyDate) (hb : PaysUntil b ref last) (hlast : last ∈ vs.map Knot.date)
    (hle : ∀ k ∈ vs, ∀ k' ∈ ws, k.date = k'.date → k.date ≤ last → k.value ≤ k'.value) :
    ∃ v v', (yc'.presentValue exp b.presentValue noAdjustment).1 = .ok v ∧
      (zc'.presentValue exp b.presentValue noAdjustment).1 = .ok v' ∧ v' ≤ v ∧
      ((∃ k ∈ vs, ∃ k' ∈ ws, k.date = last ∧ k'.date = last ∧ k.value < k'.value) → v' < v) := by
  obtain ⟨τ, hτ⟩ := hv.axis
  have hw : CurveInput ws dcc ref := hv.of_dates hd
  obtain ⟨hmade, hrate, hpr, s, hs, hin, p0, hp0, hsp0, hpos0, hp0d⟩ := hb
  obtain ⟨kl, hkl, hkld⟩ := List.mem_map.1 hlast
  obtain ⟨kl', hkl', hkld'⟩ := List.mem_map.1 (show last ∈ ws.map Knot.date by rw [hd]; exact hlast)
  have hA : ∀ d, (noAdjustment : Adjustment) (.date d) = .ok ((fun _ => (0 : ℚ)) d) := fun _ => rfl
  obtain ⟨y, hy, hval⟩ := C142_bond_value exp vs m (.basic hm _) dcc ref .constant r hv (Or.inl rfl) τ hτ yc hyc b hmade s hs
    (fun p hp hsp => ⟨kl, hkl, by rw [hkld]; exact hin p hp hsp⟩)
  obtain ⟨z, hz', hval'⟩ := C142_bond_value exp ws m (.basic hm _) dcc ref .constant r hw (Or.inl rfl) τ hτ zc hzc b hmade s hs
    (fun p hp hsp => ⟨kl', hkl', by rw [hkld']; exact hin p hp hsp⟩)
  obtain ⟨-, base, hbase, rfl⟩ := settings_create (exp := exp) hyc
  obtain ⟨-, base', hbase', rfl⟩ := settings_create (exp := exp) hzc
  have hyz : ∀ p ∈ b.coupons ++ b.principalPayments, s ≤ p.unadjusted → y p.date ≤ z p.date := by
    intro p hp hsp
    have h1 := (received_after hmade hs hp hsp).2.le
    have h2 := hin p hp hsp
    exact call_le hm hv hw hd.symm hlast hle hbase hbase' h2 (hy _ h1 ⟨kl, hkl, by rw [hkld]; exact h2⟩)
      (hz' _ h1 ⟨kl', hkl', by rw [hkld']; exact h2⟩)
  refine ⟨_, _, hval _ hu _ _ hA, hval' _ hz _ _ hA, ?_, ?_⟩
  · unfold weightedSum
    refine List.sum_le_sum (fun p hp => ?_)
    split_ifs with hsp
    · have ht : 0 < τ p.date - τ ref := by have := axis_strictMono hτ (received_after hmade hs hp hsp).2; linarith
      refine mul_le_mul_of_nonneg_right (hexp.monotone ?_) (made_amounts hmade hrate hpr p hp)
      have := mul_le_mul_of_nonneg_right (hyz p hp hsp) ht.le
      simp only [add_zero]; linarith
    · exact le_refl _
  · rintro ⟨k, hk, k', hk', e1, e2, hlt⟩
    unfold weightedSum
    refine sum_lt_of_le_of_lt (fun p hp => ?_) ⟨p0, hp0, ?_⟩
    · split_ifs with hsp
      · have ht : 0 < τ p.date - τ ref := by have := axis_strictMono hτ (received_after hmade hs hp hsp).2; linarith
        refine mul_le_mul_of_nonneg_right (hexp.monotone ?_) (made_amounts hmade hrate hpr p hp)
        have := mul_le_mul_of_nonneg_right (hyz p hp hsp) ht.le
        simp only [add_zero]; linarith
      · exact le_refl _
    · rw [if_pos hsp0, if_pos hsp0]
      have hrc := received_after hmade hs hp0 hsp0
      have ht : 0 < τ p0.date - τ ref := by have := axis_strictMono hτ hrc.2; linarith
      have hyk : y p0.date = k.value := by
        have a1 := hy p0.date hrc.2.le ⟨k, hk, by rw [e1, hp0d]⟩
        have a2 := C27_knots vs m (.basic hm _) dcc ref .constant r hv base hbase k hk
        rw [e1, ← hp0d] at a2
        rw [a1] at a2; injection a2
      have hzk : z p0.date = k'.value := by
        have a1 := hz' p0.date hrc.2.le ⟨k', hk', by rw [e2, hp0d]⟩
        have a2 := C27_knots ws m (.basic hm _) dcc ref .constant r hw base' hbase' k' hk'
        rw [e2, ← hp0d] at a2
        rw [a1] at a2; injection a2
      refine mul_lt_mul_of_pos_right (hexp ?_) hpos0
      have := mul_lt_mul_of_pos_right hlt ht
      simp only [add_zero]
      rw [hyk, hzk]; linarith

/-! ## Uniqueness -/

/-- C143. Two yield curves with the same knot dates which value equally, for each knot, some bond whose last payment is on the date of the
knot, have the same knots: the curve is determined by the values of the bonds. -/
theorem C143_determined (exp : ℚ → ℚ) (hexp : StrictMono exp) (m : InterpolationMethod) (hm : m = .linear ∨ m = .previous)
    (dcc : DayCountConvention) (ref : PyDate) (r : EndBehavior) (vs ws : List Knot) (hv : CurveInput vs dcc ref)
    (hd : ws.map Knot.date = vs.map Knot.date) (yc yc' zc zc' : YieldCurve)
    (hyc : YieldCurve.create vs [] m dcc .continuouslyCompoundedYield ref .constant r = .ok yc) (hu : Used exp yc yc')
    (hzc : YieldCurve.create ws [] m dcc .continuouslyCompoundedYield ref .constant r = .ok zc) (hz : Used exp zc zc')
    (hbonds : ∀ k ∈ vs, ∃ b, PaysUntil b ref k.date ∧
      (yc'.presentValue exp b.presentValue noAdjustment).1 = (zc'.presentValue exp b.presentValue noAdjustment).1) :
    ws = vs := by
  have hw : CurveInput ws dcc ref := hv.of_dates hd
  have hnodup := hv.distinct
  have uniq : ∀ {us : List Knot}, CurveInput us dcc ref → ∀ k ∈ us, ∀ k' ∈ us, k.date = k'.date → k = k' := fun hus k hk k' hk' he =>
    List.inj_on_of_nodup_map hus.distinct hk hk' he
  -- all knots agree, from the first on
  have key : ∀ k ∈ vs, ∀ k' ∈ ws, k.date = k'.date → k.value = k'.value := by
    by_contra hcon
    push Not at hcon
    obtain ⟨k1, hk1, k1', hk1', he1, hne1⟩ := hcon
    have hwit : k1 ∈ vs.toFinset.filter (fun k => ∃ k' ∈ ws, k.date = k'.date ∧ k.value ≠ k'.value) := by
      simp only [Finset.mem_filter, List.mem_toFinset]
      exact ⟨hk1, k1', hk1', he1, hne1⟩
    obtain ⟨k, hk, hmin⟩ := Finset.exists_min_image _ Knot.date ⟨k1, hwit⟩
    simp only [Finset.mem_filter, List.mem_toFinset] at hk hmin
    obtain ⟨hkv, k', hk', he, hne⟩ := hk
    have hbefore : ∀ j ∈ vs, ∀ j' ∈ ws, j.date = j'.date → j.date ≤ k.date → j.date ≠ k.date → j.value = j'.value := by
      intro j hj j' hj' hjj hjk hjne
      by_contra hcon
      exact hjne (le_antisymm hjk (hmin j ⟨hj, j', hj', hjj, hcon⟩))
    obtain ⟨b, hb, heq⟩ := hbonds k hkv
    have hat : ∀ j ∈ vs, ∀ j' ∈ ws, j.date = j'.date → j.date = k.date → j.value = k.value ∧ j'.value = k'.value := by
      intro j hj j' hj' hjj hjk
      rw [uniq hv j hj k hkv hjk, uniq hw j' hj' k' hk' (by rw [← hjj, hjk, he])]
      exact ⟨rfl, rfl⟩
    rcases lt_or_gt_of_ne hne with hlt | hgt
    · obtain ⟨v, v', h1, h2, -, h4⟩ := C143_decreasing exp hexp m hm dcc ref r vs ws hv hd yc yc' zc zc' hyc hu hzc hz b k.date hb
        (List.mem_map_of_mem hkv) (by
          intro j hj j' hj' hjj hjk
          by_cases hjd : j.date = k.date
          · obtain ⟨g1, g2⟩ := hat j hj j' hj' hjj hjd
            rw [g1, g2]; exact hlt.le
          · exact (hbefore j hj j' hj' hjj hjk hjd).le)
      rw [h1, h2] at heq
      injection heq with heq
      exact absurd (h4 ⟨k, hkv, k', hk', rfl, he.symm, hlt⟩) (by rw [heq]; exact lt_irrefl _)
    · obtain ⟨v, v', h1, h2, -, h4⟩ := C143_decreasing exp hexp m hm dcc ref r ws vs hw hd.symm zc zc' yc yc' hzc hz hyc hu b k.date hb
        (by rw [hd]; exact List.mem_map_of_mem hkv) (by
          intro j' hj' j hj hjj hjk
          by_cases hjd : j.date = k.date
          · obtain ⟨g1, g2⟩ := hat j hj j' hj' hjj.symm hjd
            rw [g1, g2]; exact hgt.le
          · exact (hbefore j hj j' hj' hjj.symm (by rw [← hjj]; exact hjk) hjd).ge)
      rw [h1, h2] at heq
      injection heq with heq
      exact absurd (h4 ⟨k', hk', k, hkv, he.symm, rfl, hgt⟩) (by rw [heq]; exact lt_irrefl _)
  apply List.ext_getElem?
  intro i
  have hi := congrArg (fun l : List PyDate => l[i]?) hd
  simp only [List.getElem?_map] at hi
  cases h1 : vs[i]? with
  | none => rw [h1] at hi; simpa using hi
  | some k =>
    rw [h1] at hi
    simp only [Option.map_some, Option.map_eq_some_iff] at hi
    obtain ⟨k', hk', hkd⟩ := hi
    rw [hk']
    have := key k (List.mem_of_getElem? h1) k' (List.mem_of_getElem? hk') hkd.symm
    cases k; cases k'
    simp only at hkd this
    rw [hkd, this]

/-! ## The curves of the factory -/

/-- The same yield curve, for every use: the same knots and settings, hence the same values, sensitivities, risks and risk ladders. -/
def SameCurve (exp : ℚ → ℚ) (yc zc : YieldCurve) : Prop :=
  yc.base = zc.base ∧ ∀ yc' zc', Used exp yc yc' → Used exp zc zc' → ∀ asset : PresentValueable,
    (∀ adj, (yc'.presentValue exp asset adj).1 = (zc'.presentValue exp asset adj).1) ∧
    (∀ k, (yc'.keyRateDeriv exp asset k).1 = (zc'.keyRateDeriv exp asset k).1) ∧
    (∀ k, (yc'.pv01Risk exp asset k).1 = (zc'.pv01Risk exp asset k).1) ∧
    ∀ h c ρs, (yc'.pv01RiskLadder exp asset h c).1 = .ok ρs ↔ (zc'.pv01RiskLadder exp asset h c).1 = .ok ρs

theorem sameCurve_of_base {exp : ℚ → ℚ} {yc zc : YieldCurve} (hy : Settings exp yc) (hz : Settings exp zc) (hb : yc.base = zc.base)
    (hsp : yc.space = zc.space) : SameCurve exp yc zc := by
  refine ⟨hb, fun yc' zc' hu hv asset => ?_⟩
  obtain ⟨s1, b1, p1⟩ := used_inv hy hu
  obtain ⟨s2, b2, p2⟩ := used_inv hz hv
  have hbb : yc'.base = zc'.base := by rw [b1, b2, hb]
  have hpp : yc'.space = zc'.space := by rw [p1, p2, hsp]
  have hpv : ∀ adj, (yc'.presentValue exp asset adj).1 = (zc'.presentValue exp asset adj).1 := by
    intro adj
    rw [(presentValue_eq s1 asset adj).1, (presentValue_eq s2 asset adj).1, hbb, hpp]
  have hkr : ∀ k, (yc'.keyRateDeriv exp asset k).1 = (zc'.keyRateDeriv exp asset k).1 := by
    intro k
    rw [(keyRateDeriv_eq s1 Used.start asset k).1, (keyRateDeriv_eq s2 Used.start asset k).1]
    unfold bumpedValue
    rw [hbb, hpp]
  refine ⟨hpv, hkr, fun k => by rw [pv01Risk_map s1, pv01Risk_map s2, hkr k], fun h c ρs => ?_⟩
  unfold YieldCurve.pv01RiskLadder
  rw [ladder_iff asset h _ _ _ _ s1 rfl rfl (fun _ => rfl), ladder_iff asset h _ _ _ _ s2 rfl rfl (fun _ => rfl), hbb, hpp]

theorem factory_same {exp : ℚ → ℚ} (hexp : StrictMono exp) {m : InterpolationMethod} (hm : m = .linear ∨ m = .previous) {ref : PyDate}
    {ks ls : List Knot} {yc zc : YieldCurve} (hy : InFactory exp m ref ks yc) (hz : InFactory exp m ref ls zc)
    (hd : ls.map Knot.date = ks.map Knot.date)
    (hbonds : ∀ k ∈ ks, ∃ b, PaysUntil b ref k.date ∧
      (yc.presentValue exp b.presentValue noAdjustment).1 = (zc.presentValue exp b.presentValue noAdjustment).1) :
    ls = ks ∧ SameCurve exp yc zc := by
  have hyc := yieldCurve_create (sp := .continuouslyCompoundedYield) hy.base
  have hzc := yieldCurve_create (sp := .continuouslyCompoundedYield) hz.base
  have heq : ls = ks := by
    refine C143_determined exp hexp m hm .actAct ref .constant ks ls hy.input hd _ _ _ _ hyc Used.start hzc Used.start ?_
    intro k hk
    obtain ⟨b, hb, he⟩ := hbonds k hk
    refine ⟨b, hb, ?_⟩
    rw [(hy.value _).1, (hz.value _).1] at he
    unfold newCurveValue at he
    rw [hyc, hzc, ok_bind, ok_bind] at he
    exact he
  refine ⟨heq, sameCurve_of_base hy.settings hz.settings ?_ (hy.space.trans hz.space.symm)⟩
  have h1 := hy.base
  have h2 := hz.base
  rw [heq, h1] at h2
  injection h2

theorem collect_asInstrument {bonds : List Bond} {knots : List Knot} (hk : collect Bond.toKnotValuePair bonds = .ok knots) :
    collect FactoryInstrument.knotValue (bonds.map asInstrument) = .ok knots := by
  rw [← hk]
  clear hk
  induction bonds with
  | nil => rfl
  | cons b bs ih => simp only [List.map_cons, collect, ih]; rfl

theorem forall₂_getElem {α β : Type} {R : α → β → Prop} {l : List α} {l' : List β} (h : List.Forall₂ R l l') {b : β} (hb : b ∈ l') :
    ∃ (i : Nat) (a : α), l[i]? = some a ∧ l'[i]? = some b ∧ R a b := by
  obtain ⟨i, hi, rfl⟩ := List.getElem_of_mem hb
  have hi' : i < l.length := by rw [h.length_eq]; exact hi
  exact ⟨i, l[i], List.getElem?_eq_getElem hi', List.getElem?_eq_getElem hi, (List.forall₂_iff_get.1 h).2 i hi' hi⟩

/-- The final values of the bootstrapped bonds. -/
theorem bootstrap_prices {exp : ℚ → ℚ} {m : InterpolationMethod} (hm : m = .linear ∨ m = .previous) {ref : PyDate} {bonds : List Bond}
    {knots : List Knot} (hk : collect Bond.toKnotValuePair bonds = .ok knots) (h : CurveInput knots .actAct ref)
    (hsorted : knots.Pairwise fun a b => a.date < b.date)
    (hpays : ∀ b ∈ bonds, ∀ k, b.toKnotValuePair = .ok k → PaysUntil b ref k.date)
    {points : Nat → List ℚ} {yc : YieldCurve} {vss : List (List ℚ)}
    (hb : bootstrapYieldCurve exp (bonds.map asInstrument) m ref points = .ok (yc, vss)) (hroot : ∀ vs ∈ vss, vs.getLast? = some 0) :
    ∀ (i : Nat) (b : Bond), bonds[i]? = some b → (yc.presentValue exp b.presentValue noAdjustment).1 = .ok b.terms.price := by
  intro i b hbi
  have hmem := List.mem_of_getElem? hbi
  obtain ⟨vs, v, h1, h2, h3⟩ := C73_reprices_partial exp (bonds.map asInstrument) m hm ref points knots (collect_asInstrument hk) h hsorted
    (by
      intro a ha k hak
      obtain ⟨c, hc, rfl⟩ := List.mem_map.1 ha
      exact (C73_fixed k.date c c.terms (hpays c hc k hak).1.1 k hak).2.1)
    yc yc vss hb Used.start i (asInstrument b) (by rw [List.getElem?_map, hbi]; rfl)
  rw [hroot vs (List.mem_of_getElem? h1)] at h2
  injection h2 with h2
  rw [← h2, add_zero] at h3
  exact h3

/-- C143. Whatever points the root searches of two bootstraps of the same bonds evaluate, if each search ends where the bond is repriced,
the two curves are the same for every use, and the searches ended at the same points. -/
theorem C143_bootstrap (exp : ℚ → ℚ) (hexp : StrictMono exp) (m : InterpolationMethod) (hm : m = .linear ∨ m = .previous) (ref : PyDate)
    (bonds : List Bond) (knots : List Knot) (hk : collect Bond.toKnotValuePair bonds = .ok knots) (h : CurveInput knots .actAct ref)
    (hsorted : knots.Pairwise fun a b => a.date < b.date)
    (hpays : ∀ b ∈ bonds, ∀ k, b.toKnotValuePair = .ok k → PaysUntil b ref k.date)
    (points points' : Nat → List ℚ) (yc zc : YieldCurve) (vss wss : List (List ℚ))
    (hb : bootstrapYieldCurve exp (bonds.map asInstrument) m ref points = .ok (yc, vss)) (hroot : ∀ vs ∈ vss, vs.getLast? = some 0)
    (hb' : bootstrapYieldCurve exp (bonds.map asInstrument) m ref points' = .ok (zc, wss)) (hroot' : ∀ ws ∈ wss, ws.getLast? = some 0) :
    SameCurve exp yc zc ∧
      ∀ i, i < bonds.length → (0 :: points i).getLast (by simp) = (0 :: points' i).getLast (by simp) := by
  have hF := collect_ok.1 hk
  have hy := (bootstrap_spec (collect_asInstrument hk) h hb).1
  have hz := (bootstrap_spec (collect_asInstrument hk) h hb').1
  rw [pySorted_knots hsorted] at hy hz
  have hp := bootstrap_prices hm hk h hsorted hpays hb hroot
  have hp' := bootstrap_prices hm hk h hsorted hpays hb' hroot'
  have hdate : ∀ q, (finalKnots q knots).map Knot.date = knots.map Knot.date := fun q => map_date_mapIdx _ _
  obtain ⟨he, hs⟩ := factory_same hexp hm hy hz (by rw [hdate, hdate]) (by
    intro k hkm
    have : k.date ∈ knots.map Knot.date := by rw [← hdate points]; exact List.mem_map_of_mem hkm
    obtain ⟨k0, hk0, hkd⟩ := List.mem_map.1 this
    obtain ⟨i, b, hbi, -, hr⟩ := forall₂_getElem hF hk0
    refine ⟨b, hkd ▸ hpays b (List.mem_of_getElem? hbi) k0 hr, ?_⟩
    rw [hp i b hbi, hp' i b hbi])
  refine ⟨hs, fun i hi => ?_⟩
  have hn : knots.length = bonds.length := collect_length hk
  have hi' : i < knots.length := by omega
  have := congrArg (fun l : List Knot => l[i]?) he
  simp only [finalKnots, List.getElem?_mapIdx, List.getElem?_eq_getElem hi', Option.map_some, Option.some.injEq, Knot.mk.injEq, true_and]
    at this
  exact this.symm

/-- C143. The curve bootstrapped bond by bond and the curve constructed by one root search over all knots are the same for every use, if
all those searches end where the bonds are repriced; and the solution of the one search consists of the last points of the others. -/
theorem C143_methods (exp : ℚ → ℚ) (hexp : StrictMono exp) (m : InterpolationMethod) (hm : m = .linear ∨ m = .previous) (ref : PyDate)
    (bonds : List Bond) (knots : List Knot) (hk : collect Bond.toKnotValuePair bonds = .ok knots) (h : CurveInput knots .actAct ref)
    (hsorted : knots.Pairwise fun a b => a.date < b.date)
    (hpays : ∀ b ∈ bonds, ∀ k, b.toKnotValuePair = .ok k → PaysUntil b ref k.date)
    (points : Nat → List ℚ) (yc : YieldCurve) (vss : List (List ℚ))
    (hb : bootstrapYieldCurve exp (bonds.map asInstrument) m ref points = .ok (yc, vss)) (hroot : ∀ vs ∈ vss, vs.getLast? = some 0)
    (points' : List (List ℚ)) (solution : List ℚ) (hpts : ∀ xs ∈ points', xs.length = bonds.length) (hsol : solution.length = bonds.length)
    (zc : YieldCurve) (wss : List (List ℚ))
    (hc : constructYieldCurve exp (bonds.map asInstrument) m ref points' solution = .ok (zc, wss))
    (j : Nat) (hj : ((bonds.map fun _ => (0 : ℚ)) :: points')[j]? = some solution)
    (hroot' : ∀ ws, wss[j]? = some ws → ∀ w ∈ ws, w = 0) :
    SameCurve exp yc zc ∧ ∀ i (hi : i < solution.length), solution[i] = (0 :: points i).getLast (by simp) := by
  have hF := collect_ok.1 hk
  have hlen : (bonds.map asInstrument).length = bonds.length := List.length_map _
  have hn : knots.length = bonds.length := collect_length hk
  have hy := (bootstrap_spec (collect_asInstrument hk) h hb).1
  rw [pySorted_knots hsorted] at hy
  have hpts' : ∀ xs ∈ points', xs.length = (bonds.map asInstrument).length := fun xs hx => by rw [hlen]; exact hpts xs hx
  have hsol' : solution.length = (bonds.map asInstrument).length := by rw [hlen]; exact hsol
  have hz := (construct_spec (collect_asInstrument hk) h hpts' hsol' hc).2
  have hwd : (withValues knots solution).map Knot.date = knots.map Knot.date := withValues_dates (by omega)
  have hws : (withValues knots solution).Pairwise fun a b => a.date < b.date := by
    have := knotSorted_iff_map.1 (show KnotSorted knots from hsorted)
    rw [← hwd] at this
    exact knotSorted_iff_map.2 this
  rw [pySorted_knots hws] at hz
  have hp := bootstrap_prices hm hk h hsorted hpays hb hroot
  obtain ⟨ws, hw1, hw2, hw3⟩ := C74_reprices exp (bonds.map asInstrument) m ref points' solution knots (collect_asInstrument hk) h hpts' hsol'
    zc zc wss hc Used.start j (by rw [List.map_map]; exact hj)
  have hp' : ∀ (i : Nat) (b : Bond), bonds[i]? = some b → (zc.presentValue exp b.presentValue noAdjustment).1 = .ok b.terms.price := by
    intro i b hbi
    have hi : i < ws.length := by
      rw [hw2, hlen]; exact (List.getElem?_eq_some_iff.1 hbi).1
    have := hw3 i (asInstrument b) ws[i] (by rw [List.getElem?_map, hbi]; rfl) (List.getElem?_eq_getElem hi)
    rw [hroot' ws hw1 _ (List.getElem_mem hi), add_zero] at this
    exact this
  have hdate : (finalKnots points knots).map Knot.date = knots.map Knot.date := map_date_mapIdx _ _
  obtain ⟨he, hs⟩ := factory_same hexp hm hy hz (by rw [hdate, hwd]) (by
    intro k hkm
    have : k.date ∈ knots.map Knot.date := by rw [← hdate]; exact List.mem_map_of_mem hkm
    obtain ⟨k0, hk0, hkd⟩ := List.mem_map.1 this
    obtain ⟨i, b, hbi, -, hr⟩ := forall₂_getElem hF hk0
    refine ⟨b, hkd ▸ hpays b (List.mem_of_getElem? hbi) k0 hr, ?_⟩
    rw [hp i b hbi, hp' i b hbi])
  refine ⟨hs, fun i hi => ?_⟩
  have hi' : i < knots.length := by omega
  have := congrArg (fun l : List Knot => l[i]?) he
  simp only [finalKnots, withValues, List.getElem?_mapIdx, List.getElem?_eq_getElem hi', List.getElem?_zipWith,
    List.getElem?_eq_getElem hi, Option.map_some, Option.some.injEq, Knot.mk.injEq, true_and] at this
  exact this

/-- C143. In each search of the bootstrap the function whose root is wanted decreases strictly: of two points evaluated, the larger one
gives the smaller value.  So a search has at most one root, and points with values of opposite signs enclose it. -/
theorem C143_search (exp : ℚ → ℚ) (hexp : StrictMono exp) (m : InterpolationMethod) (hm : m = .linear ∨ m = .previous) (ref : PyDate)
    (bonds : List Bond) (knots : List Knot) (hk : collect Bond.toKnotValuePair bonds = .ok knots) (h : CurveInput knots .actAct ref)
    (hsorted : knots.Pairwise fun a b => a.date < b.date)
    (hpays : ∀ b ∈ bonds, ∀ k, b.toKnotValuePair = .ok k → PaysUntil b ref k.date)
    (points : Nat → List ℚ) (yc : YieldCurve) (vss : List (List ℚ))
    (hb : bootstrapYieldCurve exp (bonds.map asInstrument) m ref points = .ok (yc, vss))
    (i : Nat) (vs : List ℚ) (hvs : vss[i]? = some vs) (s t : Nat) (x x' v v' : ℚ)
    (hx : (0 :: points i)[s]? = some x) (hx' : (0 :: points i)[t]? = some x') (hv : vs[s]? = some v) (hv' : vs[t]? = some v')
    (hlt : x < x') : v' < v := by
  obtain ⟨-, hl, hlog⟩ := bootstrap_spec (collect_asInstrument hk) h hb
  rw [pySorted_knots hsorted] at hlog
  have hF := collect_ok.1 hk
  have hn : knots.length = bonds.length := collect_length hk
  have hi : i < bonds.length := by
    have := (List.getElem?_eq_some_iff.1 hvs).1
    rw [hl, List.length_map] at this; exact this
  have hik : i < knots.length := by omega
  have hbk : bonds[i].toKnotValuePair = .ok knots[i] := (List.forall₂_iff_get.1 hF).2 i hi hik
  have hall := hlog i (asInstrument bonds[i]) vs (by rw [List.getElem?_map, List.getElem?_eq_getElem hi]; rfl) hvs
  have hat : ∀ {n : Nat} {y w : ℚ}, (0 :: points i)[n]? = some y → vs[n]? = some w →
      newCurveValue exp m ref (stageKnots points knots i y) bonds[i].presentValue = .ok (bonds[i].terms.price + w) := by
    intro n y w h1 h2
    obtain ⟨g1, rfl⟩ := List.getElem?_eq_some_iff.1 h1
    obtain ⟨g2, rfl⟩ := List.getElem?_eq_some_iff.1 h2
    exact (List.forall₂_iff_get.1 hall).2 n g1 g2
  have hdate : ∀ y, (stageKnots points knots i y).map Knot.date = knots.map Knot.date := fun y => map_date_mapIdx _ _
  have hinp : ∀ y, CurveInput (stageKnots points knots i y) .actAct ref := fun y => h.of_dates (hdate y)
  have hcreate : ∀ y, ∃ c, YieldCurve.create (stageKnots points knots i y) [] m .actAct .continuouslyCompoundedYield ref .constant .constant =
      .ok c := by
    intro y
    obtain ⟨c, hc, -⟩ := (C27_builds (stageKnots points knots i y) m .actAct .constant .constant).1 ref (hinp y)
    exact ⟨_, yieldCurve_create hc⟩
  obtain ⟨c, hc⟩ := hcreate x
  obtain ⟨c', hc'⟩ := hcreate x'
  have hnd := List.pairwise_iff_getElem.1 hsorted
  have hidx : ∀ a (ha : a < knots.length) b (hb : b < knots.length), knots[a].date = knots[b].date → a = b := by
    intro a ha b hb he
    rcases lt_trichotomy a b with hab | hab | hab
    · exact absurd he (ne_of_lt (hnd a b ha hb hab))
    · exact hab
    · exact absurd he.symm (ne_of_lt (hnd b a hb ha hab))
  have hself : ∀ y, (⟨knots[i].date, y⟩ : Knot) ∈ stageKnots points knots i y := by
    intro y
    refine List.mem_mapIdx.2 ⟨i, hik, ?_⟩
    simp
  obtain ⟨u, u', e1, e2, -, e4⟩ := C143_decreasing exp hexp m hm .actAct ref .constant _ _ (hinp x) (by rw [hdate, hdate]) c c c' c' hc
    Used.start hc' Used.start bonds[i] knots[i].date (hpays _ (List.getElem_mem hi) _ hbk)
    (List.mem_map.2 ⟨_, hself x, rfl⟩) (by
      intro k hkm k' hkm' he _
      obtain ⟨a, ha, rfl⟩ := List.mem_mapIdx.1 hkm
      obtain ⟨b, hb, rfl⟩ := List.mem_mapIdx.1 hkm'
      have hab := hidx a ha b hb he
      subst hab
      simp only
      split_ifs
      · exact le_refl _
      · exact hlt.le
      · exact le_refl _)
  have a1 := hat hx hv
  have a2 := hat hx' hv'
  unfold newCurveValue at a1 a2
  rw [hc, ok_bind, e1] at a1
  rw [hc', ok_bind, e2] at a2
  injection a1 with a1
  injection a2 with a2
  have := e4 ⟨_, hself x, _, hself x', rfl, rfl, hlt⟩
  linarith

/-! ### A concrete case: a zero-coupon bond and a note priced at the sum of what they still pay, so that the yields are zero -/

/-- On a curve of zero yields a bond is worth the sum of its remaining payments. -/
theorem flat_value {exp : ℚ → ℚ} (h0 : exp 0 = 1) {m : InterpolationMethod} (hm : m = .linear ∨ m = .previous) {ref : PyDate} {ks : List Knot}
    {yc : YieldCurve} (hy : InFactory exp m ref ks yc) (hz : ∀ k ∈ ks, k.value = 0) {b : Bond} (hb : Made b) {s : PyDate}
    (hs : addBusinessDays b.terms.calendar ref 1 = .ok s)
    (hin : ∀ p ∈ b.coupons ++ b.principalPayments, s ≤ p.unadjusted → ∃ k ∈ ks, p.date ≤ k.date) :
    (yc.presentValue exp b.presentValue noAdjustment).1 =
      .ok (weightedSum (fun p => s ≤ p.unadjusted) (fun p => p.amount) (b.coupons ++ b.principalPayments)) := by
  obtain ⟨τ, hτ⟩ := hy.input.axis
  have hyc := yieldCurve_create (sp := .continuouslyCompoundedYield) hy.base
  obtain ⟨y, hy1, hval⟩ := C142_bond_value exp ks m (.basic hm _) .actAct ref .constant .constant hy.input (Or.inl rfl) τ hτ _ hyc b hb s hs hin
  rw [(hy.value _).1, newCurveValue, hyc, ok_bind, hval _ Used.start noAdjustment (fun _ => 0) (fun _ => rfl)]
  congr 1
  unfold weightedSum
  congr 1
  apply List.map_congr_left
  intro p hp
  split_ifs with hsp
  · have h1 := hy1 p.date (received_after hb hs hp hsp).2.le (hin p hp hsp)
    have h2 := C90_bounds ks m hm .actAct ref .constant .constant hy.input yc.base hy.base 0 0 (fun k hk => by rw [hz k hk]; simp) _ _ h1
    have h3 : y p.date = 0 := le_antisymm h2.2 h2.1
    dsimp only; rw [h3]; simp [h0]
  · rfl

/-- Searches that end at zero are roots for bonds priced at the sum of their remaining payments. -/
theorem flat_bootstrap {exp : ℚ → ℚ} (h0 : exp 0 = 1) {m : InterpolationMethod} (hm : m = .linear ∨ m = .previous) {ref : PyDate}
    {bonds : List Bond} {knots : List Knot} (hk : collect Bond.toKnotValuePair bonds = .ok knots) (h : CurveInput knots .actAct ref)
    (hsorted : knots.Pairwise fun a b => a.date < b.date)
    (hpays : ∀ b ∈ bonds, Made b ∧ ∃ s, addBusinessDays b.terms.calendar ref 1 = .ok s ∧
      b.terms.price = weightedSum (fun p => s ≤ p.unadjusted) (fun p => p.amount) (b.coupons ++ b.principalPayments))
    {points : Nat → List ℚ} (hzero : ∀ i, (0 :: points i).getLast (by simp) = 0) {yc : YieldCurve} {vss : List (List ℚ)}
    (hb : bootstrapYieldCurve exp (bonds.map asInstrument) m ref points = .ok (yc, vss)) : ∀ vs ∈ vss, vs.getLast? = some 0 := by
  obtain ⟨hy, hl, -⟩ := bootstrap_spec (collect_asInstrument hk) h hb
  rw [pySorted_knots hsorted] at hy
  have hF := collect_ok.1 hk
  intro vs hvs
  obtain ⟨i, hi, hie⟩ := List.getElem_of_mem hvs
  have hib : i < bonds.length := by rw [hl, List.length_map] at hi; exact hi
  have hmem := List.getElem_mem hib
  obtain ⟨hmade, s, hs, hprice⟩ := hpays _ hmem
  have hfix : ∀ a ∈ bonds.map asInstrument, ∀ k, a.knotValue = .ok k → FixedUpTo k.date a.value := by
    intro a ha k hak
    obtain ⟨c, hc, rfl⟩ := List.mem_map.1 ha
    exact (C73_fixed k.date c c.terms (hpays c hc).1.1 k hak).2.1
  obtain ⟨vs', v, h1, h2, h3⟩ := C73_reprices_partial exp (bonds.map asInstrument) m hm ref points knots (collect_asInstrument hk) h hsorted hfix
    yc yc vss hb Used.start i (asInstrument bonds[i]) (by rw [List.getElem?_map, List.getElem?_eq_getElem hib]; rfl)
  have hvv : vs' = vs := by
    rw [List.getElem?_eq_getElem hi, hie] at h1
    injection h1 with h1
    exact h1.symm
  subst hvv
  have hval := flat_value h0 hm hy (by
      intro k hk
      obtain ⟨j, hj, rfl⟩ := List.mem_mapIdx.1 hk
      exact hzero j) hmade hs (by
      intro p hp _
      obtain ⟨k, hkm, hke⟩ := forall₂_mem_right hF.flip hmem
      obtain ⟨k', hk1, -, hk2, -⟩ := C73_bond_knot _ _ hmade.1
      rw [hke] at hk1
      injection hk1 with hk1
      subst hk1
      have : k.date ∈ (finalKnots points knots).map Knot.date := by
        unfold finalKnots; rw [map_date_mapIdx]; exact List.mem_map_of_mem hkm
      obtain ⟨j, hj, hje⟩ := List.mem_map.1 this
      exact ⟨j, hj, by rw [hje]; exact hk2 p hp⟩)
  have h4 : (yc.presentValue exp (asInstrument bonds[i]).value noAdjustment).1 = .ok (asInstrument bonds[i]).price := by
    show (yc.presentValue exp bonds[i].presentValue noAdjustment).1 = .ok bonds[i].terms.price
    rw [hval, hprice]
  rw [h3] at h4
  injection h4 with h4
  rw [h2]
  congr 1
  linarith

/-- The same for one search. -/
theorem flat_construct {exp : ℚ → ℚ} (h0 : exp 0 = 1) {m : InterpolationMethod} (hm : m = .linear ∨ m = .previous) {ref : PyDate}
    {bonds : List Bond} {knots : List Knot} (hk : collect Bond.toKnotValuePair bonds = .ok knots) (h : CurveInput knots .actAct ref)
    (hsorted : knots.Pairwise fun a b => a.date < b.date)
    (hpays : ∀ b ∈ bonds, Made b ∧ ∃ s, addBusinessDays b.terms.calendar ref 1 = .ok s ∧
      b.terms.price = weightedSum (fun p => s ≤ p.unadjusted) (fun p => p.amount) (b.coupons ++ b.principalPayments))
    {points' : List (List ℚ)} (hpts : ∀ xs ∈ points', xs.length = bonds.length) {zc : YieldCurve} {wss : List (List ℚ)}
    (hc : constructYieldCurve exp (bonds.map asInstrument) m ref points' (bonds.map fun _ => 0) = .ok (zc, wss)) :
    ∀ ws, wss[0]? = some ws → ∀ w ∈ ws, w = 0 := by
  have hlen : (bonds.map asInstrument).length = bonds.length := List.length_map _
  have hn : knots.length = bonds.length := collect_length hk
  have hF := collect_ok.1 hk
  have hpts' : ∀ xs ∈ points', xs.length = (bonds.map asInstrument).length := fun xs hx => by rw [hlen]; exact hpts xs hx
  have hsol' : (bonds.map fun _ => (0 : ℚ)).length = (bonds.map asInstrument).length := by simp
  have hz := (construct_spec (collect_asInstrument hk) h hpts' hsol' hc).2
  have hwd : (withValues knots (bonds.map fun _ => (0 : ℚ))).map Knot.date = knots.map Knot.date := withValues_dates (by simp [hn])
  have hws : (withValues knots (bonds.map fun _ => (0 : ℚ))).Pairwise fun a b => a.date < b.date := by
    have := knotSorted_iff_map.1 (show KnotSorted knots from hsorted)
    rw [← hwd] at this
    exact knotSorted_iff_map.2 this
  rw [pySorted_knots hws] at hz
  obtain ⟨ws', hw1, hw2, hw3⟩ := C74_reprices exp (bonds.map asInstrument) m ref points' _ knots (collect_asInstrument hk) h hpts' hsol'
    zc zc wss hc Used.start 0 (by rw [List.map_map]; rfl)
  intro ws hws' w hw
  rw [hw1] at hws'
  injection hws' with hws'
  subst hws'
  obtain ⟨i, hi, rfl⟩ := List.getElem_of_mem hw
  have hib : i < bonds.length := by rw [hw2, hlen] at hi; exact hi
  have hmem := List.getElem_mem hib
  obtain ⟨hmade, s, hs, hprice⟩ := hpays _ hmem
  have h3 := hw3 i (asInstrument bonds[i]) ws'[i] (by rw [List.getElem?_map, List.getElem?_eq_getElem hib]; rfl) (List.getElem?_eq_getElem hi)
  have hval := flat_value h0 hm hz (by
      intro k hk
      obtain ⟨j, hj, rfl⟩ := List.getElem_of_mem hk
      simp [withValues]) hmade hs (by
      intro p hp _
      obtain ⟨k, hkm, hke⟩ := forall₂_mem_right hF.flip hmem
      obtain ⟨k', hk1, -, hk2, -⟩ := C73_bond_knot _ _ hmade.1
      rw [hke] at hk1
      injection hk1 with hk1
      subst hk1
      have : k.date ∈ (withValues knots (bonds.map fun _ => (0 : ℚ))).map Knot.date := by rw [hwd]; exact List.mem_map_of_mem hkm
      obtain ⟨j, hj, hje⟩ := List.mem_map.1 this
      exact ⟨j, hj, by rw [hje]; exact hk2 p hp⟩)
  have h4 : (zc.presentValue exp (asInstrument bonds[i]).value noAdjustment).1 = .ok (asInstrument bonds[i]).price := by
    show (zc.presentValue exp bonds[i].presentValue noAdjustment).1 = .ok bonds[i].terms.price
    rw [hval, hprice]
  rw [h3] at h4
  injection h4 with h4
  linarith

/-- The zero-coupon bond at 100 and the note at 108. -/
def zcPar : BondTerms := { zcTerms with price := 100 }
def notePar : BondTerms := { exTerms with price := 108 }

theorem zcPar_create : ∃ b, Bond.create zcPar = .ok b ∧ b.coupons = [] ∧ b.principalPayments = [⟨D 2024 2 22, D 2024 2 22, 100⟩] := by
  have h1 : zcPar.datedDate = .ok (D 2023 2 22) := by decide +kernel
  have h2 : zcPar.principalCashflow = .ok [⟨D 2024 2 22, D 2024 2 22, 100⟩] := by decide +kernel
  have h3 : calculateSettlementDate zcPar.calendar zcPar.purchaseDate zcPar.settlementConvention = .ok (D 2023 6 2) := by decide +kernel
  have h0 : zcPar.couponCashflow (D 2023 2 22) = .ok [] := rfl
  have h4 : Bond.accruedInterestOf zcPar (D 2023 2 22) [] (D 2023 6 2) none = .ok 0 := by decide +kernel
  have h5 : pyDiv 0 zcPar.principal = .ok (0 / 100) := pyDiv_of_ne (by decide +kernel)
  unfold Bond.create
  rw [h1, ok_bind, h0, ok_bind, h2, ok_bind, h3, ok_bind, h4, ok_bind, h5, ok_bind]
  exact ⟨_, rfl, rfl, rfl⟩

theorem notePar_create : ∃ b, Bond.create notePar = .ok b ∧
    b.coupons = [⟨D 2023 8 15, D 2023 8 15, 2⟩, ⟨D 2024 2 15, D 2024 2 15, 2⟩, ⟨D 2024 8 15, D 2024 8 15, 2⟩,
      ⟨D 2025 2 15, D 2025 2 18, 2⟩] ∧ b.principalPayments = [⟨D 2025 2 15, D 2025 2 18, 100⟩] := by
  have h1 : notePar.datedDate = .ok (D 2023 2 15) := by decide +kernel
  have h2 : notePar.principalCashflow = .ok [⟨D 2025 2 15, D 2025 2 18, 100⟩] := by decide +kernel
  have h3 : calculateSettlementDate notePar.calendar notePar.purchaseDate notePar.settlementConvention = .ok (D 2023 6 2) := by
    decide +kernel
  have h0 : notePar.couponCashflow (D 2023 2 15) = .ok [⟨D 2023 8 15, D 2023 8 15, 2⟩, ⟨D 2024 2 15, D 2024 2 15, 2⟩,
      ⟨D 2024 8 15, D 2024 8 15, 2⟩, ⟨D 2025 2 15, D 2025 2 18, 2⟩] := by decide +kernel
  have h4 : Bond.accruedInterestOf notePar (D 2023 2 15) [⟨D 2023 8 15, D 2023 8 15, 2⟩, ⟨D 2024 2 15, D 2024 2 15, 2⟩,
      ⟨D 2024 8 15, D 2024 8 15, 2⟩, ⟨D 2025 2 15, D 2025 2 18, 2⟩] (D 2023 6 2) none = .ok (214 / 181) := by decide +kernel
  have h5 : pyDiv (214 / 181) notePar.principal = .ok (214 / 181 / 100) := pyDiv_of_ne (by decide +kernel)
  unfold Bond.create
  rw [h1, ok_bind, h0, ok_bind, h2, ok_bind, h3, ok_bind, h4, ok_bind, h5, ok_bind]
  exact ⟨_, rfl, rfl, rfl⟩

/-- The hypotheses of `C143_bootstrap` and `C143_methods` are met: the searches of the first bootstrap evaluate only their starts, those of
the second wander before they end, and the one search evaluates another point after its solution. -/
example : ∃ b1 b2, Bond.create notePar = .ok b1 ∧ Bond.create zcPar = .ok b2 ∧ ∃ yc zc wc vss wss uss,
    bootstrapYieldCurve (fun x => 1 + x) ([b2, b1].map asInstrument) .linear (D 2023 6 1) (fun _ => []) = .ok (yc, vss) ∧
    bootstrapYieldCurve (fun x => 1 + x) ([b2, b1].map asInstrument) .linear (D 2023 6 1) (fun _ => [1 / 2, 0]) = .ok (zc, wss) ∧
    constructYieldCurve (fun x => 1 + x) ([b2, b1].map asInstrument) .linear (D 2023 6 1) [[1, 2]] [0, 0] = .ok (wc, uss) ∧
    SameCurve (fun x => 1 + x) yc zc ∧ SameCurve (fun x => 1 + x) yc wc := by
  obtain ⟨b1, h1, hc1, hp1⟩ := notePar_create
  obtain ⟨b2, h2, hc2, hp2⟩ := zcPar_create
  have t1 := (create_ok h1).1
  have t2 := (create_ok h2).1
  have m1 : Made b1 := ⟨by rw [t1]; exact h1, Or.inr ⟨6, by rw [t1]; rfl⟩⟩
  have m2 : Made b2 := ⟨by rw [t2]; exact h2, Or.inl (by rw [t2]; rfl)⟩
  have hset : addBusinessDays usFederalHolidays (D 2023 6 1) 1 = .ok (D 2023 6 2) := by decide +kernel
  have s1 : addBusinessDays b1.terms.calendar (D 2023 6 1) 1 = .ok (D 2023 6 2) := by rw [t1]; exact hset
  have s2 : addBusinessDays b2.terms.calendar (D 2023 6 1) 1 = .ok (D 2023 6 2) := by rw [t2]; exact hset
  have k1 : b1.toKnotValuePair = .ok ⟨D 2025 2 18, 108⟩ := by
    simp only [Bond.toKnotValuePair, hc1, hp1, t1]; rfl
  have k2 : b2.toKnotValuePair = .ok ⟨D 2024 2 22, 100⟩ := by
    simp only [Bond.toKnotValuePair, hc2, hp2, t2]; rfl
  have hk : collect Bond.toKnotValuePair [b2, b1] = .ok [⟨D 2024 2 22, 100⟩, ⟨D 2025 2 18, 108⟩] := by
    simp only [collect, k1, k2, ok_bind]
  have hin : CurveInput [⟨D 2024 2 22, 100⟩, ⟨D 2025 2 18, 108⟩] .actAct (D 2023 6 1) :=
    ⟨by decide, by decide +kernel, by simp, by decide +kernel, by decide +kernel⟩
  have hsorted : ([⟨D 2024 2 22, 100⟩, ⟨D 2025 2 18, 108⟩] : List Knot).Pairwise fun a b => a.date < b.date := by decide +kernel
  have p1 : PaysUntil b1 (D 2023 6 1) (D 2025 2 18) :=
    ⟨m1, by simp only [t1]; decide +kernel, by simp only [t1]; decide +kernel, D 2023 6 2, s1,
      by simp only [hc1, hp1]; decide +kernel, by simp only [hc1, hp1]; decide +kernel⟩
  have p2 : PaysUntil b2 (D 2023 6 1) (D 2024 2 22) :=
    ⟨m2, by simp only [t2]; decide +kernel, by simp only [t2]; decide +kernel, D 2023 6 2, s2,
      by simp only [hc2, hp2]; decide +kernel, by simp only [hc2, hp2]; decide +kernel⟩
  have hpays : ∀ b ∈ [b2, b1], ∀ k, b.toKnotValuePair = .ok k → PaysUntil b (D 2023 6 1) k.date := by
    intro b hb k hbk
    simp only [List.mem_cons, List.not_mem_nil, or_false] at hb
    rcases hb with rfl | rfl
    · rw [k2] at hbk; injection hbk with hbk; rw [← hbk]; exact p2
    · rw [k1] at hbk; injection hbk with hbk; rw [← hbk]; exact p1
  have hprice : ∀ b ∈ [b2, b1], Made b ∧ ∃ s, addBusinessDays b.terms.calendar (D 2023 6 1) 1 = .ok s ∧
      b.terms.price = weightedSum (fun p => s ≤ p.unadjusted) (fun p => p.amount) (b.coupons ++ b.principalPayments) := by
    intro b hb
    simp only [List.mem_cons, List.not_mem_nil, or_false] at hb
    rcases hb with rfl | rfl
    · exact ⟨m2, _, s2, by simp only [t2, hc2, hp2]; decide +kernel⟩
    · exact ⟨m1, _, s1, by simp only [t1, hc1, hp1]; decide +kernel⟩
  have hable : ∀ a ∈ [b2, b1].map asInstrument, Priceable (D 2023 6 1) (D 2025 2 18) a.value := by
    intro a ha
    simp only [List.map_cons, List.map_nil, List.mem_cons, List.not_mem_nil, or_false] at ha
    rcases ha with rfl | rfl
    · exact bond_priceable m2 s2 (by simp only [hc2, hp2]; decide +kernel)
    · exact bond_priceable m1 s1 (by simp only [hc1, hp1]; decide +kernel)
  have build := fun points => C73_builds (fun x : ℚ => 1 + x) ([b2, b1].map asInstrument) .linear (D 2023 6 1) points _ (Or.inl rfl)
    (collect_asInstrument hk) hin ⟨D 2025 2 18, 108⟩ (by simp) hable
  obtain ⟨yc, vss, e1⟩ := build (fun _ => [])
  obtain ⟨zc, wss, e2⟩ := build (fun _ => [1 / 2, 0])
  obtain ⟨wc, uss, e3⟩ := C74_builds (fun x : ℚ => 1 + x) ([b2, b1].map asInstrument) .linear (D 2023 6 1) [[1, 2]] [0, 0] _ (Or.inl rfl)
    (collect_asInstrument hk) hin (by simp) (by simp) ⟨D 2025 2 18, 108⟩ (by simp) hable
  have hexp : StrictMono (fun x : ℚ => 1 + x) := fun a b h => by simpa using h
  have h0 : (fun x : ℚ => 1 + x) 0 = 1 := by simp
  have r1 := flat_bootstrap h0 (Or.inl rfl) hk hin hsorted hprice (by intro i; rfl) e1
  have r2 := flat_bootstrap h0 (Or.inl rfl) hk hin hsorted hprice (by intro i; rfl) e2
  have r3 := flat_construct h0 (Or.inl rfl) hk hin hsorted hprice (points' := [[1, 2]]) (by simp) e3
  exact ⟨b1, b2, h1, h2, yc, zc, wc, vss, wss, uss, e1, e2, e3,
    (C143_bootstrap _ hexp .linear (Or.inl rfl) _ [b2, b1] _ hk hin hsorted hpays _ _ yc zc vss wss e1 r1 e2 r2).1,
    (C143_methods _ hexp .linear (Or.inl rfl) _ [b2, b1] _ hk hin hsorted hpays _ yc vss e1 r1 [[1, 2]] [0, 0] (by simp) (by simp) wc uss e3
      0 rfl r3).1⟩

end Verif.Props
