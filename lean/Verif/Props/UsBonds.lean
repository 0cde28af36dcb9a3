/- C121: bonds on the US federal holiday calendar. -/
import Verif.Props.UsSwaps
import Verif.Props.Yields

namespace Verif.Props
open Verif Verif.Spec Verif.Scheduler Verif.DayCount

/-! ### Terms and helper facts -/

/-- Terms of a coupon bond on the US calendar: a tenor of `M` months (at least one), a coupon every `k` months, issued after the
second year of the python range and maturing before 9999, bought between those years, a settlement convention counted in business
days, a day count that exists, a principal. -/
structure UsBond (t : BondTerms) (M k : Int) : Prop where
  calendar : t.calendar = usFederalHolidays
  tenor : tenorMonths t.tenor = some M
  positive : 1 ≤ M
  issue : 36 + M ≤ 12 * t.maturityDate.year + t.maturityDate.month - 1
  maturity : t.maturityDate.year ≤ 9998
  purchaseAfter : 3 ≤ t.purchaseDate.year
  purchaseBefore : t.purchaseDate.year ≤ 9998
  settlement : BusinessConvention t.settlementConvention
  frequency : couponMonths t.frequency = some k
  dcc : t.dcc ≠ .unknown
  principal : t.principal ≠ 0

theorem tenor_dated {t : BondTerms} {M : Int} (hM : tenorMonths t.tenor = some M) : t.datedDate = t.maturityDate.addMonths (-M) := by
  unfold tenorMonths at hM
  unfold BondTerms.datedDate
  cases hl : t.tenor.length with
  | none => simp only [hl] at hM; cases hM
  | some n =>
    simp only [hl] at hM ⊢
    by_cases hY : t.tenor.unit = 'Y'
    · rw [if_pos hY] at hM ⊢; injection hM with hM; rw [hM]
    · rw [if_neg hY] at hM ⊢
      by_cases hM' : t.tenor.unit = 'M'
      · rw [if_pos hM'] at hM ⊢; injection hM with hM; rw [hM]
      · rw [if_neg hM'] at hM; cases hM

theorem us_bond_adjust {t : BondTerms} (hcal : t.calendar = usFederalHolidays) (d : PyDate) (h : 4 < d.ord) :
    ∃ r, t.adjust d = .ok r ∧ d.ord ≤ r.ord + 4 ∧ r.ord ≤ d.ord + 3 := by
  unfold BondTerms.adjust
  rw [hcal]
  cases t.adjustment with
  | following =>
    obtain ⟨r, h1, h2, h3⟩ := C09_following_total d
    exact ⟨r, h1, by omega, h3⟩
  | modifiedFollowing => exact us_modified_total d h

/-- An interval ending in a later month has a positive length under every convention. -/
theorem accrual_pos_of_months {s e : PyDate} {dcc : DayCountConvention} {x : ℚ} (h : s.monthIndex < e.monthIndex)
    (hx : DayCount.accrual s e dcc = .ok x) : 0 < x := by
  have hlt : s < e := PyDate.lt_iff_month.2 (.inl h)
  by_cases h30 : dcc = .thirty360
  · subst h30
    rw [accrual_eq hlt.le] at hx
    simp only [DayCount.thirty360] at hx
    injection hx with hx
    rw [← hx]
    have h0 : 0 < DayCount.thirty360Days s e := by
      have b1 := s.bounds
      have b2 := e.bounds
      have d1 := daysInMonth_bounds s.year s.month
      have d2 := daysInMonth_bounds e.year e.month
      unfold PyDate.monthIndex at h
      unfold DayCount.thirty360Days
      simp only
      have key : ∀ a b : Int, 1 ≤ a → b ≤ 30 → 0 < 360 * (e.year - s.year) + 30 * (e.month - s.month) + (a - b) := by
        intro a b ha hb
        omega
      apply key
      · split_ifs <;> omega
      · split_ifs <;> omega
    have : (0 : ℚ) < (DayCount.thirty360Days s e : ℚ) := by exact_mod_cast h0
    positivity
  · obtain ⟨τ, hτ⟩ : ∃ τ, timeAxis dcc = some τ := by
      cases dcc with
      | thirty360 => exact absurd rfl h30
      | unknown => rw [accrual_eq hlt.le] at hx; cases hx
      | act360 => exact ⟨_, rfl⟩
      | act365 => exact ⟨_, rfl⟩
      | act36525 => exact ⟨_, rfl⟩
      | actAct => exact ⟨_, rfl⟩
    have hok : AxisOk dcc s := by
      intro e'
      subst e'
      by_contra hc
      have := s.bounds
      rw [C14_year_one s e hlt.le (by omega)] at hx
      cases hx
    rw [accrual_axis hτ hlt.le hok] at hx
    injection hx with hx
    have := axis_strictMono hτ hlt
    linarith

/-- What is known of the coupons of a bond on the US calendar: in order, at least 84 days apart, paid on business days at most
four days from the unadjusted dates, in months after that of the dated date, the last one due at maturity. -/
structure UsCoupons (t : BondTerms) (dated : PyDate) (cs : List BondPayment) : Prop where
  nonempty : cs ≠ []
  apart : cs.Pairwise (fun p q => p.unadjusted.ord + 84 ≤ q.unadjusted.ord)
  near : ∀ p ∈ cs, p.unadjusted.ord ≤ p.date.ord + 4 ∧ p.date.ord ≤ p.unadjusted.ord + 3
  business : ∀ p ∈ cs, BusinessDay usFederalHolidays p.date
  later : ∀ p ∈ cs, dated.monthIndex < p.unadjusted.monthIndex
  last : ∃ p ∈ cs, p.unadjusted = t.maturityDate
  amount : ∀ p ∈ cs, p.amount = t.couponPayment

theorem chain_days {k : Int} {L : List PyDate} (h : List.IsChain (fun x y => x.addMonths (-k) = .ok y) L) :
    L.Pairwise (fun x y => y.day ≤ x.day) := by
  have hch : List.IsChain (fun x y : PyDate => y.day ≤ x.day) L :=
    h.imp (fun x y hxy => by have := (PyDate.addMonths_ok.1 hxy).2; omega)
  haveI : IsTrans PyDate (fun x y => y.day ≤ x.day) := ⟨fun a b c h1 h2 => le_trans h2 h1⟩
  exact List.isChain_iff_pairwise.1 hch

theorem chain_gap {k : Int} (hk : 3 ≤ k) {L : List PyDate} (h : List.IsChain (fun x y => x.addMonths (-k) = .ok y) L) :
    L.Pairwise (fun x y => y.ord + 84 ≤ x.ord) := by
  have hch : List.IsChain (fun x y : PyDate => y.ord + 84 ≤ x.ord) L :=
    h.imp (fun x y hxy => by have := (months_back (by omega) hxy).1; omega)
  haveI : IsTrans PyDate (fun x y => y.ord + 84 ≤ x.ord) := ⟨fun a b c h1 h2 => by omega⟩
  exact List.isChain_iff_pairwise.1 hch

theorem paidOn_business {cal : HolidayCalendar} {adj : BusinessDayAdjustment} {u d : PyDate} (h : PaidOn cal adj u d) :
    BusinessDay cal d := by
  cases adj with
  | following => exact h.2.1
  | modifiedFollowing =>
    obtain ⟨f, hf, h1, h2⟩ := h
    by_cases hm : f.month = u.month
    · rw [h1 hm]; exact hf.2.1
    · exact (h2 hm).2.1

/-- C121 (schedule). On the US calendar the dated date, the coupons, the principal payment and the settlement date of a bond
always exist. -/
theorem C121_schedule (t : BondTerms) (M k : Int) (h : UsBond t M k) :
    ∃ dated cs pr s, t.datedDate = .ok dated ∧ t.couponCashflow dated = .ok cs ∧ t.principalCashflow = .ok pr ∧
      calculateSettlementDate t.calendar t.purchaseDate t.settlementConvention = .ok s ∧ UsCoupons t dated cs ∧
      3 ≤ dated.year ∧ t.purchaseDate.ord ≤ s.ord + 8 ∧ s.ord ≤ t.purchaseDate.ord + 15 := by
  have hk3 : 3 ≤ k ∧ k ≤ 12 := by
    have := h.frequency
    cases hf : t.frequency <;> rw [hf] at this <;> simp only [couponMonths, reduceCtorEq] at this <;> cases this <;> decide
  have hk := h.frequency
  obtain ⟨hinc, hkpos, -⟩ := increment_months hk
  have hbm := t.maturityDate.bounds
  have hMpos := h.positive
  have hissue := h.issue
  have hmat := h.maturity
  -- dated date
  obtain ⟨dated, hdm⟩ := PyDate.addMonths_total (d := t.maturityDate) (k := -M)
    (by unfold PyDate.monthIndex; omega) (by unfold PyDate.monthIndex; omega)
  have hdated : t.datedDate = .ok dated := by rw [tenor_dated h.tenor, hdm]
  obtain ⟨hdmi, hdday⟩ := PyDate.addMonths_ok.1 hdm
  have hdy : 3 ≤ dated.year := by
    have := dated.bounds
    unfold PyDate.monthIndex at hdmi
    omega
  have hdlt : dated < t.maturityDate := PyDate.addMonths_neg_lt hdm (by omega)
  have hdord := ord_lower hdy
  rw [show daysBeforeYear 3 = 730 by decide] at hdord
  have hmord := t.maturityDate.ord_bounds
  have hdlt' := PyDate.lt_iff.1 hdlt
  -- stop date
  obtain ⟨stop, -, hstop⟩ := PyDate.ofOrd?_some (dated.ord + 1) (by omega) (by omega)
  have hadd : dated.addDays 1 = .ok stop := PyDate.addDays_ok.2 (by omega)
  -- the dates
  have hstep : ∀ x, stop ≤ x → ∃ y, addIncrement x (.relativedelta (-k) 0) = .ok y := by
    intro x hx
    have hdx : dated ≤ x := by rw [PyDate.le_iff] at hx ⊢; omega
    obtain ⟨y, hy⟩ := PyDate.addMonths_total (d := x) (k := -k)
      (by
        rw [PyDate.le_iff_month] at hdx
        have := dated.bounds
        unfold PyDate.monthIndex at hdx ⊢
        omega)
      (by have := x.monthIndex_bounds; omega)
    exact ⟨y, addIncrement_months.2 hy⟩
  have hsm : stop ≤ t.maturityDate := by rw [PyDate.le_iff]; omega
  obtain ⟨y0, hy0⟩ := hstep _ hsm
  obtain ⟨L, hL⟩ := incrementLoop_total hstep 1001 t.maturityDate
  have hgen : generateDatesByIncrements t.maturityDate stop (.relativedelta (-k) 0) = .ok L := by
    unfold generateDatesByIncrements
    have hpos : isPositive t.maturityDate (.relativedelta (-k) 0) = .ok false := by
      simp only [isPositive]
      rw [hy0, ok_bind]
      rw [decide_eq_false (not_le.2 (PyDate.addMonths_neg_lt (addIncrement_months.1 hy0) (by omega)))]
    rw [hpos, ok_bind]
    exact hL
  obtain ⟨pos, hp, h1, h2, h3, h4, h5⟩ := C08_chain _ _ _ _ _ hgen
  have hposF : pos = false := by
    simp only [isPositive] at hp
    rw [hy0, ok_bind] at hp
    injection hp with hp
    rw [← hp]
    exact decide_eq_false (not_le.2 (PyDate.addMonths_neg_lt (addIncrement_months.1 hy0) (by omega)))
  subst hposF
  have hge : ∀ x ∈ L, stop ≤ x := by
    intro x hx
    have := h3 x hx
    simpa only [NotPast, Bool.false_eq_true, if_false] using this
  have hchain : List.IsChain (fun x y => x.addMonths (-k) = .ok y) L := h2.imp (fun x y hxy => addIncrement_months.1 hxy)
  have hLne : L ≠ [] := by
    intro e
    subst e
    rcases h5 (by decide) with ⟨-, hn⟩ | ⟨l, x, hl, -⟩
    · exact hn (by simp only [NotPast, Bool.false_eq_true, if_false]; exact hsm)
    · simp at hl
  have hday : ∀ x ∈ L, x.day ≤ t.maturityDate.day := by
    intro x hx
    have hdec := chain_days hchain
    cases L with
    | nil => simp at hx
    | cons b bs =>
      have hb := h1 b rfl
      subst hb
      rcases List.mem_cons.1 hx with rfl | hx
      · exact le_refl _
      · exact (List.pairwise_cons.1 hdec).1 x hx
  obtain ⟨A, hA⟩ := collect_total (f := t.adjust) (l := L) (by
    intro x hx
    have hx' := hge x hx
    rw [PyDate.le_iff] at hx'
    obtain ⟨r, hr, -⟩ := us_bond_adjust h.calendar x (by omega)
    exact ⟨r, hr⟩)
  obtain ⟨cs, hcs⟩ : ∃ cs, t.couponCashflow dated = .ok cs :=
    ⟨pySorted BondPayment.date (pySorted BondPayment.date
      (List.zipWith (fun u a => (⟨u, a, t.couponPayment⟩ : BondPayment)) L A)), by
      unfold BondTerms.couponCashflow
      rw [hinc, ok_bind]
      simp only
      rw [hadd, ok_bind, hgen, ok_bind, hA, ok_bind, ok_bind]⟩
  obtain ⟨stop', L', hst', hgen', hperm, hsort, hpay⟩ := couponCashflow_spec hk hcs
  have hss : stop' = stop := PyDate.ord_inj.1 (by omega)
  subst hss
  rw [hgen] at hgen'
  injection hgen' with hLL
  subst hLL
  have hmemL : ∀ p ∈ cs, p.unadjusted ∈ L := fun p hp => hperm.mem_iff.1 (List.mem_map_of_mem hp)
  have hnear : ∀ p ∈ cs, p.unadjusted.ord ≤ p.date.ord + 4 ∧ p.date.ord ≤ p.unadjusted.ord + 3 := by
    intro p hp
    have hx' := hge _ (hmemL p hp)
    rw [PyDate.le_iff] at hx'
    obtain ⟨r, hr, hb⟩ := us_bond_adjust h.calendar p.unadjusted (by omega)
    rw [(hpay p hp).2] at hr
    injection hr with hr
    rw [hr]; exact hb
  have hfar : ∀ x ∈ L, ∀ y ∈ L, x ≠ y → x.ord + 84 ≤ y.ord ∨ y.ord + 84 ≤ x.ord := by
    have hg := chain_gap hk3.1 hchain
    intro x hx y hy hxy
    obtain ⟨i, hi, rfl⟩ := List.getElem_of_mem hx
    obtain ⟨j, hj, rfl⟩ := List.getElem_of_mem hy
    rw [List.pairwise_iff_getElem] at hg
    rcases lt_trichotomy i j with hij | rfl | hij
    · exact .inr (hg i j hi hj hij)
    · exact absurd rfl hxy
    · exact .inl (hg j i hj hi hij)
  have hnd : (cs.map BondPayment.unadjusted).Nodup :=
    hperm.nodup_iff.2 ((months_chain_le hkpos hchain).imp (fun h e => by rw [e] at h; exact lt_irrefl _ h))
  have hapart : cs.Pairwise (fun p q => p.unadjusted.ord + 84 ≤ q.unadjusted.ord) := by
    rw [List.Nodup, List.pairwise_map] at hnd
    refine (hsort.and hnd).imp_of_mem ?_
    rintro p q hp hq ⟨hd, hne⟩
    rw [PyDate.le_iff] at hd
    rcases hfar _ (hmemL p hp) _ (hmemL q hq) hne with hpq | hpq
    · exact hpq
    · have := hnear p hp
      have := hnear q hq
      omega
  -- principal
  obtain ⟨a, ha, -⟩ := us_bond_adjust h.calendar t.maturityDate (by omega)
  have hpr : t.principalCashflow = .ok [⟨t.maturityDate, a, t.principal⟩] := by
    unfold BondTerms.principalCashflow
    rw [ha, ok_bind]
  -- settlement
  have o1 := ord_lower h.purchaseAfter
  have o2 := ord_upper h.purchaseBefore
  rw [show daysBeforeYear 3 = 730 by decide] at o1
  rw [show daysBeforeYear (9998 + 1) = 3651694 by decide +kernel] at o2
  have hmax : PyDate.maxOrd = 3652059 := rfl
  obtain ⟨s, hs, s1, s2⟩ := us_settle t.purchaseDate t.settlementConvention h.settlement (by omega) (by omega)
  refine ⟨dated, cs, _, s, hdated, hcs, hpr, by rw [h.calendar]; exact hs, ⟨?_, hapart, hnear, ?_, ?_, ?_, fun p hp => (hpay p hp).1⟩, hdy, s1, s2⟩
  · intro e
    rw [e] at hperm
    exact hLne (List.nil_perm.1 hperm)
  · intro p hp
    have := paidOn_business (adjust_paidOn (hpay p hp).2)
    rwa [h.calendar] at this
  · intro p hp
    have hx := hmemL p hp
    have hgx := hge _ hx
    have hdx : dated < p.unadjusted := by rw [PyDate.le_iff] at hgx; rw [PyDate.lt_iff]; omega
    rcases PyDate.lt_iff_month.1 hdx with hlt | ⟨he, hlt⟩
    · exact hlt
    · exfalso
      obtain ⟨e1, e2⟩ := PyDate.monthIndex_fields he
      have := hday _ hx
      have hb := p.unadjusted.bounds
      rw [← e1, ← e2] at hb
      omega
  · have : t.maturityDate ∈ L := by
      cases L with
      | nil => exact absurd rfl hLne
      | cons b bs => rw [h1 b rfl]; simp
    obtain ⟨p, hp, e⟩ := List.mem_map.1 (hperm.mem_iff.2 this)
    exact ⟨p, hp, e⟩

/-! ### When a bond can be made -/

/-- `p` and `q` are neighbours in the list. -/
def Neighbours (l : List BondPayment) (p q : BondPayment) : Prop := ∃ l1 l2, l = l1 ++ p :: q :: l2

theorem neighbours_get {l : List BondPayment} {i : Nat} (h : i + 1 < l.length) : Neighbours l (l[i]'(by omega)) l[i + 1] :=
  ⟨l.take i, l.drop (i + 2), by
    conv_lhs => rw [← List.take_append_drop i l]
    rw [List.drop_eq_getElem_cons (by omega : i < l.length), List.drop_eq_getElem_cons h]⟩

theorem neighbours_index {l : List BondPayment} {p q : BondPayment} (h : Neighbours l p q) :
    ∃ (i : Nat) (hi : i + 1 < l.length), l[i]'(by omega) = p ∧ l[i + 1] = q := by
  obtain ⟨l1, l2, rfl⟩ := h
  exact ⟨l1.length, by simp, by simp, by simp⟩

theorem usAccrual_ok {a b : PyDate} {dcc : DayCountConvention} (hd : dcc ≠ .unknown) (hy : 2 ≤ a.year) (h : a ≤ b) :
    ∃ x, DayCount.accrual a b dcc = .ok x :=
  (C17_only_reversed_rejected a b dcc h).2 hd (by rintro ⟨-, e⟩; omega)

theorem le_of_accrual_ok {a b : PyDate} {dcc : DayCountConvention} {x : ℚ} (h : DayCount.accrual a b dcc = .ok x) : a ≤ b := by
  by_contra hc
  rw [accrual_gt (not_le.1 hc)] at h
  cases h

theorem accrual_same_zero {a : PyDate} {dcc : DayCountConvention} {x : ℚ} (h : DayCount.accrual a a dcc = .ok x) : x = 0 := by
  by_cases h30 : dcc = .thirty360
  · subst h30
    rw [accrual_eq (le_refl _)] at h
    simp only [DayCount.thirty360] at h
    injection h with h
    rw [← h]
    have hb := a.bounds
    have hd := daysInMonth_bounds a.year a.month
    have : DayCount.thirty360Days a a = 0 := by
      unfold DayCount.thirty360Days
      simp only
      split_ifs <;> simp_all
      all_goals omega
    rw [this]; simp
  · obtain ⟨τ, hτ⟩ : ∃ τ, timeAxis dcc = some τ := by
      cases dcc with
      | thirty360 => exact absurd rfl h30
      | unknown => rw [accrual_eq (le_refl _)] at h; cases h
      | act360 => exact ⟨_, rfl⟩
      | act365 => exact ⟨_, rfl⟩
      | act36525 => exact ⟨_, rfl⟩
      | actAct => exact ⟨_, rfl⟩
    have hok : AxisOk dcc a := by
      intro e'
      subst e'
      by_contra hc
      have := a.bounds
      rw [C14_year_one a a (le_refl _) (by omega)] at h
      cases h
    rw [accrual_axis hτ (le_refl _) hok] at h
    injection h with h
    rw [← h]; ring

theorem usCoupons_dates {t : BondTerms} {dated : PyDate} {cs : List BondPayment} (h : UsCoupons t dated cs) :
    KeySorted id (cs.map BondPayment.date) := by
  unfold KeySorted
  rw [List.pairwise_map]
  refine h.apart.imp_of_mem ?_
  intro p q hp hq hpq
  have := h.near p hp
  have := h.near q hq
  simp only [id_eq]
  rw [PyDate.le_iff]; omega

theorem accrued_total_iff {t : BondTerms} {dated s : PyDate} {cs : List BondPayment} (hf : t.frequency ≠ .zeroCoupon)
    (hdcc : t.dcc ≠ .unknown) (hdy : 3 ≤ dated.year) (h : UsCoupons t dated cs) :
    (∃ x, Bond.accruedInterestOf t dated cs s none = .ok x) ↔ dated ≤ s ∧ ((∀ p ∈ cs, s ≤ p.unadjusted) ∨
      ∃ p q, Neighbours cs p q ∧ p.date ≤ t.purchaseDate ∧ t.purchaseDate < q.date ∧ p.unadjusted ≤ s) := by
  unfold Bond.accruedInterestOf
  rw [if_neg hf]
  have hbr : Bond.branchDate t s none = .ok s := rfl
  rw [hbr, ok_bind]
  by_cases hsd : s < dated
  · rw [if_pos hsd]
    constructor
    · rintro ⟨x, hx⟩; cases hx
    · rintro ⟨hle, -⟩; exact absurd hsd (not_lt.2 hle)
  rw [if_neg hsd]
  have hds := not_lt.1 hsd
  have hyear : ∀ p ∈ cs, 2 ≤ p.unadjusted.year := by
    intro p hp
    have := h.later p hp
    have hb := p.unadjusted.bounds
    have hb' := dated.bounds
    unfold PyDate.monthIndex at this
    omega
  -- a whole period of positive length
  have fin : ∀ a b : PyDate, 2 ≤ a.year → a ≤ s → a.monthIndex < b.monthIndex → Bond.accrualPeriod t dated cs s = .ok (a, b) →
      ∃ x, (do let between ← Bond.accrualPeriod t dated cs s
               let period ← DayCount.accrual between.1 s t.dcc
               let whole ← DayCount.accrual between.1 between.2 t.dcc
               let fraction ← pyDiv period whole
               .ok (fraction * t.couponPayment) : Except PyErr ℚ) = .ok x := by
    intro a b ha has hab hp
    obtain ⟨x, hx⟩ := usAccrual_ok hdcc ha has
    obtain ⟨w, hw⟩ := usAccrual_ok hdcc ha (PyDate.lt_iff_month.2 (.inl hab)).le
    have hw0 := accrual_pos_of_months hab hw
    refine ⟨x / w * t.couponPayment, ?_⟩
    rw [hp, ok_bind]
    simp only
    rw [hx, ok_bind, hw, ok_bind, pyDiv_of_ne hw0.ne', ok_bind]
  cases hcs : cs with
  | nil => exact absurd hcs h.nonempty
  | cons first rest =>
    rw [← hcs]
    have hfirst : first ∈ cs := by rw [hcs]; simp
    by_cases hsf : s ≤ first.unadjusted
    · have hall : ∀ p ∈ cs, s ≤ p.unadjusted := by
        intro p hp
        rw [hcs] at hp
        rcases List.mem_cons.1 hp with rfl | hp
        · exact hsf
        · have := h.apart
          rw [hcs] at this
          have := (List.pairwise_cons.1 this).1 p hp
          rw [PyDate.le_iff] at hsf ⊢
          omega
      have hper : Bond.accrualPeriod t dated cs s = .ok (dated, first.unadjusted) := by
        rw [hcs]; simp only [Bond.accrualPeriod]; rw [if_pos hsf]
      constructor
      · intro _; exact ⟨hds, .inl hall⟩
      · intro _; exact fin dated first.unadjusted (by omega) hds (h.later _ hfirst) hper
    · obtain ⟨hle, hb1, hb2⟩ := bisectRight_spec id _ (usCoupons_dates h) t.purchaseDate
      have hper : Bond.accrualPeriod t dated cs s =
          (match (if bisectRight id (cs.map BondPayment.date) t.purchaseDate = 0 then cs.getLast?
              else cs[bisectRight id (cs.map BondPayment.date) t.purchaseDate - 1]?),
              cs[bisectRight id (cs.map BondPayment.date) t.purchaseDate]? with
            | some p, some q => .ok (p.unadjusted, q.unadjusted)
            | _, _ => .error .indexError) := by
        rw [hcs]; simp only [Bond.accrualPeriod]; rw [if_neg hsf]
        generalize (if bisectRight id (List.map BondPayment.date (first :: rest)) t.purchaseDate = 0 then (first :: rest).getLast?
          else (first :: rest)[bisectRight id (List.map BondPayment.date (first :: rest)) t.purchaseDate - 1]?) = u
        generalize (first :: rest)[bisectRight id (List.map BondPayment.date (first :: rest)) t.purchaseDate]? = v
        cases u <;> cases v <;> rfl
      revert hper hle hb1 hb2
      generalize bisectRight id (cs.map BondPayment.date) t.purchaseDate = i
      intro hle hb1 hb2 hper
      rw [List.length_map] at hle
      simp only [List.length_map, List.getElem_map, id_eq] at hb1 hb2
      constructor
      · rintro ⟨x, hx⟩
        rw [bind_ok] at hx
        obtain ⟨⟨a, b⟩, hab, hx⟩ := hx
        simp only at hx
        rw [bind_ok] at hx
        obtain ⟨y, hy, hx⟩ := hx
        rw [bind_ok] at hx
        obtain ⟨w, hw, hx⟩ := hx
        rw [bind_ok] at hx
        obtain ⟨f, hfr, -⟩ := hx
        have hwne := (pyDiv_ok.1 hfr).1
        rw [hper] at hab
        by_cases hi0 : i = 0
        · exfalso
          rw [if_pos hi0] at hab
          subst hi0
          obtain ⟨last, hlast⟩ : ∃ l, cs.getLast? = some l := by
            cases hg : cs.getLast? with
            | none => rw [List.getLast?_eq_none_iff] at hg; exact absurd hg h.nonempty
            | some l => exact ⟨l, rfl⟩
          have h0 : cs[0]? = some first := by rw [hcs]; rfl
          rw [hlast, h0] at hab
          simp only at hab
          injection hab with hab
          injection hab with e1 e2
          have hle1 := le_of_accrual_ok hw
          rw [← e1, ← e2] at hle1
          have hlm : last ∈ cs := List.mem_of_getLast? hlast
          have heq : last = first := by
            rw [hcs] at hlm
            rcases List.mem_cons.1 hlm with e | hm
            · exact e
            · have := h.apart
              rw [hcs] at this
              have := (List.pairwise_cons.1 this).1 last hm
              rw [PyDate.le_iff] at hle1
              omega
          rw [← e1, ← e2, heq] at hw
          exact hwne (accrual_same_zero hw)
        · rw [if_neg hi0] at hab
          by_cases hil : i < cs.length
          · obtain ⟨j, rfl⟩ : ∃ j, i = j + 1 := ⟨i - 1, by omega⟩
            rw [List.getElem?_eq_getElem hil, List.getElem?_eq_getElem (by omega)] at hab
            simp only [Nat.add_sub_cancel] at hab
            injection hab with hab
            injection hab with e1 e2
            refine ⟨hds, .inr ⟨cs[j], cs[j + 1], neighbours_get hil, hb1 j (by omega) (by omega), hb2 (j + 1) hil (le_refl _), ?_⟩⟩
            rw [e1]
            exact le_of_accrual_ok hy
          · rw [List.getElem?_eq_none (show cs.length ≤ i by omega)] at hab
            split at hab <;> simp_all
      · rintro ⟨-, hall | ⟨p, q, hn, h1, h2, h3⟩⟩
        · exact absurd (hall first hfirst) hsf
        · obtain ⟨j, hj, rfl, rfl⟩ := neighbours_index hn
          have hi : i = j + 1 := by
            by_contra hne
            rcases Nat.lt_or_gt_of_ne hne with hlt | hgt
            · exact absurd (hb2 j (by omega) (by omega)) (not_lt.2 h1)
            · exact absurd (hb1 (j + 1) hj hgt) (not_le.2 h2)
          subst hi
          rw [if_neg (by omega), List.getElem?_eq_getElem hj, List.getElem?_eq_getElem (by omega)] at hper
          simp only [Nat.add_sub_cancel] at hper
          refine fin _ _ (hyear _ (List.getElem_mem _)) h3 ?_ hper
          have hap := List.pairwise_iff_getElem.1 h.apart j (j + 1) (by omega) hj (by omega)
          have := months_apart (x := cs[j].unadjusted) (y := cs[j + 1].unadjusted) (by omega)
          omega

/-- C121. A bond on the US calendar can be made if and only if its settlement date is not before its dated date, and either it
settles no later than its first coupon is due, or the purchase date falls between the payment dates of two successive coupons
the earlier of which is due by the settlement date. -/
theorem C121_creatable (t : BondTerms) (M k : Int) (h : UsBond t M k) (dated s : PyDate) (cs : List BondPayment)
    (hd : t.datedDate = .ok dated) (hcs : t.couponCashflow dated = .ok cs)
    (hs : calculateSettlementDate t.calendar t.purchaseDate t.settlementConvention = .ok s) :
    (∃ b, Bond.create t = .ok b) ↔ dated ≤ s ∧ ((∀ p ∈ cs, s ≤ p.unadjusted) ∨
      ∃ p q, Neighbours cs p q ∧ p.date ≤ t.purchaseDate ∧ t.purchaseDate < q.date ∧ p.unadjusted ≤ s) := by
  obtain ⟨dated', cs', pr, s', h1, h2, h3, h4, hc, hy, -, -⟩ := C121_schedule t M k h
  rw [hd] at h1; injection h1 with h1; subst h1
  rw [hcs] at h2; injection h2 with h2; subst h2
  rw [hs] at h4; injection h4 with h4; subst h4
  have hf : t.frequency ≠ .zeroCoupon := by
    intro e; have := h.frequency; rw [e] at this; cases this
  rw [← accrued_total_iff hf h.dcc hy hc]
  constructor
  · rintro ⟨b, hb⟩
    obtain ⟨-, e1, e2, -, e4, e5, -⟩ := create_ok hb
    rw [hd] at e1; injection e1 with e1
    rw [← e1] at e2 e5
    rw [hcs] at e2; injection e2 with e2
    rw [hs] at e4; injection e4 with e4
    rw [← e2, ← e4] at e5
    exact ⟨_, e5⟩
  · rintro ⟨x, hx⟩
    refine ⟨⟨t, dated, cs, pr, s, x, t.price + x / t.principal * 100⟩, ?_⟩
    unfold Bond.create
    rw [hd, ok_bind, hcs, ok_bind, h3, ok_bind, hs, ok_bind, hx, ok_bind, pyDiv_of_ne h.principal, ok_bind]

/-- C121. Away from coupon dates every purchase is possible: a bond bought at least eight days after its dated date and at least
fifteen days before maturity, with no coupon due in the seven days before or the fourteen days after the purchase, can be made. -/
theorem C121_away_from_coupons (t : BondTerms) (M k : Int) (h : UsBond t M k) (dated : PyDate) (cs : List BondPayment)
    (hd : t.datedDate = .ok dated) (hcs : t.couponCashflow dated = .ok cs)
    (hafter : dated.ord + 8 ≤ t.purchaseDate.ord) (hbefore : t.purchaseDate.ord + 15 ≤ t.maturityDate.ord)
    (haway : ∀ p ∈ cs, p.unadjusted.ord + 8 ≤ t.purchaseDate.ord ∨ t.purchaseDate.ord + 15 ≤ p.unadjusted.ord) :
    ∃ b, Bond.create t = .ok b := by
  obtain ⟨dated', cs', pr, s, h1, h2, h3, h4, hc, hy, s1, s2⟩ := C121_schedule t M k h
  rw [hd] at h1; injection h1 with h1; subst h1
  rw [hcs] at h2; injection h2 with h2; subst h2
  rw [C121_creatable t M k h dated s cs hd hcs h4]
  refine ⟨PyDate.le_iff.2 (by omega), ?_⟩
  by_cases hall : ∀ p ∈ cs, s ≤ p.unadjusted
  · exact .inl hall
  · right
    push Not at hall
    obtain ⟨p0, hp0, hlt0⟩ := hall
    obtain ⟨ql, hql, hqm⟩ := hc.last
    obtain ⟨hle, hb1, hb2⟩ := bisectRight_spec id _ (usCoupons_dates hc) t.purchaseDate
    revert hle hb1 hb2
    generalize bisectRight id (cs.map BondPayment.date) t.purchaseDate = i
    intro hle hb1 hb2
    rw [List.length_map] at hle
    simp only [List.length_map, List.getElem_map, id_eq] at hb1 hb2
    have hi0 : i ≠ 0 := by
      intro e
      obtain ⟨n, hn, rfl⟩ := List.getElem_of_mem hp0
      have := hb2 n hn (by omega)
      have hn' := hc.near _ (List.getElem_mem hn)
      rw [PyDate.lt_iff] at this hlt0
      rcases haway _ (List.getElem_mem hn) with hw | hw <;> omega
    have hil : i < cs.length := by
      by_contra hge
      obtain ⟨n, hn, rfl⟩ := List.getElem_of_mem hql
      have := hb1 n hn (by omega)
      have hn' := hc.near _ (List.getElem_mem hn)
      rw [PyDate.le_iff] at this
      rw [hqm] at hn'
      omega
    obtain ⟨j, rfl⟩ : ∃ j, i = j + 1 := ⟨i - 1, by omega⟩
    refine ⟨cs[j], cs[j + 1], neighbours_get hil, hb1 j (by omega) (by omega), hb2 (j + 1) hil (le_refl _), ?_⟩
    have := hb1 j (by omega) (by omega)
    have hn' := hc.near _ (List.getElem_mem (show j < cs.length by omega))
    rw [PyDate.le_iff] at this ⊢
    rcases haway _ (List.getElem_mem (show j < cs.length by omega)) with hw | hw <;> omega

/-! ### Valuing it -/

/-- C121. A bond on the US calendar, once made, has a value on every curve that returns a factor for every date from its reference
date on, if the reference date is at least a week before the end of the python calendar. -/
theorem C121_valued (t : BondTerms) (M k : Int) (h : UsBond t M k) (b : Bond) (hb : Bond.create t = .ok b) (curve : DiscountFn)
    (href : curve.referenceDate.ord + 7 ≤ PyDate.maxOrd)
    (hc : ∀ d, curve.referenceDate ≤ d → ∃ x, curve.call d = .ok x) : ∃ v, b.presentValue curve = .ok v := by
  obtain ⟨hterms, -⟩ := create_ok hb
  obtain ⟨s, hs, s1, -⟩ := C09_add_business_days_total curve.referenceDate 1 (by push_cast; omega)
  have hs' : addBusinessDays b.terms.calendar curve.referenceDate 1 = .ok s := by
    rw [hterms, h.calendar]; exact hs
  have hbd : BusinessDay t.calendar s := by
    rw [h.calendar]; obtain ⟨r, -, -, hb, -⟩ := nextSettlement_of_add hs; exact hb
  classical
  refine ⟨_, C34_present_value_exists b curve s (fun d => if hd : curve.referenceDate ≤ d then (hc d hd).choose else 0) hs' ?_⟩
  intro p hp hsp
  have hpaid : PaidOn t.calendar t.adjustment p.unadjusted p.date := by
    rcases List.mem_append.1 hp with hp | hp
    · exact ((C33_coupons t b k h.frequency hb).2.2.1 p hp).2
    · obtain ⟨a, ha, hpp⟩ := principalCashflow_ok (create_ok hb).2.2.2.1
      rw [hpp] at hp
      simp only [List.mem_singleton] at hp
      subst hp
      exact adjust_paidOn ha
  have hle := paidOn_ge hbd hsp hpaid
  have hrd : curve.referenceDate ≤ p.date := by rw [PyDate.le_iff] at hle ⊢; omega
  rw [dif_pos hrd]
  exact (hc p.date hrd).choose_spec

/-- C121. Bought at least a week before maturity, such a bond with a positive full price has exactly one yield to maturity, under every
day count convention (under 30/360, bought on any day but the 30th of a month and 28 February). -/
theorem C121_yield (t : BondTerms) (M k : Int) (h : UsBond t M k) (b : Bond) (hb : Bond.create t = .ok b)
    (hdcc : t.dcc = .thirty360 → t.purchaseDate.day ≠ 30 ∧ ¬ (t.purchaseDate.month = 2 ∧ t.purchaseDate.day = 28)) (hrate : 0 ≤ t.couponRate) (hpr : 0 < t.principal) (hprice : 0 < b.fullPrice)
    (hbefore : t.purchaseDate.ord + 7 ≤ t.maturityDate.ord) :
    ∃! r : ℝ, -(t.frequency.value : ℝ) < r ∧ b.diffFromFullPrice none r = .ok 0 := by
  have hm := t.maturityDate.ord_bounds
  obtain ⟨s, hs, s1, s2⟩ := C09_add_business_days_total t.purchaseDate 1 (by push_cast; omega)
  have hs' : addBusinessDays t.calendar t.purchaseDate 1 = .ok s := by rw [h.calendar]; exact hs
  have hterms := (create_ok hb).1
  have hok : AxisOk t.dcc t.purchaseDate := fun _ => by have := h.purchaseAfter; omega
  obtain ⟨τ, hτ⟩ : ∃ τ, MeasuresFrom t.dcc t.purchaseDate s τ := by
    obtain ⟨g1, g2⟩ := C37_conventions t.dcc h.dcc t.calendar t.purchaseDate s hok hs'
    by_cases hd : t.dcc = .thirty360
    · rw [hd]
      refine g2.2 ?_
      rintro ⟨o1, o2⟩
      obtain ⟨d1, d2⟩ := hdcc hd
      have n := thirty360Days_next o1
      have bs := s.bounds
      have e : t.purchaseDate = ⟨s.year, s.month, s.day - 1, by
          unfold validYMD; simp only [decide_eq_true_eq]; omega⟩ := by
        apply PyDate.ord_inj.1
        unfold PyDate.ord at o1 ⊢
        simp only
        omega
      rw [e] at d1 d2
      simp only at d1 d2
      omega
    · obtain ⟨τ, -, hτ⟩ := g1 hd
      exact ⟨τ, hτ⟩
  have := C37_ytm_unique t b k h.frequency hb τ t.purchaseDate s hτ hs'
    (PyDate.le_iff.2 (by push_cast at s2; omega)) hrate hpr hprice
  have e : ∀ r, b.diffFromFullPrice none r = b.diffFromFullPrice (some t.purchaseDate) r := by
    intro r
    unfold Bond.diffFromFullPrice
    simp only [Option.getD_none, Option.getD_some, hterms]
  simpa only [e] using this

/-! ### Concrete cases -/

/-- The two-year note of C33 is such a bond; it can be made and lies away from its coupons. -/
example : UsBond exTerms 24 6 ∧ exTerms.dcc ≠ .thirty360 ∧ (D 2023 2 15).ord + 8 ≤ exTerms.purchaseDate.ord ∧
    exTerms.purchaseDate.ord + 15 ≤ exTerms.maturityDate.ord ∧ exTerms.datedDate = .ok (D 2023 2 15) ∧
    exTerms.couponCashflow (D 2023 2 15) = .ok [⟨D 2023 8 15, D 2023 8 15, 2⟩, ⟨D 2024 2 15, D 2024 2 15, 2⟩,
      ⟨D 2024 8 15, D 2024 8 15, 2⟩, ⟨D 2025 2 15, D 2025 2 18, 2⟩] := by
  refine ⟨⟨rfl, by decide, by decide, by decide +kernel, by decide +kernel, by decide +kernel, by decide +kernel,
    by unfold BusinessConvention; decide, by decide, by decide, by decide +kernel⟩, by decide, by decide +kernel, by decide +kernel,
    by decide +kernel, exTerms_coupons⟩

end Verif.Props
