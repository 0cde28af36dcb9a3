/- Property C115 under 30/360: payment times are exactly periodic, so a bond discounted at its coupon rate is worth par. -/
import Verif.Props.ParBond

namespace Verif.Props
open Verif Verif.Spec Verif.DayCount Verif.Scheduler

/-- Under 30/360 the day count between two dates with the same day of the month, at most the 27th, is 30 for each month. -/
theorem thirty360Days_months {s e : PyDate} (hd : s.day ≤ 27) (h : e.day = s.day) :
    thirty360Days s e = 30 * (e.monthIndex - s.monthIndex) := by
  unfold thirty360Days PyDate.monthIndex
  have h1 : s.day ≠ 28 := by omega
  have h2 : e.day ≠ 28 := by omega
  simp only [h1, h2, beq_iff_eq, Bool.and_eq_true, and_false, false_and, if_false, beq_eq_false_iff_ne.2 h1, Bool.and_false,
    Bool.false_and, Bool.false_eq_true]
  split_ifs <;> omega

/-- A strictly increasing list, sorted, is the reverse of a strictly decreasing permutation of it. -/
theorem perm_reverse {l L : List PyDate} (hp : l.Perm L) (hl : l.Pairwise (· ≤ ·)) (hL : L.Pairwise (fun x y => y < x)) : l = L.reverse := by
  refine List.Perm.eq_of_pairwise (le := (· ≤ ·)) (fun a b _ _ h1 h2 => le_antisymm h1 h2) hl ?_ (hp.trans L.reverse_perm.symm)
  rw [List.pairwise_reverse]
  exact hL.imp fun h => le_of_lt h

/-- The coupon dates after `ref` of a schedule going back in steps of `k` months from `maturity`, when `ref` is `n` steps before it. -/
theorem due_dates {t : BondTerms} {b : Bond} {k : Int} (hk : couponMonths t.frequency = some k) (h : Bond.create t = .ok b)
    (hday : t.maturityDate.day ≤ 28) {ref : PyDate} {n : Nat} (hn : 1 ≤ n) (hn' : n ≤ 1001)
    (href : t.maturityDate.addMonths (-(k * n)) = .ok ref) (hdated : b.datedDate ≤ ref) {s : PyDate} (hrs : ref < s)
    (hdates : ∀ p ∈ b.coupons, ref < p.unadjusted → s ≤ p.unadjusted ∧ p.date = p.unadjusted) :
    (b.coupons.filter fun p => decide (s ≤ p.unadjusted)).length = n ∧
    ∀ (j : Nat) p, (b.coupons.filter fun p => decide (s ≤ p.unadjusted))[j]? = some p →
      p.date.day = ref.day ∧ p.date.monthIndex = ref.monthIndex + k * (j + 1) := by
  obtain ⟨hinc, hkpos, hk12⟩ := increment_months hk
  obtain ⟨⟨L, hperm, hhead, hempty, hchain, hmem, hlen, hcap⟩, hsorted, -⟩ := C33_coupons t b k hk h
  have hdec := months_chain_le hkpos hchain
  obtain ⟨hri, -⟩ := PyDate.addMonths_ok.1 href
  have hrd := PyDate.addMonths_day href hday
  have hlt : b.datedDate < t.maturityDate := lt_of_le_of_lt hdated (PyDate.addMonths_neg_lt href (by
    have : (1 : Int) ≤ n := by exact_mod_cast hn
    nlinarith))
  have hpos : ∀ i (hi : i < L.length), L[i].monthIndex = t.maturityDate.monthIndex - i * k ∧ L[i].day = t.maturityDate.day := by
    intro i
    induction i with
    | zero =>
      intro hi
      have hh := hhead hlt
      rw [List.head?_eq_getElem?, List.getElem?_eq_getElem hi] at hh
      rw [Option.some.inj hh]; simp
    | succ i ih =>
      intro hi
      obtain ⟨ih1, ih2⟩ := ih (by omega)
      have hcc := chain_get hchain i hi
      have hd' := PyDate.addMonths_day hcc (by omega)
      refine ⟨?_, by omega⟩
      rw [(PyDate.addMonths_ok.1 hcc).1, ih1]; push_cast; ring
  have hne : L ≠ [] := by
    intro e; have := hhead hlt; rw [e] at this; simp at this
  have hl0 : 0 < L.length := List.length_pos_iff.2 hne
  have hnL : n ≤ L.length := by
    by_contra hc
    obtain ⟨x, hx, hxd⟩ := hcap (by omega) (L[L.length - 1]'(by omega))
      (by rw [List.getLast?_eq_getElem?, List.getElem?_eq_getElem (by omega)])
    obtain ⟨hm1, hm2⟩ := hpos (L.length - 1) (by omega)
    have h1 := (PyDate.addMonths_ok.1 hx).1
    have h2 := PyDate.addMonths_day hx (by omega)
    have h3 : x ≤ ref := le_trans hxd hdated
    rw [PyDate.le_iff_month] at h3
    have h4 : (((L.length - 1 : Nat) : Int) + 1) * k < n * k := by
      refine mul_lt_mul_of_pos_right ?_ hkpos
      omega
    have h5 : x.monthIndex = t.maturityDate.monthIndex - (((L.length - 1 : Nat) : Int) + 1) * k := by rw [h1, hm1]; ring
    have h6 : k * (n : Int) = n * k := mul_comm _ _
    omega
  have hafter : ∀ i (hi : i < L.length), ref < L[i] ↔ i < n := by
    intro i hi
    obtain ⟨hm1, hm2⟩ := hpos i hi
    rw [PyDate.lt_iff_month, hm1, hm2, hri, hrd]
    have h6 : k * (n : Int) = n * k := mul_comm _ _
    constructor
    · intro hh
      by_contra hc
      have : (n : Int) * k ≤ i * k := mul_le_mul_of_nonneg_right (by exact_mod_cast not_lt.1 hc) hkpos.le
      omega
    · intro hh
      left
      have : (i : Int) * k < n * k := mul_lt_mul_of_pos_right (by exact_mod_cast hh) hkpos
      omega
  have hs : ∀ x ∈ L, (s ≤ x ↔ ref < x) := by
    intro x hx
    refine ⟨fun hsx => lt_of_lt_of_le hrs hsx, fun hrx => ?_⟩
    obtain ⟨p, hp, rfl⟩ := List.mem_map.1 (hperm.mem_iff.2 hx)
    exact (hdates p hp hrx).1
  have hfilter : L.filter (fun x => decide (s ≤ x)) = L.take n := by
    conv_lhs => rw [← List.take_append_drop n L]
    rw [List.filter_append]
    have e1 : (L.take n).filter (fun x => decide (s ≤ x)) = L.take n := by
      rw [List.filter_eq_self]
      intro x hx
      obtain ⟨i, hi, rfl⟩ := List.mem_iff_getElem.1 hx
      rw [List.length_take] at hi
      rw [List.getElem_take, decide_eq_true_eq]
      exact (hs _ (List.getElem_mem _)).2 ((hafter i (by omega)).2 (by omega))
    have e2 : (L.drop n).filter (fun x => decide (s ≤ x)) = [] := by
      rw [List.filter_eq_nil_iff]
      intro x hx
      obtain ⟨i, hi, rfl⟩ := List.mem_iff_getElem.1 hx
      rw [List.length_drop] at hi
      rw [List.getElem_drop, decide_eq_true_eq]
      intro hc
      have := (hafter (n + i) (by omega)).1 ((hs _ (List.getElem_mem _)).1 hc)
      omega
    rw [e1, e2, List.append_nil]
  set due := b.coupons.filter fun p => decide (s ≤ p.unadjusted) with hdue
  have hdm : ∀ p ∈ due, p ∈ b.coupons ∧ s ≤ p.unadjusted ∧ p.date = p.unadjusted := by
    intro p hp
    rw [hdue, List.mem_filter, decide_eq_true_eq] at hp
    exact ⟨hp.1, hp.2, (hdates p hp.1 (lt_of_lt_of_le hrs hp.2)).2⟩
  have hmap : due.map BondPayment.unadjusted = (L.take n).reverse := by
    refine perm_reverse ?_ ?_ (hdec.sublist (List.take_sublist n L))
    · rw [← hfilter]
      have := hperm.filter (fun x => decide (s ≤ x))
      rwa [List.filter_map] at this
    · rw [List.pairwise_map]
      have hs2 : due.Pairwise (fun p q => p.date ≤ q.date) := List.Pairwise.filter _ hsorted
      refine hs2.imp_of_mem ?_
      intro p q hp hq hpq
      rw [← (hdm p hp).2.2, ← (hdm q hq).2.2]
      exact hpq
  have hlenD : due.length = n := by
    have := congrArg List.length hmap
    rw [List.length_map, List.length_reverse, List.length_take] at this
    omega
  refine ⟨hlenD, fun j p hj => ?_⟩
  have hjn : j < n := by
    rw [← hlenD]
    by_contra hc
    rw [List.getElem?_eq_none (not_lt.1 hc)] at hj
    cases hj
  have hpu : (due.map BondPayment.unadjusted)[j]? = some p.unadjusted := by rw [List.getElem?_map, hj]; rfl
  rw [hmap, List.getElem?_reverse (by rw [List.length_take]; omega), List.length_take, List.getElem?_take_of_lt (by omega),
    List.getElem?_eq_getElem (by omega)] at hpu
  injection hpu with hpu
  obtain ⟨h1, h2⟩ := hpos (min n L.length - 1 - j) (by omega)
  rw [hpu] at h1 h2
  rw [(hdm p (List.mem_of_getElem? hj)).2.2]
  refine ⟨h2.trans hrd.symm, ?_⟩
  rw [h1, hri]
  have : ((min n L.length - 1 - j : Nat) : Int) = n - 1 - j := by omega
  rw [this]
  ring

/-- C115. Under 30/360 a bond maturing on one of the first 27 days of a month, seen from one of its coupon dates (or its dated date) that
is a business day, with `n` coupons to come each paid on its unadjusted date, is worth exactly its principal at its own coupon rate; its
yield is below, at or above the coupon rate as its full price is above, at or below 100. -/
theorem C115_thirty360 (t : BondTerms) (b : Bond) (k : Int) (hk : couponMonths t.frequency = some k) (h : Bond.create t = .ok b)
    (hdcc : t.dcc = .thirty360) (hday : t.maturityDate.day ≤ 27) (ref s : PyDate) (n : Nat) (hn : 1 ≤ n) (hn' : n ≤ 1001)
    (href : t.maturityDate.addMonths (-(k * n)) = .ok ref) (hdated : b.datedDate ≤ ref) (hbus : BusinessDay t.calendar ref)
    (hdates : ∀ p ∈ b.coupons ++ b.principalPayments, ref < p.unadjusted → p.date = p.unadjusted)
    (hs : addBusinessDays t.calendar ref 1 = .ok s) (hrate : 0 ≤ t.couponRate) (hpr : 0 < t.principal) :
    b.discountByFixedRate (t.couponRate / 100 : ℝ) (some ref) = .ok (t.principal : ℝ) ∧
    ∀ r : ℝ, -(t.frequency.value : ℝ) < r → b.diffFromFullPrice (some ref) r = .ok 0 →
      (r < t.couponRate / 100 ↔ 100 < b.fullPrice) ∧ ((t.couponRate : ℝ) / 100 < r ↔ b.fullPrice < 100) ∧
      (r = t.couponRate / 100 ↔ b.fullPrice = 100) := by
  obtain ⟨r0, hr0, hlt, hbd, hnext⟩ := nextSettlement_of_add hs
  obtain ⟨-, hkpos, hk12⟩ := increment_months hk
  have hr0' : r0 = ref := FirstOnOrAfter.unique hr0 ⟨le_refl _, hbus, fun e h1 h2 => absurd h1 (not_le.2 h2)⟩
  subst hr0'
  have hfacts := payment_facts hk h hrate hpr
  have hafter : ∀ p ∈ b.coupons ++ b.principalPayments, r0 < p.unadjusted → s ≤ p.unadjusted := by
    intro p hp hlt'
    by_contra hc
    refine hnext _ hlt' (not_le.1 hc) ?_
    have hpd := hdates p hp hlt'
    have hpaid := (hfacts p hp).2
    rw [← hpd]
    unfold PaidOn at hpaid
    cases hadj : t.adjustment with
    | following => simp only [hadj] at hpaid; exact hpaid.2.1
    | modifiedFollowing =>
      simp only [hadj] at hpaid
      obtain ⟨f, hf, h1, h2⟩ := hpaid
      by_cases hm : f.month = p.unadjusted.month
      · rw [h1 hm]; exact hf.2.1
      · exact (h2 hm).2.1
  obtain ⟨hri, -⟩ := PyDate.addMonths_ok.1 href
  have hrd := PyDate.addMonths_day href (by omega)
  have hmat : r0 < t.maturityDate := PyDate.addMonths_neg_lt href (by
    have : (1 : Int) ≤ n := by exact_mod_cast hn
    nlinarith)
  obtain ⟨hlen, hdue⟩ := due_dates hk h (by omega) hn hn' href hdated hlt
    (fun p hp hlt' => ⟨hafter p (List.mem_append_left _ hp) hlt', hdates p (List.mem_append_left _ hp) hlt'⟩)
  obtain ⟨a, ha, hpp⟩ := principalCashflow_ok (create_ok h).2.2.2.1
  have hm : s ≤ t.maturityDate := hafter ⟨t.maturityDate, a, t.principal⟩ (by rw [hpp]; simp) hmat
  have hadate : a = t.maturityDate := hdates ⟨t.maturityDate, a, t.principal⟩ (by rw [hpp]; simp) hmat
  have hτ : MeasuresFrom t.dcc r0 s (fun d => if d = r0 then 0 else (thirty360Days r0 d : ℚ) / 360) := by
    intro d hd
    have hrd' : r0 < d := lt_of_lt_of_le hlt hd
    have hp : 0 < thirty360Days r0 d := by
      rw [thirty360Days_pos hrd']
      rintro ⟨g1, g2⟩
      have bd := d.bounds
      have : r0 = ⟨d.year, d.month, d.day - 1, by
          unfold validYMD; simp only [decide_eq_true_eq]; omega⟩ := by
        apply PyDate.ord_inj.1
        unfold PyDate.ord at g1 ⊢
        simp only
        omega
      have : r0.day = d.day - 1 := by rw [this]
      omega
    have hpQ : (0 : ℚ) < thirty360Days r0 d := by exact_mod_cast hp
    simp only [if_true, if_neg (ne_of_gt hrd'), sub_zero]
    refine ⟨?_, by positivity⟩
    rw [hdcc, accrual_eq (le_of_lt hrd')]
    rfl
  have hfq : (t.frequency.value : ℚ) * (k : ℚ) = 12 := by
    rw [mul_comm]; exact_mod_cast hk12
  have htime : ∀ d : PyDate, r0 < d → d.day = r0.day → ∀ m : Int, d.monthIndex = r0.monthIndex + k * m →
      (t.frequency.value : ℚ) * ((if d = r0 then 0 else (thirty360Days r0 d : ℚ) / 360) -
        (if r0 = r0 then 0 else (thirty360Days r0 r0 : ℚ) / 360)) = m := by
    intro d hd1 hd2 m hd3
    rw [if_pos rfl, if_neg (ne_of_gt hd1), sub_zero, thirty360Days_months (by omega) hd2, hd3]
    push_cast
    linear_combination (m : ℚ) / 12 * hfq
  have hper : NearlyPeriodic b (fun d => if d = r0 then 0 else (thirty360Days r0 d : ℚ) / 360) t.frequency.value r0 s 1 0 := by
    refine ⟨?_, ?_, ?_⟩
    · intro e
      rw [e] at hlen
      simp at hlen
      omega
    · intro j p hj
      obtain ⟨g1, g2⟩ := hdue j p hj
      have hmem := List.mem_of_getElem? hj
      rw [List.mem_filter, decide_eq_true_eq] at hmem
      have hlt' := lt_of_lt_of_le hlt hmem.2
      have := htime p.date (by rw [hdates p (List.mem_append_left _ hmem.1) hlt']; exact hlt') g1 (j + 1) g2
      rw [this]
      push_cast
      rw [add_comm, sub_self, abs_zero]
    · intro p hp
      rw [hpp] at hp
      simp only [List.mem_singleton] at hp
      subst hp
      have := htime a (by rw [hadate]; exact hmat) (by rw [hadate]; omega) n (by rw [hadate]; omega)
      rw [this, hlen]
      push_cast
      rw [show (n : ℚ) - (1 + (n - 1)) = 0 by ring, abs_zero]
  refine ⟨(C115_par t b k hk h _ r0 s hτ hs hm hrate hpr 1 hper).2 rfl, fun r hr hy => ?_⟩
  exact C115_yield t b k hk h _ r0 s hτ hs hm hrate hpr hper r hr hy

/-- A two-year corporate note: 5% semi-annual, 30/360, maturing on 15 March 2023, no payment date moved. -/
def exThirty : BondTerms :=
  { exTerms with cls := .fixedRateBond, dcc := .thirty360, couponRate := 5, purchaseDate := D 2021 3 15, maturityDate := D 2023 3 15 }

/-- Whether the constructed bond has this dated date and these payments. -/
def hasPayments (t : BondTerms) (dated : PyDate) (cs ps : List BondPayment) : Bool :=
  match Bond.create t with
  | .ok b => decide (b.datedDate = dated ∧ b.coupons = cs ∧ b.principalPayments = ps)
  | .error _ => false

theorem hasPayments_spec {t : BondTerms} {dated : PyDate} {cs ps : List BondPayment} (h : hasPayments t dated cs ps = true) :
    ∃ b, Bond.create t = .ok b ∧ b.datedDate = dated ∧ b.coupons = cs ∧ b.principalPayments = ps := by
  unfold hasPayments at h
  cases hc : Bond.create t with
  | ok b => rw [hc] at h; exact ⟨b, rfl, by simpa using h⟩
  | error e => rw [hc] at h; cases h

/-- Concrete case for C115_thirty360: seen from its dated date the note is worth exactly 100 at 5%. -/
example : ∃ b, Bond.create exThirty = .ok b ∧ b.discountByFixedRate (5 / 100) (some (D 2021 3 15)) = .ok 100 := by
  obtain ⟨b, hb, h1, h2, h3⟩ := hasPayments_spec (t := exThirty) (dated := D 2021 3 15)
    (cs := [⟨D 2021 9 15, D 2021 9 15, 5 / 2⟩, ⟨D 2022 3 15, D 2022 3 15, 5 / 2⟩, ⟨D 2022 9 15, D 2022 9 15, 5 / 2⟩,
      ⟨D 2023 3 15, D 2023 3 15, 5 / 2⟩]) (ps := [⟨D 2023 3 15, D 2023 3 15, 100⟩]) (by decide +kernel)
  refine ⟨b, hb, ?_⟩
  have := (C115_thirty360 exThirty b 6 (by decide +kernel) hb rfl (by decide +kernel) (D 2021 3 15) (D 2021 3 16) 4 (by omega) (by omega)
    (by decide +kernel) (by rw [h1]) (isBusinessDay_true' (by decide +kernel)) (by rw [h2, h3]; decide +kernel) (by decide +kernel) (by decide +kernel)
    (by decide +kernel)).1
  simpa [exThirty, exTerms] using this

end Verif.Props
