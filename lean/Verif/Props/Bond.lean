/- Properties C33-C37: bonds. -/
import Verif.Spec.Bond
import Verif.Spec.DayCount
import Verif.Props.YieldCurve
import Verif.Props.Increments
import Verif.Props.DayCount
import Verif.Lemmas.Discount

namespace Verif.Props
open Verif Verif.Spec Verif.DayCount Verif.Scheduler

/-! ## C33 -/

theorem adjust_paidOn {t : BondTerms} {u d : PyDate} (h : t.adjust u = .ok d) : PaidOn t.calendar t.adjustment u d := by
  unfold BondTerms.adjust at h
  unfold PaidOn
  cases ha : t.adjustment with
  | following =>
    simp only [ha] at h ⊢
    exact ((C02_following_iff _ _ _).1 h).1
  | modifiedFollowing =>
    simp only [ha] at h ⊢
    exact (C05_modified_following _ _ _ h).2

theorem zipPayments {f : PyDate → Except PyErr PyDate} (c : ℚ) : ∀ {l r : List PyDate}, collect f l = .ok r →
    (List.zipWith (fun u a => (⟨u, a, c⟩ : BondPayment)) l r).map BondPayment.unadjusted = l ∧
    ∀ p ∈ List.zipWith (fun u a => (⟨u, a, c⟩ : BondPayment)) l r, p.amount = c ∧ f p.unadjusted = .ok p.date
  | [], r, h => by cases h; exact ⟨rfl, by simp⟩
  | a :: as, r, h => by
    simp only [collect] at h
    rw [bind_ok] at h
    obtain ⟨b, hb, h⟩ := h
    rw [bind_ok] at h
    obtain ⟨bs, hbs, h⟩ := h
    injection h with h
    subst h
    obtain ⟨h1, h2⟩ := zipPayments c hbs
    refine ⟨by simp [h1], ?_⟩
    intro p hp
    simp only [List.zipWith_cons_cons, List.mem_cons] at hp
    rcases hp with rfl | hp
    · exact ⟨rfl, hb⟩
    · exact h2 p hp

theorem increment_months {t : BondTerms} {k : Int} (hk : couponMonths t.frequency = some k) :
    t.increment = .ok (some (.relativedelta (-k) 0)) ∧ 0 < k ∧ k * t.frequency.value = 12 := by
  unfold BondTerms.increment
  cases hf : t.frequency <;> simp only [hf, couponMonths, reduceCtorEq] at hk <;> cases hk <;>
    exact ⟨rfl, by decide, by decide⟩

theorem addIncrement_months {x y : PyDate} {k : Int} : addIncrement x (.relativedelta k 0) = .ok y ↔ x.addMonths k = .ok y := by
  simp only [addIncrement, bind_ok]
  constructor
  · rintro ⟨z, hz, h⟩
    have : y = z := PyDate.ord_inj.1 (by have := PyDate.addDays_ok.1 h; omega)
    rwa [this]
  · intro h
    exact ⟨y, h, PyDate.addDays_ok.2 (by omega)⟩

/-- The list of unadjusted coupon dates, latest first, behind a coupon schedule. -/
theorem couponCashflow_spec {t : BondTerms} {k : Int} (hk : couponMonths t.frequency = some k) {dated : PyDate}
    {cs : List BondPayment} (h : t.couponCashflow dated = .ok cs) :
    ∃ (stop : PyDate) (L : List PyDate), stop.ord = dated.ord + 1 ∧
      generateDatesByIncrements t.maturityDate stop (.relativedelta (-k) 0) = .ok L ∧
      (cs.map BondPayment.unadjusted).Perm L ∧ cs.Pairwise (fun p q => p.date ≤ q.date) ∧
      ∀ p ∈ cs, p.amount = t.couponPayment ∧ t.adjust p.unadjusted = .ok p.date := by
  unfold BondTerms.couponCashflow at h
  rw [(increment_months hk).1, ok_bind] at h
  simp only at h
  rw [bind_ok] at h
  obtain ⟨stop, hstop, h⟩ := h
  rw [bind_ok] at h
  obtain ⟨L, hL, h⟩ := h
  rw [bind_ok] at h
  obtain ⟨as, has, h⟩ := h
  rw [ok_bind] at h
  injection h with h
  have hz := zipPayments t.couponPayment has
  have hp : cs.Perm (List.zipWith (fun u a => (⟨u, a, t.couponPayment⟩ : BondPayment)) L as) := by
    rw [← h]; exact (pySorted_perm _ _).trans (pySorted_perm _ _)
  refine ⟨stop, L, PyDate.addDays_ok.1 hstop, hL, ?_, ?_, ?_⟩
  · refine (hp.map _).trans ?_
    rw [hz.1]
  · rw [← h]; exact pySorted_sorted _ _
  · intro p hpm
    exact hz.2 p (hp.mem_iff.1 hpm)


theorem create_ok {t : BondTerms} {b : Bond} (h : Bond.create t = .ok b) :
    b.terms = t ∧ t.datedDate = .ok b.datedDate ∧ t.couponCashflow b.datedDate = .ok b.coupons ∧
    t.principalCashflow = .ok b.principalPayments ∧
    calculateSettlementDate t.calendar t.purchaseDate t.settlementConvention = .ok b.settlementDate ∧
    Bond.accruedInterestOf t b.datedDate b.coupons b.settlementDate none = .ok b.accruedInterest ∧
    t.principal ≠ 0 ∧ b.fullPrice = t.price + b.accruedInterest / t.principal * 100 := by
  unfold Bond.create at h
  rw [bind_ok] at h; obtain ⟨dated, h1, h⟩ := h
  rw [bind_ok] at h; obtain ⟨coupons, h2, h⟩ := h
  rw [bind_ok] at h; obtain ⟨principal, h3, h⟩ := h
  rw [bind_ok] at h; obtain ⟨settlement, h4, h⟩ := h
  rw [bind_ok] at h; obtain ⟨accrued, h5, h⟩ := h
  rw [bind_ok] at h; obtain ⟨norm, h6, h⟩ := h
  injection h with h
  subst h
  obtain ⟨h7, h8⟩ := pyDiv_ok.1 h6
  exact ⟨rfl, h1, h2, h3, h4, h5, h7, by rw [h8]⟩

/-- Going back month by month the dates strictly decrease. -/
theorem months_chain_le {k : Int} (hk : 0 < k) {L : List PyDate}
    (h : List.IsChain (fun x y => x.addMonths (-k) = .ok y) L) : L.Pairwise (fun x y => y < x) := by
  have hch : List.IsChain (fun x y : PyDate => y < x) L := h.imp (fun x y hxy => PyDate.addMonths_neg_lt hxy (by omega))
  haveI : IsTrans PyDate (fun x y => y < x) := ⟨fun a b c h1 h2 => lt_trans h2 h1⟩
  exact List.isChain_iff_pairwise.1 hch

/-- C33. The coupon schedule of a constructed coupon bond.  `L` lists the unadjusted coupon dates backwards: it starts at
the maturity date, each further date is `12/f` calendar months before the previous one, all lie after the dated date and not
after maturity, and (unless the scheduler's cap of 1001 dates is hit) the next one would not be after the dated date.  The
coupons are exactly these, in order of payment date; each is paid on the adjusted date and pays `principal * rate / (100 f)`. -/
theorem C33_coupons (t : BondTerms) (b : Bond) (k : Int) (hk : couponMonths t.frequency = some k)
    (h : Bond.create t = .ok b) :
    (∃ L : List PyDate,
      (b.coupons.map BondPayment.unadjusted).Perm L ∧
      (b.datedDate < t.maturityDate → L.head? = some t.maturityDate) ∧
      (t.maturityDate ≤ b.datedDate → L = []) ∧
      List.IsChain (fun x y => x.addMonths (-k) = .ok y) L ∧
      (∀ x ∈ L, b.datedDate < x ∧ x ≤ t.maturityDate) ∧
      L.length ≤ 1001 ∧
      (L.length < 1001 → ∀ l, L.getLast? = some l → ∃ x, l.addMonths (-k) = .ok x ∧ x ≤ b.datedDate)) ∧
    b.coupons.Pairwise (fun p q => p.date ≤ q.date) ∧
    (∀ p ∈ b.coupons, p.amount = t.principal * t.couponRate / (100 * t.frequency.value) ∧
      PaidOn t.calendar t.adjustment p.unadjusted p.date) ∧
    k * t.frequency.value = 12 := by
  obtain ⟨-, -, hc, -⟩ := create_ok h
  obtain ⟨hinc, hkpos, hk12⟩ := increment_months hk
  obtain ⟨stop, L, hstop, hL, hperm, hsort, hpay⟩ := couponCashflow_spec hk hc
  obtain ⟨pos, hp, h1, h2, h3, h4, h5⟩ := C08_chain _ _ _ _ _ hL
  have hposF : pos = false := by
    simp only [isPositive] at hp
    rw [bind_ok] at hp
    obtain ⟨y, hy, hp⟩ := hp
    rw [addIncrement_months] at hy
    injection hp with hp
    rw [← hp]
    exact decide_eq_false (not_le.2 (PyDate.addMonths_neg_lt hy (by omega)))
  subst hposF
  have hchain : List.IsChain (fun x y => x.addMonths (-k) = .ok y) L := h2.imp (fun x y hxy => addIncrement_months.1 hxy)
  have hnp : ∀ x, NotPast false stop x ↔ b.datedDate < x := by
    intro x
    simp only [NotPast, Bool.false_eq_true, if_false, PyDate.le_iff, PyDate.lt_iff]; omega
  have hdec := months_chain_le hkpos hchain
  have hle : ∀ x ∈ L, x ≤ t.maturityDate := by
    intro x hx
    cases L with
    | nil => simp at hx
    | cons a as =>
      have ha := h1 a rfl
      subst ha
      rcases List.mem_cons.1 hx with rfl | hx
      · exact le_refl _
      · exact le_of_lt ((List.pairwise_cons.1 hdec).1 x hx)
  refine ⟨⟨L, hperm, ?_, ?_, hchain, fun x hx => ⟨(hnp x).1 (h3 x hx), hle x hx⟩, h4, ?_⟩, hsort, ?_, hk12⟩
  · intro hlt
    cases L with
    | nil =>
      exfalso
      rcases h5 (by simp) with ⟨-, hn⟩ | ⟨l, x, hl, -⟩
      · exact hn ((hnp _).2 hlt)
      · simp at hl
    | cons a as => rw [h1 a rfl]; rfl
  · intro hge
    cases L with
    | nil => rfl
    | cons a as =>
      have := (hnp a).1 (h3 a (by simp))
      rw [h1 a rfl] at this
      exact absurd this (not_lt.2 hge)
  · intro hlt l hl
    rcases h5 hlt with ⟨rfl, hn⟩ | ⟨l', x, hl', hx, hn⟩
    · simp at hl
    · rw [hl] at hl'
      injection hl' with e
      subst e
      exact ⟨x, addIncrement_months.1 hx, not_lt.1 (fun hc => hn ((hnp x).2 hc))⟩
  · intro p hp
    obtain ⟨ha, hadj⟩ := hpay p hp
    refine ⟨?_, adjust_paidOn hadj⟩
    rw [ha]
    unfold BondTerms.couponPayment
    cases hf : t.frequency <;> simp only [hf, couponMonths, reduceCtorEq] at hk <;> rfl

/-- C33. Under FOLLOWING no coupon is paid before its unadjusted date. -/
theorem C33_following_not_early (t : BondTerms) (b : Bond) (k : Int) (hk : couponMonths t.frequency = some k)
    (h : Bond.create t = .ok b) (ha : t.adjustment = .following) : ∀ p ∈ b.coupons, p.unadjusted ≤ p.date := by
  intro p hp
  have := ((C33_coupons t b k hk h).2.2.1 p hp).2
  rw [ha] at this
  exact this.1

/-- The length of a tenor in months. -/
def tenorMonths (t : Tenor) : Option Int :=
  match t.length with
  | none => none
  | some n => if t.unit = 'Y' then some (12 * n) else if t.unit = 'M' then some n else none

theorem datedDate_months {t : BondTerms} {d : PyDate} (h : t.datedDate = .ok d) :
    ∃ M, tenorMonths t.tenor = some M ∧ t.maturityDate.addMonths (-M) = .ok d := by
  unfold BondTerms.datedDate at h
  unfold tenorMonths
  cases hl : t.tenor.length with
  | none => simp only [hl] at h; cases h
  | some n =>
    simp only [hl] at h ⊢
    by_cases hY : t.tenor.unit = 'Y'
    · rw [if_pos hY] at h ⊢; exact ⟨_, rfl, h⟩
    · rw [if_neg hY] at h ⊢
      by_cases hM : t.tenor.unit = 'M'
      · rw [if_pos hM] at h ⊢; exact ⟨_, rfl, h⟩
      · rw [if_neg hM] at h; cases h

/-- C33. A tenor of `M` months and a maturity day of at most 28: the number of coupons is `M / k` rounded up, `k` being the
months between coupons (for `n` years and frequency `f`: exactly `n * f`), up to the scheduler's cap of 1001 dates. -/
theorem C33_count (t : BondTerms) (b : Bond) (k M : Int) (hk : couponMonths t.frequency = some k)
    (hM : tenorMonths t.tenor = some M) (hM0 : 0 ≤ M) (hday : t.maturityDate.day ≤ 28)
    (h : Bond.create t = .ok b) : b.coupons.length = min ((M + k - 1) / k) 1001 := by
  obtain ⟨-, hd, hc, -⟩ := create_ok h
  obtain ⟨M', hM', hdm⟩ := datedDate_months hd
  rw [hM] at hM'; injection hM' with hM'; subst hM'
  obtain ⟨hinc, hkpos, hk12⟩ := increment_months hk
  obtain ⟨⟨L, hperm, hhead, hempty, hchain, hmem, hlen, hcap⟩, -⟩ := C33_coupons t b k hk h
  have hlenL : b.coupons.length = L.length := by rw [← hperm.length_eq, List.length_map]
  rw [hlenL]
  -- month positions
  have hdmi := (PyDate.addMonths_ok.1 hdm).1
  have hdday := PyDate.addMonths_day hdm hday
  have hpos : ∀ i (hi : i < L.length), L[i].monthIndex = t.maturityDate.monthIndex - i * k ∧ L[i].day = t.maturityDate.day := by
    intro i
    induction i with
    | zero =>
      intro hi
      have hlt : b.datedDate < t.maturityDate := by
        by_contra hc
        rw [hempty (not_lt.1 hc)] at hi
        simp at hi
      have hh := hhead hlt
      rw [List.head?_eq_getElem?, List.getElem?_eq_getElem hi] at hh
      rw [Option.some.inj hh]; simp
    | succ i ih =>
      intro hi
      obtain ⟨ih1, ih2⟩ := ih (by omega)
      have hcc := chain_get hchain i hi
      have hd' := PyDate.addMonths_day hcc (by omega)
      refine ⟨?_, by omega⟩
      rw [(PyDate.addMonths_ok.1 hcc).1, ih1]; push_cast; ring
  by_cases hM1 : M = 0
  · subst hM1
    have hdd : b.datedDate = t.maturityDate := by
      rw [show -(0 : Int) = 0 by rfl, PyDate.addMonths_zero] at hdm; injection hdm with e; exact e.symm
    rw [hempty (le_of_eq hdd.symm)]
    have : (0 + k - 1) / k = 0 := Int.ediv_eq_zero_of_lt (by omega) (by omega)
    rw [this]; rfl
  · have hlt : b.datedDate < t.maturityDate := PyDate.addMonths_neg_lt hdm (by omega)
    have hne : L ≠ [] := by
      intro e; have := hhead hlt; rw [e] at this; simp at this
    have hl0 : 0 < L.length := List.length_pos_iff.2 hne
    obtain ⟨hm1, hm2⟩ := hpos (L.length - 1) (by omega)
    have hlast := (hmem (L[L.length - 1]'(by omega)) (List.getElem_mem _)).1
    rw [PyDate.lt_iff_month] at hlast
    have hlow : ((L.length - 1 : Nat) : Int) * k < M := by omega
    have hup : L.length < 1001 → M ≤ (L.length : Int) * k := by
      intro hlt1
      obtain ⟨x, hx, hxd⟩ := hcap hlt1 (L[L.length - 1]'(by omega))
        (by rw [List.getLast?_eq_getElem?, List.getElem?_eq_getElem (by omega)])
      have hxm := (PyDate.addMonths_ok.1 hx).1
      rw [PyDate.le_iff_month] at hxd
      have hcast : (L.length : Int) * k = ((L.length - 1 : Nat) : Int) * k + k := by
        rw [show ((L.length - 1 : Nat) : Int) = (L.length : Int) - 1 by omega]; ring
      rw [hcast]; omega
    obtain ⟨m, hm⟩ : ∃ m, L.length = m + 1 := ⟨L.length - 1, by omega⟩
    rw [hm] at hlow hup hlen ⊢
    simp only [Nat.add_sub_cancel] at hlow
    have hq1 : (m : Int) + 1 ≤ (M + k - 1) / k := by
      rw [Int.le_ediv_iff_mul_le hkpos]; nlinarith
    by_cases hcap1 : m + 1 < 1001
    · have hup' := hup hcap1
      have hq2 : (M + k - 1) / k < (m : Int) + 2 := by
        rw [Int.ediv_lt_iff_lt_mul hkpos]; push_cast at hup'; nlinarith
      omega
    · omega

/-- C33. An `n`-year bond paying `f` coupons a year, with maturity day at most 28, has exactly `n * f` coupons (as long as
that is at most 1001). -/
theorem C33_count_years (t : BondTerms) (b : Bond) (k : Int) (n : Nat) (hk : couponMonths t.frequency = some k)
    (hn : t.tenor.length = some (n : Int)) (hY : t.tenor.unit = 'Y') (hday : t.maturityDate.day ≤ 28)
    (hcap : n * t.frequency.value ≤ 1001) (h : Bond.create t = .ok b) :
    b.coupons.length = n * t.frequency.value := by
  obtain ⟨-, hkpos, hk12⟩ := increment_months hk
  have hM : tenorMonths t.tenor = some (12 * (n : Int)) := by unfold tenorMonths; rw [hn]; simp [hY]
  have := C33_count t b k _ hk hM (by omega) hday h
  have e : (12 * (n : Int) + k - 1) / k = n * t.frequency.value := by
    rw [← hk12, show k * (t.frequency.value : Int) * n + k - 1 = (k - 1) + k * (n * t.frequency.value) by ring,
      Int.add_mul_ediv_left _ _ (by omega), Int.ediv_eq_zero_of_lt (by omega) (by omega)]
    ring
  rw [e] at this
  have hc : ((n * t.frequency.value : Nat) : Int) ≤ 1001 := by exact_mod_cast hcap
  push_cast at hc
  rw [min_eq_left hc] at this
  exact_mod_cast this

/-- C33. A zero-coupon bond has no coupons and a monthly frequency is rejected. -/
theorem C33_zero_coupon (t : BondTerms) (dated : PyDate) :
    (t.frequency = .zeroCoupon → t.couponCashflow dated = .ok []) ∧
    (t.frequency = .monthly → t.couponCashflow dated = .error .valueError) := by
  constructor <;> intro h <;> simp [BondTerms.couponCashflow, BondTerms.increment, h, pySorted]


/-- C33. The coupons of a year add up to the coupon rate, in percent, of the principal; a zero-coupon bond's coupon is nothing. -/
theorem C33_annual_interest (t : BondTerms) :
    (t.frequency = .zeroCoupon → t.couponPayment = 0) ∧
    (t.frequency ≠ .zeroCoupon → t.frequency.value * t.couponPayment = t.principal * t.couponRate / 100) := by
  constructor
  · intro h; unfold BondTerms.couponPayment; rw [h]
  · intro h
    unfold BondTerms.couponPayment
    cases hf : t.frequency <;> simp_all [PaymentFrequency.value] <;> ring

/-- C33. Over its whole life an `n`-year bond pays `n` times the annual coupon rate, in percent, of its principal. -/
theorem C33_total_interest (t : BondTerms) (b : Bond) (k : Int) (n : Nat) (hk : couponMonths t.frequency = some k)
    (hn : t.tenor.length = some (n : Int)) (hY : t.tenor.unit = 'Y') (hday : t.maturityDate.day ≤ 28)
    (hcap : n * t.frequency.value ≤ 1001) (h : Bond.create t = .ok b) :
    (b.coupons.map BondPayment.amount).sum = n * (t.principal * t.couponRate / 100) := by
  have hlen := C33_count_years t b k n hk hn hY hday hcap h
  obtain ⟨-, -, hpay, hk12⟩ := C33_coupons t b k hk h
  have hv : (t.frequency.value : ℚ) ≠ 0 := by
    intro e
    have : t.frequency.value = 0 := by exact_mod_cast e
    rw [this] at hk12; simp at hk12
  rw [List.map_congr_left (fun p hp => (hpay p hp).1), List.map_const', List.sum_replicate, hlen, nsmul_eq_mul]
  push_cast
  field_simp

/-- A two-year note: 100 face, 4% semi-annual, maturing on Saturday 15 February 2025, bought on 1 June 2023. -/
def exTerms : BondTerms where
  cls := .usTreasuryBond
  price := 99
  couponRate := 4
  principal := 100
  tenor := ⟨some 2, 'Y'⟩
  purchaseDate := D 2023 6 1
  maturityDate := D 2025 2 15
  settlementConvention := .tPlusOneBusiness
  frequency := .semiAnnual
  dcc := .actAct
  adjustment := .following
  calendar := usFederalHolidays

theorem exTerms_coupons : exTerms.couponCashflow (D 2023 2 15) =
    .ok [⟨D 2023 8 15, D 2023 8 15, 2⟩, ⟨D 2024 2 15, D 2024 2 15, 2⟩, ⟨D 2024 8 15, D 2024 8 15, 2⟩,
      ⟨D 2025 2 15, D 2025 2 18, 2⟩] := by decide +kernel

theorem exTerms_create : ∃ b, Bond.create exTerms = .ok b ∧ b.datedDate = D 2023 2 15 ∧ b.settlementDate = D 2023 6 2 ∧
    b.coupons = [⟨D 2023 8 15, D 2023 8 15, 2⟩, ⟨D 2024 2 15, D 2024 2 15, 2⟩, ⟨D 2024 8 15, D 2024 8 15, 2⟩,
      ⟨D 2025 2 15, D 2025 2 18, 2⟩] ∧ b.principalPayments = [⟨D 2025 2 15, D 2025 2 18, 100⟩] ∧
    b.accruedInterest = 214 / 181 := by
  have h1 : exTerms.datedDate = .ok (D 2023 2 15) := by decide +kernel
  have h2 : exTerms.principalCashflow = .ok [⟨D 2025 2 15, D 2025 2 18, 100⟩] := by decide +kernel
  have h3 : calculateSettlementDate exTerms.calendar exTerms.purchaseDate exTerms.settlementConvention =
    .ok (D 2023 6 2) := by decide +kernel
  have h4 : Bond.accruedInterestOf exTerms (D 2023 2 15) [⟨D 2023 8 15, D 2023 8 15, 2⟩, ⟨D 2024 2 15, D 2024 2 15, 2⟩,
      ⟨D 2024 8 15, D 2024 8 15, 2⟩, ⟨D 2025 2 15, D 2025 2 18, 2⟩] (D 2023 6 2) none = .ok (214 / 181) := by
    decide +kernel
  have h5 : pyDiv (214 / 181) exTerms.principal = .ok (214 / 181 / 100) := pyDiv_of_ne (by decide +kernel)
  exact ⟨_, by
    unfold Bond.create
    rw [h1, ok_bind, exTerms_coupons, ok_bind, h2, ok_bind, h3, ok_bind, h4, ok_bind, h5, ok_bind], rfl, rfl, rfl, rfl, rfl⟩

example : couponMonths exTerms.frequency = some 6 ∧ tenorMonths exTerms.tenor = some 24 ∧
    exTerms.maturityDate.day ≤ 28 := by decide +kernel

/-- Concrete case for C33_total_interest: four coupons of 2 on a two-year, 4% note of 100. -/
example : ∃ b, Bond.create exTerms = .ok b ∧ (b.coupons.map BondPayment.amount).sum = 8 := by
  obtain ⟨b, hb, -⟩ := exTerms_create
  refine ⟨b, hb, ?_⟩
  rw [C33_total_interest exTerms b 6 2 (by decide) (by decide) (by decide) (by decide +kernel) (by decide) hb]
  norm_num [exTerms]


/-! ## C34 -/

theorem sumIf_ok {α : Type} [AddCommMonoid α] {keep : BondPayment → Except PyErr Bool} {f : BondPayment → Except PyErr α}
    (P : BondPayment → Prop) [DecidablePred P] (g : BondPayment → α) {l : List BondPayment}
    (hk : ∀ p ∈ l, keep p = .ok (decide (P p))) (hf : ∀ p ∈ l, P p → f p = .ok (g p)) :
    Bond.sumIf keep f l = .ok (weightedSum P g l) := by
  induction l with
  | nil => rfl
  | cons p ps ih =>
    have ih' := ih (fun q hq => hk q (by simp [hq])) (fun q hq => hf q (by simp [hq]))
    simp only [Bond.sumIf, hk p (by simp), ok_bind, ih']
    by_cases hP : P p
    · simp only [hP, decide_true, if_true, hf p (by simp) hP, ok_bind]
      simp [weightedSum, hP]
    · simp only [hP, decide_false, Bool.false_eq_true, if_false]
      simp [weightedSum, hP]

theorem sumIf_inv {α : Type} [AddCommMonoid α] {keep : BondPayment → Except PyErr Bool} {f : BondPayment → Except PyErr α}
    (P : BondPayment → Prop) [DecidablePred P] {l : List BondPayment} {v : α}
    (hk : ∀ p ∈ l, keep p = .ok (decide (P p))) (h : Bond.sumIf keep f l = .ok v) :
    ∀ p ∈ l, P p → ∃ x, f p = .ok x := by
  induction l generalizing v with
  | nil => intro p hp; simp at hp
  | cons q qs ih =>
    simp only [Bond.sumIf, hk q (by simp), ok_bind] at h
    intro p hp hP
    by_cases hq : P q
    · simp only [hq, decide_true, if_true] at h
      rw [bind_ok] at h
      obtain ⟨x, hx, h⟩ := h
      rw [bind_ok] at h
      obtain ⟨s, hs, -⟩ := h
      rcases List.mem_cons.1 hp with rfl | hp
      · exact ⟨x, hx⟩
      · exact ih (fun q hq => hk q (by simp [hq])) hs p hp hP
    · simp only [hq, decide_false, Bool.false_eq_true, if_false] at h
      rcases List.mem_cons.1 hp with rfl | hp
      · exact absurd hP hq
      · exact ih (fun q hq => hk q (by simp [hq])) h p hp hP

theorem nextSettlement_of_add {cal : HolidayCalendar} {d s : PyDate} (h : addBusinessDays cal d 1 = .ok s) :
    NextSettlement cal d s := by
  obtain ⟨r0, L, hf, h2, h1, h4, h5, _⟩ := (C03_add_business_days_iff cal d s 1).1 h
  obtain ⟨x, rfl⟩ := List.length_eq_one_iff.1 h5
  have hx := (h4.2 x).1 (by simp)
  have hlt : r0 < s := lt_of_le_of_lt hx.1 hx.2.1
  have hr0 : r0 = x := by
    have := (h4.2 r0).2 ⟨le_refl _, hlt, hf.2.1⟩
    simpa using this
  refine ⟨r0, hf, hlt, h1, ?_⟩
  intro e h6 h7 hb
  have := (h4.2 e).2 ⟨le_of_lt h6, h7, hb⟩
  simp only [List.mem_singleton] at this
  rw [this, ← hr0] at h6
  exact lt_irrefl _ h6

theorem NextSettlement.unique {cal : HolidayCalendar} {d s s' : PyDate} (h : NextSettlement cal d s)
    (h' : NextSettlement cal d s') : s = s' := by
  obtain ⟨r, hf, h1, h2, h3⟩ := h
  obtain ⟨r', hf', h1', h2', h3'⟩ := h'
  have := FirstOnOrAfter.unique hf hf'
  subst this
  rcases lt_trichotomy s s' with h | h | h
  · exact absurd h2 (h3' s h1 h)
  · exact h
  · exact absurd h2' (h3 s' h1' h)

theorem isPaymentReceived_some {b : Bond} {r s : PyDate} (h : addBusinessDays b.terms.calendar r 1 = .ok s)
    (p : BondPayment) : b.isPaymentReceived p (some r) = .ok (decide (s ≤ p.unadjusted)) := by
  simp only [Bond.isPaymentReceived, h, ok_bind]

theorem principalCashflow_ok {t : BondTerms} {l : List BondPayment} (h : t.principalCashflow = .ok l) :
    ∃ a, t.adjust t.maturityDate = .ok a ∧ l = [⟨t.maturityDate, a, t.principal⟩] := by
  unfold BondTerms.principalCashflow at h
  rw [bind_ok] at h
  obtain ⟨a, ha, h⟩ := h
  injection h with h
  exact ⟨a, ha, h.symm⟩

/-- C34. Whenever `present_value(curve)` returns, `s` being one business day after the curve's reference date: the curve has
a discount factor `df` for the payment date of every payment whose unadjusted date is on or after `s`, the value is the sum
of those payments times their discount factors, and no other payment contributes. -/
theorem C34_present_value (t : BondTerms) (b : Bond) (h : Bond.create t = .ok b) (curve : DiscountFn) (v : ℚ)
    (hv : b.presentValue curve = .ok v) :
    ∃ (s : PyDate) (df : PyDate → ℚ), NextSettlement t.calendar curve.referenceDate s ∧
      (∀ p ∈ b.coupons ++ b.principalPayments, s ≤ p.unadjusted → curve.call p.date = .ok (df p.date)) ∧
      v = weightedSum (fun p => s ≤ p.unadjusted) (fun p => df p.date * p.amount) (b.coupons ++ b.principalPayments) := by
  obtain ⟨ht, -, -, hp, -⟩ := create_ok h
  obtain ⟨a, -, hpp⟩ := principalCashflow_ok hp
  unfold Bond.presentValue at hv
  rw [bind_ok] at hv
  obtain ⟨c, hc, hv⟩ := hv
  rw [bind_ok] at hv
  obtain ⟨q, hq, hv⟩ := hv
  injection hv with hv
  have hs : ∃ s, addBusinessDays b.terms.calendar curve.referenceDate 1 = .ok s := by
    rw [hpp] at hq
    simp only [Bond.sumIf] at hq
    rw [bind_ok] at hq
    obtain ⟨k, hk, -⟩ := hq
    simp only [Bond.isPaymentReceived] at hk
    rw [bind_ok] at hk
    obtain ⟨s, hs, -⟩ := hk
    exact ⟨s, hs⟩
  obtain ⟨s, hs⟩ := hs
  have hkeep : ∀ p, b.isPaymentReceived p (some curve.referenceDate) = .ok (decide (s ≤ p.unadjusted)) :=
    isPaymentReceived_some hs
  let df : PyDate → ℚ := fun d => match curve.call d with
    | .ok x => x
    | .error _ => 0
  have hdf : ∀ d x, curve.call d = .ok x → df d = x := by
    intro d x hx; show (match curve.call d with | .ok x => x | .error _ => 0) = x; rw [hx]
  have inv1 := sumIf_inv (fun p => s ≤ p.unadjusted) (fun p _ => hkeep p) hc
  have inv2 := sumIf_inv (fun p => s ≤ p.unadjusted) (fun p _ => hkeep p) hq
  have hcall : ∀ p : BondPayment, (∃ x, (do
      let d ← curve.call p.date
      .ok (d * p.amount) : Except PyErr ℚ) = .ok x) → curve.call p.date = .ok (df p.date) := by
    rintro p ⟨x, hx⟩
    rw [bind_ok] at hx
    obtain ⟨d, hd, -⟩ := hx
    rw [hdf _ _ hd]; exact hd
  have hall : ∀ p ∈ b.coupons ++ b.principalPayments, s ≤ p.unadjusted → curve.call p.date = .ok (df p.date) := by
    intro p hp hsp
    rcases List.mem_append.1 hp with hp | hp
    · exact hcall p (inv1 p hp hsp)
    · exact hcall p (inv2 p hp hsp)
  refine ⟨s, df, ?_, hall, ?_⟩
  · rw [← ht]; exact nextSettlement_of_add hs
  · have e1 := sumIf_ok (f := fun p : BondPayment => (do
        let d ← curve.call p.date
        .ok (d * p.amount) : Except PyErr ℚ)) (fun p => s ≤ p.unadjusted) (fun p => df p.date * p.amount)
        (l := b.coupons) (fun p _ => hkeep p) (fun p hp hsp => by
          simp only [hall p (List.mem_append_left _ hp) hsp, ok_bind])
    have e2 := sumIf_ok (f := fun p : BondPayment => (do
        let d ← curve.call p.date
        .ok (d * p.amount) : Except PyErr ℚ)) (fun p => s ≤ p.unadjusted) (fun p => df p.date * p.amount)
        (l := b.principalPayments) (fun p _ => hkeep p) (fun p hp hsp => by
          simp only [hall p (List.mem_append_right _ hp) hsp, ok_bind])
    rw [e1] at hc
    rw [e2] at hq
    injection hc with hc
    injection hq with hq
    rw [← hv, ← hc, ← hq]
    simp [weightedSum]

/-- C34. Conversely the value exists as soon as the curve can be evaluated at the payments still to be received: nothing is
asked about earlier payments (which may precede the curve). -/
theorem C34_present_value_exists (b : Bond) (curve : DiscountFn) (s : PyDate) (df : PyDate → ℚ)
    (hs : addBusinessDays b.terms.calendar curve.referenceDate 1 = .ok s)
    (hdf : ∀ p ∈ b.coupons ++ b.principalPayments, s ≤ p.unadjusted → curve.call p.date = .ok (df p.date)) :
    b.presentValue curve = .ok (weightedSum (fun p => s ≤ p.unadjusted) (fun p => df p.date * p.amount)
      (b.coupons ++ b.principalPayments)) := by
  have hkeep : ∀ p, b.isPaymentReceived p (some curve.referenceDate) = .ok (decide (s ≤ p.unadjusted)) :=
    isPaymentReceived_some hs
  unfold Bond.presentValue
  simp only []
  rw [sumIf_ok (fun p => s ≤ p.unadjusted) (fun p => df p.date * p.amount) (fun p _ => hkeep p)
      (fun p hp hsp => by simp only [hdf p (List.mem_append_left _ hp) hsp, ok_bind]), ok_bind,
    sumIf_ok (fun p => s ≤ p.unadjusted) (fun p => df p.date * p.amount) (fun p _ => hkeep p)
      (fun p hp hsp => by simp only [hdf p (List.mem_append_right _ hp) hsp, ok_bind]), ok_bind]
  congr 1
  simp [weightedSum]

/-- C34. A bond is worth nothing once the business day after the reference date is past maturity. -/
theorem C34_zero_after_maturity (t : BondTerms) (b : Bond) (h : Bond.create t = .ok b) (curve : DiscountFn) (v : ℚ)
    (hv : b.presentValue curve = .ok v) (s : PyDate) (hs : NextSettlement t.calendar curve.referenceDate s)
    (hm : t.maturityDate < s) : v = 0 := by
  obtain ⟨s', df, hs', -, rfl⟩ := C34_present_value t b h curve v hv
  have := NextSettlement.unique hs hs'
  subst this
  obtain ⟨ht, -, hcc, hp, -⟩ := create_ok h
  have hall : ∀ p ∈ b.coupons ++ b.principalPayments, p.unadjusted ≤ t.maturityDate := by
    intro p hp'
    rcases List.mem_append.1 hp' with hp' | hp'
    · cases hk : couponMonths t.frequency with
      | some k =>
        obtain ⟨⟨L, hperm, -, -, -, hmem, -⟩, -⟩ := C33_coupons t b k hk h
        exact (hmem _ (hperm.mem_iff.1 (List.mem_map_of_mem hp'))).2
      | none =>
        have : t.frequency = .zeroCoupon ∨ t.frequency = .monthly := by
          cases hf : t.frequency <;> simp [hf, couponMonths] at hk ⊢
        rcases this with hf | hf
        · rw [(C33_zero_coupon t b.datedDate).1 hf] at hcc
          injection hcc with e
          rw [← e] at hp'; simp at hp'
        · rw [(C33_zero_coupon t b.datedDate).2 hf] at hcc; cases hcc
    · obtain ⟨a, -, hpp⟩ := principalCashflow_ok hp
      rw [hpp] at hp'
      simp only [List.mem_singleton] at hp'
      rw [hp']
  unfold weightedSum
  apply List.sum_eq_zero
  intro x hx
  obtain ⟨p, hp', rfl⟩ := List.mem_map.1 hx
  exact if_neg (not_le.2 (lt_of_le_of_lt (hall p hp') hm))

/-- Concrete case for C34: a flat curve of 1/2 seen from 14 August 2024. -/
example : ∃ b, Bond.create exTerms = .ok b ∧
    b.presentValue ⟨D 2024 8 14, fun d => if D 2024 8 15 ≤ d then .ok (1 / 2) else .error .valueError⟩ = .ok 52 := by
  obtain ⟨b, h, -, -, h3, h4, -⟩ := exTerms_create
  refine ⟨b, h, ?_⟩
  have ht := (create_ok h).1
  rw [C34_present_value_exists b _ (D 2024 8 15) (fun _ => 1 / 2) (by rw [ht]; decide +kernel)
    (by rw [h3, h4]; intro p hp hsp; simp only [List.cons_append, List.nil_append, List.mem_cons, List.not_mem_nil, or_false] at hp
        rcases hp with rfl | rfl | rfl | rfl | rfl <;> revert hsp <;> decide +kernel)]
  rw [h3, h4]
  decide +kernel


/-! ## C35 -/

/-- `x` and `y` are neighbours in the list. -/
def Consecutive (l : List PyDate) (x y : PyDate) : Prop := ∃ l1 l2, l = l1 ++ x :: y :: l2

/-- The day count is monotone between `a ≤ s ≤ b` (30/360 needs a settlement date away from the end of February). -/
theorem accrual_between {dcc : DayCountConvention} {a s b : PyDate} {x w : ℚ} (has : a ≤ s) (hsb : s ≤ b)
    (hfeb : dcc = .thirty360 → ¬ (s.month = 2 ∧ 28 ≤ s.day)) (hx : accrual a s dcc = .ok x)
    (hw : accrual a b dcc = .ok w) : 0 ≤ x ∧ x ≤ w := by
  by_cases h30 : dcc = .thirty360
  · subst h30
    have hf := hfeb rfl
    obtain ⟨x', h1, h2⟩ := C15_nonneg_partial a s has (by rintro ⟨-, -, -, h1, h2⟩; exact hf ⟨h1, by omega⟩)
    rw [hx] at h1; injection h1 with h1; subst h1
    obtain ⟨x', w', h3, h4, h5⟩ := C15_monotone_partial a s b has hsb
      (by rintro ⟨-, -, h1, h2, -⟩; exact hf ⟨h1, by omega⟩)
    rw [hx] at h3; injection h3 with h3; subst h3
    rw [hw] at h4; injection h4 with h4; subst h4
    exact ⟨h2, h5⟩
  · have hτ : ∃ τ, timeAxis dcc = some τ := by
      cases dcc
      case unknown => rw [accrual_eq has] at hx; cases hx
      case thirty360 => exact absurd rfl h30
      all_goals exact ⟨_, rfl⟩
    obtain ⟨τ, hτ⟩ := hτ
    have hok : AxisOk dcc a := by
      intro e
      subst e
      by_contra hc
      have := a.bounds
      rw [C14_year_one a s has (by omega)] at hx
      cases hx
    rw [accrual_axis hτ has hok] at hx
    rw [accrual_axis hτ (le_trans has hsb) hok] at hw
    injection hx with hx
    injection hw with hw
    have := axis_mono hτ has
    have := axis_mono hτ hsb
    constructor <;> linarith

/-- The coupon period the code picks, when no coupon date lies between purchase and settlement. -/
theorem period_of_gap {t : BondTerms} {b : Bond} (hsort : b.coupons.Pairwise (fun p q => p.date ≤ q.date))
    (hgap : ∀ p ∈ b.coupons, (p.date ≤ t.purchaseDate ∧ p.unadjusted ≤ b.settlementDate) ∨
      (t.purchaseDate < p.date ∧ b.settlementDate ≤ p.unadjusted))
    (hsd : ¬ b.settlementDate < b.datedDate) {from_ following : PyDate}
    (hpick : Bond.accrualPeriod t b.datedDate b.coupons b.settlementDate = .ok (from_, following)) :
    Consecutive (b.datedDate :: b.coupons.map BondPayment.unadjusted) from_ following ∧
      from_ ≤ b.settlementDate ∧ b.settlementDate ≤ following := by
  cases hcs : b.coupons with
  | nil => rw [hcs] at hpick; cases hpick
  | cons c cs =>
    rw [hcs] at hpick
    simp only [Bond.accrualPeriod] at hpick
    by_cases hfirst : b.settlementDate ≤ c.unadjusted
    · rw [if_pos hfirst] at hpick
      injection hpick with hpick
      injection hpick with h1 h2
      subst h1; subst h2
      exact ⟨⟨[], cs.map BondPayment.unadjusted, rfl⟩, not_lt.1 hsd, hfirst⟩
    · rw [if_neg hfirst] at hpick
      rw [← hcs] at hpick ⊢
      have hdates : KeySorted id (b.coupons.map BondPayment.date) := by
        unfold KeySorted; rw [List.pairwise_map]; exact hsort
      obtain ⟨hle, hb1, hb2⟩ := bisectRight_spec id _ hdates t.purchaseDate
      set i := bisectRight id (b.coupons.map BondPayment.date) t.purchaseDate with hi
      rw [List.length_map] at hle
      simp only [List.length_map, List.getElem_map, id_eq] at hb1 hb2
      have hi0 : i ≠ 0 := by
        intro e
        have hlt : 0 < b.coupons.length := by rw [hcs]; simp
        have hc0 : b.coupons[0] = c := by simp only [hcs, List.getElem_cons_zero]
        have := hb2 0 hlt (by omega)
        rw [hc0] at this
        rcases hgap c (by rw [hcs]; simp) with ⟨h1, -⟩ | ⟨-, h2⟩
        · exact absurd this (not_lt.2 h1)
        · exact hfirst h2
      rw [if_neg hi0] at hpick
      have hi1 : i - 1 < b.coupons.length := by omega
      rw [List.getElem?_eq_getElem hi1] at hpick
      by_cases hil : i < b.coupons.length
      · rw [List.getElem?_eq_getElem hil] at hpick
        injection hpick with hpick
        injection hpick with h1 h2
        subst h1; subst h2
        refine ⟨⟨b.datedDate :: (b.coupons.take (i - 1)).map BondPayment.unadjusted,
          (b.coupons.drop (i + 1)).map BondPayment.unadjusted, ?_⟩, ?_, ?_⟩
        · have e : b.coupons = b.coupons.take (i - 1) ++ b.coupons[i - 1] :: b.coupons[i] :: b.coupons.drop (i + 1) := by
            conv_lhs => rw [← List.take_append_drop (i - 1) b.coupons]
            rw [List.drop_eq_getElem_cons hi1]
            congr 2
            simp only [show i - 1 + 1 = i by omega]
            rw [List.drop_eq_getElem_cons hil]
          have e' := congrArg (List.map BondPayment.unadjusted) e
          rw [List.map_append, List.map_cons, List.map_cons] at e'
          exact congrArg (b.datedDate :: ·) e'
        · rcases hgap _ (List.getElem_mem hi1) with ⟨-, h2⟩ | ⟨h1, -⟩
          · exact h2
          · exact absurd h1 (not_lt.2 (hb1 (i - 1) hi1 (by omega)))
        · rcases hgap _ (List.getElem_mem hil) with ⟨h1, -⟩ | ⟨-, h2⟩
          · exact absurd h1 (not_le.2 (hb2 i hil (le_refl _)))
          · exact h2
      · rw [List.getElem?_eq_none (by omega)] at hpick
        cases hpick

/-- C35 (for purchases with no coupon date between purchase and settlement). For a coupon bond,
whenever every coupon is either already paid by the purchase date and due by the settlement
date, or paid after the purchase date and due on or after the settlement date: the settlement date lies in a coupon period
`[prev, next]` (the first one starting on the dated date), the accrued interest is the elapsed fraction of that period times
the coupon, and it is between zero and one coupon. -/
theorem C35_accrued_partial (t : BondTerms) (b : Bond) (k : Int) (hk : couponMonths t.frequency = some k)
    (h : Bond.create t = .ok b) (hcoupon : 0 ≤ t.principal * t.couponRate)
    (hgap : ∀ p ∈ b.coupons, (p.date ≤ t.purchaseDate ∧ p.unadjusted ≤ b.settlementDate) ∨
      (t.purchaseDate < p.date ∧ b.settlementDate ≤ p.unadjusted))
    (hfeb : t.dcc = .thirty360 → ¬ (b.settlementDate.month = 2 ∧ 28 ≤ b.settlementDate.day)) :
    ∃ prev next x w, Consecutive (b.datedDate :: b.coupons.map BondPayment.unadjusted) prev next ∧
      prev ≤ b.settlementDate ∧ b.settlementDate ≤ next ∧
      accrual prev b.settlementDate t.dcc = .ok x ∧ accrual prev next t.dcc = .ok w ∧ 0 < w ∧
      b.accruedInterest = x / w * (t.principal * t.couponRate / (100 * t.frequency.value)) ∧
      0 ≤ b.accruedInterest ∧ b.accruedInterest ≤ t.principal * t.couponRate / (100 * t.frequency.value) := by
  obtain ⟨-, -, -, -, -, hacc, -⟩ := create_ok h
  obtain ⟨-, hsort, -, hk12⟩ := C33_coupons t b k hk h
  have hfz : t.frequency ≠ .zeroCoupon := by
    intro e; rw [e] at hk; simp [couponMonths] at hk
  have hcp : t.couponPayment = t.principal * t.couponRate / (100 * t.frequency.value) := by
    unfold BondTerms.couponPayment
    cases hf : t.frequency <;> simp only [hf, couponMonths, reduceCtorEq] at hk <;> rfl
  have hcp0 : 0 ≤ t.principal * t.couponRate / (100 * t.frequency.value) := by positivity
  unfold Bond.accruedInterestOf at hacc
  rw [if_neg hfz] at hacc
  simp only [Bond.branchDate, ok_bind] at hacc
  by_cases hsd : b.settlementDate < b.datedDate
  · rw [if_pos hsd] at hacc; cases hacc
  rw [if_neg hsd] at hacc
  rw [bind_ok] at hacc
  obtain ⟨⟨from_, following⟩, hpick, hacc⟩ := hacc
  simp only at hacc
  rw [bind_ok] at hacc
  obtain ⟨x, hx, hacc⟩ := hacc
  rw [bind_ok] at hacc
  obtain ⟨w, hw, hacc⟩ := hacc
  rw [bind_ok] at hacc
  obtain ⟨fr, hfr, hacc⟩ := hacc
  injection hacc with hacc
  obtain ⟨hw0, hfr⟩ := pyDiv_ok.1 hfr
  have key := period_of_gap hsort hgap hsd hpick
  obtain ⟨hcons, h1, h2⟩ := key
  obtain ⟨hx0, hxw⟩ := accrual_between h1 h2 hfeb hx hw
  have hwpos : 0 < w := lt_of_le_of_ne (le_trans hx0 hxw) (Ne.symm hw0)
  have hval : b.accruedInterest = x / w * (t.principal * t.couponRate / (100 * t.frequency.value)) := by
    rw [← hacc, hfr, hcp]
  refine ⟨from_, following, x, w, hcons, h1, h2, hx, hw, hwpos, hval, ?_, ?_⟩
  · rw [hval]; exact mul_nonneg (div_nonneg hx0 (le_of_lt hwpos)) hcp0
  · rw [hval]
    have : x / w ≤ 1 := (div_le_one hwpos).2 hxw
    calc _ ≤ 1 * (t.principal * t.couponRate / (100 * t.frequency.value)) := mul_le_mul_of_nonneg_right this hcp0
      _ = _ := one_mul _


theorem bisectRight_zero {l : List PyDate} {x : PyDate} (hs : KeySorted id l) (h : ∀ d ∈ l, x < d) : bisectRight id l x = 0 := by
  obtain ⟨hle, hb1, -⟩ := bisectRight_spec id l hs x
  by_contra hne
  have h0 : 0 < bisectRight id l x := Nat.pos_of_ne_zero hne
  have := hb1 0 (by omega) h0
  exact absurd (h _ (List.getElem_mem (by omega : 0 < l.length))) (not_lt.2 this)

theorem bisectRight_all {l : List PyDate} {x : PyDate} (hs : KeySorted id l) (h : ∀ d ∈ l, d ≤ x) :
    bisectRight id l x = l.length := by
  obtain ⟨hle, -, hb2⟩ := bisectRight_spec id l hs x
  by_contra hne
  have hlt : bisectRight id l x < l.length := by omega
  have := hb2 _ hlt (le_refl _)
  exact absurd (h _ (List.getElem_mem hlt)) (not_le.2 this)

/-- C35 (failure). A purchase just before the first coupon that settles after its unadjusted date cannot be priced: the
index -1 selects the last coupon as start of the accrual period, and constructing the bond raises ValueError. -/
theorem C35_first_coupon_straddle (t : BondTerms) (dated s : PyDate) (first last : BondPayment) (cs principal : List BondPayment)
    (hf : t.frequency ≠ .zeroCoupon) (hd : t.datedDate = .ok dated) (hc : t.couponCashflow dated = .ok (first :: cs))
    (hp : t.principalCashflow = .ok principal)
    (hs : calculateSettlementDate t.calendar t.purchaseDate t.settlementConvention = .ok s) (hsd : dated ≤ s)
    (hpurchase : t.purchaseDate < first.date) (hunadj : first.unadjusted < s)
    (hlast : (first :: cs).getLast? = some last) (hls : s < last.unadjusted) :
    Bond.create t = .error .valueError := by
  have hsorted : List.Pairwise (fun p q : BondPayment => p.date ≤ q.date) (first :: cs) := by
    unfold BondTerms.couponCashflow at hc
    rw [bind_ok] at hc
    obtain ⟨inc, -, hc⟩ := hc
    cases inc with
    | none => injection hc with hc; rw [← hc]; exact pySorted_sorted _ _
    | some i =>
      simp only at hc
      rw [bind_ok] at hc; obtain ⟨_, -, hc⟩ := hc
      rw [bind_ok] at hc; obtain ⟨_, -, hc⟩ := hc
      rw [bind_ok] at hc; obtain ⟨_, -, hc⟩ := hc
      injection hc with hc; rw [← hc]; exact pySorted_sorted _ _
  have hi : bisectRight id ((first :: cs).map BondPayment.date) t.purchaseDate = 0 := by
    apply bisectRight_zero
    · unfold KeySorted; rw [List.pairwise_map]; exact hsorted
    · intro d hd
      obtain ⟨p, hp, rfl⟩ := List.mem_map.1 hd
      rcases List.mem_cons.1 hp with rfl | hp
      · exact hpurchase
      · exact lt_of_lt_of_le hpurchase ((List.pairwise_cons.1 hsorted).1 p hp)
  have hacc : Bond.accruedInterestOf t dated (first :: cs) s none = .error .valueError := by
    unfold Bond.accruedInterestOf
    rw [if_neg hf]
    simp only [Bond.branchDate, ok_bind]
    rw [if_neg (not_lt.2 hsd)]
    simp only [Bond.accrualPeriod]
    rw [if_neg (not_le.2 hunadj), hi]
    simp only [if_true, hlast, List.getElem?_cons_zero, ok_bind]
    rw [accrual_gt hls]; rfl
  unfold Bond.create
  rw [hd, ok_bind, hc, ok_bind, hp, ok_bind, hs, ok_bind, hacc]; rfl

/-- C35 (failure). A purchase on or after the last coupon's payment date which settles after the first coupon raises
IndexError. -/
theorem C35_after_last_coupon (t : BondTerms) (dated s : PyDate) (first : BondPayment) (cs principal : List BondPayment)
    (hf : t.frequency ≠ .zeroCoupon) (hd : t.datedDate = .ok dated) (hc : t.couponCashflow dated = .ok (first :: cs))
    (hp : t.principalCashflow = .ok principal)
    (hs : calculateSettlementDate t.calendar t.purchaseDate t.settlementConvention = .ok s) (hsd : dated ≤ s)
    (hpurchase : ∀ p ∈ first :: cs, p.date ≤ t.purchaseDate) (hunadj : first.unadjusted < s) :
    Bond.create t = .error .indexError := by
  have hsorted : List.Pairwise (fun p q : BondPayment => p.date ≤ q.date) (first :: cs) := by
    unfold BondTerms.couponCashflow at hc
    rw [bind_ok] at hc
    obtain ⟨inc, -, hc⟩ := hc
    cases inc with
    | none => injection hc with hc; rw [← hc]; exact pySorted_sorted _ _
    | some i =>
      simp only at hc
      rw [bind_ok] at hc; obtain ⟨_, -, hc⟩ := hc
      rw [bind_ok] at hc; obtain ⟨_, -, hc⟩ := hc
      rw [bind_ok] at hc; obtain ⟨_, -, hc⟩ := hc
      injection hc with hc; rw [← hc]; exact pySorted_sorted _ _
  have hi : bisectRight id ((first :: cs).map BondPayment.date) t.purchaseDate = (first :: cs).length := by
    rw [bisectRight_all, List.length_map]
    · unfold KeySorted; rw [List.pairwise_map]; exact hsorted
    · intro d hd
      obtain ⟨p, hp, rfl⟩ := List.mem_map.1 hd
      exact hpurchase p hp
  have hacc : Bond.accruedInterestOf t dated (first :: cs) s none = .error .indexError := by
    unfold Bond.accruedInterestOf
    rw [if_neg hf]
    simp only [Bond.branchDate, ok_bind]
    rw [if_neg (not_lt.2 hsd)]
    simp only [Bond.accrualPeriod]
    rw [if_neg (not_le.2 hunadj), hi, List.getElem?_eq_none (le_refl _)]
    rw [if_neg (by simp)]
    cases (first :: cs)[(first :: cs).length - 1]? <;> rfl
  unfold Bond.create
  rw [hd, ok_bind, hc, ok_bind, hp, ok_bind, hs, ok_bind, hacc]; rfl

/-- The example note bought on Monday 14 August 2023 with settlement two business days later. -/
def exStraddle : BondTerms := { exTerms with purchaseDate := D 2023 8 14, settlementConvention := .tPlusTwoBusiness }

/-- C35 (failure), concretely: the note cannot be constructed, although bought eighteen months before maturity. -/
theorem C35_straddle_example : Bond.create exStraddle = .error .valueError :=
  C35_first_coupon_straddle exStraddle (D 2023 2 15) (D 2023 8 16) ⟨D 2023 8 15, D 2023 8 15, 2⟩ ⟨D 2025 2 15, D 2025 2 18, 2⟩
    [⟨D 2024 2 15, D 2024 2 15, 2⟩, ⟨D 2024 8 15, D 2024 8 15, 2⟩, ⟨D 2025 2 15, D 2025 2 18, 2⟩]
    [⟨D 2025 2 15, D 2025 2 18, 100⟩] (by decide +kernel) (by decide +kernel) (by decide +kernel) (by decide +kernel)
    (by decide +kernel) (by decide +kernel) (by decide +kernel) (by decide +kernel) (by decide +kernel) (by decide +kernel)

/-- C35 (failure). Around a later coupon the accrued interest exceeds one coupon: bought on 14 August 2024, settling on 16
August, the 15 February - 15 August period is 183/182 elapsed. -/
theorem C35_exceeds_coupon : Bond.accruedInterestOf
    { exTerms with purchaseDate := D 2024 8 14, settlementConvention := .tPlusTwoBusiness } (D 2023 2 15)
    [⟨D 2023 8 15, D 2023 8 15, 2⟩, ⟨D 2024 2 15, D 2024 2 15, 2⟩, ⟨D 2024 8 15, D 2024 8 15, 2⟩,
      ⟨D 2025 2 15, D 2025 2 18, 2⟩] (D 2024 8 16) none = .ok (2 * 183 / 182) ∧
    calculateSettlementDate usFederalHolidays (D 2024 8 14) .tPlusTwoBusiness = .ok (D 2024 8 16) := by
  constructor <;> decide +kernel

/-- Concrete case for C35: the example note satisfies every hypothesis. -/
example : ∃ b, Bond.create exTerms = .ok b ∧ 0 ≤ exTerms.principal * exTerms.couponRate ∧
    (∀ p ∈ b.coupons, (p.date ≤ exTerms.purchaseDate ∧ p.unadjusted ≤ b.settlementDate) ∨
      (exTerms.purchaseDate < p.date ∧ b.settlementDate ≤ p.unadjusted)) ∧ exTerms.dcc ≠ .thirty360 := by
  obtain ⟨b, h, -, h2, h3, -⟩ := exTerms_create
  exact ⟨b, h, by decide +kernel, by rw [h2, h3]; decide +kernel, by decide +kernel⟩

/-! ## C36 -/

/-- C36 (what holds). The full price of a constructed bond is the clean price plus the accrued interest at its own purchase,
in percent of the principal. -/
theorem C36_full_price_partial (t : BondTerms) (b : Bond) (h : Bond.create t = .ok b) :
    b.fullPrice = t.price + 100 * b.accruedInterest / t.principal ∧
    b.calculateAccruedInterest none = .ok b.accruedInterest := by
  obtain ⟨ht, -, -, -, -, hacc, -, hfp⟩ := create_ok h
  refine ⟨by rw [hfp]; ring, ?_⟩
  unfold Bond.calculateAccruedInterest
  rw [ht]; exact hacc

/-- C36 (failure). `get_full_price(reference_date)` ignores the reference date, and leaves the bond as it was: after any
number of calls with any dates it still returns the value computed at construction. -/
theorem C36_reference_ignored (t : BondTerms) (b : Bond) (h : Bond.create t = .ok b) (reference : Option PyDate) :
    b.getFullPrice reference = (.ok b.fullPrice, b) := by
  obtain ⟨ht, -, -, -, -, -, hp, hfp⟩ := create_ok h
  unfold Bond.getFullPrice
  rw [ht, pyDiv_of_ne hp]
  simp only
  rw [← hfp, ← ht]

/-- C36 (failure). `calculate_accrued_interest(reference_date)` of a corporate bond raises AttributeError for every
reference date: the class has no `settlement_convention`. -/
theorem C36_corporate_attribute_error (b : Bond) (r : PyDate) (hc : b.terms.cls = .fixedRateBond)
    (hf : b.terms.frequency ≠ .zeroCoupon) : b.calculateAccruedInterest (some r) = .error .attributeError := by
  unfold Bond.calculateAccruedInterest Bond.accruedInterestOf
  rw [if_neg hf]
  simp only [Bond.branchDate, hc, error_bind]

/-- C36 (failure). For a treasury bond the reference date only chooses between the first coupon period and the one of the
purchase date; the accrual still ends on the bond's own settlement date: any two reference dates which settle by the first
coupon give the same accrued interest. -/
theorem C36_reference_only_selects (b : Bond) (r s1 : PyDate) (first : BondPayment) (cs : List BondPayment)
    (hc : b.coupons = first :: cs)
    (ht : b.terms.cls = .usTreasuryBond)
    (h1 : calculateSettlementDate b.terms.calendar r b.terms.settlementConvention = .ok s1) (h1' : s1 ≤ first.unadjusted)
    (h2' : b.settlementDate ≤ first.unadjusted) :
    b.calculateAccruedInterest (some r) = b.calculateAccruedInterest none := by
  unfold Bond.calculateAccruedInterest Bond.accruedInterestOf
  by_cases hf : b.terms.frequency = .zeroCoupon
  · rw [if_pos hf, if_pos hf]
  · rw [if_neg hf, if_neg hf]
    simp only [Bond.branchDate, ht, h1, ok_bind, Bond.accrualPeriod, hc, h1', h2', if_true]

/-- Concrete failure for C36: on 1 March and on 1 August 2023 the example note reports the accrued interest of 2 June. -/
example : ∃ b, Bond.create exTerms = .ok b ∧ b.calculateAccruedInterest (some (D 2023 3 1)) = .ok (214 / 181) ∧
    b.calculateAccruedInterest (some (D 2023 8 1)) = .ok (214 / 181) := by
  obtain ⟨b, h, h1, h2, h3, h4, h5⟩ := exTerms_create
  have ht := (create_ok h).1
  have hn := (C36_full_price_partial _ b h).2
  rw [h5] at hn
  refine ⟨b, h, ?_, ?_⟩
  · rw [C36_reference_only_selects b (D 2023 3 1) (D 2023 3 2) _ _ h3 (by rw [ht]; rfl) (by rw [ht]; decide +kernel)
      (by decide +kernel) (by rw [h2]; decide +kernel), hn]
  · rw [C36_reference_only_selects b (D 2023 8 1) (D 2023 8 2) _ _ h3 (by rw [ht]; rfl) (by rw [ht]; decide +kernel)
      (by decide +kernel) (by rw [h2]; decide +kernel), hn]


/-! ## C37 -/

/-- Payments due on or after a business day are paid on or after it, under both adjustments. -/
theorem paidOn_ge {cal : HolidayCalendar} {adj : BusinessDayAdjustment} {s u d : PyDate} (hs : BusinessDay cal s)
    (hsu : s ≤ u) (h : PaidOn cal adj u d) : s ≤ d := by
  cases adj with
  | following => exact le_trans hsu h.1
  | modifiedFollowing =>
    obtain ⟨f, hf, h1, h2⟩ := h
    by_cases hm : f.month = u.month
    · rw [h1 hm]; exact le_trans hsu hf.1
    · have hl := h2 hm
      by_contra hc
      rcases lt_or_eq_of_le hsu with hlt | heq
      · exact hl.2.2 s (not_le.1 hc) hlt hs
      · subst heq
        have : f = s := FirstOnOrAfter.unique hf ⟨le_refl _, hs, fun e h1 h2 => absurd h1 (not_le.2 h2)⟩
        exact hm (by rw [this])

/-! Which conventions measure time from a reference date to the payments due from the next business day on. -/

theorem measures_axis {dcc : DayCountConvention} {τ : PyDate → ℚ} {ref s : PyDate} {cal : HolidayCalendar}
    (hτ : timeAxis dcc = some τ) (hok : AxisOk dcc ref) (hs : addBusinessDays cal ref 1 = .ok s) : MeasuresFrom dcc ref s τ := by
  obtain ⟨r0, hr0, hlt, -, -⟩ := nextSettlement_of_add hs
  have hrs : ref < s := lt_of_le_of_lt hr0.1 hlt
  intro d hd
  exact ⟨accrual_axis hτ (le_trans (le_of_lt hrs) hd) hok, axis_strictMono hτ (lt_of_lt_of_le hrs hd)⟩

/-- The 30/360 day count from one date to a later one is positive, except from the day before to a 31st (zero) and from 28 to 29
February (minus one). -/
theorem thirty360Days_pos {s e : PyDate} (h : s < e) :
    0 < thirty360Days s e ↔ ¬ (e.ord = s.ord + 1 ∧ (e.day = 31 ∨ e.month = 2 ∧ e.day = 29)) := by
  obtain ⟨d1, d2, he, h1, h2, h3, h4, h5, h6⟩ := thirty360Days_cases s e
  have hlex := PyDate.lt_iff_lex.1 h
  have bs := s.bounds
  have be := e.bounds
  have ms := daysInMonth_bounds s.year s.month
  have me := daysInMonth_bounds e.year e.month
  have m2 : e.month = 2 → daysInMonth e.year e.month ≤ 29 := by
    intro hm; rw [hm, daysInMonth]; simp only [if_true]; split_ifs <;> omega
  have hnext : 2 ≤ e.day → (e.ord = s.ord + 1 ↔ s.year = e.year ∧ s.month = e.month ∧ s.day + 1 = e.day) := by
    intro hd
    constructor
    · intro ho
      have : s = ⟨e.year, e.month, e.day - 1, by
          unfold validYMD; simp only [decide_eq_true_eq]; omega⟩ := by
        apply PyDate.ord_inj.1
        unfold PyDate.ord at ho ⊢
        simp only
        omega
      rw [this]
      simp
    · rintro ⟨a1, a2, a3⟩
      unfold PyDate.ord
      rw [a1, a2]
      omega
  rw [he]
  by_cases hsame : s.year = e.year ∧ s.month = e.month
  · obtain ⟨y1, y2⟩ := hsame
    have hlt : s.day < e.day := by omega
    have hd : 2 ≤ e.day := by omega
    rw [hnext hd, y1, y2]
    clear hnext hlex h he
    by_cases hf : s.month = 2 ∧ s.day = 28
    · have := (h5 hf).1
      have := (h5 hf).2.2 (by omega)
      omega
    · obtain ⟨q1, q2, q3⟩ := h6 hf
      by_cases h30 : 30 ≤ s.day
      · have := q2 h30; omega
      · have := q3 (by omega); omega
  · have hbig : 0 < 360 * (e.year - s.year) + 30 * (e.month - s.month) + (d2 - d1) := by
      clear hnext h5 h6 m2
      omega
    refine ⟨fun _ hx => ?_, fun _ => hbig⟩
    have := (hnext (by omega)).1 hx.1
    exact hsame ⟨this.1, this.2.1⟩

/-- C37. All five conventions measure time from a reference date to the payments due from the next business day `s` on: 30/360 too,
unless `s` is the day after the reference date and a 31st or a 29 February. -/
theorem C37_conventions (dcc : DayCountConvention) (hdcc : dcc ≠ .unknown) (cal : HolidayCalendar) (ref s : PyDate)
    (hok : AxisOk dcc ref) (hs : addBusinessDays cal ref 1 = .ok s) :
    (dcc ≠ .thirty360 → ∃ τ, timeAxis dcc = some τ ∧ MeasuresFrom dcc ref s τ) ∧
    ((∃ τ, MeasuresFrom .thirty360 ref s τ) ↔ ¬ (s.ord = ref.ord + 1 ∧ (s.day = 31 ∨ s.month = 2 ∧ s.day = 29))) := by
  obtain ⟨r0, hr0, hlt, -, -⟩ := nextSettlement_of_add hs
  have hrs : ref < s := lt_of_le_of_lt hr0.1 hlt
  refine ⟨fun hne => ?_, ?_⟩
  · cases dcc with
    | unknown => exact absurd rfl hdcc
    | thirty360 => exact absurd rfl hne
    | act360 => exact ⟨_, rfl, measures_axis rfl hok hs⟩
    | act365 => exact ⟨_, rfl, measures_axis rfl hok hs⟩
    | act36525 => exact ⟨_, rfl, measures_axis rfl hok hs⟩
    | actAct => exact ⟨_, rfl, measures_axis rfl hok hs⟩
  · constructor
    · rintro ⟨τ, hτ⟩
      obtain ⟨h1, h2⟩ := hτ s le_rfl
      rw [accrual_eq (le_of_lt hrs)] at h1
      simp only [thirty360] at h1
      injection h1 with h1
      rw [← thirty360Days_pos hrs]
      have : (0 : ℚ) < thirty360Days ref s := by
        have : (0 : ℚ) < (thirty360Days ref s : ℚ) / 360 := by linarith
        linarith
      exact_mod_cast this
    · intro hx
      refine ⟨fun d => if d = ref then 0 else (thirty360Days ref d : ℚ) / 360, fun d hd => ?_⟩
      have hrd : ref < d := lt_of_lt_of_le hrs hd
      have hp : 0 < thirty360Days ref d := by
        rw [thirty360Days_pos hrd]
        rintro ⟨g1, g2⟩
        have : s = d := by
          apply PyDate.ord_inj.1
          have := PyDate.lt_iff.1 hrs
          have := PyDate.le_iff.1 hd
          omega
        subst this
        exact hx ⟨g1, g2⟩
      have hpQ : (0 : ℚ) < thirty360Days ref d := by exact_mod_cast hp
      simp only [if_true, if_neg (ne_of_gt hrd), sub_zero]
      refine ⟨?_, by positivity⟩
      rw [accrual_eq (le_of_lt hrd)]
      rfl

/-- The received payments as pairs of amount and exponent. -/
noncomputable def receivedPairs (s ref : PyDate) (τ : PyDate → ℚ) (f : Nat) (l : List BondPayment) : List (ℝ × ℝ) :=
  (l.filter (fun p => decide (s ≤ p.unadjusted))).map (fun p => ((p.amount : ℝ), ((τ p.date - τ ref : ℚ) : ℝ) * f))

theorem weightedSum_discounted (s ref : PyDate) (τ : PyDate → ℚ) (f : Nat) (l : List BondPayment) (x : ℝ) :
    weightedSum (fun p => s ≤ p.unadjusted) (fun p => 1 / x ^ (((τ p.date - τ ref : ℚ) : ℝ) * f) * (p.amount : ℝ)) l =
      discountedSum (receivedPairs s ref τ f l) x := by
  induction l with
  | nil => simp [weightedSum, receivedPairs, discountedSum]
  | cons p ps ih =>
    by_cases hp : s ≤ p.unadjusted
    · have : receivedPairs s ref τ f (p :: ps) = ((p.amount : ℝ), ((τ p.date - τ ref : ℚ) : ℝ) * f) :: receivedPairs s ref τ f ps := by
        simp [receivedPairs, hp]
      rw [this, discountedSum_cons, ← ih]
      simp [weightedSum, hp]
    · have : receivedPairs s ref τ f (p :: ps) = receivedPairs s ref τ f ps := by simp [receivedPairs, hp]
      rw [this, ← ih]
      simp [weightedSum, hp]

theorem payment_facts {t : BondTerms} {b : Bond} {k : Int} (hk : couponMonths t.frequency = some k)
    (h : Bond.create t = .ok b) (hrate : 0 ≤ t.couponRate) (hpr : 0 < t.principal) :
    ∀ p ∈ b.coupons ++ b.principalPayments, 0 ≤ p.amount ∧ PaidOn t.calendar t.adjustment p.unadjusted p.date := by
  intro p hp
  rcases List.mem_append.1 hp with hp | hp
  · obtain ⟨h1, h2⟩ := (C33_coupons t b k hk h).2.2.1 p hp
    refine ⟨?_, h2⟩
    rw [h1]; positivity
  · obtain ⟨a, ha, hpp⟩ := principalCashflow_ok (create_ok h).2.2.2.1
    rw [hpp] at hp
    simp only [List.mem_singleton] at hp
    subst hp
    exact ⟨le_of_lt hpr, adjust_paidOn ha⟩

theorem discountByFixedRate_value {t : BondTerms} {b : Bond} {k : Int} (hk : couponMonths t.frequency = some k)
    (h : Bond.create t = .ok b) {τ : PyDate → ℚ} {ref s : PyDate}
    (hτ : ∀ d, s ≤ d → accrual ref d t.dcc = .ok (τ d - τ ref)) (hs : addBusinessDays t.calendar ref 1 = .ok s) (hrate : 0 ≤ t.couponRate)
    (hpr : 0 < t.principal) {r : ℝ} (hr : -(t.frequency.value : ℝ) < r) :
    b.discountByFixedRate r (some ref) = .ok (discountedSum
      (receivedPairs s ref τ t.frequency.value (b.coupons ++ b.principalPayments)) (1 + r / t.frequency.value)) := by
  obtain ⟨ht, -⟩ := create_ok h
  have hfacts := payment_facts hk h hrate hpr
  have hns := nextSettlement_of_add hs
  obtain ⟨r0, hr0, hlt, hbd, -⟩ := hns
  have hrs : ref < s := lt_of_le_of_lt hr0.1 hlt
  obtain ⟨-, hkpos, hk12⟩ := increment_months hk
  have hfpos : 0 < t.frequency.value := by
    rcases Nat.eq_zero_or_pos t.frequency.value with e | e
    · rw [e] at hk12; simp at hk12
    · exact e
  have hfR : (0 : ℝ) < t.frequency.value := by exact_mod_cast hfpos
  have hbase : 0 < 1 + r / t.frequency.value := by
    have : -1 < r / t.frequency.value := by rw [lt_div_iff₀ hfR]; linarith
    linarith
  have hkeep : ∀ p, b.isPaymentReceived p (some ref) = .ok (decide (s ≤ p.unadjusted)) :=
    isPaymentReceived_some (by rw [ht]; exact hs)
  have hval : ∀ p ∈ b.coupons ++ b.principalPayments, s ≤ p.unadjusted → (do
      let a ← DayCount.accrual ref p.date b.terms.dcc
      let df ← Bond.fixedRateFactor b.terms.frequency.value r a
      .ok (df * (p.amount : ℝ)) : Except PyErr ℝ) =
      .ok (1 / (1 + r / t.frequency.value) ^ (((τ p.date - τ ref : ℚ) : ℝ) * t.frequency.value) * (p.amount : ℝ)) := by
    intro p hp hsp
    have hd := paidOn_ge hbd hsp (hfacts p hp).2
    rw [ht, hτ p.date hd, ok_bind]
    unfold Bond.fixedRateFactor
    rw [if_neg (by omega)]
    simp only
    rw [if_neg (ne_of_gt (Real.rpow_pos_of_pos hbase _)), ok_bind]
  unfold Bond.discountByFixedRate
  simp only [Option.getD_some]
  rw [sumIf_ok (fun p => s ≤ p.unadjusted) _ (fun p _ => hkeep p) (fun p hp hsp => hval p (List.mem_append_left _ hp) hsp),
    ok_bind,
    sumIf_ok (fun p => s ≤ p.unadjusted) _ (fun p _ => hkeep p) (fun p hp hsp => hval p (List.mem_append_right _ hp) hsp),
    ok_bind, ← weightedSum_discounted]
  congr 1
  simp only [weightedSum, List.map_append, List.sum_append]

theorem discountByFixedRate_eq {t : BondTerms} {b : Bond} {k : Int} (hk : couponMonths t.frequency = some k)
    (h : Bond.create t = .ok b) {τ : PyDate → ℚ} {ref s : PyDate}
    (hτ : MeasuresFrom t.dcc ref s τ) (hs : addBusinessDays t.calendar ref 1 = .ok s) (hrate : 0 ≤ t.couponRate)
    (hpr : 0 < t.principal) {r : ℝ} (hr : -(t.frequency.value : ℝ) < r) :
    b.discountByFixedRate r (some ref) = .ok (discountedSum
      (receivedPairs s ref τ t.frequency.value (b.coupons ++ b.principalPayments)) (1 + r / t.frequency.value)) :=
  discountByFixedRate_value hk h (fun d hd => (hτ d hd).1) hs hrate hpr hr

theorem receivedPairs_facts {t : BondTerms} {b : Bond} {k : Int} (hk : couponMonths t.frequency = some k)
    (h : Bond.create t = .ok b) {τ : PyDate → ℚ} {ref s : PyDate}
    (hτ : MeasuresFrom t.dcc ref s τ) (hs : addBusinessDays t.calendar ref 1 = .ok s) (hrate : 0 ≤ t.couponRate)
    (hpr : 0 < t.principal) (hm : s ≤ t.maturityDate) :
    (∀ a ∈ receivedPairs s ref τ t.frequency.value (b.coupons ++ b.principalPayments), 0 ≤ a.1 ∧ 0 < a.2) ∧
    ∃ a ∈ receivedPairs s ref τ t.frequency.value (b.coupons ++ b.principalPayments), 0 < a.1 := by
  have hfacts := payment_facts hk h hrate hpr
  obtain ⟨r0, hr0, hlt, hbd, -⟩ := nextSettlement_of_add hs
  have hrs : ref < s := lt_of_le_of_lt hr0.1 hlt
  obtain ⟨-, hkpos, hk12⟩ := increment_months hk
  have hfpos : 0 < t.frequency.value := by
    rcases Nat.eq_zero_or_pos t.frequency.value with e | e
    · rw [e] at hk12; simp at hk12
    · exact e
  have hfR : (0 : ℝ) < t.frequency.value := by exact_mod_cast hfpos
  constructor
  · intro a ha
    obtain ⟨p, hp, rfl⟩ := List.mem_map.1 ha
    rw [List.mem_filter] at hp
    obtain ⟨h1, h2⟩ := hfacts p hp.1
    have hd := paidOn_ge hbd (by simpa using hp.2) h2
    have := (hτ p.date hd).2
    refine ⟨by show (0 : ℝ) ≤ (p.amount : ℝ); exact_mod_cast h1, ?_⟩
    have : (0 : ℝ) < ((τ p.date - τ ref : ℚ) : ℝ) := by
      have : 0 < τ p.date - τ ref := by linarith
      exact_mod_cast this
    positivity
  · obtain ⟨a, -, hpp⟩ := principalCashflow_ok (create_ok h).2.2.2.1
    refine ⟨((t.principal : ℝ), ((τ a - τ ref : ℚ) : ℝ) * t.frequency.value), ?_,
      by show (0 : ℝ) < (t.principal : ℝ); exact_mod_cast hpr⟩
    refine List.mem_map.2 ⟨⟨t.maturityDate, a, t.principal⟩, ?_, rfl⟩
    rw [List.mem_filter, hpp]
    simp [hm]

/-- C37. For a coupon bond with nonnegative coupon rate and positive principal, under any convention (`C37_conventions`), seen from a
reference date whose next business day `s` is not past maturity: for every rate above `-f` the fixed-rate value exists and is
the sum of the payments due on or after `s`, each divided by `(1 + r/f) ^ (f * accrual)`; it is strictly decreasing in the
rate; at rate zero it is the undiscounted sum; and every positive price is attained by exactly one rate. -/
theorem C37_yield_unique (t : BondTerms) (b : Bond) (k : Int) (hk : couponMonths t.frequency = some k)
    (h : Bond.create t = .ok b) (τ : PyDate → ℚ) (ref s : PyDate)
    (hτ : MeasuresFrom t.dcc ref s τ) (hs : addBusinessDays t.calendar ref 1 = .ok s) (hm : s ≤ t.maturityDate)
    (hrate : 0 ≤ t.couponRate) (hpr : 0 < t.principal) :
    ∃ v : ℝ → ℝ,
      (∀ r, -(t.frequency.value : ℝ) < r → b.discountByFixedRate r (some ref) = .ok (v r) ∧
        v r = weightedSum (fun p => s ≤ p.unadjusted) (fun p => 1 / (1 + r / t.frequency.value) ^
          (((τ p.date - τ ref : ℚ) : ℝ) * t.frequency.value) * (p.amount : ℝ)) (b.coupons ++ b.principalPayments)) ∧
      StrictAntiOn v (Set.Ioi (-(t.frequency.value : ℝ))) ∧
      v 0 = weightedSum (fun p => s ≤ p.unadjusted) (fun p => (p.amount : ℝ)) (b.coupons ++ b.principalPayments) ∧
      ∀ price : ℝ, 0 < price → ∃! r, -(t.frequency.value : ℝ) < r ∧ v r = price := by
  obtain ⟨-, hkpos, hk12⟩ := increment_months hk
  have hfpos : 0 < t.frequency.value := by
    rcases Nat.eq_zero_or_pos t.frequency.value with e | e
    · rw [e] at hk12; simp at hk12
    · exact e
  have hfR : (0 : ℝ) < t.frequency.value := by exact_mod_cast hfpos
  have hbase : ∀ r : ℝ, -(t.frequency.value : ℝ) < r → 0 < 1 + r / t.frequency.value := by
    intro r hr
    have : -1 < r / t.frequency.value := by rw [lt_div_iff₀ hfR]; linarith
    linarith
  obtain ⟨hall, hex⟩ := receivedPairs_facts hk h hτ hs hrate hpr hm
  set L := receivedPairs s ref τ t.frequency.value (b.coupons ++ b.principalPayments) with hL
  have hanti : StrictAntiOn (fun r : ℝ => discountedSum L (1 + r / t.frequency.value)) (Set.Ioi (-(t.frequency.value : ℝ))) := by
    intro x hx y hy hxy
    refine discountedSum_strictAnti (fun a ha => ⟨(hall a ha).1, le_of_lt (hall a ha).2⟩) ?_ (hbase x hx) ?_
    · obtain ⟨a, ha, ha1⟩ := hex
      exact ⟨a, ha, ha1, (hall a ha).2⟩
    · have := div_lt_div_of_pos_right hxy hfR
      linarith
  refine ⟨fun r => discountedSum L (1 + r / t.frequency.value), ?_, hanti, ?_, ?_⟩
  · intro r hr
    exact ⟨discountByFixedRate_eq hk h hτ hs hrate hpr hr, (weightedSum_discounted _ _ _ _ _ _).symm⟩
  · simp only [zero_div, add_zero]
    rw [hL, ← weightedSum_discounted]
    simp
  · intro price hprice
    obtain ⟨x, hx, hxT⟩ := discountedSum_surj hall hex hprice
    have hr : -(t.frequency.value : ℝ) < (x - 1) * t.frequency.value := by nlinarith
    have hback : 1 + (x - 1) * t.frequency.value / t.frequency.value = x := by
      field_simp; ring
    refine ⟨(x - 1) * t.frequency.value, ⟨hr, ?_⟩, ?_⟩
    · show discountedSum L (1 + (x - 1) * t.frequency.value / t.frequency.value) = price
      rw [hback]; exact hxT
    · rintro r' ⟨hr', hv'⟩
      apply hanti.injOn hr' hr
      show discountedSum L (1 + r' / t.frequency.value) = discountedSum L (1 + (x - 1) * t.frequency.value / t.frequency.value)
      rw [hback, hxT]; exact hv'

/-- C37. The equation `yield_to_maturity` gives to the root finder has exactly one solution above `-f`, for every bond with
positive full price. -/
theorem C37_ytm_unique (t : BondTerms) (b : Bond) (k : Int) (hk : couponMonths t.frequency = some k)
    (h : Bond.create t = .ok b) (τ : PyDate → ℚ) (ref s : PyDate)
    (hτ : MeasuresFrom t.dcc ref s τ) (hs : addBusinessDays t.calendar ref 1 = .ok s) (hm : s ≤ t.maturityDate)
    (hrate : 0 ≤ t.couponRate) (hpr : 0 < t.principal) (hprice : 0 < b.fullPrice) :
    ∃! r, -(t.frequency.value : ℝ) < r ∧ b.diffFromFullPrice (some ref) r = .ok 0 := by
  obtain ⟨v, hv, -, -, huniq⟩ := C37_yield_unique t b k hk h τ ref s hτ hs hm hrate hpr
  have ht := (create_ok h).1
  have hpos : 0 < b.fullPrice * t.principal / 100 := by positivity
  have hposR : (0 : ℝ) < ((b.fullPrice * t.principal / 100 : ℚ) : ℝ) := by exact_mod_cast hpos
  have hdiff : ∀ r, -(t.frequency.value : ℝ) < r → (b.diffFromFullPrice (some ref) r = .ok 0 ↔
      v r = ((b.fullPrice * t.principal / 100 : ℚ) : ℝ)) := by
    intro r hr
    unfold Bond.diffFromFullPrice
    simp only [Option.getD_some]
    rw [(hv r hr).1, ok_bind, ht]
    constructor
    · intro e; injection e with e; linarith
    · intro e; rw [e, sub_self]
  obtain ⟨r, ⟨h1, h2⟩, h3⟩ := huniq _ hposR
  refine ⟨r, ⟨h1, (hdiff r h1).2 h2⟩, ?_⟩
  rintro r' ⟨h1', h2'⟩
  exact h3 r' ⟨h1', (hdiff r' h1').1 h2'⟩

/-- C37. Hence the price sensitivity is negative and the duration positive, at every yield at least half a basis point above
`-f` and for every positive full price. -/
theorem C37_duration_positive (t : BondTerms) (b : Bond) (k : Int) (hk : couponMonths t.frequency = some k)
    (h : Bond.create t = .ok b) (τ : PyDate → ℚ) (s : PyDate)
    (hτ : MeasuresFrom t.dcc t.purchaseDate s τ) (hs : addBusinessDays t.calendar t.purchaseDate 1 = .ok s) (hm : s ≤ t.maturityDate)
    (hrate : 0 ≤ t.couponRate) (hpr : 0 < t.principal) (hprice : 0 < b.fullPrice) (ytm : ℝ)
    (hy : -(t.frequency.value : ℝ) + 1 / 20000 < ytm) :
    ∃ d, b.pvDeriv 0 ytm = .ok d ∧ d < 0 ∧ ∃ x, b.duration ytm = .ok x ∧ 0 < x ∧ x * b.fullPrice = -d := by
  obtain ⟨v, hv, hanti, -, -⟩ := C37_yield_unique t b k hk h τ t.purchaseDate s hτ hs hm hrate hpr
  have ht := (create_ok h).1
  have hbp : (oneBasisPoint : ℝ) = 1 / 10000 := by norm_num [oneBasisPoint]
  have hnone : ∀ r, b.discountByFixedRate r none = b.discountByFixedRate r (some t.purchaseDate) := by
    intro r; unfold Bond.discountByFixedRate; simp only [Option.getD_none, Option.getD_some, ht]
  have hup : -(t.frequency.value : ℝ) < ytm + 0 + (oneBasisPoint : ℝ) / 2 := by rw [hbp]; linarith
  have hdown : -(t.frequency.value : ℝ) < ytm + 0 - (oneBasisPoint : ℝ) / 2 := by rw [hbp]; linarith
  have hlt : v (ytm + 0 + (oneBasisPoint : ℝ) / 2) < v (ytm + 0 - (oneBasisPoint : ℝ) / 2) :=
    hanti hdown hup (by rw [hbp]; linarith)
  have hd : b.pvDeriv 0 ytm = .ok ((v (ytm + 0 + (oneBasisPoint : ℝ) / 2) - v (ytm + 0 - (oneBasisPoint : ℝ) / 2)) /
      (oneBasisPoint : ℝ)) := by
    unfold Bond.pvDeriv
    rw [hnone, (hv _ hup).1, ok_bind, hnone, (hv _ hdown).1, ok_bind]
  have hfp : (0 : ℝ) < b.fullPrice := by exact_mod_cast hprice
  have hneg : (v (ytm + 0 + (oneBasisPoint : ℝ) / 2) - v (ytm + 0 - (oneBasisPoint : ℝ) / 2)) / (oneBasisPoint : ℝ) < 0 := by
    apply div_neg_of_neg_of_pos (by linarith) (by rw [hbp]; norm_num)
  refine ⟨_, hd, hneg, _, by unfold Bond.duration; rw [hd, ok_bind, if_neg (ne_of_gt hfp)], ?_, ?_⟩
  · exact div_pos (by linarith) hfp
  · field_simp

/-- C37 (limits). A zero-coupon bond still to be repaid has no fixed-rate value, yield or duration: the division by the
number of payments per year raises ZeroDivisionError for every rate. -/
theorem C37_zero_coupon_fails (t : BondTerms) (b : Bond) (hz : t.frequency = .zeroCoupon) (h : Bond.create t = .ok b)
    (ref s : PyDate) (hs : addBusinessDays t.calendar ref 1 = .ok s) (hm : s ≤ t.maturityDate) (r : ℝ)
    (hdcc : t.dcc ≠ .unknown) (hok : AxisOk t.dcc ref) :
    b.discountByFixedRate r (some ref) = .error .zeroDivisionError := by
  obtain ⟨ht, -, hc, hp, -⟩ := create_ok h
  obtain ⟨a, ha, hpp⟩ := principalCashflow_ok hp
  rw [(C33_zero_coupon t b.datedDate).1 hz] at hc
  injection hc with hc
  obtain ⟨r0, hr0, hlt, hbd, -⟩ := nextSettlement_of_add hs
  have hd : ref ≤ a := le_trans (le_of_lt (lt_of_le_of_lt hr0.1 hlt)) (paidOn_ge hbd hm (adjust_paidOn ha))
  obtain ⟨x, hx⟩ := (C17_only_reversed_rejected ref a t.dcc hd).2 hdcc
    (by rintro ⟨e1, e2⟩; have := hok e1; omega)
  unfold Bond.discountByFixedRate
  simp only [Option.getD_some]
  rw [← hc, hpp]
  simp only [Bond.sumIf, ok_bind]
  rw [isPaymentReceived_some (by rw [ht]; exact hs), ok_bind]
  simp only [hm, decide_true, if_true]
  rw [ht, hx, ok_bind, hz]
  rfl

theorem weightedSum_cast (P : BondPayment → Prop) [DecidablePred P] (l : List BondPayment) :
    weightedSum P (fun p => (p.amount : ℝ)) l = ((weightedSum P (fun p => p.amount) l : ℚ) : ℝ) := by
  unfold weightedSum
  induction l with
  | nil => simp
  | cons p ps ih =>
    simp only [List.map_cons, List.sum_cons, Rat.cast_add, ih]
    congr 1
    split_ifs <;> simp

/-- The 30/360 day count from one day to the next, into a 31st or a 29 February. -/
theorem thirty360Days_next {s e : PyDate} (h : e.ord = s.ord + 1) :
    (e.day = 31 → thirty360Days s e = 0) ∧ (e.month = 2 ∧ e.day = 29 → thirty360Days s e = -1) := by
  have be := e.bounds
  have hs : 2 ≤ e.day → s.year = e.year ∧ s.month = e.month ∧ s.day = e.day - 1 := by
    intro hd
    have : s = ⟨e.year, e.month, e.day - 1, by
          unfold validYMD; simp only [decide_eq_true_eq]; omega⟩ := by
      apply PyDate.ord_inj.1
      unfold PyDate.ord at h ⊢
      simp only
      omega
    rw [this]
    simp
  have m2 : e.month = 2 → daysInMonth e.year e.month ≤ 29 := by
    intro hm; rw [hm, daysInMonth]; simp only [if_true]; split_ifs <;> omega
  constructor
  · intro hd
    obtain ⟨h1, h2, h3⟩ := hs (by omega)
    have h2' : e.month ≠ 2 := by intro hm; have := m2 hm; omega
    unfold thirty360Days
    simp [h1, h2, h3, hd, h2']
  · rintro ⟨hm, hd⟩
    obtain ⟨h1, h2, h3⟩ := hs (by omega)
    unfold thirty360Days
    simp [h1, h2, h3, hd, hm]

/-- C37 (limits). Under 30/360, seen from the day before a maturity date that is a business day: a bond maturing on a 31st has the same
value at every rate, so no yield unless its price is exactly that value; the value of a bond maturing on 29 February increases with
the rate. -/
theorem C37_thirty360_false (t : BondTerms) (b : Bond) (k : Int) (hk : couponMonths t.frequency = some k)
    (h : Bond.create t = .ok b) (hdcc : t.dcc = .thirty360) (ref : PyDate)
    (hs : addBusinessDays t.calendar ref 1 = .ok t.maturityDate) (hnext : t.maturityDate.ord = ref.ord + 1)
    (hrate : 0 ≤ t.couponRate) (hpr : 0 < t.principal) (total : ℚ)
    (htotal : total = weightedSum (fun p => t.maturityDate ≤ p.unadjusted) (fun p => p.amount) (b.coupons ++ b.principalPayments)) :
    0 < total ∧
    (t.maturityDate.day = 31 → ∀ r : ℝ, -(t.frequency.value : ℝ) < r → b.discountByFixedRate r (some ref) = .ok (total : ℝ) ∧
      (b.fullPrice * t.principal / 100 ≠ total → b.diffFromFullPrice (some ref) r ≠ .ok 0)) ∧
    (t.maturityDate.month = 2 ∧ t.maturityDate.day = 29 → ∃ v : ℝ → ℝ,
      (∀ r, -(t.frequency.value : ℝ) < r → b.discountByFixedRate r (some ref) = .ok (v r)) ∧
      StrictMonoOn v (Set.Ioi (-(t.frequency.value : ℝ)))) := by
  obtain ⟨ht, -, hc, hp, -⟩ := create_ok h
  obtain ⟨-, hkpos, hk12⟩ := increment_months hk
  have hfpos : 0 < t.frequency.value := by
    rcases Nat.eq_zero_or_pos t.frequency.value with e | e
    · rw [e] at hk12; simp at hk12
    · exact e
  have hfR : (0 : ℝ) < t.frequency.value := by exact_mod_cast hfpos
  have hbase : ∀ r : ℝ, -(t.frequency.value : ℝ) < r → 0 < 1 + r / t.frequency.value := by
    intro r hr
    have : -1 < r / t.frequency.value := by rw [lt_div_iff₀ hfR]; linarith
    linarith
  obtain ⟨r0, hr0, hlt, hbd, -⟩ := nextSettlement_of_add hs
  have hrs : ref < t.maturityDate := lt_of_le_of_lt hr0.1 hlt
  have hfacts := payment_facts hk h hrate hpr
  have hdate : ∀ p ∈ b.coupons ++ b.principalPayments, t.maturityDate ≤ p.unadjusted → p.date = t.maturityDate := by
    intro p hp' hle
    have hu : p.unadjusted = t.maturityDate := by
      rcases List.mem_append.1 hp' with hp' | hp'
      · obtain ⟨L, hL, -, -, -, hLm, -⟩ := (C33_coupons t b k hk h).1
        exact le_antisymm (hLm _ (hL.mem_iff.1 (List.mem_map_of_mem hp'))).2 hle
      · obtain ⟨a, ha, hpp⟩ := principalCashflow_ok hp
        rw [hpp] at hp'
        simp only [List.mem_singleton] at hp'
        subst hp'
        rfl
    have hpaid := (hfacts p hp').2
    rw [hu] at hpaid
    have hself : FirstOnOrAfter t.calendar t.maturityDate t.maturityDate :=
      ⟨le_refl _, hbd, fun e h1 h2 => absurd h1 (not_le.2 h2)⟩
    unfold PaidOn at hpaid
    cases hadj : t.adjustment with
    | following =>
      simp only [hadj] at hpaid
      exact FirstOnOrAfter.unique hpaid hself
    | modifiedFollowing =>
      simp only [hadj] at hpaid
      obtain ⟨f, hf, h1, -⟩ := hpaid
      have : f = t.maturityDate := FirstOnOrAfter.unique hf hself
      rw [h1 (by rw [this]), this]
  have hval : ∀ r : ℝ, -(t.frequency.value : ℝ) < r → b.discountByFixedRate r (some ref) =
      .ok (1 / (1 + r / t.frequency.value) ^ ((((thirty360Days ref t.maturityDate : ℚ) / 360 : ℚ) : ℝ) * t.frequency.value) * (total : ℝ)) := by
    intro r hr
    have hτ : ∀ d, t.maturityDate ≤ d → accrual ref d t.dcc =
        .ok ((if d = ref then 0 else (thirty360Days ref d : ℚ) / 360) - (if ref = ref then 0 else (thirty360Days ref ref : ℚ) / 360)) := by
      intro d hd
      have hrd : ref < d := lt_of_lt_of_le hrs hd
      rw [if_pos rfl, if_neg (ne_of_gt hrd), sub_zero, hdcc, accrual_eq (le_of_lt hrd)]
      rfl
    rw [discountByFixedRate_value hk h (τ := fun d => if d = ref then 0 else (thirty360Days ref d : ℚ) / 360) hτ hs hrate hpr hr,
      ← weightedSum_discounted, htotal]
    congr 1
    unfold weightedSum
    rw [show ((((b.coupons ++ b.principalPayments).map fun p => if t.maturityDate ≤ p.unadjusted then p.amount else 0).sum : ℚ) : ℝ) =
      ((b.coupons ++ b.principalPayments).map fun p => if t.maturityDate ≤ p.unadjusted then (p.amount : ℝ) else 0).sum from by
        rw [← weightedSum, ← weightedSum_cast]; rfl, ← List.sum_map_mul_left]
    congr 1
    refine List.map_congr_left fun p hp' => ?_
    by_cases hle : t.maturityDate ≤ p.unadjusted
    · simp only [hle, if_true, hdate p hp' hle, if_neg (ne_of_gt hrs), sub_zero]
    · simp only [hle, if_false, mul_zero]
  have hpos : 0 < total := by
    rw [htotal]
    obtain ⟨a, ha, hpp⟩ := principalCashflow_ok hp
    unfold weightedSum
    rw [List.map_append, List.sum_append, hpp]
    have : 0 ≤ (b.coupons.map fun p => if t.maturityDate ≤ p.unadjusted then p.amount else 0).sum := by
      refine List.sum_nonneg fun x hx => ?_
      obtain ⟨p, hp', rfl⟩ := List.mem_map.1 hx
      split_ifs
      · exact (hfacts p (List.mem_append_left _ hp')).1
      · exact le_refl _
    simp only [List.map_cons, List.map_nil, le_refl, if_true, List.sum_cons, List.sum_nil]
    linarith
  have hposR : (0 : ℝ) < total := by exact_mod_cast hpos
  refine ⟨hpos, fun h31 r hr => ?_, fun h29 => ?_⟩
  · have hz : thirty360Days ref t.maturityDate = 0 := (thirty360Days_next hnext).1 h31
    have hv : b.discountByFixedRate r (some ref) = .ok (total : ℝ) := by
      rw [hval r hr, hz]; simp
    refine ⟨hv, fun hne he => hne ?_⟩
    unfold Bond.diffFromFullPrice at he
    simp only [Option.getD_some] at he
    rw [hv, ok_bind, ht] at he
    injection he with he
    have : ((b.fullPrice * t.principal / 100 : ℚ) : ℝ) = total := by linarith
    exact_mod_cast this
  · have hz : thirty360Days ref t.maturityDate = -1 := (thirty360Days_next hnext).2 h29
    refine ⟨_, hval, ?_⟩
    intro x hx y hy hxy
    have hlt : 1 + x / t.frequency.value < 1 + y / t.frequency.value := by
      have := div_lt_div_of_pos_right hxy hfR
      linarith
    have he : (0 : ℝ) < 1 / 360 * t.frequency.value := by positivity
    have hw : ∀ z : ℝ, 0 < z → 1 / z ^ ((((thirty360Days ref t.maturityDate : ℚ) / 360 : ℚ) : ℝ) * t.frequency.value) =
        z ^ ((1 : ℝ) / 360 * t.frequency.value) := by
      intro z hz'
      rw [hz, one_div, ← Real.rpow_neg hz'.le]
      congr 1
      push_cast
      ring
    show 1 / (1 + x / (t.frequency.value : ℝ)) ^ _ * (total : ℝ) < 1 / (1 + y / (t.frequency.value : ℝ)) ^ _ * (total : ℝ)
    rw [hw _ (hbase x hx), hw _ (hbase y hy)]
    exact mul_lt_mul_of_pos_right (Real.rpow_lt_rpow (hbase x hx).le hlt he) hposR

/-- Whether the constructor succeeds, as a Boolean. -/
def createsBond (t : BondTerms) : Bool := match Bond.create t with | .ok _ => true | .error _ => false

theorem createsBond_spec {t : BondTerms} (h : createsBond t = true) : ∃ b, Bond.create t = .ok b := by
  unfold createsBond at h
  cases hc : Bond.create t with
  | ok b => exact ⟨b, rfl⟩
  | error e => rw [hc] at h; cases h

/-- The example note under 30/360, seen from its purchase date, has exactly one yield. -/
example : ∃ b s, Bond.create { exTerms with dcc := .thirty360 } = .ok b ∧
    addBusinessDays exTerms.calendar exTerms.purchaseDate 1 = .ok s ∧ (∃ τ, MeasuresFrom .thirty360 exTerms.purchaseDate s τ) ∧
    (0 < b.fullPrice → ∃! r, -(2 : ℝ) < r ∧ b.diffFromFullPrice (some exTerms.purchaseDate) r = .ok 0) := by
  obtain ⟨b, hb⟩ := createsBond_spec (t := { exTerms with dcc := .thirty360 }) (by decide +kernel)
  have hs : addBusinessDays exTerms.calendar exTerms.purchaseDate 1 = .ok (D 2023 6 2) := by decide +kernel
  obtain ⟨τ, hτ⟩ := (C37_conventions .thirty360 (by decide) exTerms.calendar exTerms.purchaseDate (D 2023 6 2)
    (by decide +kernel) hs).2.2 (by decide +kernel)
  refine ⟨b, D 2023 6 2, hb, hs, ⟨τ, hτ⟩, fun hfull => ?_⟩
  have := C37_ytm_unique { exTerms with dcc := .thirty360 } b 6 (by decide +kernel) hb τ exTerms.purchaseDate (D 2023 6 2) hτ hs
    (by decide +kernel) (by decide +kernel) (by decide +kernel) hfull
  simpa [exTerms, PaymentFrequency.value] using this

/-- Concrete cases for C37_thirty360_false: notes maturing on Friday 31 January 2025 and Thursday 29 February 2024. -/
example : (∃ b, Bond.create { exTerms with dcc := .thirty360, maturityDate := D 2025 1 31 } = .ok b) ∧
    (∃ b, Bond.create { exTerms with dcc := .thirty360, maturityDate := D 2024 2 29 } = .ok b) ∧
    addBusinessDays exTerms.calendar (D 2025 1 30) 1 = .ok (D 2025 1 31) ∧
    addBusinessDays exTerms.calendar (D 2024 2 28) 1 = .ok (D 2024 2 29) ∧
    (D 2025 1 31).ord = (D 2025 1 30).ord + 1 ∧ (D 2024 2 29).ord = (D 2024 2 28).ord + 1 :=
  ⟨createsBond_spec (by decide +kernel), createsBond_spec (by decide +kernel), by decide +kernel, by decide +kernel,
    by decide +kernel, by decide +kernel⟩

/-- Concrete case for C37: the example note, seen from its purchase date. -/
example : ∃ b, Bond.create exTerms = .ok b ∧ couponMonths exTerms.frequency = some 6 ∧
    timeAxis exTerms.dcc = some yearCoord ∧ AxisOk exTerms.dcc exTerms.purchaseDate ∧
    addBusinessDays exTerms.calendar exTerms.purchaseDate 1 = .ok (D 2023 6 2) ∧ D 2023 6 2 ≤ exTerms.maturityDate ∧
    0 ≤ exTerms.couponRate ∧ 0 < exTerms.principal ∧ 0 < b.fullPrice := by
  obtain ⟨b, h, h1, h2, h3, h4, h5⟩ := exTerms_create
  have hfp := (C36_full_price_partial _ b h).1
  refine ⟨b, h, by decide +kernel, rfl, by decide +kernel, by decide +kernel, by decide +kernel, by decide +kernel,
    by decide +kernel, ?_⟩
  rw [hfp, h5]
  decide +kernel


/-- A zero-coupon bill with the dates of the example note. -/
def exZero : BondTerms := { exTerms with frequency := .zeroCoupon, dcc := .act360 }

/-- Concrete case for the zero-coupon theorems. -/
theorem exZero_create : ∃ b, Bond.create exZero = .ok b ∧ exZero.frequency = .zeroCoupon ∧ D 2023 6 2 ≤ exZero.maturityDate ∧
    addBusinessDays exZero.calendar exZero.purchaseDate 1 = .ok (D 2023 6 2) ∧ exZero.dcc ≠ .unknown := by
  have h1 : exZero.datedDate = .ok (D 2023 2 15) := by decide +kernel
  have h0 : exZero.couponCashflow (D 2023 2 15) = .ok [] := by decide +kernel
  have h2 : exZero.principalCashflow = .ok [⟨D 2025 2 15, D 2025 2 18, 100⟩] := by decide +kernel
  have h3 : calculateSettlementDate exZero.calendar exZero.purchaseDate exZero.settlementConvention =
    .ok (D 2023 6 2) := by decide +kernel
  have h5 : pyDiv 0 exZero.principal = .ok (0 / 100) := pyDiv_of_ne (by decide +kernel)
  have hc : ∃ b, Bond.create exZero = .ok b := ⟨_, by
    unfold Bond.create
    rw [h1, ok_bind, h0, ok_bind, h2, ok_bind, h3, ok_bind,
      show Bond.accruedInterestOf exZero (D 2023 2 15) [] (D 2023 6 2) none = .ok 0 from rfl, ok_bind, h5, ok_bind]⟩
  obtain ⟨b, hb⟩ := hc
  exact ⟨b, hb, rfl, by decide +kernel, by decide +kernel, by decide +kernel⟩

/-- Concrete case for `C35_after_last_coupon`: the example note bought on 20 February 2025. -/
example : Bond.create { exTerms with purchaseDate := D 2025 2 20 } = .error .indexError :=
  C35_after_last_coupon { exTerms with purchaseDate := D 2025 2 20 } (D 2023 2 15) (D 2025 2 21) ⟨D 2023 8 15, D 2023 8 15, 2⟩
    [⟨D 2024 2 15, D 2024 2 15, 2⟩, ⟨D 2024 8 15, D 2024 8 15, 2⟩, ⟨D 2025 2 15, D 2025 2 18, 2⟩]
    [⟨D 2025 2 15, D 2025 2 18, 100⟩] (by decide +kernel) (by decide +kernel) (by decide +kernel) (by decide +kernel)
    (by decide +kernel) (by decide +kernel) (by decide +kernel) (by decide +kernel)

/-- Concrete case for `C36_corporate_attribute_error`: the same terms as a corporate bond can be constructed. -/
example : ∃ b, Bond.create { exTerms with cls := .fixedRateBond } = .ok b ∧
    b.calculateAccruedInterest (some (D 2023 7 3)) = .error .attributeError := by
  have h1 : BondTerms.datedDate { exTerms with cls := .fixedRateBond } = .ok (D 2023 2 15) := by decide +kernel
  have h0 := exTerms_coupons
  have h2 : BondTerms.principalCashflow { exTerms with cls := .fixedRateBond } = .ok [⟨D 2025 2 15, D 2025 2 18, 100⟩] := by
    decide +kernel
  have h3 : calculateSettlementDate exTerms.calendar exTerms.purchaseDate exTerms.settlementConvention =
    .ok (D 2023 6 2) := by decide +kernel
  have h4 : Bond.accruedInterestOf { exTerms with cls := .fixedRateBond } (D 2023 2 15) [⟨D 2023 8 15, D 2023 8 15, 2⟩,
      ⟨D 2024 2 15, D 2024 2 15, 2⟩, ⟨D 2024 8 15, D 2024 8 15, 2⟩, ⟨D 2025 2 15, D 2025 2 18, 2⟩] (D 2023 6 2) none =
      .ok (214 / 181) := by decide +kernel
  have h5 : pyDiv (214 / 181) exTerms.principal = .ok (214 / 181 / 100) := pyDiv_of_ne (by decide +kernel)
  have hc : ∃ b, Bond.create { exTerms with cls := .fixedRateBond } = .ok b := ⟨_, by
    unfold Bond.create
    rw [h1, ok_bind, show BondTerms.couponCashflow { exTerms with cls := .fixedRateBond } (D 2023 2 15) =
      exTerms.couponCashflow (D 2023 2 15) from rfl, h0, ok_bind, h2, ok_bind, h3, ok_bind, h4, ok_bind, h5, ok_bind]⟩
  obtain ⟨b, hb⟩ := hc
  have ht := (create_ok hb).1
  exact ⟨b, hb, C36_corporate_attribute_error b _ (by rw [ht]) (by rw [ht]; decide +kernel)⟩

end Verif.Props
