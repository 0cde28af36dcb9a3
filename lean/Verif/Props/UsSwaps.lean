/- C120: swaps on the US federal holiday calendar. -/
import Verif.Lemmas.UsDates
import Verif.Props.SwapLinear
import Verif.Props.SwapLegs

namespace Verif.Props
open Verif Verif.Spec Verif.Scheduler Verif.DayCount

/-- A swap is within the calendar: it is bought after the second year of the python range and ends, `M` months later, before 9998. -/
def WithinRange (purchase : PyDate) (M : Int) : Prop :=
  3 ≤ purchase.year ∧ 0 ≤ M ∧ purchase.year * 12 + purchase.month + M ≤ 12 * 9997

theorem ord_lower {d : PyDate} {y : Int} (h : y ≤ d.year) : daysBeforeYear y < d.ord := by
  have h1 := d.ord_year_bounds
  have h2 := daysBeforeYear_mono (y := y) (z := d.year) h
  omega

theorem ord_upper {d : PyDate} {y : Int} (h : d.year ≤ y) : d.ord ≤ daysBeforeYear (y + 1) := by
  have h1 := d.ord_year_bounds
  have h2 := daysBeforeYear_mono (y := d.year + 1) (z := y + 1) (by omega)
  omega

theorem year_lower {d : PyDate} {y : Int} (h : daysBeforeYear y < d.ord) : y ≤ d.year := by
  by_contra hc
  have h1 := d.ord_year_bounds
  have h2 := daysBeforeYear_mono (y := d.year + 1) (z := y) (by omega)
  omega

theorem year_upper {d : PyDate} {y : Int} (h : d.ord ≤ daysBeforeYear (y + 1)) : d.year ≤ y := by
  by_contra hc
  have h1 := d.ord_year_bounds
  have h2 := daysBeforeYear_mono (y := y + 1) (z := d.year) (by omega)
  omega

theorem us_swap_adjust {t : SwapTerms} (hcal : t.calendar = usFederalHolidays) (d : PyDate) (h : 4 < d.ord) :
    ∃ r, t.adjust d = .ok r ∧ d.ord ≤ r.ord + 4 ∧ r.ord ≤ d.ord + 3 := by
  unfold SwapTerms.adjust
  rw [hcal]
  cases t.adjustment with
  | following =>
    obtain ⟨r, h1, h2, h3⟩ := C09_following_total d
    exact ⟨r, h1, by omega, h3⟩
  | modifiedFollowing => exact us_modified_total d h

/-- A nonnegative interval of more than 61 days has a positive length under every convention. -/
theorem accrual_pos_of_long {s e : PyDate} {dcc : DayCountConvention} {x : ℚ} (h : s.ord + 61 < e.ord)
    (hx : DayCount.accrual s e dcc = .ok x) : 0 < x := by
  have hse : s ≤ e := PyDate.le_iff.2 (by omega)
  have hlt : s < e := PyDate.lt_iff.2 (by omega)
  by_cases h30 : dcc = .thirty360
  · subst h30
    rw [accrual_eq hse] at hx
    simp only [DayCount.thirty360] at hx
    injection hx with hx
    rw [← hx]
    have hm := months_apart h
    have h0 : 0 < DayCount.thirty360Days s e := by
      have b1 := s.bounds
      have b2 := e.bounds
      have d1 := daysInMonth_bounds s.year s.month
      have d2 := daysInMonth_bounds e.year e.month
      unfold PyDate.monthIndex at hm
      unfold DayCount.thirty360Days
      simp only
      have key : ∀ a b : Int, 1 ≤ a → b ≤ 31 → 0 < 360 * (e.year - s.year) + 30 * (e.month - s.month) + (a - b) := by
        intro a b ha hb
        omega
      apply key
      · split_ifs <;> omega
      · split_ifs <;> omega
    have : (0 : ℚ) < (DayCount.thirty360Days s e : ℚ) := by exact_mod_cast h0
    positivity
  · obtain ⟨τ, hτ⟩ : ∃ τ, timeAxis dcc = some τ := by
      cases dcc with
      | thirty360 => exact absurd rfl h30
      | unknown => rw [accrual_eq hse] at hx; cases hx
      | _ => exact ⟨_, rfl⟩
    by_cases hok : AxisOk dcc s
    · rw [accrual_axis hτ hse hok] at hx
      injection hx with hx
      rw [← hx]
      exact sub_pos.2 (axis_strictMono hτ hlt)
    · exfalso
      unfold AxisOk at hok
      push Not at hok
      obtain ⟨rfl, hy⟩ := hok
      have := s.bounds
      rw [C14_year_one s e hse (by omega)] at hx
      cases hx

/-- Neighbouring dates of an adjusted schedule of steps of `k` months. -/
theorem us_pairs {k : Int} (hk : 0 ≤ k) : ∀ {U A : List PyDate}, U.IsChain (fun x y => y.addMonths (-k) = .ok x) →
    List.Forall₂ (fun u a : PyDate => u.ord ≤ a.ord + 4 ∧ a.ord ≤ u.ord + 3) U A →
    ∀ p ∈ Loan.pairwise A, p.1.ord + 28 * k ≤ p.2.ord + 7 ∧ p.2.ord ≤ p.1.ord + 31 * k + 10
  | _, _, _, .nil, p, hp => by simp [Loan.pairwise] at hp
  | _, _, _, .cons _ .nil, p, hp => by simp [Loan.pairwise] at hp
  | _, _, hch, .cons h1 (.cons h2 h3), p, hp => by
    rw [List.isChain_cons_cons] at hch
    simp only [Loan.pairwise, List.mem_cons] at hp
    rcases hp with rfl | hp
    · have := months_back hk hch.1
      simp only
      omega
    · exact us_pairs hk hch.2 (.cons h2 h3) p (by simpa only [Loan.pairwise, List.mem_cons] using hp)

theorem incrementLoop_total {inc : Increment} {stop : PyDate} (h : ∀ x, stop ≤ x → ∃ y, addIncrement x inc = .ok y) :
    ∀ (n : Nat) (d : PyDate), ∃ L, incrementLoop inc false stop n d = .ok L
  | 0, _ => ⟨[], rfl⟩
  | n + 1, d => by
    unfold incrementLoop
    simp only [Bool.false_eq_true, if_false]
    by_cases hd : stop ≤ d
    · rw [if_pos hd]
      obtain ⟨y, hy⟩ := h d hd
      obtain ⟨L, hL⟩ := incrementLoop_total h n y
      exact ⟨d :: L, by rw [hy, ok_bind, hL, ok_bind]⟩
    · rw [if_neg hd]; exact ⟨[], rfl⟩

/-- Terms of a swap on the US calendar: a tenor of `M` months within the calendar, payments every `kx` (fixed leg) and `kf`
(floating leg) months, settlement, fixing and payment conventions counted in business days, day counts that exist. -/
structure UsSwap (t : SwapTerms) (M kx kf : Int) : Prop where
  calendar : t.calendar = usFederalHolidays
  tenor : tenorMonths t.tenor = some M
  range : WithinRange t.purchaseDate M
  settlement : BusinessConvention t.settlementConvention
  fixing : BusinessConvention t.fixing
  delay : BusinessConvention t.paymentDelay
  fixedFrequency : couponMonths t.fixedFrequency = some kx
  floatFrequency : couponMonths t.floatFrequency = some kf
  fixedDcc : t.fixedDcc ≠ .unknown
  floatDcc : t.floatDcc ≠ .unknown

theorem tenor_end {t : SwapTerms} {M : Int} (hM : tenorMonths t.tenor = some M) (d : PyDate) :
    t.endAccrual d = d.addMonths M := by
  unfold tenorMonths at hM
  unfold SwapTerms.endAccrual
  cases hl : t.tenor.length with
  | none => simp only [hl] at hM; cases hM
  | some n =>
    simp only [hl] at hM ⊢
    by_cases hY : t.tenor.unit = 'Y'
    · rw [if_pos hY] at hM ⊢; injection hM with hM; rw [hM]
    · rw [if_neg hY] at hM ⊢
      by_cases hm : t.tenor.unit = 'M'
      · rw [if_pos hm] at hM ⊢; injection hM with hM; rw [hM]
      · rw [if_neg hm] at hM; cases hM

/-- Where the accrual dates of such a swap lie. -/
structure UsDates (s : Swap) (M : Int) : Prop where
  months : s.startAccrual.addMonths M = .ok s.endAccrual
  le : s.startAccrual ≤ s.endAccrual
  start : 3 ≤ s.startAccrual.year ∨ (s.startAccrual.year = 2 ∧ s.startAccrual.month = 12)
  early : 700 < s.startAccrual.ord
  late : s.endAccrual.ord + 60 ≤ PyDate.maxOrd

theorem us_create {t : SwapTerms} {M kx kf : Int} (h : UsSwap t M kx kf) : ∃ s, Swap.create t = .ok s ∧ UsDates s M := by
  obtain ⟨h1, h2, h3⟩ := h.range
  have hb := t.purchaseDate.bounds
  have d3 : daysBeforeYear 3 = 730 := by decide
  have d98 : daysBeforeYear 9998 = 3651329 := by decide +kernel
  have d99 : daysBeforeYear 9999 = 3651694 := by decide +kernel
  have o1 := ord_lower h1
  have o2 := ord_upper (d := t.purchaseDate) (y := 9997) (by omega)
  have hmax : PyDate.maxOrd = 3652059 := rfl
  rw [show (9997 : Int) + 1 = 9998 by omega] at o2
  obtain ⟨start, hs, s1, s2⟩ := us_settle t.purchaseDate t.settlementConvention h.settlement (by omega) (by omega)
  -- the settlement date is at most one month away
  have hmi : start.monthIndex ≤ t.purchaseDate.monthIndex + 1 := by
    by_contra hc
    have e1 := ord_monthStart start
    have e2 := ord_monthStart t.purchaseDate
    obtain ⟨n, hn⟩ := Int.eq_ofNat_of_zero_le (show 0 ≤ start.monthIndex - t.purchaseDate.monthIndex - 2 by omega)
    have g1 := monthStart_bounds (t.purchaseDate.monthIndex + 2) n
    have g3 := monthStart_succ (t.purchaseDate.monthIndex)
    have g4 := monthStart_succ (t.purchaseDate.monthIndex + 1)
    have hy : t.purchaseDate.monthIndex / 12 = t.purchaseDate.year := by unfold PyDate.monthIndex; omega
    have hm : t.purchaseDate.monthIndex % 12 + 1 = t.purchaseDate.month := by unfold PyDate.monthIndex; omega
    rw [hy, hm] at g3
    have b2 := daysInMonth_bounds ((t.purchaseDate.monthIndex + 1) / 12) ((t.purchaseDate.monthIndex + 1) % 12 + 1)
    rw [show t.purchaseDate.monthIndex + 1 + 1 = t.purchaseDate.monthIndex + 2 by omega] at g4
    rw [show t.purchaseDate.monthIndex + 2 + (n : Int) = start.monthIndex by omega] at g1
    have := start.bounds
    omega
  have hlow : 3 ≤ start.year ∨ (start.year = 2 ∧ start.month = 12) := by
    by_cases hy : 3 ≤ start.year
    · exact Or.inl hy
    · right
      have y2 : 2 ≤ start.year := year_lower (by rw [show daysBeforeYear 2 = 365 by decide]; omega)
      have hb' := start.bounds
      have y2' : start.year = 2 := by omega
      refine ⟨y2', ?_⟩
      have ho : start.ord = daysBeforeYear start.year + daysBeforeMonth start.year start.month + start.day := rfl
      rw [y2', show daysBeforeYear 2 = 365 by decide] at ho
      have tb := month_table 2 start.month (by omega) (by omega)
      have := leapDay_eq_zero_or_one 2
      rw [y2'] at hb'
      omega
  have hmi12 : t.purchaseDate.monthIndex = t.purchaseDate.year * 12 + t.purchaseDate.month - 1 := by unfold PyDate.monthIndex; omega
  have hs12 := start.monthIndex_bounds
  obtain ⟨stop, hstop⟩ := PyDate.addMonths_total (d := start) (k := M) (by omega) (by omega)
  have hle : start ≤ stop := by
    obtain ⟨e1, e2⟩ := PyDate.addMonths_ok.1 hstop
    rw [PyDate.le_iff_month]
    by_cases hM0 : M = 0
    · right
      subst hM0
      rw [PyDate.addMonths_zero] at hstop
      injection hstop with hstop
      rw [hstop]; omega
    · left; omega
  have hyr : stop.year ≤ 9997 := by
    have e1 := (PyDate.addMonths_ok.1 hstop).1
    have := stop.bounds
    unfold PyDate.monthIndex at e1 hmi
    omega
  have o3 := ord_upper hyr
  rw [show (9997 : Int) + 1 = 9998 by omega] at o3
  refine ⟨⟨t, start, stop, CashflowCollection.create [none, none] [Swap.fixedKey, Swap.floatKey]⟩, ?_, hstop, hle, hlow, ?_, ?_⟩
  · unfold Swap.create
    rw [h.calendar, hs, ok_bind, tenor_end h.tenor, hstop, ok_bind]
  · show 700 < start.ord
    omega
  · show stop.ord + 60 ≤ PyDate.maxOrd
    omega

/-- What one accrual period of a leg with a step of `k` months looks like: between two US business days, `k` months apart up to
the adjustments, with a positive accrual factor. -/
structure UsPeriod (a : SwapAccrual) (k : Int) : Prop where
  start : BusinessDay usFederalHolidays a.start
  stop : BusinessDay usFederalHolidays a.stop
  lower : a.start.ord + 28 * k ≤ a.stop.ord + 7
  upper : a.stop.ord ≤ a.start.ord + 31 * k + 10
  factor : 0 < a.factor

theorem us_schedule {t : SwapTerms} {M kx kf : Int} (ht : UsSwap t M kx kf) {s : Swap} (hs : Swap.create t = .ok s)
    (hd : UsDates s M) {f : PaymentFrequency} {k : Int} (hk : couponMonths f = some k) {dcc : DayCountConvention}
    (hdcc : dcc ≠ .unknown) :
    ∃ accs, s.accrualSchedule f dcc = .ok accs ∧
      (∀ a ∈ accs, UsPeriod a k ∧ s.startAccrual.ord ≤ a.start.ord + 4 ∧ a.stop.ord ≤ s.endAccrual.ord + 3) ∧
      (k < M ∨ (k = M ∧ s.startAccrual.day ≤ 28) → accs ≠ []) := by
  obtain ⟨hterms, -, -, -⟩ := swap_create_ok hs
  obtain ⟨hinc, hkpos⟩ := swap_increment hk
  have hk3 : 3 ≤ k ∧ k ≤ 12 := by
    cases f <;> simp only [couponMonths, reduceCtorEq] at hk <;> cases hk <;> decide
  have hearly := hd.early
  have hlate := hd.late
  have hstep : ∀ x, s.startAccrual ≤ x → ∃ y, addIncrement x (.relativedelta (-k) 0) = .ok y := by
    intro x hx
    obtain ⟨y, hy⟩ := PyDate.addMonths_total (d := x) (k := -k)
      (by
        rw [PyDate.le_iff_month] at hx
        have hst := hd.start
        have hb := s.startAccrual.bounds
        unfold PyDate.monthIndex at hx ⊢
        omega)
      (by have := x.monthIndex_bounds; omega)
    exact ⟨y, addIncrement_months.2 hy⟩
  obtain ⟨y0, hy0⟩ := hstep _ hd.le
  obtain ⟨L, hL⟩ := incrementLoop_total hstep 1001 s.endAccrual
  have hgen : generateDatesByIncrements s.endAccrual s.startAccrual (.relativedelta (-k) 0) = .ok L := by
    unfold generateDatesByIncrements
    have hpos : isPositive s.endAccrual (.relativedelta (-k) 0) = .ok false := by
      simp only [isPositive]
      rw [hy0, ok_bind]
      rw [decide_eq_false (not_le.2 (PyDate.addMonths_neg_lt (addIncrement_months.1 hy0) (by omega)))]
    rw [hpos, ok_bind]
    exact hL
  obtain ⟨pos, hp, h1, h2, h3, h4, h5⟩ := C08_chain _ _ _ _ _ hgen
  have hposF : pos = false := by
    simp only [isPositive] at hp
    rw [hy0, ok_bind] at hp
    injection hp with hp
    rw [← hp]
    exact decide_eq_false (not_le.2 (PyDate.addMonths_neg_lt (addIncrement_months.1 hy0) (by omega)))
  subst hposF
  have hge : ∀ x ∈ L, s.startAccrual ≤ x := by
    intro x hx
    have := h3 x hx
    simpa only [NotPast, Bool.false_eq_true, if_false] using this
  have hchain : List.IsChain (fun x y => x.addMonths (-k) = .ok y) L := h2.imp (fun x y hxy => addIncrement_months.1 hxy)
  obtain ⟨A, hA⟩ := collect_total (f := s.terms.adjust) (l := L.reverse) (by
    intro x hx
    have hx' := hge x (List.mem_reverse.1 hx)
    rw [PyDate.le_iff] at hx'
    obtain ⟨r, hr, -⟩ := us_swap_adjust (t := s.terms) (by rw [hterms]; exact ht.calendar) x (by omega)
    exact ⟨r, hr⟩)
  have hF : List.Forall₂ (fun u a : PyDate => u.ord ≤ a.ord + 4 ∧ a.ord ≤ u.ord + 3) L.reverse A := by
    have hc := collect_ok.1 hA
    rw [List.forall₂_iff_get] at hc ⊢
    refine ⟨hc.1, fun i hi hi' => ?_⟩
    have hmem : (L.reverse.get ⟨i, hi⟩) ∈ L := List.mem_reverse.1 (List.get_mem _ _)
    have hx' := hge _ hmem
    rw [PyDate.le_iff] at hx'
    obtain ⟨r, hr, b⟩ := us_swap_adjust (t := s.terms) (by rw [hterms]; exact ht.calendar) (L.reverse.get ⟨i, hi⟩) (by omega)
    have := hc.2 i hi hi'
    rw [hr] at this
    injection this with this
    rw [← this]; exact b
  have hpairs := us_pairs (by omega) (List.isChain_reverse.2 hchain) hF
  obtain ⟨accs, haccs⟩ := collect_total (f := Swap.accrualOf dcc) (l := Loan.pairwise A) (by
    intro p hp
    obtain ⟨b1, b2⟩ := hpairs p hp
    have hle : p.1 ≤ p.2 := PyDate.le_iff.2 (by omega)
    have hax : ¬ (dcc = .actAct ∧ p.1.year = 1) := by
      rintro ⟨-, hy⟩
      obtain ⟨i, hi, rfl⟩ := List.getElem_of_mem hp
      have hiA : i + 1 < A.length := by rw [pairwise_length] at hi; omega
      rw [pairwise_get A i hiA hi] at hy
      simp only at hy
      have hg := List.forall₂_iff_get.1 hF
      have hg2 := hg.2 i (by rw [hg.1]; omega) (by omega)
      simp only [List.get_eq_getElem] at hg2
      have hmem : L.reverse[i]'(by rw [hg.1]; omega) ∈ L := List.mem_reverse.1 (List.getElem_mem _)
      have hx' := hge _ hmem
      rw [PyDate.le_iff] at hx'
      have := ord_upper (d := A[i]) (y := 1) (by omega)
      rw [show daysBeforeYear (1 + 1) = 365 by decide] at this
      omega
    obtain ⟨x, hx⟩ := (C17_only_reversed_rejected p.1 p.2 dcc hle).2 hdcc hax
    exact ⟨⟨p.1, p.2, x⟩, by unfold Swap.accrualOf; rw [hx, ok_bind]⟩)
  have hsch : s.accrualSchedule f dcc = .ok accs := by
    unfold Swap.accrualSchedule
    rw [hinc, ok_bind, hgen, ok_bind, hA, ok_bind, haccs]
  refine ⟨accs, hsch, ?_, ?_⟩
  · intro a ha
    obtain ⟨i, hi, rfl⟩ := List.getElem_of_mem ha
    have hlen := collect_length haccs
    have hi2 : i < (Loan.pairwise A).length := by rw [← hlen]; exact hi
    have hiA : i + 1 < A.length := by rw [pairwise_length] at hi2; omega
    have hg := (List.forall₂_iff_get.1 (collect_ok.1 haccs)).2 i hi2 hi
    simp only [List.get_eq_getElem] at hg
    have hp := hpairs _ (List.getElem_mem hi2)
    rw [pairwise_get A i hiA hi2] at hg hp
    unfold Swap.accrualOf at hg
    rw [bind_ok] at hg
    obtain ⟨x, hx, hg⟩ := hg
    injection hg with hg
    rw [← hg]
    simp only at hp hx ⊢
    have hbd : ∀ j (hj : j < A.length), BusinessDay usFederalHolidays A[j] := by
      intro j hj
      have hg := List.forall₂_iff_get.1 (collect_ok.1 hA)
      have := (swap_adjust_paidOn (hg.2 j (by rw [hg.1]; exact hj) hj)).2
      rw [hterms, ht.calendar] at this
      simpa using this
    have hg' := List.forall₂_iff_get.1 hF
    have hmem : ∀ j (hj : j < L.reverse.length), L.reverse[j] ∈ L := fun j hj => List.mem_reverse.1 (List.getElem_mem hj)
    have g1 := hg'.2 i (by rw [hg'.1]; omega) (by omega)
    have g2 := hg'.2 (i + 1) (by rw [hg'.1]; omega) (by omega)
    simp only [List.get_eq_getElem] at g1 g2
    have m1 := hge _ (hmem i (by rw [hg'.1]; omega))
    rw [PyDate.le_iff] at m1
    have m2 : L.reverse[i + 1]'(by rw [hg'.1]; omega) ≤ s.endAccrual := by
      have hdec := months_chain_le hkpos hchain
      have hx := hmem (i + 1) (by rw [hg'.1]; omega)
      revert hx
      generalize L.reverse[i + 1]'(by rw [hg'.1]; omega) = z
      intro hx
      cases L with
      | nil => simp at hx
      | cons b bs =>
        have hb := h1 b rfl
        subst hb
        rcases List.mem_cons.1 hx with rfl | hx
        · exact le_refl _
        · exact le_of_lt ((List.pairwise_cons.1 hdec).1 z hx)
    rw [PyDate.le_iff] at m2
    refine ⟨⟨hbd _ _, hbd _ _, hp.1, hp.2, ?_⟩, ?_, ?_⟩
    · exact accrual_pos_of_long (by omega) hx
    · show s.startAccrual.ord ≤ A[i].ord + 4
      omega
    · show A[i + 1].ord ≤ s.endAccrual.ord + 3
      omega
  · intro hM hnil
    subst hnil
    have hlen := collect_length haccs
    rw [pairwise_length] at hlen
    have hAL : A.length = L.length := by rw [← hF.length_eq, List.length_reverse]
    have hL1 : L.length ≤ 1 := by simp at hlen; omega
    have hcut := h5 (by rw [show ((1000 : Int) + 1).toNat = 1001 from rfl]; omega)
    have hnp : ∀ x, NotPast false s.startAccrual x ↔ s.startAccrual ≤ x := by
      intro x; simp only [NotPast, Bool.false_eq_true, if_false]
    rcases hcut with ⟨-, hn⟩ | ⟨l, x, hl, hx, hn⟩
    · exact hn ((hnp _).2 hd.le)
    · cases L with
      | nil => simp at hl
      | cons b bs =>
        have hb := h1 b rfl
        subst hb
        have hbs : bs = [] := by
          cases bs with
          | nil => rfl
          | cons c cs => simp at hL1
        subst hbs
        simp only [List.getLast?_singleton, Option.some.injEq] at hl
        subst hl
        have hxm := addIncrement_months.1 hx
        refine hn ((hnp x).2 ?_)
        obtain ⟨e1, e2⟩ := PyDate.addMonths_ok.1 hd.months
        obtain ⟨f1, f2⟩ := PyDate.addMonths_ok.1 hxm
        rw [PyDate.le_iff_month]
        rcases hM with hM | ⟨hM, hday⟩
        · left; omega
        · right
          have d1 := PyDate.addMonths_day hd.months hday
          have d2 := PyDate.addMonths_day hxm (by omega)
          exact ⟨by omega, by omega⟩

/-- C120. On the US calendar a swap can be built and all its accruals computed: every period of either leg runs between two
business days, `k` months apart up to the adjustments, and has a positive accrual factor.  A leg has a period as soon as the tenor is
longer than its step, or equal to it with a start day up to the 28th. -/
theorem C120_periods (t : SwapTerms) (M kx kf : Int) (ht : UsSwap t M kx kf) :
    ∃ s fixedAccs floatAccs, Swap.create t = .ok s ∧ s.fixedAccruals = .ok fixedAccs ∧ s.floatAccruals = .ok floatAccs ∧
      (∀ a ∈ fixedAccs, UsPeriod a kx) ∧ (∀ a ∈ floatAccs, UsPeriod a kf) ∧
      (kx < M ∨ (kx = M ∧ s.startAccrual.day ≤ 28) → fixedAccs ≠ []) ∧
      (kf < M ∨ (kf = M ∧ s.startAccrual.day ≤ 28) → floatAccs ≠ []) := by
  obtain ⟨s, hs, hd⟩ := us_create ht
  obtain ⟨hterms, -, -, -⟩ := swap_create_ok hs
  obtain ⟨A, hA, hA1, hA2⟩ := us_schedule ht hs hd ht.fixedFrequency ht.fixedDcc
  obtain ⟨B, hB, hB1, hB2⟩ := us_schedule ht hs hd ht.floatFrequency ht.floatDcc
  refine ⟨s, A, B, hs, ?_, ?_, fun a ha => (hA1 a ha).1, fun a ha => (hB1 a ha).1, hA2, hB2⟩
  · unfold Swap.fixedAccruals; rw [hterms]; exact hA
  · unfold Swap.floatAccruals; rw [hterms]; exact hB

/-- The payment date of a period lies within 8 days before and 15 days after its end. -/
theorem us_payment {t : SwapTerms} {M kx kf k : Int} (ht : UsSwap t M kx kf) {s : Swap} (hs : Swap.create t = .ok s)
    (hd : UsDates s M) (hk : 3 ≤ k) {a : SwapAccrual}
    (ha : UsPeriod a k ∧ s.startAccrual.ord ≤ a.start.ord + 4 ∧ a.stop.ord ≤ s.endAccrual.ord + 3) :
    (∃ d, s.paymentDate a = .ok d ∧ a.stop.ord ≤ d.ord + 8) ∧
    ∃ d, calculateSettlementDate t.calendar a.start t.fixing = .ok d := by
  obtain ⟨hterms, -, -, -⟩ := swap_create_ok hs
  obtain ⟨hp, h1, h2⟩ := ha
  have := hp.lower
  have := hp.upper
  have := hd.early
  have := hd.late
  constructor
  · unfold Swap.paymentDate
    rw [hterms, ht.calendar]
    obtain ⟨d, hd1, hd2, -⟩ := us_settle a.stop t.paymentDelay ht.delay (by omega) (by omega)
    exact ⟨d, hd1, hd2⟩
  · rw [ht.calendar]
    obtain ⟨d, hd1, -⟩ := us_settle a.start t.fixing ht.fixing (by omega) (by omega)
    exact ⟨d, hd1⟩

theorem us_overnight {a : SwapAccrual} {k : Int} (hk : 3 ≤ k) (ha : UsPeriod a k) (hlate : a.stop.ord < PyDate.maxOrd) {rate : RateFn}
    {rr : PyDate → ℚ} (hr : ∀ d, rate d = .ok (rr d)) : ∃ q, Swap.annualizedRate usFederalHolidays rate a.start a.stop = .ok q := by
  have hl := ha.lower
  have hlt : a.start < a.stop := PyDate.lt_iff.2 (by omega)
  obtain ⟨L, hL⟩ := (C112_us_listable a.start a.stop hlt.le).2 hlate
  obtain ⟨-, hmem⟩ := C07_generate_business_days _ _ _ _ hL
  refine (C43_raises _ rate a.start a.stop L rr hL (fun d _ => hr d)).2 ?_
  have m1 := (hmem a.start).2 ⟨le_refl _, hlt.le, ha.start⟩
  have m2 := (hmem a.stop).2 ⟨hlt.le, le_refl _, ha.stop⟩
  by_contra hc
  match L, m1, m2 with
  | [], m1, _ => simp at m1
  | [x], m1, m2 =>
    simp only [List.mem_singleton] at m1 m2
    rw [m1, m2] at hlt
    exact lt_irrefl _ hlt
  | _ :: _ :: _, _, _ => simp at hc

/-- Everything there is to know about such a swap, its rates and a curve that can be evaluated everywhere. -/
theorem us_legs {t : SwapTerms} {M kx kf : Int} (ht : UsSwap t M kx kf) {rate : RateFn} {rr : PyDate → ℚ}
    (hr : ∀ d, rate d = .ok (rr d)) :
    ∃ s accs fx fl, ∃ pd : SwapAccrual → PyDate, Swap.create t = .ok s ∧ UsDates s M ∧ s.fixedAccruals = .ok accs ∧
      s.fixedCashflow = .ok fx ∧ s.floatCashflow rate = .ok fl ∧
      (∀ a ∈ accs, UsPeriod a kx ∧ s.paymentDate a = .ok (pd a) ∧ s.startAccrual ≤ pd a) ∧
      (kx < M ∨ (kx = M ∧ s.startAccrual.day ≤ 28) → accs ≠ []) := by
  classical
  obtain ⟨s, hs, hd⟩ := us_create ht
  obtain ⟨hterms, -, -, -⟩ := swap_create_ok hs
  obtain ⟨A, hA, hA1, hA2⟩ := us_schedule ht hs hd ht.fixedFrequency ht.fixedDcc
  obtain ⟨B, hB, hB1, hB2⟩ := us_schedule ht hs hd ht.floatFrequency ht.floatDcc
  have k3 : ∀ {f : PaymentFrequency} {k : Int}, couponMonths f = some k → 3 ≤ k := by
    intro f k hk
    cases f <;> simp only [couponMonths, reduceCtorEq] at hk <;> cases hk <;> decide
  have kx3 := k3 ht.fixedFrequency
  have kf3 := k3 ht.floatFrequency
  have hAc : s.fixedAccruals = .ok A := by unfold Swap.fixedAccruals; rw [hterms]; exact hA
  have hBc : s.floatAccruals = .ok B := by unfold Swap.floatAccruals; rw [hterms]; exact hB
  let pd : SwapAccrual → PyDate := fun a => match s.paymentDate a with | .ok d => d | .error _ => a.stop
  have hpd : ∀ a ∈ A, s.paymentDate a = .ok (pd a) ∧ s.startAccrual ≤ pd a := by
    intro a ha
    obtain ⟨⟨d, h1, h2⟩, -⟩ := us_payment ht hs hd kx3 (hA1 a ha)
    have hpa : pd a = d := by simp only [pd, h1]
    obtain ⟨hp, h3, -⟩ := hA1 a ha
    have := hp.lower
    rw [hpa]
    exact ⟨h1, PyDate.le_iff.2 (by omega)⟩
  have hfx := fixedCashflow_eq hAc (fun a ha => (hpd a ha).1)
  obtain ⟨ps, hps⟩ := collect_total (f := s.floatPayment rate) (l := B) (by
    intro a ha
    obtain ⟨⟨d, h1, h2⟩, ⟨x, hx⟩⟩ := us_payment ht hs hd kf3 (hB1 a ha)
    unfold Swap.floatPayment
    cases hcls : s.terms.cls with
    | term =>
      simp only [Swap.termPayment]
      rw [hterms, hx, ok_bind, hr, ok_bind, h1, ok_bind]
      exact ⟨_, rfl⟩
    | overnight =>
      simp only [Swap.overnightPayment]
      obtain ⟨q, hq⟩ := us_overnight kf3 (hB1 a ha).1 (by have := (hB1 a ha).2.2; have := hd.late; omega) hr
      rw [h1, ok_bind, hterms, ht.calendar, hq, ok_bind]
      exact ⟨_, rfl⟩)
  refine ⟨s, A, _, Cashflow.create ps, pd, hs, hd, hAc, hfx, ?_, fun a ha => ⟨(hA1 a ha).1, hpd a ha⟩, hA2⟩
  unfold Swap.floatCashflow
  rw [hBc, ok_bind, hps, ok_bind]

theorem present_value_total (cf : List Payment) (hcf : ∃ ps, cf = Cashflow.create ps) (curve : DiscountFn)
    (h : ∀ d, ∃ x, curve.call d = .ok x) : ∃ v, Cashflow.presentValue cf curve = .ok v := by
  obtain ⟨ps, rfl⟩ := hcf
  choose df hdf using h
  exact ⟨_, C19_present_value ps curve df (fun p _ _ _ => hdf _)⟩

/-- C120. On the US calendar both legs can be generated and the swap valued, term and overnight swaps alike, whenever the rates and
the discount curve can be evaluated. -/
theorem C120_valued (t : SwapTerms) (M kx kf : Int) (ht : UsSwap t M kx kf) (rate : RateFn) (hr : ∀ d, ∃ q, rate d = .ok q)
    (curve : DiscountFn) (hc : ∀ d, ∃ x, curve.call d = .ok x) :
    ∃ s fx fl v, Swap.create t = .ok s ∧ (∀ set, (s.generateFixedLeg set).1 = .ok fx) ∧
      (∀ set, (s.generateFloatLeg rate set).1 = .ok fl) ∧ swapWorth s rate curve = .ok v := by
  choose rr hrr using hr
  obtain ⟨s, accs, fx, fl, pd, hs, hd, hA, hfx, hfl, -, -⟩ := us_legs ht hrr
  have hfx' : ∃ ps, fx = Cashflow.create ps := by
    unfold Swap.fixedCashflow at hfx
    rw [hA, ok_bind, bind_ok] at hfx
    obtain ⟨ps, -, h⟩ := hfx
    injection h with h
    exact ⟨ps, h.symm⟩
  have hfl' : ∃ ps, fl = Cashflow.create ps := by
    unfold Swap.floatCashflow at hfl
    rw [bind_ok] at hfl
    obtain ⟨B, -, hfl⟩ := hfl
    rw [bind_ok] at hfl
    obtain ⟨ps, -, h⟩ := hfl
    injection h with h
    exact ⟨ps, h.symm⟩
  obtain ⟨F, hF⟩ := present_value_total fx hfx' curve hc
  obtain ⟨G, hG⟩ := present_value_total fl hfl' curve hc
  refine ⟨s, fx, fl, if t.direction = .receiverFixed then F - G else G - F, hs, ?_, ?_, ?_⟩
  · intro set; unfold Swap.generateFixedLeg; rw [hfx]
  · intro set; unfold Swap.generateFloatLeg; rw [hfl]
  · rw [swapWorth_eq hs, hfx, hfl]
    simp only [Except.toOption, swapValue]
    rw [hG, ok_bind, hF, ok_bind]

/-- C120. On the US calendar the par rate exists and is unique: with a positive curve starting no later than the accrual, a nonzero
notional and at least one fixed period, `implied_rate` returns a rate, and it is the only fixed rate at which the swap is worth zero,
for the payer as for the receiver. -/
theorem C120_par (t : SwapTerms) (M kx kf : Int) (ht : UsSwap t M kx kf) (rate : RateFn) (hr : ∀ d, ∃ q, rate d = .ok q)
    (curve : DiscountFn) (hc : ∀ d, ∃ x, curve.call d = .ok x ∧ 0 < x) (hN : t.notional ≠ 0) (s : Swap) (hs : Swap.create t = .ok s)
    (hone : kx < M ∨ (kx = M ∧ s.startAccrual.day ≤ 28)) (href : curve.referenceDate ≤ s.startAccrual) :
    ∃ r, (∀ set, (s.impliedRate curve rate set).1 = .ok r) ∧
      ∀ (dir : SwapDirection) (r' : ℚ), ∃ s', Swap.create (reterm t dir r' t.notional) = .ok s' ∧
        (swapWorth s' rate curve = .ok 0 ↔ r' = r) := by
  have hct : ∀ d, ∃ x, curve.call d = .ok x := fun d => (hc d).imp fun _ h => h.1
  obtain ⟨s1, fx1, fl1, v, hs1, -, -, hv⟩ := C120_valued t M kx kf ht rate hr curve hct
  rw [hs] at hs1; injection hs1 with hs1; subst hs1
  have hrr := hr
  choose rr hrr using hrr
  choose df hdf hpos using hc
  obtain ⟨s2, accs, fx, fl, pd, hs2, hd, hA, hfx, hfl, hall, hne⟩ := us_legs ht hrr
  rw [hs] at hs2; injection hs2 with hs2; subst hs2
  obtain ⟨hterms, -, -, -⟩ := swap_create_ok hs
  have hne := hne hone
  -- the annuity
  have hann : 0 < (accs.map (fun a => df (pd a) * a.factor)).sum := by
    apply List.sum_pos
    · intro x hx
      obtain ⟨a, ha, rfl⟩ := List.mem_map.1 hx
      exact mul_pos (hpos _) (hall a ha).1.factor
    · simpa using hne
  have hfl' : ∃ ps, fl = Cashflow.create ps := by
    unfold Swap.floatCashflow at hfl
    rw [bind_ok] at hfl
    obtain ⟨B, -, hfl⟩ := hfl
    rw [bind_ok] at hfl
    obtain ⟨ps, -, h⟩ := hfl
    injection h with h
    exact ⟨ps, h.symm⟩
  obtain ⟨G, hG⟩ := present_value_total fl hfl' curve hct
  set Ann : ℚ := (accs.map (fun a => df (pd a) * (a.factor * s.terms.notional))).sum with hAnn
  have hAnnN : Ann = t.notional * (accs.map (fun a => df (pd a) * a.factor)).sum := by
    rw [hAnn, ← List.sum_map_mul_left]
    congr 1
    apply List.map_congr_left
    intro a _
    rw [hterms]; ring
  have hA0 : Ann ≠ 0 := by rw [hAnnN]; exact mul_ne_zero hN hann.ne'
  have himp : ∀ set, (s.impliedRate curve rate set).1 = .ok (G / Ann) := by
    intro set
    unfold Swap.impliedRate Swap.generateFloatLeg
    rw [hfl]
    have hst : ∀ cf, (s.store set Swap.floatKey cf).rateFromFloat curve fl = s.rateFromFloat curve fl := by
      intro cf; unfold Swap.store; cases set <;> rfl
    show (s.store set Swap.floatKey fl).rateFromFloat curve fl = .ok (G / Ann)
    rw [hst]
    unfold Swap.rateFromFloat
    rw [hG, ok_bind, hA, ok_bind, pySum_ok (g := fun a => df (pd a) * (a.factor * s.terms.notional)), ok_bind, pyDiv_ok]
    · exact ⟨hA0, rfl⟩
    · intro a ha
      unfold Swap.discountedAccrual
      rw [(hall a ha).2.1, ok_bind, hdf, ok_bind]
  refine ⟨G / Ann, himp, ?_⟩
  intro dir r'
  have hs' := reterm_create hs dir r' t.notional
  refine ⟨_, hs', ?_⟩
  rw [swapWorth_eq hs']
  have hA' : (⟨reterm t dir r' t.notional, s.startAccrual, s.endAccrual, s.legs⟩ : Swap).fixedAccruals = .ok accs := by
    rw [← hA]; unfold Swap.fixedAccruals; rw [hterms]; subst hterms; rfl
  have hp' : ∀ a ∈ accs, (⟨reterm t dir r' t.notional, s.startAccrual, s.endAccrual, s.legs⟩ : Swap).paymentDate a = .ok (pd a) := by
    intro a ha; rw [← (hall a ha).2.1]; unfold Swap.paymentDate; subst hterms; rfl
  have hfl2 : (⟨reterm t dir r' t.notional, s.startAccrual, s.endAccrual, s.legs⟩ : Swap).floatCashflow rate = .ok fl := by
    rw [← hfl]; subst hterms; rfl
  rw [fixedCashflow_eq hA' hp', hfl2]
  simp only [Except.toOption, swapValue]
  rw [hG, ok_bind, C19_present_value _ curve df (fun p _ _ _ => hdf _), ok_bind]
  have hF : ((accs.map fun a => (⟨pd a, some (a.factor * (reterm t dir r' t.notional).notional *
      (reterm t dir r' t.notional).fixedRate)⟩ : Payment)).map (contribution curve.referenceDate df)).sum = r' * Ann := by
    rw [hAnn, ← List.sum_map_mul_left, List.map_map]
    congr 1
    apply List.map_congr_left
    intro a ha
    simp only [Function.comp, contribution]
    rw [if_pos (le_trans href (hall a ha).2.2), hterms]
    show df (pd a) * (a.factor * t.notional * r') = _
    ring
  rw [hF]
  have hiff : ∀ x : ℚ, (Except.ok x : Except PyErr ℚ) = .ok 0 ↔ x = 0 := fun x => ⟨fun h => by injection h, fun h => by rw [h]⟩
  rw [hiff, eq_div_iff hA0]
  split_ifs
  · rw [sub_eq_zero]
  · rw [sub_eq_zero, eq_comm]

/-- C120. On any calendar an accrual factor is never negative, except under 30/360 from 28 to 29 February of one leap year. -/
theorem C120_factor_nonneg (s : Swap) (f : PaymentFrequency) (dcc : DayCountConvention) (accs : List SwapAccrual)
    (h : s.accrualSchedule f dcc = .ok accs) (a : SwapAccrual) (ha : a ∈ accs) :
    a.start ≤ a.stop ∧ (dcc ≠ .thirty360 ∨ ¬ (a.start.month = 2 ∧ a.start.day = 28 ∧ a.stop.year = a.start.year ∧
      a.stop.month = 2 ∧ a.stop.day = 29) → 0 ≤ a.factor) := by
  unfold Swap.accrualSchedule at h
  rw [bind_ok] at h; obtain ⟨inc, -, h⟩ := h
  rw [bind_ok] at h; obtain ⟨L, -, h⟩ := h
  rw [bind_ok] at h; obtain ⟨A, -, h⟩ := h
  obtain ⟨p, hp⟩ : ∃ p, Swap.accrualOf dcc p = .ok a := by
    obtain ⟨i, hi, rfl⟩ := List.getElem_of_mem ha
    have hg := List.forall₂_iff_get.1 (collect_ok.1 h)
    exact ⟨_, hg.2 i (by rw [hg.1]; exact hi) hi⟩
  unfold Swap.accrualOf at hp
  rw [bind_ok] at hp; obtain ⟨x, hx, hp⟩ := hp
  injection hp with hp
  rw [← hp]
  simp only
  have hle : p.1 ≤ p.2 := by
    by_contra hc
    rw [accrual_gt (not_le.1 hc)] at hx
    cases hx
  refine ⟨hle, fun hor => ?_⟩
  by_cases h30 : dcc = .thirty360
  · subst h30
    obtain ⟨y, hy, hy0⟩ := C15_nonneg_partial p.1 p.2 hle (hor.resolve_left (fun hn => hn rfl))
    rw [hy] at hx; injection hx with hx; rw [← hx]; exact hy0
  · obtain ⟨τ, hτ⟩ : ∃ τ, timeAxis dcc = some τ := by
      cases dcc with
      | thirty360 => exact absurd rfl h30
      | unknown => rw [accrual_eq hle] at hx; cases hx
      | _ => exact ⟨_, rfl⟩
    by_cases hok : AxisOk dcc p.1
    · rw [accrual_axis hτ hle hok] at hx
      injection hx with hx
      rw [← hx]
      exact sub_nonneg.2 (axis_mono hτ hle)
    · exfalso
      unfold AxisOk at hok
      push Not at hok
      obtain ⟨rfl, hy⟩ := hok
      have := p.1.bounds
      rw [C14_year_one p.1 p.2 hle (by omega)] at hx
      cases hx

/-- The one-year swap of the other examples, on the US calendar: bought on Martin Luther King Day 2024. -/
def exUs : SwapTerms := { exSwap with calendar := usFederalHolidays, cls := .overnight }

def exUs0 : Swap := ⟨exUs, D 2024 1 18, D 2025 1 18, CashflowCollection.create [none, none] [Swap.fixedKey, Swap.floatKey]⟩

theorem exUs_create : Swap.create exUs = .ok exUs0 := by
  have h1 : calculateSettlementDate exUs.calendar exUs.purchaseDate exUs.settlementConvention = .ok (D 2024 1 18) := by
    decide +kernel
  have h2 : exUs.endAccrual (D 2024 1 18) = .ok (D 2025 1 18) := by decide +kernel
  unfold Swap.create
  rw [h1, ok_bind, h2, ok_bind]
  rfl

/-- Concrete case for C120: an overnight swap bought on a holiday; its last period ends on Monday 20 January 2025, since the
18th is a Saturday (the calendar misses Martin Luther King Day 2025, see C11). -/
example : UsSwap exUs 12 6 3 ∧ (6 : Int) < 12 ∧ exUs.notional ≠ 0 ∧ Swap.create exUs = .ok exUs0 ∧
    (∀ d, ∃ q, exRate d = .ok q) ∧ (∀ d, ∃ x, (unitCurve (D 2024 1 15)).call d = .ok x ∧ 0 < x) ∧
    (unitCurve (D 2024 1 15)).referenceDate ≤ exUs0.startAccrual ∧
    exUs0.fixedAccruals = .ok [⟨D 2024 1 18, D 2024 7 18, 1 / 2⟩, ⟨D 2024 7 18, D 2025 1 20, 91 / 180⟩] := by
  refine ⟨⟨rfl, by decide, by unfold WithinRange; decide +kernel, by unfold BusinessConvention; decide, by unfold BusinessConvention; decide, by unfold BusinessConvention; decide, rfl, rfl, by decide, by decide⟩,
    by decide, by decide +kernel, exUs_create, fun d => ⟨_, rfl⟩, fun d => ⟨1, rfl, by norm_num⟩, by decide +kernel, by decide +kernel⟩

end Verif.Props
