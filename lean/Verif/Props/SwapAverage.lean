/- Property C125: the implied rate is an average of the floating rates. -/
import Verif.Props.SwapFloating

namespace Verif.Props
open Verif.Spec Scheduler

/-- Both legs of a swap have the same payment frequency and day count. -/
def SameLegs (t : SwapTerms) : Prop := t.floatFrequency = t.fixedFrequency ∧ t.floatDcc = t.fixedDcc

theorem sameLegs_accruals {s : Swap} (h : SameLegs s.terms) : s.floatAccruals = s.fixedAccruals := by
  unfold Swap.floatAccruals Swap.fixedAccruals
  rw [h.1, h.2]

/-- What the implied rate of a swap with equal legs is: the average of the floating rates of the periods, weighted with the
discounted accrual factors. -/
theorem implied_weighted {s : Swap} {curve : DiscountFn} {rate : RateFn} {set : Bool} {r : ℚ} (hsame : SameLegs s.terms)
    (hdates : ∀ accs, s.fixedAccruals = .ok accs → ∀ a ∈ accs, ∀ d, s.paymentDate a = .ok d → curve.referenceDate ≤ d)
    (h : (s.impliedRate curve rate set).1 = .ok r) :
    ∃ (accs : List SwapAccrual) (pd : SwapAccrual → PyDate) (q : SwapAccrual → ℚ) (df : PyDate → ℚ),
      s.fixedAccruals = .ok accs ∧
      (∀ a ∈ accs, s.paymentDate a = .ok (pd a) ∧ curve.call (pd a) = .ok (df (pd a)) ∧
        s.floatPayment rate a = .ok ⟨pd a, some (a.factor * s.terms.notional * q a)⟩) ∧
      (accs.map (fun a => df (pd a) * (a.factor * s.terms.notional))).sum ≠ 0 ∧
      r = (accs.map (fun a => df (pd a) * (a.factor * s.terms.notional) * q a)).sum /
        (accs.map (fun a => df (pd a) * (a.factor * s.terms.notional))).sum := by
  obtain ⟨fl, y, accs, pd, df, h1, h2, h3, h4, h5, h6, h7⟩ := impliedRate_ok h
  obtain ⟨B, pe, q, hB, hpe, hq, rfl⟩ := float_parts h1
  rw [sameLegs_accruals hsame, h3] at hB
  injection hB with hB
  subst hB
  have hpp : ∀ a ∈ accs, pe a = pd a := by
    intro a ha
    have e1 := (h5 a ha).1
    rw [hpe a ha] at e1; injection e1 with e1
  refine ⟨accs, pd, q, df, h3, fun a ha => ⟨(h5 a ha).1, (h5 a ha).2, ?_⟩, h6, ?_⟩
  · have := hq a ha s.terms.direction s.terms.fixedRate s.terms.notional
    rw [← hpp a ha]; exact this
  · rw [h7]
    congr 1
    rw [leg_value curve df pe q accs s.terms.notional (fun a ha _ => by rw [hpp a ha]; exact (h5 a ha).2)] at h2
    injection h2 with h2
    rw [← h2]
    unfold discountedLeg
    rw [← List.sum_map_mul_left]
    congr 1
    refine List.map_congr_left (fun a ha => ?_)
    rw [if_pos (hdates accs h3 a ha _ (hpe a ha)), hpp a ha]
    ring

/-- A weighted average with nonnegative weights lies between bounds of the values. -/
theorem weighted_bounds {α : Type} (l : List α) (w q : α → ℚ) (hw : ∀ a ∈ l, 0 ≤ w a) (h0 : (l.map w).sum ≠ 0) (lo hi : ℚ)
    (hlo : ∀ a ∈ l, lo ≤ q a) :
    lo ≤ (l.map (fun a => w a * q a)).sum / (l.map w).sum ∧
    ((∀ a ∈ l, q a ≤ hi) → (l.map (fun a => w a * q a)).sum / (l.map w).sum ≤ hi) := by
  have hpos : 0 < (l.map w).sum := lt_of_le_of_ne (List.sum_nonneg (fun z hz => by
    obtain ⟨a, ha, rfl⟩ := List.mem_map.1 hz
    exact hw a ha)) (Ne.symm h0)
  constructor
  · rw [le_div_iff₀ hpos, ← List.sum_map_mul_left]
    refine List.sum_le_sum (fun a ha => ?_)
    have := mul_le_mul_of_nonneg_left (hlo a ha) (hw a ha)
    linarith
  · intro hhi
    rw [div_le_iff₀ hpos, ← List.sum_map_mul_left]
    refine List.sum_le_sum (fun a ha => ?_)
    have := mul_le_mul_of_nonneg_left (hhi a ha) (hw a ha)
    linarith

/-- C125. The implied rate of a term swap with equal legs lies between any bounds of the floating rates; that of an overnight swap
is at least any nonnegative lower bound of the daily rates. The reference date must not be after a payment; discount factors,
accrual factors and the notional must not be negative. -/
theorem C125_bounds (t : SwapTerms) (s : Swap) (hs : Swap.create t = .ok s) (hsame : SameLegs t) (curve : DiscountFn) (rate : RateFn)
    (hcurve : ∀ d x, curve.call d = .ok x → 0 ≤ x)
    (hfac : ∀ accs, s.fixedAccruals = .ok accs → ∀ a ∈ accs, 0 ≤ a.factor) (hN : 0 ≤ t.notional)
    (hdates : ∀ accs, s.fixedAccruals = .ok accs → ∀ a ∈ accs, ∀ d, s.paymentDate a = .ok d → curve.referenceDate ≤ d)
    (lo hi : ℚ) (hlo : ∀ d x, rate d = .ok x → lo ≤ x) (hhi : ∀ d x, rate d = .ok x → x ≤ hi) (set : Bool) (r : ℚ)
    (hr : (s.impliedRate curve rate set).1 = .ok r) :
    (t.cls = .term → lo ≤ r ∧ r ≤ hi) ∧ (t.cls = .overnight → 0 ≤ lo → lo ≤ r) := by
  obtain ⟨hterms, -, -, -⟩ := swap_create_ok hs
  subst hterms
  obtain ⟨accs, pd, q, df, hA, hall, h0, rfl⟩ := implied_weighted hsame hdates hr
  have hw : ∀ a ∈ accs, 0 ≤ df (pd a) * (a.factor * s.terms.notional) := fun a ha =>
    mul_nonneg (hcurve _ _ (hall a ha).2.1) (mul_nonneg (hfac accs hA a ha) hN)
  -- the observed rates; periods without weight do not count
  constructor
  · intro hcls
    let q' : SwapAccrual → ℚ := fun a =>
      if a.factor * s.terms.notional = 0 then lo else q a
    have hq' : (accs.map (fun a => df (pd a) * (a.factor * s.terms.notional) * q a)).sum =
        (accs.map (fun a => df (pd a) * (a.factor * s.terms.notional) * q' a)).sum := by
      congr 1
      refine List.map_congr_left (fun a _ => ?_)
      simp only [q']
      split_ifs with hz
      · rw [hz]; ring
      · rfl
    rw [hq']
    have hrate : ∀ a ∈ accs, a.factor * s.terms.notional ≠ 0 → ∃ d, rate d = .ok (q a) := by
      intro a ha hne
      have := (hall a ha).2.2
      unfold Swap.floatPayment at this
      rw [hcls] at this
      simp only [Swap.termPayment] at this
      rw [bind_ok] at this; obtain ⟨f, -, this⟩ := this
      rw [bind_ok] at this; obtain ⟨x, hx, this⟩ := this
      rw [bind_ok] at this; obtain ⟨d, -, this⟩ := this
      injection this with this
      injection this with _ this
      injection this with this
      exact ⟨f, by rw [hx, mul_left_cancel₀ hne this]⟩
    have hne_bound : lo ≤ hi := by
      obtain ⟨a, ha⟩ := List.exists_mem_of_ne_nil accs (by rintro rfl; simp at h0)
      have := (hall a ha).2.2
      unfold Swap.floatPayment at this
      rw [hcls] at this
      simp only [Swap.termPayment] at this
      rw [bind_ok] at this; obtain ⟨f, -, this⟩ := this
      rw [bind_ok] at this; obtain ⟨x, hx, -⟩ := this
      exact (hlo f x hx).trans (hhi f x hx)
    have hb := weighted_bounds accs (fun a => df (pd a) * (a.factor * s.terms.notional)) q' hw h0 lo hi (by
      intro a ha
      simp only [q']
      split_ifs with hz
      · exact le_rfl
      · obtain ⟨d, hd⟩ := hrate a ha hz; exact hlo d _ hd)
    exact ⟨hb.1, hb.2 (by
      intro a ha
      simp only [q']
      split_ifs with hz
      · exact hne_bound
      · obtain ⟨d, hd⟩ := hrate a ha hz; exact hhi d _ hd)⟩
  · intro hcls hlo0
    let q' : SwapAccrual → ℚ := fun a =>
      if a.factor * s.terms.notional = 0 then lo else q a
    have hq' : (accs.map (fun a => df (pd a) * (a.factor * s.terms.notional) * q a)).sum =
        (accs.map (fun a => df (pd a) * (a.factor * s.terms.notional) * q' a)).sum := by
      congr 1
      refine List.map_congr_left (fun a _ => ?_)
      simp only [q']
      split_ifs with hz
      · rw [hz]; ring
      · rfl
    rw [hq']
    refine (weighted_bounds accs (fun a => df (pd a) * (a.factor * s.terms.notional)) q' hw h0 lo hi ?_).1
    intro a ha
    simp only [q']
    split_ifs with hz
    · exact le_rfl
    · have := (hall a ha).2.2
      unfold Swap.floatPayment at this
      rw [hcls] at this
      simp only [Swap.overnightPayment] at this
      rw [bind_ok] at this; obtain ⟨d, -, this⟩ := this
      rw [bind_ok] at this; obtain ⟨x, hx, this⟩ := this
      injection this with this
      injection this with _ this
      injection this with this
      have hxq : x = q a := mul_left_cancel₀ hz this
      subst hxq
      let rr : PyDate → ℚ := fun d => match rate d with | .ok x => x | .error _ => lo
      have hrr0 : ∀ d, lo ≤ rr d := by
        intro d
        cases hd : rate d with
        | ok x => simp only [rr, hd]; exact hlo d x hd
        | error e => simp only [rr, hd]; exact le_rfl
      obtain ⟨L, hp, -, hpos, hav⟩ := C43_at_least_average _ rate _ _ (q a) rr (by intro d y hy; simp only [rr, hy])
        (fun d => hlo0.trans (hrr0 d)) hx
      refine le_trans ?_ hav
      rw [le_div_iff₀ hpos]
      clear hav hpos hx
      induction L with
      | nil => simp [sumPairs]
      | cons x L ih =>
        cases L with
        | nil => simp [sumPairs]
        | cons y L =>
          have := ih hp.of_cons
          have hxy : x < y := (List.pairwise_cons.1 hp).1 y List.mem_cons_self
          have hacc : 0 ≤ act360 x y := by
            unfold act360
            have : x.ord < y.ord := hxy
            apply div_nonneg _ (by norm_num)
            exact_mod_cast (sub_pos.2 this).le
          have h3 := mul_le_mul_of_nonneg_right (hrr0 x) hacc
          show lo * (act360 x y + sumPairs act360 (y :: L)) ≤ rr x * act360 x y + sumPairs _ (y :: L)
          linarith

/-- C125. A flat floating rate is its own implied rate, if the reference date is not after a payment; and at any reference date a
term swap with equal legs struck at the floating rate is worth nothing, whatever the discount factors. -/
theorem C125_flat (t : SwapTerms) (s : Swap) (hs : Swap.create t = .ok s) (hsame : SameLegs t) (hcls : t.cls = .term)
    (curve : DiscountFn) (c : ℚ) :
    ((∀ accs, s.fixedAccruals = .ok accs → ∀ a ∈ accs, ∀ d, s.paymentDate a = .ok d → curve.referenceDate ≤ d) → ∀ set r, (s.impliedRate curve (fun _ => .ok c) set).1 = .ok r → r = c) ∧
    ∀ s' v, Swap.create (reterm t t.direction c t.notional) = .ok s' → swapWorth s' (fun _ => .ok c) curve = .ok v → v = 0 := by
  obtain ⟨hterms, -, -, -⟩ := swap_create_ok hs
  subst hterms
  have hpay : ∀ (a : SwapAccrual) (d : PyDate) (q : ℚ),
      s.floatPayment (fun _ => .ok c) a = .ok ⟨d, some (a.factor * s.terms.notional * q)⟩ →
      a.factor * s.terms.notional * q = a.factor * s.terms.notional * c := by
    intro a d q this
    unfold Swap.floatPayment at this
    rw [hcls] at this
    simp only [Swap.termPayment] at this
    rw [bind_ok] at this; obtain ⟨f, -, this⟩ := this
    rw [ok_bind, bind_ok] at this; obtain ⟨e, -, this⟩ := this
    injection this with this
    injection this with _ this
    injection this with this
    exact this.symm
  constructor
  · intro hdates set r hr
    obtain ⟨accs, pd, q, df, hA, hall, h0, rfl⟩ := implied_weighted hsame hdates hr
    rw [div_eq_iff h0, ← List.sum_map_mul_left]
    congr 1
    refine List.map_congr_left (fun a ha => ?_)
    have := hpay a _ _ (hall a ha).2.2
    calc df (pd a) * (a.factor * s.terms.notional) * q a = df (pd a) * (a.factor * s.terms.notional * q a) := by ring
      _ = _ := by rw [this]; ring
  · intro s' v hs' hv
    obtain ⟨A, B, pd, pd', q, df, hA, hB, hpd, hpd', hval⟩ := C106_value _ s' hs' curve (fun _ => .ok c) v hv
    obtain ⟨s'', e1, e2⟩ := hval s.terms.direction c s.terms.notional
    rw [show reterm (reterm s.terms s.terms.direction c s.terms.notional) s.terms.direction c s.terms.notional =
      reterm s.terms s.terms.direction c s.terms.notional from rfl, hs'] at e1
    injection e1 with e1
    subst e1
    rw [hv] at e2
    injection e2 with e2
    rw [reterm_create hs] at hs'
    injection hs' with hs'
    subst hs'
    have hAB : A = B := by
      have : (⟨reterm s.terms s.terms.direction c s.terms.notional, s.startAccrual, s.endAccrual, s.legs⟩ : Swap).floatAccruals =
        (⟨reterm s.terms s.terms.direction c s.terms.notional, s.startAccrual, s.endAccrual, s.legs⟩ : Swap).fixedAccruals :=
        sameLegs_accruals hsame
      rw [hA, hB] at this
      injection this with this
      exact this.symm
    subst hAB
    have key : c * (s.terms.notional * discountedLeg curve.referenceDate df pd (fun _ => 1) A) =
        s.terms.notional * discountedLeg curve.referenceDate df pd' q A := by
      unfold discountedLeg
      rw [← List.sum_map_mul_left, ← List.sum_map_mul_left, ← List.sum_map_mul_left]
      congr 1
      refine List.map_congr_left (fun a ha => ?_)
      have hpp : pd a = pd' a := by
        have := (hpd a ha).1
        rw [(hpd' a ha).1] at this; injection this with this; exact this.symm
      have hq := hpay a _ _ (hpd' a ha).2.2
      rw [hpp]
      split_ifs
      · calc c * (s.terms.notional * (a.factor * 1 * df (pd' a))) = (a.factor * s.terms.notional * c) * df (pd' a) := by ring
          _ = (a.factor * s.terms.notional * q a) * df (pd' a) := by rw [hq]
          _ = _ := by ring
      · ring
    rw [e2]
    have : s.terms.notional * (c * discountedLeg curve.referenceDate df pd (fun _ => 1) A -
        discountedLeg curve.referenceDate df pd' q A) = 0 := by linarith
    split_ifs
    · rw [one_mul]; exact this
    · linarith

/-- C125. An overnight swap on its own forward curve: where the daily rates are the forward rates of the discount curve, an actual/360
leg paid without delay has the textbook implied rate, (discount factor at the start − at the end) over the annuity. -/
theorem C125_par_formula (t : SwapTerms) (s : Swap) (hs : Swap.create t = .ok s) (hcls : t.cls = .overnight)
    (hdcc : t.floatDcc = .act360) (hdelay : t.paymentDelay = .tPlusZeroBusiness) (k : Int)
    (hk : couponMonths t.floatFrequency = some k) (P rr : PyDate → ℚ) (hP : ∀ d, P d ≠ 0) (hfwd : ForwardOf t.calendar P rr)
    (curve : DiscountFn) (hcurve : ∀ d, curve.call d = .ok (P d)) (rate : RateFn) (hrate : ∀ d, rate d = .ok (rr d))
    (floatAccs fixedAccs : List SwapAccrual) (hacc : s.floatAccruals = .ok floatAccs) (hfix : s.fixedAccruals = .ok fixedAccs)
    (first last : SwapAccrual) (hfirst : floatAccs.head? = some first) (hlast : floatAccs.getLast? = some last)
    (hdates : ∀ fl, s.floatCashflow rate = .ok fl → ∀ p ∈ fl, curve.referenceDate ≤ p.date) (set : Bool) (r : ℚ)
    (hr : (s.impliedRate curve rate set).1 = .ok r) :
    ∃ pd : SwapAccrual → PyDate, (∀ a ∈ fixedAccs, SettlesOn t.calendar a.stop .tPlusZeroBusiness (pd a)) ∧
      r * (fixedAccs.map (fun a => a.factor * P (pd a))).sum = P first.start - P last.stop := by
  obtain ⟨hterms, -, -, -⟩ := swap_create_ok hs
  obtain ⟨fl, y, accs, pd, df, h1, h2, h3, h4, h5, h6, h7⟩ := impliedRate_ok hr
  rw [hfix] at h3; injection h3 with h3; subst h3
  have hy := C54_floating_leg_par t s hs hcls hdcc hdelay k hk P rr hP hfwd curve hcurve rate hrate floatAccs hacc first last
    hfirst hlast fl h1 (hdates fl h1)
  rw [h2] at hy; injection hy with hy
  have hA : (fixedAccs.map (fun a => df (pd a) * (a.factor * s.terms.notional))).sum =
      t.notional * (fixedAccs.map (fun a => a.factor * P (pd a))).sum := by
    rw [← List.sum_map_mul_left]
    congr 1
    refine List.map_congr_left (fun a _ => ?_)
    rw [h4 _ _ (hcurve (pd a)), hterms]; ring
  refine ⟨pd, fun a ha => ?_, ?_⟩
  · have := (h5 a ha).1
    unfold Swap.paymentDate at this
    rw [hterms, hdelay] at this
    exact C62_settles _ _ _ _ this
  · rw [hA] at h6 h7
    have hN : t.notional ≠ 0 := left_ne_zero_of_mul h6
    rw [h7, hy, div_mul_eq_mul_div, div_eq_iff h6]
    ring

/-- C125. On the US federal holiday calendar the provisos hold by themselves: a swap with equal legs of more than one period has
an implied rate, between the bounds of the floating rates if it is a term swap (at least the lower bound if it is an overnight swap
and the bound is not negative), and equal to the floating rate of a term swap if that is flat. -/
theorem C125_us (t : SwapTerms) (M k : Int) (ht : UsSwap t M k k) (hdcc : t.floatDcc = t.fixedDcc)
    (hfreq : t.floatFrequency = t.fixedFrequency) (rate : RateFn)
    (lo hi : ℚ) (hrate : ∀ d, ∃ x, rate d = .ok x ∧ lo ≤ x ∧ x ≤ hi) (curve : DiscountFn)
    (hc : ∀ d, ∃ x, curve.call d = .ok x ∧ 0 < x) (hN : 0 < t.notional) (s : Swap) (hs : Swap.create t = .ok s)
    (hone : k < M ∨ (k = M ∧ s.startAccrual.day ≤ 28)) (href : curve.referenceDate ≤ s.startAccrual) :
    ∃ r, (∀ set, (s.impliedRate curve rate set).1 = .ok r) ∧ (t.cls = .term → lo ≤ r ∧ r ≤ hi) ∧
      (t.cls = .overnight → 0 ≤ lo → lo ≤ r) := by
  obtain ⟨r, hr, -⟩ := C120_par t M k k ht rate (fun d => (hrate d).imp fun _ h => h.1) curve hc hN.ne' s hs hone href
  obtain ⟨s1, A, B, hs1, hA, hB, hAp, -, -, -⟩ := C120_periods t M k k ht
  rw [hs] at hs1; injection hs1 with hs1; subst hs1
  obtain ⟨s1, accs, fx, fl, pd, hs1, hd, hA1, -, -, hall, -⟩ := us_legs ht (rate := fun _ => .ok 0) (rr := fun _ => 0) (fun _ => rfl)
  rw [hs] at hs1; injection hs1 with hs1; subst hs1
  have hcp : ∀ d x, curve.call d = .ok x → 0 ≤ x := by
    intro d x hx
    obtain ⟨y, hy, hp⟩ := hc d
    rw [hx] at hy; injection hy with hy; rw [hy]; exact hp.le
  have hle : ∀ d x, rate d = .ok x → lo ≤ x ∧ x ≤ hi := by
    intro d x hx
    obtain ⟨y, hy, h1, h2⟩ := hrate d
    rw [hx] at hy; injection hy with hy; rw [hy]; exact ⟨h1, h2⟩
  refine ⟨r, hr, ?_⟩
  refine C125_bounds t s hs ⟨hfreq, hdcc⟩ curve rate hcp ?_ hN.le ?_ lo hi (fun d x h => (hle d x h).1) (fun d x h => (hle d x h).2)
    true r (hr true)
  · intro accs' h' a ha
    rw [hA1] at h'; injection h' with h'; subst h'
    exact (hall a ha).1.factor.le
  · intro accs' h' a ha d hd'
    rw [hA1] at h'; injection h' with h'; subst h'
    obtain ⟨-, e1, e2⟩ := hall a ha
    rw [hd'] at e1; injection e1 with e1
    rw [e1]; exact href.trans e2

/-- A swap with equal legs: the term swap of the examples on the US calendar, both legs semiannual actual/360. -/
def exEqual : SwapTerms :=
  { exSwap with calendar := usFederalHolidays, cls := .term, floatFrequency := exSwap.fixedFrequency, floatDcc := exSwap.fixedDcc }

/-- Concrete case for C125: its hypotheses hold, and with rates of 3 and then 4 percent its implied rate is between them. -/
example : UsSwap exEqual 12 6 6 ∧ SameLegs exEqual ∧ (6 : Int) < 12 ∧ 0 < exEqual.notional ∧
    (∀ d, ∃ x, exRate d = .ok x ∧ 3 / 100 ≤ x ∧ x ≤ 4 / 100) := by
  refine ⟨⟨rfl, by decide, by unfold WithinRange; decide +kernel, by unfold BusinessConvention; decide, by unfold BusinessConvention; decide, by unfold BusinessConvention; decide, rfl, rfl, by decide, by decide⟩, ⟨rfl, rfl⟩, by decide, by decide +kernel, ?_⟩
  intro d
  refine ⟨_, rfl, ?_, ?_⟩ <;> split_ifs <;> norm_num

example : ∃ s r, Swap.create exEqual = .ok s ∧ (s.impliedRate (unitCurve (D 2024 1 15)) exRate false).1 = .ok r ∧
    3 / 100 < r ∧ r < 4 / 100 := by
  refine ⟨⟨exEqual, D 2024 1 18, D 2025 1 18, CashflowCollection.create [none, none] [Swap.fixedKey, Swap.floatKey]⟩, ?_⟩
  have h1 : calculateSettlementDate exEqual.calendar exEqual.purchaseDate exEqual.settlementConvention = .ok (D 2024 1 18) := by
    decide +kernel
  have h2 : exEqual.endAccrual (D 2024 1 18) = .ok (D 2025 1 18) := by decide +kernel
  refine ⟨317 / 9050, ?_, ?_, by norm_num, by norm_num⟩
  · unfold Swap.create
    rw [h1, ok_bind, h2, ok_bind]
  · decide +kernel

end Verif.Props
