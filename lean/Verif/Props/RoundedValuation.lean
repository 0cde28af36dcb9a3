/- Property C111: swap values, par rates, accrued interest and full prices in floating point. -/
import Verif.Lemmas.RoundedValuation
import Verif.Props.Rounded
import Verif.Props.SwapLinear
import Verif.Props.Bond

namespace Verif.Props
open Verif Verif.Spec Verif.DayCount Scheduler

variable {rnd : ℚ → ℚ} {u tiny : ℚ}

/-! ## Swaps: legs -/

/-- The same period, with accrual factors that agree up to three roundings. -/
def AccNear (u : ℚ) (a a' : SwapAccrual) : Prop :=
  a.start = a'.start ∧ a.stop = a'.stop ∧ 0 ≤ a.factor ∧ Near u 3 a.factor a'.factor ∧ (a.factor = 0 ∨ 1 / 366 ≤ a.factor)

/-- Payments on the same date whose amounts agree up to `k` roundings; the rounded one is zero or at least `lo`. -/
def PayNear (u : ℚ) (k : Nat) (lo : ℚ) (p p' : Payment) : Prop :=
  p.date = p'.date ∧ ∃ a a', p.amount = some a ∧ p'.amount = some a' ∧ 0 ≤ a ∧ Near u k a a' ∧ (a' = 0 ∨ lo ≤ a')

/-- Running two functions over related lists. -/
theorem collect_related {α β α' β' : Type} {f : α → Except PyErr β} {g : α' → Except PyErr β'} {q : α → α' → Prop}
    {r : β → β' → Prop} (hfg : ∀ a a' b, q a a' → f a = .ok b → ∃ b', g a' = .ok b' ∧ r b b') {l : List α} {l' : List α'}
    (hl : List.Forall₂ q l l') : ∀ {xs : List β}, collect f l = .ok xs →
      ∃ ys, collect g l' = .ok ys ∧ List.Forall₂ r xs ys := by
  induction hl with
  | nil => intro xs h; injection h with h; subst h; exact ⟨[], rfl, .nil⟩
  | cons hab _ ih =>
    intro xs h
    simp only [collect] at h
    rw [bind_ok] at h; obtain ⟨b, hb, h⟩ := h
    rw [bind_ok] at h; obtain ⟨bs, hbs, h⟩ := h
    injection h with h; subst h
    obtain ⟨b', hb', hr⟩ := hfg _ _ _ hab hb
    obtain ⟨ys, hys, hrs⟩ := ih hbs
    exact ⟨b' :: ys, by simp only [collect, hb', hys, ok_bind], .cons hr hrs⟩

theorem schedule_near (R : Rounding rnd u tiny) {s : Swap} {f : PaymentFrequency} {dcc : DayCountConvention} {accs : List SwapAccrual}
    (h : s.accrualSchedule f dcc = .ok accs) (hnn : ∀ a ∈ accs, 0 ≤ a.factor) :
    ∃ accs', Rounded.swapSchedule rnd s f dcc = .ok accs' ∧ List.Forall₂ (AccNear u) accs accs' := by
  unfold Swap.accrualSchedule at h
  rw [bind_ok] at h; obtain ⟨inc, h1, h⟩ := h
  rw [bind_ok] at h; obtain ⟨un, h2, h⟩ := h
  rw [bind_ok] at h; obtain ⟨ad, h3, h⟩ := h
  have key : ∀ (L : List (PyDate × PyDate)) (accs : List SwapAccrual), collect (Swap.accrualOf dcc) L = .ok accs →
      (∀ a ∈ accs, 0 ≤ a.factor) → ∃ accs', collect (Rounded.swapAccrual rnd dcc) L = .ok accs' ∧
        List.Forall₂ (AccNear u) accs accs' := by
    intro L
    induction L with
    | nil => intro accs h _; injection h with h; subst h; exact ⟨[], rfl, .nil⟩
    | cons p L ih =>
      intro accs h hnn
      simp only [collect] at h
      rw [bind_ok] at h; obtain ⟨b, hb, h⟩ := h
      rw [bind_ok] at h; obtain ⟨bs, hbs, h⟩ := h
      injection h with h; subst h
      obtain ⟨ys, hys, hrs⟩ := ih bs hbs (fun a ha => hnn a (by simp [ha]))
      unfold Swap.accrualOf at hb
      rw [bind_ok] at hb; obtain ⟨x, hx, hb⟩ := hb
      injection hb with hb
      have hb0 := hnn b (by simp)
      subst hb
      obtain ⟨y, hy, hn, hor, -⟩ := rounded_accrual_ok R hx hb0
      refine ⟨⟨p.1, p.2, y⟩ :: ys, ?_, .cons ⟨rfl, rfl, hb0, hn, hor⟩ hrs⟩
      simp only [collect, Rounded.swapAccrual, hy, hys, ok_bind]
  obtain ⟨accs', h4, h5⟩ := key _ _ h hnn
  refine ⟨accs', ?_, h5⟩
  unfold Rounded.swapSchedule
  rw [h1, ok_bind, h2, ok_bind, h3, ok_bind, h4]

/-- Rounding a number that is zero or not tiny: zero or at least half as large. -/
theorem round_half (R : Rounding rnd u tiny) {x lo : ℚ} (hlo : tiny ≤ lo) (hx : x = 0 ∨ lo ≤ x) : rnd x = 0 ∨ lo / 2 ≤ rnd x := by
  rcases hx with h | h
  · left; rw [h, R.zero]
  · right
    have hn := (R.near (Or.inr (le_trans hlo h) : x = 0 ∨ tiny ≤ x)).1
    have hu := R.u_small
    have hx0 : 0 < x := lt_of_lt_of_le (lt_of_lt_of_le R.tiny_pos hlo) h
    rw [pow_one] at hn
    have : (1 : ℚ) / 2 ≤ 1 - u := by
      have : (1 : ℚ) / 2 ^ 40 ≤ 1 / 2 := by norm_num
      linarith
    nlinarith

/-- `accrual_factor * notional`. -/
theorem factor_notional (R : Rounding rnd u tiny) {f f' N : ℚ} (hf : 0 ≤ f) (hn : Near u 3 f f') (hor : f = 0 ∨ 1 / 366 ≤ f)
    (hN : 1 ≤ N) : 0 ≤ f * N ∧ Near u 4 (f * N) (rnd (f' * N)) ∧ (rnd (f' * N) = 0 ∨ 1 / 2000 ≤ rnd (f' * N)) := by
  have u0 := R.u_nonneg
  have u1 := R.u_lt
  have hf' := hn.nonneg u1 hf
  have hp3 := R.pow_ge 3 (by norm_num)
  have hor' : f' = 0 ∨ 1 / 500 ≤ f' := by
    rcases hor with h | h
    · left
      have h2 := hn.2
      rw [h] at h2
      have hp : 0 < (1 - u) ^ 3 := pow_pos (by linarith) _
      nlinarith
    · right
      have h1 := hn.1
      have h2 : (1 - 1 / 2 ^ 30) * (1 / 366) ≤ (1 - u) ^ 3 * f := mul_le_mul hp3 h (by norm_num) (pow_nonneg (by linarith) _)
      have h3 : (1 : ℚ) / 500 ≤ (1 - 1 / 2 ^ 30) * (1 / 366) := by norm_num
      linarith
  have hprod : f' * N = 0 ∨ 1 / 500 ≤ f' * N := by
    rcases hor' with h | h
    · left; rw [h, zero_mul]
    · right; nlinarith
  have ht : tiny ≤ 1 / 500 := by
    have := R.tiny_small
    have h3 : (1 : ℚ) / 2 ^ 100 ≤ 1 / 500 := by norm_num
    linarith
  refine ⟨by positivity, ?_, ?_⟩
  · have p0 := hn.mul u1 hf hf' (by linarith : (0 : ℚ) ≤ N) (by linarith) (Near.refl N)
    exact p0.trans u1 (R.near (hprod.imp id (fun h => le_trans ht h)))
  · rcases round_half R ht hprod with h | h
    · exact Or.inl h
    · right; linarith

/-- `accrual_factor * notional * rate`. -/
theorem amount_near (R : Rounding rnd u tiny) {f f' N r : ℚ} (hf : 0 ≤ f) (hn : Near u 3 f f') (hor : f = 0 ∨ 1 / 366 ≤ f)
    (hN : 1 ≤ N) (hr : r = 0 ∨ tiny * 2 ^ 60 ≤ r) :
    0 ≤ f * N * r ∧ Near u 5 (f * N * r) (rnd (rnd (f' * N) * r)) ∧
      (rnd (rnd (f' * N) * r) = 0 ∨ tiny * 2 ^ 40 ≤ rnd (rnd (f' * N) * r)) := by
  have u0 := R.u_nonneg
  have u1 := R.u_lt
  have t0 := R.tiny_pos
  obtain ⟨h0, h1, h2⟩ := factor_notional R hf hn hor hN
  have hr0 : 0 ≤ r := by
    rcases hr with h | h
    · rw [h]
    · exact le_trans (by positivity) h
  have hx0 := h1.nonneg u1 h0
  have hprod : rnd (f' * N) * r = 0 ∨ tiny * 2 ^ 41 ≤ rnd (f' * N) * r := by
    rcases h2 with h | h
    · left; rw [h, zero_mul]
    · rcases hr with g | g
      · left; rw [g, mul_zero]
      · right
        have e : 1 / 2000 * (tiny * 2 ^ 60) ≤ rnd (f' * N) * r := mul_le_mul h g (by positivity) hx0
        have e2 : tiny * 2 ^ 41 ≤ 1 / 2000 * (tiny * 2 ^ 60) := by
          have : (2 : ℚ) ^ 41 ≤ 1 / 2000 * 2 ^ 60 := by norm_num
          nlinarith
        linarith
  have ht : tiny ≤ tiny * 2 ^ 41 := by nlinarith
  refine ⟨mul_nonneg h0 hr0, ?_, ?_⟩
  · have p0 := h1.mul u1 h0 hx0 hr0 hr0 (Near.refl r)
    exact p0.trans u1 (R.near (hprod.imp id (fun h => le_trans ht h)))
  · rcases round_half R ht hprod with h | h
    · exact Or.inl h
    · right
      have : tiny * 2 ^ 41 / 2 = tiny * 2 ^ 40 := by ring
      linarith

/-- Discount factors that floating point handles without underflow. -/
def Discounts (curve : DiscountFn) : Prop := ∀ d x, curve.call d = .ok x → 1 / 2 ^ 20 ≤ x

/-- Valuing related cashflows. -/
theorem value_near (R : Rounding rnd u tiny) {k : Nat} {ps ps' : List Payment}
    (h : List.Forall₂ (PayNear u k (tiny * 2 ^ 40)) ps ps') {curve : DiscountFn} (hc : Discounts curve) {v : ℚ}
    (hv : Cashflow.presentValue (Cashflow.create ps) curve = .ok v) :
    0 ≤ v ∧ ∃ w, Rounded.presentValue rnd (Cashflow.create ps') curve = .ok w ∧ Near u (k + (1 + ps.length)) v w ∧
      (w = 0 ∨ tiny ≤ w) := by
  have u0 := R.u_nonneg
  have u1 := R.u_lt
  have t0 := R.tiny_pos
  have hpriced := priced_of_ok hv
  set df : PyDate → ℚ := fun d => match curve.call d with | .ok x => x | .error _ => 0 with hdf
  have hdfok : ∀ d x, curve.call d = .ok x → df d = x := by
    intro d x hx; simp only [hdf, hx]
  have e1 := C19_present_value ps curve df (fun p hp ha hr => by
    obtain ⟨y, hy⟩ := hpriced p hp ha hr
    rw [hy, hdfok _ _ hy])
  rw [hv] at e1; injection e1 with e1
  have hpriced' : ∀ p' ∈ ps', curve.referenceDate ≤ p'.date → ∃ y, curve.call p'.date = .ok y := by
    intro p' hp' hr
    obtain ⟨i, hi, hpi⟩ := List.mem_iff_getElem.1 hp'
    have hlen := h.length_eq
    have hrel := (List.forall₂_iff_get.1 h).2 i (by omega) hi
    simp only [List.get_eq_getElem, hpi] at hrel
    obtain ⟨hd, a, a', ha, -⟩ := hrel
    rw [← hd]
    exact hpriced _ (List.getElem_mem _) (by rw [ha]; simp) (by rw [hd]; exact hr)
  have e2 := C19_present_value ps' curve df (fun p hp _ hr => by
    obtain ⟨y, hy⟩ := hpriced' p hp hr
    rw [hy, hdfok _ _ hy])
  have hdf0 : ∀ d, 0 ≤ df d := by
    intro d
    cases hd : curve.call d with
    | ok x => rw [hdfok _ _ hd]; have := hc d x hd; linarith [show (0 : ℚ) ≤ 1 / 2 ^ 20 by norm_num]
    | error e => simp only [hdf, hd]; exact le_refl _
  have hnear : 0 ≤ (ps.map (contribution curve.referenceDate df)).sum ∧
      Near u k (ps.map (contribution curve.referenceDate df)).sum (ps'.map (contribution curve.referenceDate df)).sum := by
    clear e1 e2 hv hpriced hpriced'
    induction h with
    | nil => simp [Near]
    | @cons p p' l l' hp _ ih =>
      obtain ⟨hd, a, a', ha, ha', h0, hn, -⟩ := hp
      simp only [List.map_cons, List.sum_cons]
      have hcon : 0 ≤ contribution curve.referenceDate df p ∧
          Near u k (contribution curve.referenceDate df p) (contribution curve.referenceDate df p') := by
        simp only [contribution, ha, ha', hd]
        split_ifs
        · have ha0 := hn.nonneg u1 h0
          refine ⟨mul_nonneg (hdf0 _) h0, ?_⟩
          have := (Near.refl (u := u) (df p'.date)).mul u1 (hdf0 _) (hdf0 _) h0 ha0 hn
          rwa [Nat.zero_add] at this
        · simp [Near]
      exact ⟨add_nonneg hcon.1 ih.1, hcon.2.add ih.2⟩
  have hmem : ∀ p ∈ Cashflow.create ps', ∀ a df, p.amount = some a → curve.referenceDate ≤ p.date → curve.call p.date = .ok df →
      df * a = 0 ∨ tiny ≤ df * a := by
    intro p' hp' a' x ha' _ hx
    have hp' := (pySorted_perm Payment.date ps').mem_iff.1 hp'
    obtain ⟨i, hi, hpi⟩ := List.mem_iff_getElem.1 hp'
    have hlen := h.length_eq
    have hrel := (List.forall₂_iff_get.1 h).2 i (by omega) hi
    simp only [List.get_eq_getElem, hpi] at hrel
    obtain ⟨-, b, b', -, hb', -, -, hor⟩ := hrel
    rw [ha'] at hb'; injection hb' with hb'; subst hb'
    rcases hor with h1 | h1
    · left; rw [h1, mul_zero]
    · right
      have h2 := hc _ _ hx
      have h3 : 1 / 2 ^ 20 * (tiny * 2 ^ 40) ≤ x * a' := mul_le_mul h2 h1 (by positivity) (by linarith [show (0 : ℚ) ≤ 1 / 2 ^ 20 by norm_num])
      have h4 : tiny ≤ 1 / 2 ^ 20 * (tiny * 2 ^ 40) := by
        have : (1 : ℚ) ≤ 1 / 2 ^ 20 * 2 ^ 40 := by norm_num
        nlinarith
      linarith
  obtain ⟨w, hw, hwn⟩ := C95_present_value R (Cashflow.create ps') curve hmem _ e2
  have hlen : (Cashflow.create ps').length = ps.length := by
    rw [h.length_eq]; exact (pySorted_perm Payment.date ps').length_eq
  rw [hlen] at hwn
  rw [e1]
  refine ⟨hnear.1, w, hw, hnear.2.trans u1 hwn, ?_⟩
  have hsumr : ∀ (L : List ℚ) (acc : ℚ), (acc = 0 ∨ tiny ≤ acc) → (∀ x ∈ L, x = 0 ∨ tiny ≤ x) →
      (L.foldl (fun a x => rnd (a + x)) acc = 0 ∨ tiny ≤ L.foldl (fun a x => rnd (a + x)) acc) := by
    intro L
    induction L with
    | nil => intro acc h _; exact h
    | cons x L ih =>
      intro acc h hx
      refine ih _ (R.keep ?_) (fun y hy => hx y (by simp [hy]))
      rcases h with h | h <;> rcases hx x (by simp) with g | g
      · left; rw [h, g, add_zero]
      · right; linarith
      · right; linarith
      · right; linarith
  unfold Rounded.presentValue at hw
  rw [bind_ok] at hw
  obtain ⟨xs, hxs, hw⟩ := hw
  injection hw with hw
  rw [← hw]
  refine hsumr xs 0 (Or.inl rfl) ?_
  intro x hx
  obtain ⟨pa, hpa, hfx⟩ := (collect_mem hxs x).1 hx
  rw [bind_ok] at hfx
  obtain ⟨y, hy, hfx⟩ := hfx
  injection hfx with hfx
  rw [← hfx]
  apply R.keep
  obtain ⟨p, hp, he⟩ := List.mem_filterMap.1 hpa
  rcases hpa' : p.amount with _ | a
  · rw [hpa'] at he; simp at he
  · rw [hpa'] at he
    simp only at he
    split_ifs at he with hr
    simp only [Option.some.injEq] at he
    subst he
    exact hmem p hp a y hpa' hr hy

/-- C111. In floating point too, the payer's and the receiver's value of the same legs are exactly opposite. -/
theorem C111_opposite (R : Rounding rnd u tiny) (fixed float : List Payment) (curve : DiscountFn) (v : ℚ) :
    Rounded.legsValue rnd .receiverFixed fixed float curve = .ok v ↔
      Rounded.legsValue rnd .payerFixed fixed float curve = .ok (-v) := by
  unfold Rounded.legsValue
  cases h1 : Rounded.presentValue rnd float curve with
  | error e => simp [error_bind]
  | ok G =>
    cases h2 : Rounded.presentValue rnd fixed curve with
    | error e => simp [ok_bind, error_bind]
    | ok F =>
      simp only [ok_bind]
      have : rnd (G - F) = -rnd (F - G) := by rw [← R.neg]; congr 1; ring
      rw [this]
      constructor
      · intro h; injection h with h; rw [h]
      · intro h; injection h with h
        rw [neg_inj] at h; rw [h]

/-- C111. The fixed leg in floating point: the same payments on the same dates, each amount up to five roundings. -/
theorem C111_fixed_leg (R : Rounding rnd u tiny) (s : Swap) (accs : List SwapAccrual) (ha : s.fixedAccruals = .ok accs)
    (hnn : ∀ a ∈ accs, 0 ≤ a.factor) (hN : 1 ≤ s.terms.notional) (hr : s.terms.fixedRate = 0 ∨ tiny * 2 ^ 60 ≤ s.terms.fixedRate)
    (cf : List Payment) (hcf : s.fixedCashflow = .ok cf) :
    ∃ ps ps', cf = Cashflow.create ps ∧ Rounded.fixedLeg rnd s = .ok (Cashflow.create ps') ∧
      List.Forall₂ (PayNear u 5 (tiny * 2 ^ 40)) ps ps' := by
  obtain ⟨accs', h1, h2⟩ := schedule_near R ha hnn
  unfold Swap.fixedCashflow at hcf
  rw [ha, ok_bind, bind_ok] at hcf
  obtain ⟨ps, hps, hcf⟩ := hcf
  injection hcf with hcf
  have key : ∀ a a' b, AccNear u a a' → s.fixedPayment a = .ok b →
      ∃ b', Rounded.fixedPayment rnd s a' = .ok b' ∧ PayNear u 5 (tiny * 2 ^ 40) b b' := by
    rintro ⟨st, en, f⟩ ⟨st', en', f'⟩ b ⟨e1, e2, h0, hn, hor⟩ hb
    simp only at e1 e2 h0 hn hor
    subst e1; subst e2
    unfold Swap.fixedPayment at hb
    rw [bind_ok] at hb; obtain ⟨d, hd, hb⟩ := hb
    injection hb with hb; subst hb
    refine ⟨⟨d, some (rnd (rnd (f' * s.terms.notional) * s.terms.fixedRate))⟩, ?_, rfl, _, _, rfl, rfl, ?_⟩
    · unfold Rounded.fixedPayment
      rw [show s.paymentDate ⟨st, en, f'⟩ = .ok d from hd, ok_bind]
    · exact amount_near R h0 hn hor hN hr
  obtain ⟨ps', h3, h4⟩ := collect_related key h2 hps
  refine ⟨ps, ps', hcf.symm, ?_, h4⟩
  unfold Rounded.fixedLeg
  rw [h1, ok_bind, h3, ok_bind]

/-- C111. The floating leg of a term swap in floating point, for floating rates that are zero or positive and not minute. -/
theorem C111_term_leg (R : Rounding rnd u tiny) (s : Swap) (hcls : s.terms.cls = .term) (rate : RateFn)
    (hrate : ∀ d r, rate d = .ok r → r = 0 ∨ tiny * 2 ^ 60 ≤ r) (accs : List SwapAccrual) (ha : s.floatAccruals = .ok accs)
    (hnn : ∀ a ∈ accs, 0 ≤ a.factor) (hN : 1 ≤ s.terms.notional) (cf : List Payment) (hcf : s.floatCashflow rate = .ok cf) :
    ∃ ps ps', cf = Cashflow.create ps ∧ Rounded.floatLeg rnd s rate = .ok (Cashflow.create ps') ∧
      List.Forall₂ (PayNear u 5 (tiny * 2 ^ 40)) ps ps' := by
  obtain ⟨accs', h1, h2⟩ := schedule_near R ha hnn
  unfold Swap.floatCashflow at hcf
  rw [ha, ok_bind, bind_ok] at hcf
  obtain ⟨ps, hps, hcf⟩ := hcf
  injection hcf with hcf
  have key : ∀ a a' b, AccNear u a a' → s.floatPayment rate a = .ok b →
      ∃ b', Rounded.floatPayment rnd s rate a' = .ok b' ∧ PayNear u 5 (tiny * 2 ^ 40) b b' := by
    rintro ⟨st, en, f⟩ ⟨st', en', f'⟩ b ⟨e1, e2, h0, hn, hor⟩ hb
    simp only at e1 e2 h0 hn hor
    subst e1; subst e2
    unfold Swap.floatPayment at hb
    rw [hcls] at hb
    simp only [Swap.termPayment] at hb
    rw [bind_ok] at hb; obtain ⟨x, hx, hb⟩ := hb
    rw [bind_ok] at hb; obtain ⟨r, hr, hb⟩ := hb
    rw [bind_ok] at hb; obtain ⟨d, hd, hb⟩ := hb
    injection hb with hb; subst hb
    refine ⟨⟨d, some (rnd (rnd (f' * s.terms.notional) * r))⟩, ?_, rfl, _, _, rfl, rfl, ?_⟩
    · unfold Rounded.floatPayment
      rw [hcls]
      simp only [Rounded.termPayment]
      rw [hx, ok_bind, hr, ok_bind, show s.paymentDate ⟨st, en, f'⟩ = .ok d from hd, ok_bind]
    · exact amount_near R h0 hn hor hN (hrate _ _ hr)
  obtain ⟨ps', h3, h4⟩ := collect_related key h2 hps
  refine ⟨ps, ps', hcf.symm, ?_, h4⟩
  unfold Rounded.floatLeg
  rw [h1, ok_bind, h3, ok_bind]

/-- The error of a difference. -/
theorem difference_error (R : Rounding rnd u tiny) {k : Nat} (hk : k * u ≤ 1 / 2) {F G F' G' : ℚ} (hF : 0 ≤ F) (hG : 0 ≤ G)
    (nF : Near u k F F') (nG : Near u k G G') : |rnd (F' - G') - (F - G)| ≤ 2 * ((k + 1) * u) * (F + G) + 2 * tiny := by
  have u0 := R.u_nonneg
  have u1 := R.u_lt
  have a1 := near_abs u0 u1 hk hF nF
  have a2 := near_abs u0 u1 hk hG nG
  have a3 := R.abs_err (F' - G')
  have hF' := nF.nonneg u1 hF
  have hG' := nG.nonneg u1 hG
  have hku : 0 ≤ (k : ℚ) * u := by positivity
  have b1 := abs_le.1 a1
  have b2 := abs_le.1 a2
  have hF2 : F' ≤ 2 * F := by nlinarith
  have hG2 : G' ≤ 2 * G := by nlinarith
  have a4 : |F' - G'| ≤ 2 * (F + G) := by
    rw [abs_le]; constructor <;> linarith
  have a5 : u * |F' - G'| ≤ u * (2 * (F + G)) := mul_le_mul_of_nonneg_left a4 u0
  have b3 := abs_le.1 a3
  rw [abs_le]
  constructor <;> nlinarith

/-- C111. The value of a term swap computed in floating point differs from the exact value by at most `2 (n + 7) u` times the sum of
the values of the legs (and two units of underflow), where the legs have `n` payments in total. -/
theorem C111_swap_value (R : Rounding rnd u tiny) (t : SwapTerms) (s : Swap) (hs : Swap.create t = .ok s) (hcls : t.cls = .term)
    (rate : RateFn) (hrate : ∀ d r, rate d = .ok r → r = 0 ∨ tiny * 2 ^ 60 ≤ r) (curve : DiscountFn) (hcurve : Discounts curve)
    (fixedAccs floatAccs : List SwapAccrual) (hA : s.fixedAccruals = .ok fixedAccs) (hB : s.floatAccruals = .ok floatAccs)
    (hnA : ∀ a ∈ fixedAccs, 0 ≤ a.factor) (hnB : ∀ a ∈ floatAccs, 0 ≤ a.factor) (hN : 1 ≤ t.notional)
    (hr : t.fixedRate = 0 ∨ tiny * 2 ^ 60 ≤ t.fixedRate) (hsmall : ((fixedAccs.length + floatAccs.length + 6 : Nat) : ℚ) * u ≤ 1 / 2)
    (v : ℚ) (hv : swapWorth s rate curve = .ok v) :
    ∃ fx fl F G w, s.fixedCashflow = .ok fx ∧ s.floatCashflow rate = .ok fl ∧ Cashflow.presentValue fx curve = .ok F ∧
      Cashflow.presentValue fl curve = .ok G ∧ Rounded.swapValue rnd s rate curve = .ok w ∧
      |w - v| ≤ 2 * ((fixedAccs.length + floatAccs.length + 7) * u) * (F + G) + 2 * tiny := by
  obtain ⟨ht, -, -, -⟩ := swap_create_ok hs
  have hv' := hv
  rw [swapWorth_eq hs] at hv
  cases hfx : s.fixedCashflow with
  | error e => rw [hfx] at hv; simp [swapValue, Except.toOption] at hv
  | ok fx =>
    cases hfl : s.floatCashflow rate with
    | error e => rw [hfx, hfl] at hv; simp [swapValue, Except.toOption] at hv
    | ok fl =>
      rw [hfx, hfl] at hv
      obtain ⟨ps, ps', e1, e2, e3⟩ := C111_fixed_leg R s fixedAccs hA hnA (by rw [ht]; exact hN) (by rw [ht]; exact hr) fx hfx
      obtain ⟨qs, qs', g1, g2, g3⟩ := C111_term_leg R s (by rw [ht]; exact hcls) rate hrate floatAccs hB hnB (by rw [ht]; exact hN) fl hfl
      have l1 : ps.length = fixedAccs.length := by
        have := congrArg List.length e1
        rw [Cashflow.create, (pySorted_perm _ _).length_eq] at this
        unfold Swap.fixedCashflow at hfx
        rw [hA, ok_bind, bind_ok] at hfx
        obtain ⟨zs, hzs, hz⟩ := hfx
        injection hz with hz
        rw [← this, ← hz, Cashflow.create, (pySorted_perm _ _).length_eq, collect_length hzs]
      have l2 : qs.length = floatAccs.length := by
        have := congrArg List.length g1
        rw [Cashflow.create, (pySorted_perm _ _).length_eq] at this
        unfold Swap.floatCashflow at hfl
        rw [hB, ok_bind, bind_ok] at hfl
        obtain ⟨zs, hzs, hz⟩ := hfl
        injection hz with hz
        rw [← this, ← hz, Cashflow.create, (pySorted_perm _ _).length_eq, collect_length hzs]
      simp only [Except.toOption, Spec.swapValue] at hv
      rw [bind_ok] at hv; obtain ⟨G, hG, hv⟩ := hv
      rw [bind_ok] at hv; obtain ⟨F, hF, hv⟩ := hv
      injection hv with hv
      rw [e1] at hF
      rw [g1] at hG
      obtain ⟨F0, F', hF', nF, -⟩ := value_near R e3 hcurve hF
      obtain ⟨G0, G', hG', nG, -⟩ := value_near R g3 hcurve hG
      rw [l1] at nF
      rw [l2] at nG
      have nF' := nF.weaken R.u_nonneg R.u_lt (by omega : 5 + (1 + fixedAccs.length) ≤ fixedAccs.length + floatAccs.length + 6) F0
        (nF.nonneg R.u_lt F0)
      have nG' := nG.weaken R.u_nonneg R.u_lt (by omega : 5 + (1 + floatAccs.length) ≤ fixedAccs.length + floatAccs.length + 6) G0
        (nG.nonneg R.u_lt G0)
      have hval : Rounded.swapValue rnd s rate curve =
          Rounded.legsValue rnd t.direction (Cashflow.create ps') (Cashflow.create qs') curve := by
        unfold Rounded.swapValue
        rw [e2, ok_bind, g2, ok_bind, ht]
      have herr := difference_error R hsmall F0 G0 nF' nG'
      have hcast : ((fixedAccs.length + floatAccs.length + 6 : Nat) : ℚ) + 1 = fixedAccs.length + floatAccs.length + 7 := by
        push_cast; ring
      rw [hcast] at herr
      cases hd : t.direction with
      | receiverFixed =>
        rw [hd, if_pos rfl] at hv
        refine ⟨fx, fl, F, G, rnd (F' - G'), rfl, rfl, by rw [e1]; exact hF, by rw [g1]; exact hG, ?_, by rw [← hv]; exact herr⟩
        rw [hval, hd]
        simp only [Rounded.legsValue, hG', hF', ok_bind]
      | payerFixed =>
        rw [hd, if_neg (by simp)] at hv
        refine ⟨fx, fl, F, G, rnd (G' - F'), rfl, rfl, by rw [e1]; exact hF, by rw [g1]; exact hG, ?_, ?_⟩
        · rw [hval, hd]
          simp only [Rounded.legsValue, hG', hF', ok_bind]
        · have e : rnd (G' - F') = -rnd (F' - G') := by rw [← R.neg]; congr 1; ring
          rw [← hv, e, ← abs_neg]
          rw [show -(-rnd (F' - G') - (G - F)) = rnd (F' - G') - (F - G) by ring]
          exact herr

/-! ## The par rate -/

theorem le_of_rounds_up (R : Rounding rnd u tiny) {x : ℚ} (h : tiny < rnd x) : tiny ≤ x := by
  by_contra hc
  have := R.mono (le_of_lt (not_le.1 hc))
  rw [R.rep] at this
  linarith

/-- The discounted accruals of the fixed leg. -/
theorem annuity_near (R : Rounding rnd u tiny) {s : Swap} (hN : 1 ≤ s.terms.notional) {curve : DiscountFn} (hcurve : Discounts curve)
    {accs accs' : List SwapAccrual} (h : List.Forall₂ (AccNear u) accs accs') {xs : List ℚ}
    (hxs : collect (Rounded.discountedAccrual rnd s curve) accs' = .ok xs) :
    ∃ (pd : SwapAccrual → PyDate) (df : PyDate → ℚ), (∀ a ∈ accs, s.paymentDate a = .ok (pd a) ∧ curve.call (pd a) = .ok (df (pd a))) ∧
      0 ≤ (accs.map (fun a => df (pd a) * (a.factor * s.terms.notional))).sum ∧
      Near u (5 + accs.length) (accs.map (fun a => df (pd a) * (a.factor * s.terms.notional))).sum (Rounded.sum rnd xs) := by
  have u0 := R.u_nonneg
  have u1 := R.u_lt
  set df : PyDate → ℚ := fun d => match curve.call d with | .ok x => x | .error _ => 0 with hdf
  have hdfok : ∀ d x, curve.call d = .ok x → df d = x := by
    intro d x hx; simp only [hdf, hx]
  set pd : SwapAccrual → PyDate := fun a => match s.paymentDate a with | .ok x => x | .error _ => curve.referenceDate with hpd
  have hpdok : ∀ a x, s.paymentDate a = .ok x → pd a = x := by
    intro a x hx; simp only [hpd, hx]
  have key : ∃ ps : List (ℚ × ℚ), ps.map Prod.snd = xs ∧ ps.map Prod.fst = accs.map (fun a => df (pd a) * (a.factor * s.terms.notional)) ∧
      (∀ a ∈ accs, s.paymentDate a = .ok (pd a) ∧ curve.call (pd a) = .ok (df (pd a))) ∧
      ∀ p ∈ ps, 0 ≤ p.1 ∧ (p.2 = 0 ∨ tiny ≤ p.2) ∧ Near u 5 p.1 p.2 := by
    clear_value df pd
    induction h generalizing xs with
    | nil => injection hxs with hxs; subst hxs; exact ⟨[], rfl, rfl, by simp, by simp⟩
    | @cons a a' l l' hab _ ih =>
      simp only [collect] at hxs
      rw [bind_ok] at hxs; obtain ⟨b, hb, hxs⟩ := hxs
      rw [bind_ok] at hxs; obtain ⟨bs, hbs, hxs⟩ := hxs
      injection hxs with hxs; subst hxs
      obtain ⟨ps, h1, h2, h3, h4⟩ := ih hbs
      obtain ⟨e1, e2, f0, hn, hor⟩ := hab
      simp only [Rounded.discountedAccrual] at hb
      rw [bind_ok] at hb; obtain ⟨d, hd, hb⟩ := hb
      rw [bind_ok] at hb; obtain ⟨x, hx, hb⟩ := hb
      injection hb with hb
      have hd' : s.paymentDate a = .ok d := by
        unfold Swap.paymentDate at hd ⊢
        rw [e2]; exact hd
      have hpa := hpdok _ _ hd'
      have hdx := hdfok _ _ hx
      obtain ⟨g0, g1, g2⟩ := factor_notional R f0 hn hor hN
      have hx1 := hcurve _ _ hx
      have hx0 : 0 ≤ x := by linarith [show (0 : ℚ) ≤ 1 / 2 ^ 20 by norm_num]
      have g3 := g1.nonneg u1 g0
      have hprod : x * rnd (a'.factor * s.terms.notional) = 0 ∨ tiny ≤ x * rnd (a'.factor * s.terms.notional) := by
        rcases g2 with g | g
        · left; rw [g, mul_zero]
        · right
          have h5 : (1 : ℚ) / 2 ^ 20 * (1 / 2000) ≤ x * rnd (a'.factor * s.terms.notional) := mul_le_mul hx1 g (by norm_num) hx0
          have h6 := R.tiny_small
          have h7 : (1 : ℚ) / 2 ^ 100 ≤ 1 / 2 ^ 20 * (1 / 2000) := by norm_num
          linarith
      refine ⟨(df (pd a) * (a.factor * s.terms.notional), b) :: ps, by simp [h1], by simp [h2], ?_, ?_⟩
      · intro c hc
        rcases List.mem_cons.1 hc with rfl | hc
        · rw [hpa, hdx]; exact ⟨hd', hx⟩
        · exact h3 c hc
      · intro p hp
        rcases List.mem_cons.1 hp with rfl | hp
        · simp only [hpa, hdx]
          refine ⟨mul_nonneg hx0 g0, ?_, ?_⟩
          · rw [← hb]; exact R.keep hprod
          · rw [← hb]
            have p0 := (Near.refl (u := u) x).mul u1 hx0 hx0 g0 g3 g1
            have := p0.trans u1 (R.near hprod)
            rwa [Nat.zero_add] at this
        · exact h4 p hp
  obtain ⟨ps, h1, h2, h3, h4⟩ := key
  have hs := rounded_sum R 5 ps h4
  have hlen : ps.length = accs.length := by
    have := congrArg List.length h2
    simpa using this
  rw [h1, h2, hlen] at hs
  refine ⟨pd, df, h3, ?_, hs⟩
  rw [← h2]
  refine List.sum_nonneg ?_
  intro x hx
  obtain ⟨p, hp, rfl⟩ := List.mem_map.1 hx
  exact (h4 p hp).1

/-- C111. A swap struck at the par rate that the code computes in floating point is worth nothing up to rounding: if no fixed payment
precedes the curve's reference date, the computed value is at most `4 (2 n + 12) u` times the computed value of the floating leg (and
two units of underflow), with `n` fixed payments. -/
theorem C111_par (R : Rounding rnd u tiny) (t : SwapTerms) (s : Swap) (hs : Swap.create t = .ok s) (rate : RateFn)
    (curve : DiscountFn) (hcurve : Discounts curve) (accs : List SwapAccrual) (hA : s.fixedAccruals = .ok accs)
    (hnA : ∀ a ∈ accs, 0 ≤ a.factor) (hN : 1 ≤ t.notional)
    (hdates : ∀ a ∈ accs, ∀ d, s.paymentDate a = .ok d → curve.referenceDate ≤ d)
    (hsmall : ((2 * accs.length + 12 : Nat) : ℚ) * u ≤ 1 / 2)
    (fl : List Payment) (hfl : Rounded.floatLeg rnd s rate = .ok fl) (G : ℚ) (hG : Rounded.presentValue rnd fl curve = .ok G)
    (r : ℚ) (hr : Rounded.parRate rnd s rate curve = .ok r) (hr0 : tiny * 2 ^ 60 ≤ r) (dir : SwapDirection) (s' : Swap)
    (hs' : Swap.create (reterm t dir r t.notional) = .ok s') :
    0 < G ∧ ∃ w, Rounded.swapValue rnd s' rate curve = .ok w ∧ |w| ≤ 4 * ((2 * accs.length + 12) * u) * G + 2 * tiny := by
  have u0 := R.u_nonneg
  have u1 := R.u_lt
  have t0 := R.tiny_pos
  obtain ⟨ht, -, -, -⟩ := swap_create_ok hs
  rw [reterm_create hs] at hs'
  injection hs' with hs'
  subst hs'
  obtain ⟨accs', h1, h2⟩ := schedule_near R hA hnA
  unfold Rounded.parRate at hr
  rw [hfl, ok_bind, hG, ok_bind] at hr
  rw [h1, ok_bind] at hr
  rw [bind_ok] at hr
  obtain ⟨xs, hxs, hr⟩ := hr
  obtain ⟨pd, df, hpd, hA0, hAn⟩ := annuity_near R (by rw [ht]; exact hN) hcurve h2 hxs
  rw [ht] at hA0 hAn
  set A := (accs.map (fun a => df (pd a) * (a.factor * t.notional))).sum with hAdef
  set A' := Rounded.sum rnd xs with hA'def
  have hA'0 : 0 ≤ A' := hAn.nonneg u1 hA0
  unfold Rounded.div at hr
  split_ifs at hr with hne
  injection hr with hr
  have hA'pos : 0 < A' := lt_of_le_of_ne hA'0 (Ne.symm hne)
  have hq : tiny ≤ G / A' := by
    apply le_of_rounds_up R
    rw [hr]
    have : tiny < tiny * 2 ^ 60 := by nlinarith
    linarith
  have hGpos : 0 < G := by
    have : 0 < G / A' := lt_of_lt_of_le t0 hq
    rcases div_pos_iff.1 this with h | h
    · exact h.1
    · linarith [h.2]
  refine ⟨hGpos, ?_⟩
  have nr : Near u 1 (G / A') r := by rw [← hr]; exact R.near (Or.inr hq)
  have hrpos : 0 < r := lt_of_lt_of_le (by positivity) hr0
  -- r A is near G
  have nRA : Near u (1 + (5 + accs.length)) G (r * A) := by
    have := nr.mul u1 (le_of_lt (div_pos hGpos hA'pos)) (le_of_lt hrpos) hA'0 hA0 hAn.symm
    rwa [div_mul_cancel₀ _ (ne_of_gt hA'pos)] at this
  -- the new swap
  set s2 : Swap := ⟨reterm t dir r t.notional, s.startAccrual, s.endAccrual, s.legs⟩ with hs2
  have hterms2 : s2.terms = reterm t dir r t.notional := rfl
  have hacc2 : s2.fixedAccruals = .ok accs := by
    rw [← hA]
    unfold Swap.fixedAccruals Swap.accrualSchedule
    rw [ht]; rfl
  have hpd2 : ∀ a ∈ accs, s2.paymentDate a = .ok (pd a) := by
    intro a ha
    have := (hpd a ha).1
    unfold Swap.paymentDate at this ⊢
    rw [ht] at this
    exact this
  have hcf2 : s2.fixedCashflow = .ok (Cashflow.create (accs.map (fun a => (⟨pd a, some (a.factor * t.notional * r)⟩ : Payment)))) := by
    unfold Swap.fixedCashflow
    rw [hacc2, ok_bind]
    rw [collect_map (g := fun a => (⟨pd a, some (a.factor * t.notional * r)⟩ : Payment)) (fun a ha => by
      unfold Swap.fixedPayment
      rw [hpd2 a ha, ok_bind]
      rfl), ok_bind]
  have hval := leg_value curve df pd (fun _ => r) accs t.notional (fun a ha _ => (hpd a ha).2)
  have hsum : t.notional * discountedLeg curve.referenceDate df pd (fun _ => r) accs = r * A := by
    unfold discountedLeg
    rw [hAdef, ← List.sum_map_mul_left, ← List.sum_map_mul_left]
    congr 1
    refine List.map_congr_left (fun a ha => ?_)
    rw [if_pos (hdates a ha _ (hpd a ha).1)]
    ring
  rw [hsum] at hval
  obtain ⟨ps, ps', e1, e2, e3⟩ := C111_fixed_leg R s2 accs hacc2 hnA hN (Or.inr hr0) _ hcf2
  rw [e1] at hval
  obtain ⟨-, F', hF', nF, -⟩ := value_near R e3 hcurve hval
  have hlen : ps.length = accs.length := by
    have := congrArg List.length e1
    rw [Cashflow.create, Cashflow.create, (pySorted_perm _ _).length_eq, (pySorted_perm _ _).length_eq, List.length_map] at this
    exact this.symm
  rw [hlen] at nF
  have nGF := nRA.trans u1 nF
  have nGF' : Near u (2 * accs.length + 12) G F' := by
    rw [show 2 * accs.length + 12 = 1 + (5 + accs.length) + (5 + (1 + accs.length)) by omega]; exact nGF
  have hab := near_abs u0 u1 hsmall (le_of_lt hGpos) nGF'
  have hfl2 : Rounded.floatLeg rnd s2 rate = .ok fl := by
    rw [← hfl]
    unfold Rounded.floatLeg Rounded.swapSchedule
    have e3 : Rounded.termPayment rnd s2 rate = Rounded.termPayment rnd s rate := by
      funext a; unfold Rounded.termPayment Swap.paymentDate; rw [ht]; rfl
    have e4 : Rounded.overnightPayment rnd s2 rate = Rounded.overnightPayment rnd s rate := by
      funext a; unfold Rounded.overnightPayment Swap.paymentDate; rw [ht]; rfl
    have e5 : Rounded.floatPayment rnd s2 rate = Rounded.floatPayment rnd s rate := by
      funext a; unfold Rounded.floatPayment; rw [e3, e4, ht]; rfl
    rw [e5, ht]; rfl
  have hcast : ((2 * accs.length + 12 : Nat) : ℚ) = 2 * accs.length + 12 := by push_cast; ring
  rw [hcast] at hab hsmall
  have hk0 : 0 ≤ (2 * (accs.length : ℚ) + 12) * u := by positivity
  have hround : ∀ x : ℚ, |x| ≤ 2 * ((2 * accs.length + 12) * u) * G → |rnd x| ≤ 4 * ((2 * accs.length + 12) * u) * G + 2 * tiny := by
    intro x hx
    have h5 := R.abs_err x
    have h6 : |rnd x| ≤ |rnd x - x| + |x| := by
      have := abs_add_le (rnd x - x) x
      rwa [sub_add_cancel] at this
    have h7 : u * |x| ≤ 1 * |x| := mul_le_mul_of_nonneg_right (le_of_lt u1) (abs_nonneg x)
    linarith
  have hsv : Rounded.swapValue rnd s2 rate curve = Rounded.legsValue rnd dir (Cashflow.create ps') fl curve := by
    unfold Rounded.swapValue
    rw [e2, ok_bind, hfl2, ok_bind]
    rfl
  rw [hsv]
  cases dir with
  | receiverFixed =>
    refine ⟨rnd (F' - G), ?_, hround _ hab⟩
    simp only [Rounded.legsValue, hG, hF', ok_bind]
  | payerFixed =>
    refine ⟨rnd (G - F'), ?_, hround _ (by rw [abs_sub_comm]; exact hab)⟩
    simp only [Rounded.legsValue, hG, hF', ok_bind]

/-! ## Overnight compounding -/

/-- Growth and total accrual of the compounding loop never shrink when the rates are not negative. -/
theorem compound_ge (R : Rounding rnd u tiny) {rate : RateFn} (hrate : ∀ d r, rate d = .ok r → 0 ≤ r) :
    ∀ (L : List (PyDate × PyDate)) (S g : ℚ) (out : ℚ × ℚ), 0 ≤ S → 1 ≤ g → Rounded.compoundLoop rnd rate L (S, g) = .ok out →
      0 ≤ out.1 ∧ 1 ≤ out.2
  | [], S, g, out, hS, hg, h => by
    injection h with h; subst h; exact ⟨hS, hg⟩
  | p :: L, S, g, out, hS, hg, h => by
    simp only [Rounded.compoundLoop] at h
    rw [bind_ok] at h; obtain ⟨a, ha, h⟩ := h
    rw [bind_ok] at h; obtain ⟨r, hr, h⟩ := h
    have ha0 : 0 ≤ a := by
      unfold Rounded.accrual at ha
      split_ifs at ha with hle
      injection ha with ha
      rw [← ha]
      apply R.nonneg
      apply div_nonneg _ (by norm_num)
      have := PyDate.le_iff.1 hle
      exact_mod_cast (by omega : (0 : Int) ≤ p.2.ord - p.1.ord)
    have hr0 := hrate _ _ hr
    have h1 : 0 ≤ rnd (r * a) := R.nonneg (mul_nonneg hr0 ha0)
    have h2 : 1 ≤ rnd (1 + rnd (r * a)) := by
      have := R.mono (show (1 : ℚ) ≤ 1 + rnd (r * a) by linarith)
      rwa [R.one] at this
    have h3 : 1 ≤ rnd (g * rnd (1 + rnd (r * a))) := by
      have := R.mono (show (1 : ℚ) ≤ g * rnd (1 + rnd (r * a)) by nlinarith)
      rwa [R.one] at this
    exact compound_ge R hrate L _ _ out (R.nonneg (add_nonneg hS ha0)) h3 h

/-- C111. With nonnegative overnight rates the annualized rate computed in floating point is never negative (although it subtracts one
from a product of rounded factors), and with zero rates it is exactly zero. -/
theorem C111_overnight (R : Rounding rnd u tiny) (cal : HolidayCalendar) (rate : RateFn) (a b : PyDate) (q : ℚ)
    (h : Rounded.annualizedRate rnd cal rate a b = .ok q) :
    ((∀ d r, rate d = .ok r → 0 ≤ r) → 0 ≤ q) ∧ ((∀ d r, rate d = .ok r → r = 0) → q = 0) := by
  unfold Rounded.annualizedRate at h
  rw [bind_ok] at h; obtain ⟨days, hdays, h⟩ := h
  rw [bind_ok] at h; obtain ⟨out, hout, h⟩ := h
  unfold Rounded.div at h
  split_ifs at h with hne
  injection h with h
  constructor
  · intro hrate
    obtain ⟨h1, h2⟩ := compound_ge R hrate _ 0 1 out (le_refl _) (le_refl _) hout
    rw [← h]
    exact R.nonneg (div_nonneg (R.nonneg (by linarith)) h1)
  · intro hrate
    have key : ∀ (L : List (PyDate × PyDate)) (S : ℚ) (out : ℚ × ℚ), Rounded.compoundLoop rnd rate L (S, 1) = .ok out → out.2 = 1 := by
      intro L
      induction L with
      | nil => intro S out h; injection h with h; subst h; rfl
      | cons p L ih =>
        intro S out h
        simp only [Rounded.compoundLoop] at h
        rw [bind_ok] at h; obtain ⟨x, hx, h⟩ := h
        rw [bind_ok] at h; obtain ⟨r, hr, h⟩ := h
        rw [hrate _ _ hr, zero_mul, R.zero, add_zero, R.one, one_mul, R.one] at h
        exact ih _ _ h
    rw [← h, key _ _ _ hout, sub_self, R.zero, zero_div, R.zero]

/-! ## Accrued interest and full price -/

/-- Rounded accruals from one start date keep the order of the exact ones. -/
theorem rounded_accrual_order (R : Rounding rnd u tiny) {a s b : PyDate} {dcc : DayCountConvention} {x w y z : ℚ} (has : a ≤ s)
    (hsb : s ≤ b) (hx : accrual a s dcc = .ok x) (hw : accrual a b dcc = .ok w) (hxw : x ≤ w)
    (hy : Rounded.accrual rnd a s dcc = .ok y) (hz : Rounded.accrual rnd a b dcc = .ok z) : y ≤ z := by
  by_cases h30 : dcc = .thirty360
  · subst h30
    rw [accrual_eq has] at hx
    rw [accrual_eq (le_trans has hsb)] at hw
    injection hx with hx
    injection hw with hw
    unfold Rounded.accrual at hy hz
    rw [if_pos has] at hy
    rw [if_pos (le_trans has hsb)] at hz
    injection hy with hy
    injection hz with hz
    rw [← hy, ← hz, hx, hw]
    exact R.mono hxw
  · have hτ : ∃ τ, timeAxis dcc = some τ := by
      cases dcc
      case unknown => rw [accrual_eq has] at hx; cases hx
      case thirty360 => exact absurd rfl h30
      all_goals exact ⟨_, rfl⟩
    obtain ⟨τ, hτ⟩ := hτ
    have hok : AxisOk dcc a := by
      intro e
      subst e
      by_contra hc
      have := a.bounds
      rw [C14_year_one a s has (by omega)] at hx
      cases hx
    exact accrual_le R hτ (le_refl a) has hsb hok hy hz

/-- C111. Accrued interest in floating point (when no coupon date lies between purchase and settlement, as in C35): it is computed
without error exactly when the exact code computes it, lies between zero and the computed coupon, and agrees with the exact value up
to ten roundings; the full price is at least the (representable) clean price and agrees with the exact one up to thirteen roundings. -/
theorem C111_accrued (R : Rounding rnd u tiny) (t : BondTerms) (b : Bond) (k : Int) (hk : couponMonths t.frequency = some k)
    (h : Bond.create t = .ok b) (hP : 1 ≤ t.principal ∧ t.principal ≤ 2 ^ 40)
    (hcoupon : t.principal * t.couponRate = 0 ∨ tiny * 2 ^ 100 ≤ t.principal * t.couponRate)
    (hgap : ∀ p ∈ b.coupons, (p.date ≤ t.purchaseDate ∧ p.unadjusted ≤ b.settlementDate) ∨
      (t.purchaseDate < p.date ∧ b.settlementDate ≤ p.unadjusted))
    (hfeb : t.dcc = .thirty360 → ¬ (b.settlementDate.month = 2 ∧ 28 ≤ b.settlementDate.day)) :
    ∃ y z, Rounded.accruedInterest rnd t b.datedDate b.coupons b.settlementDate = .ok y ∧ 0 ≤ y ∧ y ≤ Rounded.couponPayment rnd t ∧
      Near u 10 b.accruedInterest y ∧ Rounded.fullPrice rnd t y = .ok z ∧ (rnd t.price = t.price → t.price ≤ z) ∧
      (tiny ≤ t.price → Near u 13 b.fullPrice z) := by
  have u0 := R.u_nonneg
  have u1 := R.u_lt
  have t0 := R.tiny_pos
  obtain ⟨-, -, -, -, -, hacc, hP0, hfull⟩ := create_ok h
  obtain ⟨-, hsort, -, hk12⟩ := C33_coupons t b k hk h
  have hfz : t.frequency ≠ .zeroCoupon := by
    intro e; rw [e] at hk; simp [couponMonths] at hk
  obtain ⟨n, hn, hn1, hn4⟩ : ∃ n : ℚ, t.frequency.value = n ∧ 1 ≤ n ∧ n ≤ 4 := by
    cases hf : t.frequency <;> simp only [hf, couponMonths, reduceCtorEq] at hk
    · exact ⟨_, rfl, by norm_num [PaymentFrequency.value], by norm_num [PaymentFrequency.value]⟩
    · exact ⟨_, rfl, by norm_num [PaymentFrequency.value], by norm_num [PaymentFrequency.value]⟩
    · exact ⟨_, rfl, by norm_num [PaymentFrequency.value], by norm_num [PaymentFrequency.value]⟩
  have hcp : t.couponPayment = t.principal * t.couponRate / (100 * n) := by
    unfold BondTerms.couponPayment
    rw [← hn]
    cases hf : t.frequency <;> simp only [hf, couponMonths, reduceCtorEq] at hk <;> rfl
  have hcpr : Rounded.couponPayment rnd t = rnd (rnd (t.principal * t.couponRate) / (100 * n)) := by
    unfold Rounded.couponPayment
    rw [← hn]
    cases hf : t.frequency <;> simp only [hf, couponMonths, reduceCtorEq] at hk <;> rfl
  -- the coupon
  set c := t.principal * t.couponRate with hc
  have hc0 : 0 ≤ c := by
    rcases hcoupon with h | h
    · rw [h]
    · exact le_trans (by positivity) h
  have tt : ∀ j : Nat, tiny ≤ tiny * 2 ^ j := by
    intro j
    have : (1 : ℚ) ≤ 2 ^ j := one_le_pow₀ (by norm_num)
    nlinarith
  have n1 : Near u 1 c (rnd c) := R.near (hcoupon.imp id (fun h => le_trans (tt 100) h))
  have c1 : rnd c = 0 ∨ tiny * 2 ^ 99 ≤ rnd c := by
    rcases round_half R (tt 100) hcoupon with h | h
    · exact Or.inl h
    · right
      have : tiny * 2 ^ 100 / 2 = tiny * 2 ^ 99 := by ring
      linarith
  have hrc0 : 0 ≤ rnd c := R.nonneg hc0
  have hd0 : 0 < 100 * n := by linarith
  have n2 : Near u 1 (c / (100 * n)) (rnd c / (100 * n)) := by
    have := n1.div u1 hc0 hd0 (Near.refl (100 * n))
    exact this
  have c2 : rnd c / (100 * n) = 0 ∨ tiny * 2 ^ 90 ≤ rnd c / (100 * n) := by
    rcases c1 with h | h
    · left; rw [h, zero_div]
    · right
      rw [le_div_iff₀ hd0]
      have : 100 * n ≤ 2 ^ 9 := by norm_num; linarith
      calc tiny * 2 ^ 90 * (100 * n) ≤ tiny * 2 ^ 90 * 2 ^ 9 := mul_le_mul_of_nonneg_left this (by positivity)
        _ = tiny * 2 ^ 99 := by ring
        _ ≤ rnd c := h
  set cr := rnd (rnd c / (100 * n)) with hcr
  have n3 : Near u 2 (c / (100 * n)) cr := n2.trans u1 (R.near (c2.imp id (fun h => le_trans (tt 90) h)))
  have c3 : cr = 0 ∨ tiny * 2 ^ 89 ≤ cr := by
    rcases round_half R (tt 90) c2 with h | h
    · exact Or.inl h
    · right
      have : tiny * 2 ^ 90 / 2 = tiny * 2 ^ 89 := by ring
      linarith
  have hcx0 : 0 ≤ c / (100 * n) := div_nonneg hc0 (le_of_lt hd0)
  have hcr0 : 0 ≤ cr := n3.nonneg u1 hcx0
  -- the accruals
  unfold Bond.accruedInterestOf at hacc
  rw [if_neg hfz] at hacc
  simp only [Bond.branchDate, ok_bind] at hacc
  by_cases hsd : b.settlementDate < b.datedDate
  · rw [if_pos hsd] at hacc; cases hacc
  rw [if_neg hsd] at hacc
  rw [bind_ok] at hacc
  obtain ⟨⟨from_, following⟩, hpick, hacc⟩ := hacc
  simp only at hacc
  rw [bind_ok] at hacc
  obtain ⟨x, hx, hacc⟩ := hacc
  rw [bind_ok] at hacc
  obtain ⟨w, hw, hacc⟩ := hacc
  rw [bind_ok] at hacc
  obtain ⟨fr, hfr, hacc⟩ := hacc
  injection hacc with hacc
  obtain ⟨hw0, hfr⟩ := pyDiv_ok.1 hfr
  obtain ⟨-, h1, h2⟩ := period_of_gap hsort hgap hsd hpick
  obtain ⟨hx0, hxw⟩ := accrual_between h1 h2 hfeb hx hw
  have hwpos : 0 < w := lt_of_le_of_ne (le_trans hx0 hxw) (Ne.symm hw0)
  obtain ⟨x', ex, nx, orx, -⟩ := rounded_accrual_ok R hx hx0
  obtain ⟨w', ew, nw, -, bw⟩ := rounded_accrual_ok R hw (le_of_lt hwpos)
  have hw'pos := nw.pos u1 hwpos
  have hx'0 := nx.nonneg u1 hx0
  have hle := rounded_accrual_order R h1 h2 hx hw hxw ex ew
  -- the fraction
  have q0 := nx.div u1 hx0 hwpos nw
  have hfr0 : 0 ≤ x / w := div_nonneg hx0 (le_of_lt hwpos)
  have forx : x / w = 0 ∨ 1 / 7320000 ≤ x / w := by
    rcases orx with h | h
    · left; rw [h, zero_div]
    · right
      have : (1 : ℚ) / 366 / 20000 ≤ x / w := div_le_div₀ hx0 h hwpos bw
      have e : (1 : ℚ) / 366 / 20000 = 1 / 7320000 := by norm_num
      rwa [e] at this
  have hp6 := R.pow_ge 6 (by norm_num)
  have for' : x' / w' = 0 ∨ 1 / 2 ^ 23 ≤ x' / w' := by
    rcases forx with h | h
    · left
      have h2 := q0.2
      rw [h] at h2
      have hp : 0 < (1 - u) ^ (3 + 3) := pow_pos (by linarith) _
      have : 0 ≤ x' / w' := div_nonneg hx'0 (le_of_lt hw'pos)
      nlinarith
    · right
      have h1 := q0.1
      have h2 : (1 - 1 / 2 ^ 30) * (1 / 7320000) ≤ (1 - u) ^ (3 + 3) * (x / w) := mul_le_mul hp6 h (by norm_num) (pow_nonneg (by linarith) _)
      have h3 : (1 : ℚ) / 2 ^ 23 ≤ (1 - 1 / 2 ^ 30) * (1 / 7320000) := by norm_num
      linarith
  have ht23 : tiny ≤ 1 / 2 ^ 23 := by
    have := R.tiny_small
    have h3 : (1 : ℚ) / 2 ^ 100 ≤ 1 / 2 ^ 23 := by norm_num
    linarith
  have q1 : Near u 7 (x / w) (rnd (x' / w')) := q0.trans u1 (R.near (for'.imp id (fun h => le_trans ht23 h)))
  have fr' : rnd (x' / w') = 0 ∨ 1 / 2 ^ 24 ≤ rnd (x' / w') := by
    rcases round_half R ht23 for' with h | h
    · exact Or.inl h
    · right
      have : (1 : ℚ) / 2 ^ 23 / 2 = 1 / 2 ^ 24 := by norm_num
      linarith
  have hfr'0 : 0 ≤ rnd (x' / w') := R.nonneg (div_nonneg hx'0 (le_of_lt hw'pos))
  have hfr'1 : rnd (x' / w') ≤ 1 := R.le_one ((div_le_one hw'pos).2 hle)
  -- the accrued interest
  have hprod : rnd (x' / w') * cr = 0 ∨ tiny * 2 ^ 65 ≤ rnd (x' / w') * cr := by
    rcases fr' with h | h
    · left; rw [h, zero_mul]
    · rcases c3 with g | g
      · left; rw [g, mul_zero]
      · right
        have : 1 / 2 ^ 24 * (tiny * 2 ^ 89) ≤ rnd (x' / w') * cr := mul_le_mul h g (by positivity) hfr'0
        have e : 1 / 2 ^ 24 * (tiny * 2 ^ 89) = tiny * 2 ^ 65 := by ring
        linarith
  set y := rnd (rnd (x' / w') * cr) with hy
  have ny : Near u 10 (x / w * (c / (100 * n))) y := by
    have p0 := q1.mul u1 hfr0 hfr'0 hcx0 hcr0 n3
    exact p0.trans u1 (R.near (hprod.imp id (fun h => le_trans (tt 65) h)))
  have hy0 : 0 ≤ y := R.nonneg (mul_nonneg hfr'0 hcr0)
  have hyc : y ≤ cr := by
    have : y ≤ rnd cr := R.mono (by nlinarith)
    rwa [hcr, R.idem, ← hcr] at this
  have yor : y = 0 ∨ tiny * 2 ^ 64 ≤ y := by
    rcases round_half R (tt 65) hprod with h | h
    · exact Or.inl h
    · right
      have : tiny * 2 ^ 65 / 2 = tiny * 2 ^ 64 := by ring
      linarith
  have hexact : b.accruedInterest = x / w * (c / (100 * n)) := by rw [← hacc, hfr, hcp]
  have hP1 : 0 < t.principal := by linarith [hP.1]
  -- the full price
  have yP : y / t.principal = 0 ∨ tiny * 2 ^ 24 ≤ y / t.principal := by
    rcases yor with h | h
    · left; rw [h, zero_div]
    · right
      rw [le_div_iff₀ hP1]
      calc tiny * 2 ^ 24 * t.principal ≤ tiny * 2 ^ 24 * 2 ^ 40 := mul_le_mul_of_nonneg_left hP.2 (by positivity)
        _ = tiny * 2 ^ 64 := by ring
        _ ≤ y := h
  have hq0 : 0 ≤ rnd (y / t.principal) := R.nonneg (div_nonneg hy0 (le_of_lt hP1))
  have nq : Near u 11 (b.accruedInterest / t.principal) (rnd (y / t.principal)) := by
    rw [hexact]
    have hnn : 0 ≤ x / w * (c / (100 * n)) := mul_nonneg hfr0 hcx0
    have := ny.div u1 hnn hP1 (Near.refl t.principal)
    exact this.trans u1 (R.near (yP.imp id (fun h => le_trans (tt 24) h)))
  have qor : rnd (y / t.principal) * 100 = 0 ∨ tiny ≤ rnd (y / t.principal) * 100 := by
    rcases R.keep (yP.imp id (fun h => le_trans (tt 24) h)) with h | h
    · left; rw [h, zero_mul]
    · right; nlinarith
  have hacc0 : 0 ≤ b.accruedInterest / t.principal := by
    rw [hexact]; exact div_nonneg (mul_nonneg hfr0 hcx0) (le_of_lt hP1)
  have n100 : Near u 12 (b.accruedInterest / t.principal * 100) (rnd (rnd (y / t.principal) * 100)) := by
    have := nq.mul u1 hacc0 hq0 (by norm_num : (0 : ℚ) ≤ 100) (by norm_num) (Near.refl 100)
    exact this.trans u1 (R.near qor)
  have hadd0 : 0 ≤ rnd (rnd (y / t.principal) * 100) := R.nonneg (mul_nonneg hq0 (by norm_num))
  refine ⟨y, rnd (t.price + rnd (rnd (y / t.principal) * 100)), ?_, hy0, by rw [hcpr]; exact hyc, by rw [hexact]; exact ny, ?_, ?_, ?_⟩
  · unfold Rounded.accruedInterest
    rw [if_neg hfz, if_neg hsd, hpick, ok_bind]
    simp only
    rw [ex, ok_bind, ew, ok_bind, Rounded.div_of_ne (ne_of_gt hw'pos), ok_bind, hcpr]
  · unfold Rounded.fullPrice
    rw [Rounded.div_of_ne hP0, ok_bind]
  · intro hrep
    have := R.mono (show t.price ≤ t.price + rnd (rnd (y / t.principal) * 100) by linarith)
    rwa [hrep] at this
  · intro hprice
    rw [hfull]
    have p0 := ((Near.refl (u := u) t.price).weaken u0 u1 (by omega : 0 ≤ 12) (by linarith) (by linarith)).add n100
    exact p0.trans u1 (R.near (Or.inr (by linarith)))

/-! ## The exact model is the case without rounding -/

/-- C111. Without rounding, legs, par rate and accrued interest are those of the exact model. -/
theorem C111_exact (s : Swap) (rate : RateFn) (curve : DiscountFn) :
    Rounded.fixedLeg id s = s.fixedCashflow ∧ Rounded.floatLeg id s rate = s.floatCashflow rate ∧
      Rounded.parRate id s rate curve = (do let fl ← s.floatCashflow rate; s.rateFromFloat curve fl) ∧
      ∀ t dated coupons settlement, Rounded.accruedInterest id t dated coupons settlement =
        Bond.accruedInterestOf t dated coupons settlement none := by
  have hdiv : ∀ a b : ℚ, Rounded.div id a b = pyDiv a b := by
    intro a b; unfold Rounded.div pyDiv; rfl
  have hacc : ∀ dcc, Rounded.swapAccrual id dcc = Swap.accrualOf dcc := by
    intro dcc; funext p; unfold Rounded.swapAccrual Swap.accrualOf; rw [rounded_accrual_id]
  have hsch : ∀ f dcc, Rounded.swapSchedule id s f dcc = s.accrualSchedule f dcc := by
    intro f dcc; unfold Rounded.swapSchedule Swap.accrualSchedule; rw [hacc]
  have hloop : ∀ (L : List (PyDate × PyDate)) (acc : ℚ × ℚ), Rounded.compoundLoop id rate L acc = Swap.compoundLoop rate L acc := by
    intro L
    induction L with
    | nil => intro acc; rfl
    | cons p L ih =>
      intro acc
      simp only [Rounded.compoundLoop, Swap.compoundLoop, rounded_accrual_id, id_eq, ih]
  have hann : ∀ a b, Rounded.annualizedRate id s.terms.calendar rate a b = Swap.annualizedRate s.terms.calendar rate a b := by
    intro a b; unfold Rounded.annualizedRate Swap.annualizedRate
    simp only [hloop, hdiv, id_eq]
  have hfl : Rounded.floatLeg id s rate = s.floatCashflow rate := by
    unfold Rounded.floatLeg Swap.floatCashflow Swap.floatAccruals
    rw [hsch]
    have : Rounded.floatPayment id s rate = s.floatPayment rate := by
      funext a
      unfold Swap.floatPayment Rounded.floatPayment
      cases s.terms.cls with
      | term => rfl
      | overnight =>
        simp only [Rounded.overnightPayment, Swap.overnightPayment, hann, id_eq]
    rw [this]
  have hpv : ∀ cf, Rounded.presentValue id cf curve = Cashflow.presentValue cf curve := by
    intro cf
    unfold Rounded.presentValue Cashflow.presentValue pySum
    simp only [id_eq]
    congr 1
    funext xs
    unfold Rounded.sum
    rw [List.sum_eq_foldl]
    rfl
  refine ⟨?_, hfl, ?_, ?_⟩
  · unfold Rounded.fixedLeg Swap.fixedCashflow Swap.fixedAccruals
    rw [hsch]; rfl
  · unfold Rounded.parRate Swap.rateFromFloat
    rw [hfl, hsch]
    simp only [hpv, hdiv]
    congr 1
    funext fl
    congr 1
    funext G
    unfold Swap.fixedAccruals
    congr 1
    funext accs
    unfold pySum
    have : Rounded.discountedAccrual id s curve = s.discountedAccrual curve := rfl
    rw [this]
    cases collect (s.discountedAccrual curve) accs with
    | error e => rfl
    | ok xs =>
      simp only [ok_bind]
      unfold Rounded.sum
      rw [List.sum_eq_foldl]
      rfl
  · intro t dated coupons settlement
    have hcp : Rounded.couponPayment id t = t.couponPayment := rfl
    unfold Rounded.accruedInterest Bond.accruedInterestOf
    simp only [Bond.branchDate, ok_bind, rounded_accrual_id, hdiv, hcp, id_eq]

/-- Double precision: the example swap (semi-annual against quarterly, 30/360 against ACT/360) undiscounted on its trade date. -/
example : ∃ w, Rounded.swapValue nearest53 exSwap0 exRate (unitCurve (D 2024 1 15)) = .ok w ∧
    |w - (50 - (91 * 30 + 91 * 30 + 92 * 40 + 92 * 40) / 360)| ≤ 1 / 2 ^ 40 := by
  have htiny : (1 : ℚ) / 2 ^ 1022 * 2 ^ 60 ≤ 3 / 100 := by
    rw [div_mul_eq_mul_div, one_mul, div_le_div_iff₀ (by positivity) (by norm_num)]
    have : (2 : ℚ) ^ 1022 = 2 ^ 60 * 2 ^ 962 := by rw [← pow_add]
    rw [this]
    have h2 : (100 : ℚ) ≤ 2 ^ 962 := le_trans (by norm_num : (100 : ℚ) ≤ 2 ^ 7) (pow_le_pow_right₀ (by norm_num) (by norm_num))
    have h1 : (0 : ℚ) ≤ 2 ^ 60 := by positivity
    have h3 : (2 : ℚ) ^ 60 * 100 ≤ 2 ^ 60 * 2 ^ 962 := mul_le_mul_of_nonneg_left h2 h1
    have h4 : (0 : ℚ) ≤ 2 ^ 60 * 2 ^ 962 := by positivity
    generalize (2 : ℚ) ^ 60 * 2 ^ 962 = z at h3 h4 ⊢
    linarith
  obtain ⟨fx, fl, F, G, w, h1, h2, h3, h4, h5, h6⟩ := C111_swap_value rounding_nearest53 exSwap exSwap0 exSwap_create rfl exRate
    (by
      intro d r h
      unfold exRate at h
      injection h with h
      right
      split_ifs at h <;> linarith)
    (unitCurve (D 2024 1 15)) (by intro d x h; injection h with h; rw [← h]; norm_num)
    [⟨D 2024 1 17, D 2024 7 17, 1 / 2⟩, ⟨D 2024 7 17, D 2025 1 17, 1 / 2⟩]
    [⟨D 2024 1 17, D 2024 4 17, 91 / 360⟩, ⟨D 2024 4 17, D 2024 7 17, 91 / 360⟩, ⟨D 2024 7 17, D 2024 10 17, 92 / 360⟩,
      ⟨D 2024 10 17, D 2025 1 17, 92 / 360⟩] (by decide +kernel) (by decide +kernel) (by decide +kernel) (by decide +kernel)
    (by decide +kernel) (Or.inr (by show _ ≤ (5 : ℚ) / 100; linarith)) (by norm_num)
    (50 - (91 * 30 + 91 * 30 + 92 * 40 + 92 * 40) / 360) (by decide +kernel)
  refine ⟨w, h5, le_trans h6 ?_⟩
  have eF : F = 50 := by
    have e : (do let c ← exSwap0.fixedCashflow; Cashflow.presentValue c (unitCurve (D 2024 1 15))) = Except.ok (50 : ℚ) := by decide +kernel
    rw [h1, ok_bind, h3] at e; injection e
  have eG : G = (91 * 30 + 91 * 30 + 92 * 40 + 92 * 40) / 360 := by
    have e : (do let c ← exSwap0.floatCashflow exRate; Cashflow.presentValue c (unitCurve (D 2024 1 15))) =
      Except.ok ((91 * 30 + 91 * 30 + 92 * 40 + 92 * 40) / 360 : ℚ) := by decide +kernel
    rw [h2, ok_bind, h4] at e; injection e
  rw [eF, eG]
  have h7 : (1 : ℚ) / 2 ^ 1022 ≤ 1 / 2 ^ 60 := one_div_le_one_div_of_le (by positivity) (pow_le_pow_right₀ (by norm_num) (by norm_num))
  have h8 : 2 * ((([⟨D 2024 1 17, D 2024 7 17, 1 / 2⟩, ⟨D 2024 7 17, D 2025 1 17, 1 / 2⟩] : List SwapAccrual).length +
    ([⟨D 2024 1 17, D 2024 4 17, 91 / 360⟩, ⟨D 2024 4 17, D 2024 7 17, 91 / 360⟩, ⟨D 2024 7 17, D 2024 10 17, 92 / 360⟩,
      ⟨D 2024 10 17, D 2025 1 17, 92 / 360⟩] : List SwapAccrual).length + 7 : ℚ) * (1 / 2 ^ 53)) *
      (50 + (91 * 30 + 91 * 30 + 92 * 40 + 92 * 40) / 360) + 2 * (1 / 2 ^ 60) ≤ 1 / 2 ^ 40 := by
    norm_num
  linarith

/-- The example swap struck at its par rate (C111_par): every hypothesis holds, here without rounding. -/
example : Rounding id 0 (1 / 2 ^ 1022) ∧ Rounded.parRate id exSwap0 exRate (unitCurve (D 2024 1 15)) = .ok (641 / 18000) ∧
    Swap.create (reterm exSwap .payerFixed (641 / 18000) 1000) =
      .ok ⟨reterm exSwap .payerFixed (641 / 18000) 1000, D 2024 1 17, D 2025 1 17, exSwap0.legs⟩ := by
  refine ⟨⟨monotone_id, fun x => rfl, rfl, rfl, rfl, fun x => rfl, fun x _ => by simp, le_refl _, by positivity, by positivity,
    one_div_le_one_div_of_le (by positivity) (pow_le_pow_right₀ (by norm_num) (by norm_num))⟩, by decide +kernel,
    reterm_create exSwap_create _ _ _⟩

/-- Double precision: the example Treasury bond (4 %, 106 of 181 days into its first period). -/
example : ∃ b y z, Bond.create exTerms = .ok b ∧
    Rounded.accruedInterest nearest53 exTerms b.datedDate b.coupons b.settlementDate = .ok y ∧ Near (1 / 2 ^ 53) 10 (214 / 181) y ∧
    Rounded.fullPrice nearest53 exTerms y = .ok z ∧ Near (1 / 2 ^ 53) 13 b.fullPrice z := by
  obtain ⟨b, hb, h1, h2, h3, h4, h5⟩ := exTerms_create
  have hbig : (1 : ℚ) / 2 ^ 1022 * 2 ^ 100 ≤ 1 := by
    rw [div_mul_eq_mul_div, one_mul, div_le_one (by positivity)]
    exact pow_le_pow_right₀ (by norm_num) (by norm_num)
  obtain ⟨y, z, a1, -, -, a4, a5, -, a7⟩ := C111_accrued rounding_nearest53 exTerms b 6 rfl hb
    ⟨by show (1 : ℚ) ≤ 100; norm_num, by show (100 : ℚ) ≤ 2 ^ 40; norm_num⟩
    (Or.inr (by show _ ≤ (100 * 4 : ℚ); linarith))
    (by
      intro p hp
      right
      rw [h3] at hp
      rw [h2]
      simp only [List.mem_cons, List.not_mem_nil, or_false] at hp
      rcases hp with rfl | rfl | rfl | rfl <;> decide +kernel)
    (by intro h; exact absurd h (by decide))
  refine ⟨b, y, z, hb, a1, by rw [← h5]; exact a4, a5, a7 ?_⟩
  show _ ≤ (99 : ℚ)
  have : (1 : ℚ) / 2 ^ 1022 ≤ 1 := by
    rw [div_le_one (by positivity)]
    exact one_le_pow₀ (by norm_num)
  linarith

end Verif.Props
