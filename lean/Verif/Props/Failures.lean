/- C102: bad arguments, the exception they raise, and what they leave behind. -/
import Verif.Props.Calibration
import Verif.Props.Loan
import Verif.Props.KeyRateOps
import Verif.Props.Bond

namespace Verif.Props
open Verif

/-- C102. Reading, replacing and deleting by position in a collection of key rates: positions count from either end, as in a
Python list; a position outside is an IndexError and changes neither the collection nor any key rate. -/
theorem C102_key_rate_index (h : KRHeap) (c : KeyRateCollection) (i : Int) (new : Nat) :
    (∀ k (hk : k < c.keyRates.length), (i = k ∨ i = (k : Int) - c.keyRates.length) → c.getItem i = .ok c.keyRates[k]) ∧
    ((i < -(c.keyRates.length : Int) ∨ (c.keyRates.length : Int) ≤ i) →
      c.getItem i = .error .indexError ∧ KeyRateCollection.setItem h c i new = (.error .indexError, c, h) ∧
      KeyRateCollection.delItem h c i = (.error .indexError, c, h)) := by
  constructor
  · intro k hk hi
    have : KeyRateCollection.pyIndex c.keyRates.length i = some k := by
      unfold KeyRateCollection.pyIndex
      rcases hi with rfl | rfl
      · rw [if_pos ⟨by omega, by omega⟩]; simp
      · rw [if_neg (by omega), if_pos ⟨by omega, by omega⟩]; congr 1; omega
    unfold KeyRateCollection.getItem
    rw [this]
    simp only
    rw [List.getElem?_eq_getElem hk]
  · intro hi
    have : KeyRateCollection.pyIndex c.keyRates.length i = none := by
      unfold KeyRateCollection.pyIndex
      rw [if_neg (by omega), if_neg (by omega)]
    refine ⟨?_, ?_, ?_⟩
    · unfold KeyRateCollection.getItem; rw [this]
    · unfold KeyRateCollection.setItem; rw [this]
    · unfold KeyRateCollection.delItem; rw [this]

/-- Concrete case for C102: of two key rates, position -1 is the second, positions 2 and -3 are outside. -/
example : (⟨[7, 9], 0⟩ : KeyRateCollection).getItem (-1) = .ok 9 ∧ (⟨[7, 9], 0⟩ : KeyRateCollection).getItem 2 = .error .indexError ∧
    (⟨[7, 9], 0⟩ : KeyRateCollection).getItem (-3) = .error .indexError := by decide

/-- C102. A loan paying no coupons has no payment schedule: whenever its first and last dates exist, asking for one is a ValueError,
whatever the amount and the extra payments. -/
theorem C102_loan_frequency (l : Loan) (hl : l.frequency = .zeroCoupon) (amount : ℚ) (extra : ExtraPayments) (start stop : PyDate)
    (h1 : l.startDate = .ok start) (h2 : Scheduler.addIncrement start l.termLength = .ok stop) :
    l.generatePaymentSchedule amount extra = .error .valueError := by
  unfold Loan.generatePaymentSchedule Loan.paymentDates Loan.increment
  rw [h1, ok_bind, h2, ok_bind, hl]
  rfl

/-- Concrete case for C102: a three-year loan without coupons. -/
example : (⟨1000, 6 / 100, D 2025 3 11, .relativedelta 36 0, .thirty360, .zeroCoupon, .startOfMonth, D 2028 3 11⟩ : Loan).startDate =
    .ok (D 2025 4 1) ∧ Scheduler.addIncrement (D 2025 4 1) (.relativedelta 36 0) = .ok (D 2028 4 1) := by decide +kernel

/-- C102. Starting values given as a list: one value is used for every state variable, as many values as there are state variables are
used one for each; any other number never gives a path, and is a ValueError whenever the grid can be made. -/
theorem C102_starting_values {p : Nat} (v : MultiVasicek p) (xs : List ℝ) (set : Bool) (normals : Nat → Vec p) :
    (∀ x, xs = [x] → v.generatePathFrom xs set normals = v.generatePath (fun _ => x) set normals) ∧
    (∀ h : xs.length = p, v.generatePathFrom xs set normals = v.generatePath (fun i => xs[i.val]) set normals) ∧
    (xs.length ≠ 1 → xs.length ≠ p → (v.generatePathFrom xs set normals).1 ≠ .ok () ∧
      (∀ r b, v.core.bm.generateIncrements v.core.process.dt normals = (.ok r, b) →
        (v.generatePathFrom xs set normals).1 = .error .valueError)) := by
  refine ⟨?_, ?_, ?_⟩
  · rintro x rfl
    have : broadcast (p := p) [x] = some fun _ => x := by
      unfold broadcast
      split_ifs with h
      · congr 1
        funext i
        have : i.val = 0 := by simp only [List.length_singleton] at h; omega
        simp [this]
      · rfl
    unfold MultiVasicek.generatePathFrom
    rw [this]
  · intro h
    have : broadcast (p := p) xs = some fun i => xs[i.val]'(by omega) := by
      unfold broadcast; rw [dif_pos h]
    unfold MultiVasicek.generatePathFrom
    rw [this]
  · intro h1 hp
    have : broadcast (p := p) xs = none := by
      unfold broadcast
      rw [dif_neg hp]
      match xs, h1 with
      | [], _ => rfl
      | [_], h => exact absurd rfl h
      | _ :: _ :: _, _ => rfl
    unfold MultiVasicek.generatePathFrom
    rw [this]
    constructor
    · simp only
      rcases v.core.bm.generateIncrements v.core.process.dt normals with ⟨r | r, b⟩ <;> simp
    · intro r b hb
      simp only
      rw [hb]

/-- C102. Setting the doubly mean-reverting model's parameters from its dictionary: parameters are overwritten in the order long speed, long
volatility, short speed, short volatility, correlation as far as the dictionary goes, so a short list leaves a half-updated model and
an IndexError; in the same way a third state variable is an IndexError after the first two have been set. -/
theorem C102_doubly_setters (v : Doubly) :
    (let r := v.setVolatilityFromDict
     (r.1 = if 5 ≤ v.dict.volatility.length then .ok () else .error .indexError) ∧
     r.2.pars = ⟨(v.dict.volatility[2]?).getD v.pars.shortSpeed, (v.dict.volatility[3]?).getD v.pars.shortVol, v.pars.mean,
       (v.dict.volatility[0]?).getD v.pars.longSpeed, (v.dict.volatility[1]?).getD v.pars.longVol,
       (v.dict.volatility[4]?).getD v.pars.correlation⟩ ∧ r.2.starting = v.starting ∧ r.2.dict = v.dict) ∧
    (let r := v.setShapeFromDict
     (r.1 = if 1 ≤ v.dict.shape.length then .ok () else .error .indexError) ∧
     r.2.pars = ⟨v.pars.shortSpeed, v.pars.shortVol, (v.dict.shape[0]?).getD v.pars.mean, v.pars.longSpeed, v.pars.longVol,
       v.pars.correlation⟩ ∧ r.2.starting = v.starting ∧ r.2.dict = v.dict) ∧
    (let r := v.setStateVariablesFromDict
     (r.1 = if v.dict.stateVariables.length ≤ 2 then .ok () else .error .indexError) ∧
     r.2.starting = ![(v.dict.stateVariables[0]?).getD (v.starting 0), (v.dict.stateVariables[1]?).getD (v.starting 1)] ∧
     r.2.pars = v.pars ∧ r.2.dict = v.dict) := by
  refine ⟨?_, ?_, ?_⟩
  · unfold Doubly.setVolatilityFromDict
    rcases hd : v.dict.volatility with _ | ⟨a, _ | ⟨b, _ | ⟨c, _ | ⟨d, _ | ⟨e, l⟩⟩⟩⟩⟩ <;> simp [hd]
  · unfold Doubly.setShapeFromDict
    rcases hd : v.dict.shape with _ | ⟨a, l⟩ <;> simp [hd]
  · unfold Doubly.setStateVariablesFromDict
    rcases hd : v.dict.stateVariables with _ | ⟨a, _ | ⟨b, _ | ⟨c, l⟩⟩⟩ <;> simp [hd]
    ext i; fin_cases i <;> rfl

/-- Concrete case for C102: a five-number dictionary cut to two numbers changes the long-term speed and volatility only. -/
example (v : Doubly) (h : v.dict.volatility = [5, 4]) : v.setVolatilityFromDict.1 = .error .indexError ∧
    v.setVolatilityFromDict.2.pars.longSpeed = 5 ∧ v.setVolatilityFromDict.2.pars.shortSpeed = v.pars.shortSpeed := by
  have := (C102_doubly_setters v).1
  simp only [h] at this
  rw [this.1, this.2.1]
  simp

/-- C102. The multivariate, trebly mean-reverting and market-price-of-risk classes cannot be instantiated at all, whatever the arguments:
TypeError. -/
theorem C102_abstract_classes {p : Nat} (μ : ℝ) (g θ : Vec p) (K S : Mat p) (e : Eig p) (e3 : Eig 3) (bm : BrownianMotion p) (dt : DtIncrement)
    (q : TreblyParams) (q' : RiskPriceParams) (start stop : PyDatetime) :
    MultiVasicek.create μ g θ K S e bm dt = .error .typeError ∧ Trebly.create q start stop dt e3 = .error .typeError ∧
    RiskPrice.create q' start stop dt e3 = .error .typeError := ⟨rfl, rfl, rfl⟩

/-! ## Bonds -/

/-- C102. A bond whose tenor is not a number followed by Y or M cannot be made: ValueError, whatever the other terms. -/
theorem C102_bond_tenor (t : BondTerms) (h : t.tenor.length = none ∨ (t.tenor.unit ≠ 'Y' ∧ t.tenor.unit ≠ 'M')) :
    Bond.create t = .error .valueError := by
  have hd : t.datedDate = .error .valueError := by
    unfold BondTerms.datedDate
    rcases h with h | ⟨h1, h2⟩
    · rw [h]
    · cases hl : t.tenor.length with
      | none => rfl
      | some n => simp only [if_neg h1, if_neg h2]
  unfold Bond.create
  rw [hd]
  rfl

/-- Concrete cases for C102: the tenor strings "2W" and "twoY". -/
example : (⟨some 2, 'W'⟩ : Tenor).unit ≠ 'Y' ∧ (⟨some 2, 'W'⟩ : Tenor).unit ≠ 'M' ∧
    Bond.create { exTerms with tenor := ⟨some 2, 'W'⟩ } = .error .valueError ∧
    Bond.create { exTerms with tenor := ⟨none, 'Y'⟩ } = .error .valueError :=
  ⟨by decide, by decide, C102_bond_tenor _ (.inr ⟨by decide, by decide⟩), C102_bond_tenor _ (.inl rfl)⟩

/-- C102. A coupon bond settling before its dated date cannot be made: ValueError. -/
theorem C102_bond_before_dated (t : BondTerms) (dated s : PyDate) (cs principal : List BondPayment) (hf : t.frequency ≠ .zeroCoupon)
    (hd : t.datedDate = .ok dated) (hc : t.couponCashflow dated = .ok cs) (hp : t.principalCashflow = .ok principal)
    (hs : Scheduler.calculateSettlementDate t.calendar t.purchaseDate t.settlementConvention = .ok s) (hlt : s < dated) :
    Bond.create t = .error .valueError := by
  unfold Bond.create Bond.accruedInterestOf Bond.branchDate
  rw [hd, ok_bind, hc, ok_bind, hp, ok_bind, hs, ok_bind, if_neg hf, ok_bind, if_pos hlt]
  rfl

/-- Concrete case for C102: the two-year note bought on 1 February 2023, two weeks before its dated date. -/
example : Bond.create { exTerms with purchaseDate := D 2023 2 1 } = .error .valueError :=
  C102_bond_before_dated { exTerms with purchaseDate := D 2023 2 1 } (D 2023 2 15) (D 2023 2 2)
    [⟨D 2023 8 15, D 2023 8 15, 2⟩, ⟨D 2024 2 15, D 2024 2 15, 2⟩, ⟨D 2024 8 15, D 2024 8 15, 2⟩, ⟨D 2025 2 15, D 2025 2 18, 2⟩]
    [⟨D 2025 2 15, D 2025 2 18, 100⟩] (by decide +kernel) (by decide +kernel) (by decide +kernel) (by decide +kernel) (by decide +kernel)
    (by decide +kernel)

/-- C102. A bond with coupons but no coupon period, its tenor being zero or negative, cannot be made: IndexError when it settles on its
dated date or later. -/
theorem C102_bond_no_period (t : BondTerms) (dated s : PyDate) (principal : List BondPayment) (hf : t.frequency ≠ .zeroCoupon)
    (hd : t.datedDate = .ok dated) (hc : t.couponCashflow dated = .ok []) (hp : t.principalCashflow = .ok principal)
    (hs : Scheduler.calculateSettlementDate t.calendar t.purchaseDate t.settlementConvention = .ok s) (hle : dated ≤ s) :
    Bond.create t = .error .indexError := by
  unfold Bond.create Bond.accruedInterestOf Bond.branchDate Bond.accrualPeriod
  rw [hd, ok_bind, hc, ok_bind, hp, ok_bind, hs, ok_bind, if_neg hf, ok_bind, if_neg (not_lt.2 hle)]
  rfl

/-- Concrete case for C102: the note with tenor "0Y", bought on its maturity date. -/
example : Bond.create { exTerms with tenor := ⟨some 0, 'Y'⟩, purchaseDate := D 2025 2 18 } = .error .indexError :=
  C102_bond_no_period { exTerms with tenor := ⟨some 0, 'Y'⟩, purchaseDate := D 2025 2 18 } (D 2025 2 15) (D 2025 2 19)
    [⟨D 2025 2 15, D 2025 2 18, 100⟩] (by decide +kernel) (by decide +kernel) (by decide +kernel) (by decide +kernel) (by decide +kernel)
    (by decide +kernel)

/-- C102. A bond without principal has no price per 100: the constructor is a ZeroDivisionError if nothing failed before. -/
theorem C102_bond_no_principal (t : BondTerms) (dated s : PyDate) (cs principal : List BondPayment) (a : ℚ) (h0 : t.principal = 0)
    (hd : t.datedDate = .ok dated) (hc : t.couponCashflow dated = .ok cs) (hp : t.principalCashflow = .ok principal)
    (hs : Scheduler.calculateSettlementDate t.calendar t.purchaseDate t.settlementConvention = .ok s)
    (ha : Bond.accruedInterestOf t dated cs s none = .ok a) : Bond.create t = .error .zeroDivisionError := by
  unfold Bond.create
  rw [hd, ok_bind, hc, ok_bind, hp, ok_bind, hs, ok_bind, ha, ok_bind, h0]
  rfl

/-- Concrete case for C102: the two-year note with principal 0. -/
example : Bond.create { exTerms with principal := 0 } = .error .zeroDivisionError :=
  C102_bond_no_principal { exTerms with principal := 0 } (D 2023 2 15) (D 2023 6 2)
    [⟨D 2023 8 15, D 2023 8 15, 0⟩, ⟨D 2024 2 15, D 2024 2 15, 0⟩, ⟨D 2024 8 15, D 2024 8 15, 0⟩, ⟨D 2025 2 15, D 2025 2 18, 0⟩]
    [⟨D 2025 2 15, D 2025 2 18, 0⟩] 0 rfl (by decide +kernel) (by decide +kernel) (by decide +kernel) (by decide +kernel)
    (by decide +kernel)

/-- C102. Duration of a bond bought for nothing is a ZeroDivisionError; so is discounting at a rate of minus the number of payments a year,
over any time but zero. -/
theorem C102_bond_zero_division (b : Bond) (ytm d : ℝ) (n : Nat) (a : ℚ) (hn : n ≠ 0) :
    (b.pvDeriv 0 ytm = .ok d → b.fullPrice = 0 → b.duration ytm = .error .zeroDivisionError) ∧
    (Bond.fixedRateFactor n (-(n : ℝ)) a = if a = 0 then .ok 1 else .error .zeroDivisionError) ∧
    (∀ rate reference m, b.macaulayDuration rate reference = .ok m → b.fullPrice * b.terms.principal ≠ 0 ∧
      (⟨b.terms, b.datedDate, b.coupons, b.principalPayments, b.settlementDate, b.accruedInterest, 0⟩ : Bond).macaulayDuration rate reference =
        .error .zeroDivisionError) := by
  refine ⟨?_, ?_, ?_⟩
  · intro h h0
    unfold Bond.duration
    rw [h, ok_bind, h0, if_pos (by norm_num)]
  · have hn' : (n : ℝ) ≠ 0 := by exact_mod_cast hn
    unfold Bond.fixedRateFactor
    rw [if_neg hn]
    have e : (1 + -(n : ℝ) / n) = 0 := by field_simp; ring
    simp only [e]
    by_cases ha : a = 0
    · subst ha; simp
    · rw [if_neg ha, if_pos]
      apply Real.zero_rpow
      have : (a : ℝ) ≠ 0 := by exact_mod_cast ha
      exact mul_ne_zero this hn'
  · intro rate reference m hm
    unfold Bond.macaulayDuration at hm ⊢
    simp only at hm ⊢
    obtain ⟨c, hc, hm⟩ := bind_ok.1 hm
    obtain ⟨p, hp, hm⟩ := bind_ok.1 hm
    constructor
    · intro h0
      rw [if_pos (by rw [h0]; norm_num)] at hm
      cases hm
    · have hc' : Bond.sumIf (fun p => (⟨b.terms, b.datedDate, b.coupons, b.principalPayments, b.settlementDate, b.accruedInterest, 0⟩ :
          Bond).isPaymentReceived p none) _ b.coupons = .ok c := hc
      have hp' : Bond.sumIf (fun p => (⟨b.terms, b.datedDate, b.coupons, b.principalPayments, b.settlementDate, b.accruedInterest, 0⟩ :
          Bond).isPaymentReceived p none) _ b.principalPayments = .ok p := hp
      rw [hc', ok_bind, hp', ok_bind, if_pos (by norm_num)]

/-- Concrete cases for C102: discounting over half a year at -200% with semi-annual compounding fails; the two-year note as a zero-coupon
bond bought for nothing has full price 0. -/
example : Bond.fixedRateFactor 2 (-(2 : Nat)) (1 / 2) = .error .zeroDivisionError ∧
    ∃ b, Bond.create { exTerms with frequency := .zeroCoupon, price := 0 } = .ok b ∧ b.fullPrice = 0 := by
  constructor
  · rw [(C102_bond_zero_division ⟨exTerms, D 2023 2 15, [], [], D 2023 6 2, 0, 0⟩ 0 0 2 (1 / 2) (by norm_num)).2.1, if_neg (by norm_num)]
  · have h1 : BondTerms.datedDate { exTerms with frequency := .zeroCoupon, price := 0 } = .ok (D 2023 2 15) := by decide +kernel
    have h2 : BondTerms.couponCashflow { exTerms with frequency := .zeroCoupon, price := 0 } (D 2023 2 15) = .ok [] := by decide +kernel
    have h3 : BondTerms.principalCashflow { exTerms with frequency := .zeroCoupon, price := 0 } =
      .ok [⟨D 2025 2 15, D 2025 2 18, 100⟩] := by decide +kernel
    have h4 : Scheduler.calculateSettlementDate exTerms.calendar exTerms.purchaseDate exTerms.settlementConvention = .ok (D 2023 6 2) := by
      decide +kernel
    refine ⟨_, by unfold Bond.create; rw [h1, ok_bind, h2, ok_bind, h3, ok_bind, h4]; rfl, by decide +kernel⟩

end Verif.Props
