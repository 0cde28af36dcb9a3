/- Property C92: what the yield to maturity of a bond depends on. -/
import Verif.Props.Bond

namespace Verif.Props
open Verif Verif.Spec Verif.DayCount Verif.Scheduler

/-! ## C92 -/

/-- Two bonds with the same schedule: they may differ in class, price, coupon rate and principal. -/
structure SameSchedule (t t' : BondTerms) : Prop where
  tenor : t'.tenor = t.tenor
  purchase : t'.purchaseDate = t.purchaseDate
  maturity : t'.maturityDate = t.maturityDate
  settlement : t'.settlementConvention = t.settlementConvention
  frequency : t'.frequency = t.frequency
  dcc : t'.dcc = t.dcc
  adjustment : t'.adjustment = t.adjustment
  calendar : t'.calendar = t.calendar

/-- `r` solves the equation of `yield_to_maturity` (above `-f`, where the compounding factor is positive). -/
def IsYield (b : Bond) (ref : PyDate) (r : ℝ) : Prop :=
  -(b.terms.frequency.value : ℝ) < r ∧ b.diffFromFullPrice (some ref) r = .ok 0

/-- The payment with another amount. -/
def withAmount (x : ℚ) (p : BondPayment) : BondPayment := ⟨p.unadjusted, p.date, x⟩

theorem pyInsert_withAmount (x : ℚ) (p : BondPayment) (l : List BondPayment) :
    pyInsert BondPayment.date (withAmount x p) (l.map (withAmount x)) = (pyInsert BondPayment.date p l).map (withAmount x) := by
  induction l with
  | nil => rfl
  | cons q l ih =>
    simp only [List.map_cons, pyInsert]
    have : (withAmount x p).date = p.date ∧ (withAmount x q).date = q.date := ⟨rfl, rfl⟩
    rw [this.1, this.2]
    split_ifs
    · rfl
    · rw [ih]; rfl

theorem pySorted_withAmount (x : ℚ) (l : List BondPayment) :
    pySorted BondPayment.date (l.map (withAmount x)) = (pySorted BondPayment.date l).map (withAmount x) := by
  induction l with
  | nil => rfl
  | cons p l ih =>
    show pyInsert _ (withAmount x p) (pySorted BondPayment.date (l.map (withAmount x))) = _
    rw [ih, pyInsert_withAmount]
    rfl

theorem zipWith_withAmount (x y : ℚ) (L as : List PyDate) :
    (List.zipWith (fun u a => (⟨u, a, x⟩ : BondPayment)) L as).map (withAmount y) =
      List.zipWith (fun u a => (⟨u, a, y⟩ : BondPayment)) L as := by
  rw [List.map_zipWith]; rfl

theorem adjust_same {t t' : BondTerms} (hs : SameSchedule t t') : t'.adjust = t.adjust := by
  funext d
  unfold BondTerms.adjust
  rw [hs.adjustment, hs.calendar]

theorem couponCashflow_same {t t' : BondTerms} (hs : SameSchedule t t') {dated : PyDate} {cs : List BondPayment}
    (h : t.couponCashflow dated = .ok cs) : t'.couponCashflow dated = .ok (cs.map (withAmount t'.couponPayment)) := by
  unfold BondTerms.couponCashflow at h ⊢
  have hinc : t'.increment = t.increment := by unfold BondTerms.increment; rw [hs.frequency]
  rw [hinc]
  rw [bind_ok] at h
  obtain ⟨inc, h1, h⟩ := h
  rw [h1, ok_bind]
  cases inc with
  | none =>
    simp only [ok_bind] at h ⊢
    injection h with h
    rw [← h]
    simp [pySorted]
  | some i =>
    simp only at h ⊢
    rw [bind_ok] at h; obtain ⟨stop, h2, h⟩ := h
    rw [bind_ok] at h; obtain ⟨L, h3, h⟩ := h
    rw [bind_ok] at h; obtain ⟨as, h4, h⟩ := h
    rw [ok_bind] at h
    injection h with h
    rw [h2, ok_bind, hs.maturity, h3, ok_bind, adjust_same hs, h4, ok_bind, ok_bind, ← h, ← pySorted_withAmount,
      ← pySorted_withAmount, zipWith_withAmount]

theorem bond_same {t t' : BondTerms} (hs : SameSchedule t t') {b b' : Bond} (h : Bond.create t = .ok b)
    (h' : Bond.create t' = .ok b') :
    b'.coupons = b.coupons.map (withAmount t'.couponPayment) ∧
    b'.principalPayments = b.principalPayments.map (withAmount t'.principal) ∧
    ∃ frac, b.accruedInterest = frac * t.couponPayment ∧ b'.accruedInterest = frac * t'.couponPayment := by
  obtain ⟨-, hd, hc, hp, hst, ha, -⟩ := create_ok h
  obtain ⟨-, hd', hc', hp', hst', ha', -⟩ := create_ok h'
  have e1 : b'.datedDate = b.datedDate := by
    have : t'.datedDate = t.datedDate := by unfold BondTerms.datedDate; rw [hs.tenor, hs.maturity]
    rw [this, hd] at hd'
    injection hd' with hd'
    exact hd'.symm
  have e2 : b'.coupons = b.coupons.map (withAmount t'.couponPayment) := by
    have := couponCashflow_same hs hc
    rw [e1, this] at hc'
    injection hc' with hc'
    exact hc'.symm
  have e3 : b'.settlementDate = b.settlementDate := by
    rw [hs.calendar, hs.purchase, hs.settlement, hst] at hst'
    injection hst' with hst'
    exact hst'.symm
  refine ⟨e2, ?_, ?_⟩
  · obtain ⟨a, ha1, ha2⟩ := principalCashflow_ok hp
    obtain ⟨a', ha1', ha2'⟩ := principalCashflow_ok hp'
    rw [adjust_same hs, hs.maturity, ha1] at ha1'
    injection ha1' with ha1'
    rw [ha2, ha2', hs.maturity, ← ha1']
    rfl
  · unfold Bond.accruedInterestOf at ha ha'
    rw [hs.frequency] at ha'
    by_cases hz : t.frequency = .zeroCoupon
    · rw [if_pos hz] at ha ha'
      injection ha with ha
      injection ha' with ha'
      exact ⟨0, by rw [← ha]; ring, by rw [← ha']; ring⟩
    · rw [if_neg hz] at ha ha'
      simp only [Bond.branchDate, ok_bind] at ha ha'
      rw [e1, e3] at ha'
      by_cases hlt : b.settlementDate < b.datedDate
      · rw [if_pos hlt] at ha; cases ha
      · rw [if_neg hlt] at ha ha'
        have hper : Bond.accrualPeriod t' b.datedDate b'.coupons b.settlementDate =
            Bond.accrualPeriod t b.datedDate b.coupons b.settlementDate := by
          rw [e2]
          unfold Bond.accrualPeriod
          cases hcs : b.coupons with
          | nil => rfl
          | cons first rest =>
            have hmap : ((first :: rest).map (withAmount t'.couponPayment)).map BondPayment.date =
                (first :: rest).map BondPayment.date := by
              rw [List.map_map]; rfl
            simp only [List.map_cons]
            simp only [List.map_cons] at hmap
            rw [hmap, hs.purchase]
            have hf : (withAmount t'.couponPayment first).unadjusted = first.unadjusted := rfl
            rw [hf]
            split_ifs with hc1 hc2
            · rfl
            · have e4 : (withAmount t'.couponPayment first :: rest.map (withAmount t'.couponPayment)) =
                  (first :: rest).map (withAmount t'.couponPayment) := rfl
              rw [e4, List.getLast?_map, List.getElem?_map]
              cases (first :: rest).getLast? with
              | none => rfl
              | some x =>
                cases (first :: rest)[bisectRight id (first.date :: rest.map BondPayment.date) t.purchaseDate]? with
                | none => rfl
                | some y => rfl
            · have e4 : (withAmount t'.couponPayment first :: rest.map (withAmount t'.couponPayment)) =
                  (first :: rest).map (withAmount t'.couponPayment) := rfl
              rw [e4, List.getElem?_map, List.getElem?_map]
              cases (first :: rest)[bisectRight id (first.date :: rest.map BondPayment.date) t.purchaseDate - 1]? with
              | none => rfl
              | some x =>
                cases (first :: rest)[bisectRight id (first.date :: rest.map BondPayment.date) t.purchaseDate]? with
                | none => rfl
                | some y => rfl
        rw [hper, hs.dcc] at ha'
        rw [bind_ok] at ha; obtain ⟨be, h1, ha⟩ := ha
        rw [bind_ok] at ha; obtain ⟨pe, h2, ha⟩ := ha
        rw [bind_ok] at ha; obtain ⟨wh, h3, ha⟩ := ha
        rw [bind_ok] at ha; obtain ⟨fr, h4, ha⟩ := ha
        rw [h1, ok_bind, h2, ok_bind, h3, ok_bind, h4, ok_bind] at ha'
        injection ha with ha
        injection ha' with ha'
        exact ⟨fr, ha.symm, ha'.symm⟩

/-- The outstanding payments of `l`, each counted with its discount factor at rate `r`. -/
noncomputable def annuity (s ref : PyDate) (τ : PyDate → ℚ) (f : Nat) (l : List BondPayment) (r : ℝ) : ℝ :=
  weightedSum (fun p => s ≤ p.unadjusted) (fun p => 1 / (1 + r / f) ^ (((τ p.date - τ ref : ℚ) : ℝ) * f)) l

theorem annuity_amounts {s ref : PyDate} {τ : PyDate → ℚ} {f : Nat} {l : List BondPayment} {r : ℝ} {x : ℚ}
    (h : ∀ p ∈ l, p.amount = x) :
    weightedSum (fun p => s ≤ p.unadjusted) (fun p => 1 / (1 + r / f) ^ (((τ p.date - τ ref : ℚ) : ℝ) * f) * (p.amount : ℝ)) l =
      x * annuity s ref τ f l r := by
  unfold annuity weightedSum
  rw [← List.sum_map_mul_left]
  congr 1
  apply List.map_congr_left
  intro p hp
  beta_reduce
  rw [h p hp]
  split_ifs
  · ring
  · simp

theorem annuity_withAmount {s ref : PyDate} {τ : PyDate → ℚ} {f : Nat} {l : List BondPayment} {r : ℝ} (x : ℚ) :
    annuity s ref τ f (l.map (withAmount x)) r = annuity s ref τ f l r := by
  unfold annuity weightedSum
  rw [List.map_map]
  rfl

theorem weightedSum_append {s : PyDate} (w : BondPayment → ℝ) (l l' : List BondPayment) :
    weightedSum (fun p => s ≤ p.unadjusted) w (l ++ l') =
      weightedSum (fun p => s ≤ p.unadjusted) w l + weightedSum (fun p => s ≤ p.unadjusted) w l' := by
  unfold weightedSum
  rw [List.map_append, List.sum_append]

/-- The yield equation per 100 of principal: clean price plus accrued coupon equals the discounted coupons and redemption. -/
theorem yield_equation {t : BondTerms} {b : Bond} {k : Int} (hk : couponMonths t.frequency = some k)
    (h : Bond.create t = .ok b) {τ : PyDate → ℚ} {ref s : PyDate}
    (hτ : MeasuresFrom t.dcc ref s τ) (hs : addBusinessDays t.calendar ref 1 = .ok s) (hm : s ≤ t.maturityDate)
    (hrate : 0 ≤ t.couponRate) (hpr : 0 < t.principal) {frac : ℚ} (hfr : b.accruedInterest = frac * t.couponPayment) {r : ℝ}
    (hr : -(t.frequency.value : ℝ) < r) :
    (IsYield b ref r ↔ (t.price : ℝ) + frac * (t.couponRate / t.frequency.value : ℚ) =
      (t.couponRate / t.frequency.value : ℚ) * annuity s ref τ t.frequency.value b.coupons r +
        100 * annuity s ref τ t.frequency.value b.principalPayments r) ∧
    StrictAntiOn (fun r => ((t.couponRate / t.frequency.value : ℚ) : ℝ) * annuity s ref τ t.frequency.value b.coupons r +
        100 * annuity s ref τ t.frequency.value b.principalPayments r) (Set.Ioi (-(t.frequency.value : ℝ))) := by
  obtain ⟨v, hv, hanti, -, -⟩ := C37_yield_unique t b k hk h τ ref s hτ hs hm hrate hpr
  obtain ⟨ht, -, hc, hp, -, -, -, hfull⟩ := create_ok h
  obtain ⟨-, hkpos, hk12⟩ := increment_months hk
  have hfpos : 0 < t.frequency.value := by
    rcases Nat.eq_zero_or_pos t.frequency.value with e | e
    · rw [e] at hk12; simp at hk12
    · exact e
  have hcp : t.couponPayment = t.principal * t.couponRate / (100 * t.frequency.value) := by
    unfold BondTerms.couponPayment
    cases hf : t.frequency <;> simp [hf, couponMonths] at hk ⊢
  have hv' : ∀ r, -(t.frequency.value : ℝ) < r → v r = (t.principal / 100 : ℚ) *
      (((t.couponRate / t.frequency.value : ℚ) : ℝ) * annuity s ref τ t.frequency.value b.coupons r +
        100 * annuity s ref τ t.frequency.value b.principalPayments r) := by
    intro r hr
    obtain ⟨stop, L, -, -, -, -, hamt⟩ := couponCashflow_spec hk hc
    obtain ⟨a, -, hpp⟩ := principalCashflow_ok hp
    rw [(hv r hr).2, weightedSum_append, annuity_amounts (fun p hp => (hamt p hp).1),
      annuity_amounts (x := t.principal) (by rw [hpp]; simp), hcp]
    have : (t.frequency.value : ℝ) ≠ 0 := by exact_mod_cast hfpos.ne'
    push_cast
    field_simp
  constructor
  · unfold IsYield Bond.diffFromFullPrice
    simp only [Option.getD_some]
    rw [ht, (hv r hr).1, ok_bind, hv' r hr]
    have hP : (0 : ℝ) < (t.principal / 100 : ℚ) := by
      have : (0 : ℚ) < t.principal / 100 := by positivity
      exact_mod_cast this
    have hfl : ((b.fullPrice * t.principal / 100 : ℚ) : ℝ) =
        (t.principal / 100 : ℚ) * ((t.price : ℝ) + frac * (t.couponRate / t.frequency.value : ℚ)) := by
      rw [hfull, hfr, hcp]
      have h1 : (t.frequency.value : ℝ) ≠ 0 := by exact_mod_cast hfpos.ne'
      have h2 : (t.principal : ℝ) ≠ 0 := by exact_mod_cast hpr.ne'
      push_cast
      field_simp
    rw [hfl]
    constructor
    · rintro ⟨-, e⟩
      injection e with e
      rw [← mul_sub] at e
      rcases mul_eq_zero.1 e with e | e
      · exact absurd e hP.ne'
      · linarith
    · intro e
      refine ⟨hr, ?_⟩
      rw [e, sub_self]
  · intro x hx y hy hxy
    have := hanti hx hy hxy
    rw [hv' x hx, hv' y hy] at this
    have hP : (0 : ℝ) < (t.principal / 100 : ℚ) := by
      have : (0 : ℚ) < t.principal / 100 := by positivity
      exact_mod_cast this
    exact lt_of_mul_lt_mul_left this hP.le

/-- C92. Between bonds with the same schedule and coupon rate the dearer one has the lower yield; bonds with the same price have the
same yield, whatever their principals and classes. -/
theorem C92_price (t t' : BondTerms) (hsame : SameSchedule t t') (hrate' : t'.couponRate = t.couponRate) (b b' : Bond) (k : Int)
    (hk : couponMonths t.frequency = some k) (h : Bond.create t = .ok b) (h' : Bond.create t' = .ok b') (τ : PyDate → ℚ) (ref s : PyDate) (hτ : MeasuresFrom t.dcc ref s τ) (hs : addBusinessDays t.calendar ref 1 = .ok s)
    (hm : s ≤ t.maturityDate) (hrate : 0 ≤ t.couponRate) (hpr : 0 < t.principal) (hpr' : 0 < t'.principal) (r r' : ℝ)
    (hr : IsYield b ref r) (hr' : IsYield b' ref r') :
    (t.price < t'.price ↔ r' < r) ∧ (t.price = t'.price ↔ r' = r) := by
  obtain ⟨e1, e2, frac, hf, hf'⟩ := bond_same hsame h h'
  have ht := (create_ok h).1
  have ht' := (create_ok h').1
  have g1 : -(t.frequency.value : ℝ) < r := by have := hr.1; rwa [ht] at this
  have g2 : -(t.frequency.value : ℝ) < r' := by have := hr'.1; rwa [ht', hsame.frequency] at this
  obtain ⟨q1, hanti⟩ := yield_equation hk h hτ hs hm hrate hpr hf g1
  have q2 := (yield_equation (t := t') (by rw [hsame.frequency]; exact hk) h' (by rw [hsame.dcc]; exact hτ)
    (by rw [hsame.calendar]; exact hs) (by rw [hsame.maturity]; exact hm) (by rw [hrate']; exact hrate) hpr' hf'
    (r := r') (by rw [hsame.frequency]; exact g2)).1
  have q1 := q1.1 hr
  have q2 := q2.1 hr'
  rw [e1, e2, annuity_withAmount, annuity_withAmount, hsame.frequency, hrate'] at q2
  have hlt := hanti.lt_iff_gt (a := r) (b := r') g1 g2
  rw [← q1, ← q2] at hlt
  have c1 : (t.price : ℝ) < t'.price ↔ t.price < t'.price := by exact_mod_cast Iff.rfl
  have key : t.price < t'.price ↔ r' < r := by
    rw [← hlt, ← c1]
    constructor <;> intro hh <;> linarith
  refine ⟨key, ?_⟩
  constructor
  · intro e
    apply hanti.injOn g2 g1
    simp only
    rw [← q1, ← q2, e]
  · intro e
    rw [e, ← q1] at q2
    have : (t'.price : ℝ) = t.price := by linarith
    exact_mod_cast this.symm

/-- C92. At the same full price the bond with the higher coupon has the higher yield. -/
theorem C92_coupon (t t' : BondTerms) (hsame : SameSchedule t t') (b b' : Bond) (k : Int)
    (hk : couponMonths t.frequency = some k) (h : Bond.create t = .ok b) (h' : Bond.create t' = .ok b') (τ : PyDate → ℚ) (ref s : PyDate) (hτ : MeasuresFrom t.dcc ref s τ) (hs : addBusinessDays t.calendar ref 1 = .ok s)
    (hm : s ≤ t.maturityDate) (hrate : 0 ≤ t.couponRate) (hrate' : t.couponRate < t'.couponRate) (hpr : 0 < t.principal)
    (hpr' : 0 < t'.principal) (hfull : b'.fullPrice = b.fullPrice) (hout : ∃ p ∈ b.coupons, s ≤ p.unadjusted) (r r' : ℝ)
    (hr : IsYield b ref r) (hr' : IsYield b' ref r') : r < r' := by
  obtain ⟨e1, e2, frac, hf, hf'⟩ := bond_same hsame h h'
  obtain ⟨ht, -, -, -, -, -, -, hfp⟩ := create_ok h
  obtain ⟨ht', -, -, -, -, -, -, hfp'⟩ := create_ok h'
  have g1 : -(t.frequency.value : ℝ) < r := by have := hr.1; rwa [ht] at this
  have g2 : -(t.frequency.value : ℝ) < r' := by have := hr'.1; rwa [ht', hsame.frequency] at this
  obtain ⟨-, hkpos, hk12⟩ := increment_months hk
  have hfpos : 0 < t.frequency.value := by
    rcases Nat.eq_zero_or_pos t.frequency.value with e | e
    · rw [e] at hk12; simp at hk12
    · exact e
  have hfR : (0 : ℝ) < t.frequency.value := by exact_mod_cast hfpos
  obtain ⟨q1, hanti⟩ := yield_equation hk h hτ hs hm hrate hpr hf g1
  have q2 := (yield_equation (t := t') (by rw [hsame.frequency]; exact hk) h' (by rw [hsame.dcc]; exact hτ)
    (by rw [hsame.calendar]; exact hs) (by rw [hsame.maturity]; exact hm) (by linarith) hpr' hf'
    (r := r') (by rw [hsame.frequency]; exact g2)).1
  have q1 := q1.1 hr
  have q2 := q2.1 hr'
  rw [e1, e2, annuity_withAmount, annuity_withAmount, hsame.frequency] at q2
  -- the left hand sides are the full prices
  have hcp : t.couponPayment = t.principal * t.couponRate / (100 * t.frequency.value) := by
    unfold BondTerms.couponPayment
    cases hf : t.frequency <;> simp [hf, couponMonths] at hk ⊢
  have hcp' : t'.couponPayment = t'.principal * t'.couponRate / (100 * t.frequency.value) := by
    unfold BondTerms.couponPayment
    rw [hsame.frequency]
    cases hf : t.frequency <;> simp [hf, couponMonths] at hk ⊢
  have l1 : (t.price : ℝ) + frac * (t.couponRate / t.frequency.value : ℚ) = b.fullPrice := by
    rw [hfp, hf, hcp]
    have h2 : (t.principal : ℝ) ≠ 0 := by exact_mod_cast hpr.ne'
    push_cast
    field_simp
  have l2 : (t'.price : ℝ) + frac * (t'.couponRate / t.frequency.value : ℚ) = b'.fullPrice := by
    rw [hfp', hf', hcp']
    have h2 : (t'.principal : ℝ) ≠ 0 := by exact_mod_cast hpr'.ne'
    push_cast
    field_simp
  rw [l1] at q1
  rw [l2, hfull, q1] at q2
  -- the annuity is positive
  have hpos : 0 < annuity s ref τ t.frequency.value b.coupons r' := by
    obtain ⟨p, hp, hps⟩ := hout
    have hbase : 0 < 1 + r' / t.frequency.value := by
      have : -1 < r' / t.frequency.value := by rw [lt_div_iff₀ hfR]; linarith
      linarith
    have hterm : ∀ q : BondPayment, 0 < 1 / (1 + r' / t.frequency.value) ^ (((τ q.date - τ ref : ℚ) : ℝ) * t.frequency.value) :=
      fun q => by positivity
    unfold annuity weightedSum
    refine lt_of_lt_of_le (hterm p) (List.single_le_sum ?_ _ ?_)
    · intro x hx
      obtain ⟨q, hq, rfl⟩ := List.mem_map.1 hx
      split_ifs
      · exact (hterm q).le
      · exact le_refl _
    · exact List.mem_map.2 ⟨p, hp, by rw [if_pos hps]⟩
  have hc : ((t.couponRate / t.frequency.value : ℚ) : ℝ) < (t'.couponRate / t.frequency.value : ℚ) := by
    have : t.couponRate / t.frequency.value < t'.couponRate / t.frequency.value :=
      div_lt_div_of_pos_right hrate' (by exact_mod_cast hfpos)
    exact_mod_cast this
  by_contra hcon
  have hge := hanti.antitoneOn g2 g1 (not_lt.1 hcon)
  nlinarith

/-- C92. The yield is positive, zero or negative as the outstanding payments add up to more than the full price, to as much, or to
less. -/
theorem C92_sign (t : BondTerms) (b : Bond) (k : Int) (hk : couponMonths t.frequency = some k)
    (h : Bond.create t = .ok b) (τ : PyDate → ℚ) (ref s : PyDate) (hτ : MeasuresFrom t.dcc ref s τ)
    (hs : addBusinessDays t.calendar ref 1 = .ok s) (hm : s ≤ t.maturityDate) (hrate : 0 ≤ t.couponRate) (hpr : 0 < t.principal)
    (r : ℝ) (hr : IsYield b ref r) (total : ℚ)
    (htotal : total = weightedSum (fun p => s ≤ p.unadjusted) (fun p => p.amount) (b.coupons ++ b.principalPayments)) :
    (0 < r ↔ b.fullPrice * t.principal / 100 < total) ∧ (r = 0 ↔ b.fullPrice * t.principal / 100 = total) := by
  obtain ⟨v, hv, hanti, hv0, -⟩ := C37_yield_unique t b k hk h τ ref s hτ hs hm hrate hpr
  have ht := (create_ok h).1
  obtain ⟨g, hd⟩ := hr
  rw [ht] at g
  unfold Bond.diffFromFullPrice at hd
  simp only [Option.getD_some] at hd
  rw [(hv r g).1, ok_bind, ht] at hd
  injection hd with hd
  obtain ⟨-, hkpos, hk12⟩ := increment_months hk
  have hfpos : 0 < t.frequency.value := by
    rcases Nat.eq_zero_or_pos t.frequency.value with e | e
    · rw [e] at hk12; simp at hk12
    · exact e
  have g0 : -(t.frequency.value : ℝ) < 0 := by
    have : (0 : ℝ) < t.frequency.value := by exact_mod_cast hfpos
    linarith
  have htot : (total : ℝ) = v 0 := by
    rw [hv0, htotal]
    unfold weightedSum
    rw [← Rat.coe_castHom (α := ℝ), map_list_sum, List.map_map]
    congr 1
    apply List.map_congr_left
    intro p _
    simp only [Function.comp]
    split_ifs <;> simp
  have hfull : ((b.fullPrice * t.principal / 100 : ℚ) : ℝ) = v r := by linarith
  constructor
  · rw [← Rat.cast_lt (K := ℝ), hfull, htot]
    exact (hanti.lt_iff_gt g g0).symm
  · rw [← Rat.cast_inj (α := ℝ), hfull, htot]
    exact (hanti.injOn.eq_iff g g0).symm

/-- The example note at another price and a tenfold principal, as a corporate bond. -/
def exTerms' : BondTerms := { exTerms with cls := .fixedRateBond, price := 101, principal := 1000 }

theorem exTerms'_create : ∃ b, Bond.create exTerms' = .ok b ∧ b.fullPrice = 101 + 214 / 181 := by
  have h1 : exTerms'.datedDate = .ok (D 2023 2 15) := by decide +kernel
  have h0 : exTerms'.couponCashflow (D 2023 2 15) = .ok [⟨D 2023 8 15, D 2023 8 15, 20⟩, ⟨D 2024 2 15, D 2024 2 15, 20⟩,
      ⟨D 2024 8 15, D 2024 8 15, 20⟩, ⟨D 2025 2 15, D 2025 2 18, 20⟩] := by decide +kernel
  have h2 : exTerms'.principalCashflow = .ok [⟨D 2025 2 15, D 2025 2 18, 1000⟩] := by decide +kernel
  have h3 : calculateSettlementDate exTerms'.calendar exTerms'.purchaseDate exTerms'.settlementConvention =
    .ok (D 2023 6 2) := by decide +kernel
  have h4 : Bond.accruedInterestOf exTerms' (D 2023 2 15) [⟨D 2023 8 15, D 2023 8 15, 20⟩, ⟨D 2024 2 15, D 2024 2 15, 20⟩,
      ⟨D 2024 8 15, D 2024 8 15, 20⟩, ⟨D 2025 2 15, D 2025 2 18, 20⟩] (D 2023 6 2) none = .ok (2140 / 181) := by
    decide +kernel
  have h5 : pyDiv (2140 / 181) exTerms'.principal = .ok (2140 / 181 / 1000) := pyDiv_of_ne (by decide +kernel)
  exact ⟨_, by
    unfold Bond.create
    rw [h1, ok_bind, h0, ok_bind, h2, ok_bind, h3, ok_bind, h4, ok_bind, h5, ok_bind], by
    show exTerms'.price + 2140 / 181 / 1000 * 100 = _
    decide +kernel⟩

/-- The hypotheses of `C92_price` are met by these two notes, and both have a yield. -/
example : SameSchedule exTerms exTerms' ∧ exTerms'.couponRate = exTerms.couponRate ∧ couponMonths exTerms.frequency = some 6 ∧
    addBusinessDays exTerms.calendar (D 2023 6 1) 1 = .ok (D 2023 6 2) ∧ D 2023 6 2 ≤ exTerms.maturityDate ∧
    ∃ b b' r r', Bond.create exTerms = .ok b ∧ Bond.create exTerms' = .ok b' ∧ IsYield b (D 2023 6 1) r ∧
      IsYield b' (D 2023 6 1) r' ∧ r' < r := by
  have hsame : SameSchedule exTerms exTerms' := ⟨rfl, rfl, rfl, rfl, rfl, rfl, rfl, rfl⟩
  have hs : addBusinessDays exTerms.calendar (D 2023 6 1) 1 = .ok (D 2023 6 2) := by decide +kernel
  have hm : D 2023 6 2 ≤ exTerms.maturityDate := by decide +kernel
  refine ⟨hsame, rfl, rfl, hs, hm, ?_⟩
  obtain ⟨b, hb, -⟩ := exTerms_create
  obtain ⟨b', hb', hfp'⟩ := exTerms'_create
  obtain ⟨hbt, -, -, -, -, -, -, hbf⟩ := create_ok hb
  obtain ⟨c, hc1, -, -, -, -, hc⟩ := exTerms_create
  have hbc : b = c := by rw [hb] at hc1; injection hc1
  have hbpos : 0 < b.fullPrice := by rw [hbf, hbc, hc]; decide +kernel
  have hbt' := (create_ok hb').1
  have hok : AxisOk exTerms.dcc (D 2023 6 1) := by decide +kernel
  obtain ⟨r, ⟨hr1, hr2⟩, -⟩ := C37_ytm_unique exTerms b 6 rfl hb _ (D 2023 6 1) _ (measures_axis rfl hok hs) hs hm (by decide +kernel)
    (by decide +kernel) hbpos
  obtain ⟨r', ⟨hr1', hr2'⟩, -⟩ := C37_ytm_unique exTerms' b' 6 rfl hb' _ (D 2023 6 1) _ (measures_axis rfl hok hs) hs hm (by decide +kernel)
    (by decide +kernel) (by rw [hfp']; decide +kernel)
  have y1 : IsYield b (D 2023 6 1) r := ⟨by rw [hbt]; exact hr1, hr2⟩
  have y2 : IsYield b' (D 2023 6 1) r' := ⟨by rw [hbt']; exact hr1', hr2'⟩
  exact ⟨b, b', r, r', hb, hb', y1, y2, (C92_price exTerms exTerms' hsame rfl b b' 6 rfl hb hb' _ (D 2023 6 1) _ (measures_axis rfl hok hs) hs hm
    (by decide +kernel) (by decide +kernel) (by decide +kernel) r r' y1 y2).1.1 (by decide +kernel)⟩

end Verif.Props
