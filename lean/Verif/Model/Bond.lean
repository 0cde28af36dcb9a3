/-
Model of fixedIncome/src/assets/us_treasury_instruments/us_treasury_instruments.py (UsTreasuryBond, UsTreasuryFuture) and
of fixedIncome/src/assets/credit/corporate_bond.py (FixedRateBond), whose shared methods have the same text.
-/
import Verif.Model.Curve
import Verif.Model.Scheduler
import Mathlib.Analysis.SpecialFunctions.Pow.Real

namespace Verif

/-- schedule_enumerations.py:4-9. -/
inductive PaymentFrequency
  | zeroCoupon | annual | semiAnnual | quarterly | monthly
deriving DecidableEq, Repr

/-- schedule_enumerations.py:4-9: the members' values. -/
def PaymentFrequency.value : PaymentFrequency → Nat
  | zeroCoupon => 0
  | annual => 1
  | semiAnnual => 2
  | quarterly => 4
  | monthly => 12

/-- schedule_enumerations.py:12-14. -/
inductive BusinessDayAdjustment
  | following | modifiedFollowing
deriving DecidableEq, Repr

/-- us_treasury_instruments.py:29-31 (the amount is never None in a bond). -/
structure BondPayment where
  unadjusted : PyDate
  date : PyDate
  amount : ℚ
deriving DecidableEq

/-- A tenor string: what `int(tenor[:-1])` gives (`none`: it raises ValueError) and the last character
(us_treasury_instruments.py:204-215). -/
structure Tenor where
  length : Option Int
  unit : Char

/-- Which of the two classes: a FixedRateBond has no attribute `settlement_convention` (corporate_bond.py:54, 76-114). -/
inductive BondClass
  | usTreasuryBond | fixedRateBond
deriving DecidableEq

/-- The arguments of the constructor (us_treasury_instruments.py:36-48, corporate_bond.py:30-44).  Identifiers which are only
stored are left out. -/
structure BondTerms where
  cls : BondClass
  price : ℚ
  couponRate : ℚ
  principal : ℚ
  tenor : Tenor
  purchaseDate : PyDate
  maturityDate : PyDate
  settlementConvention : Scheduler.SettlementConvention
  frequency : PaymentFrequency
  dcc : DayCountConvention
  adjustment : BusinessDayAdjustment
  calendar : HolidayCalendar

namespace BondTerms

/-- us_treasury_instruments.py:163-179 / corporate_bond.py:182-198. -/
def couponPayment (t : BondTerms) : ℚ :=
  match t.frequency with
  | .zeroCoupon => 0
  | f => t.principal * t.couponRate / (100 * f.value)

/-- us_treasury_instruments.py:220-234 / corporate_bond.py:201-215. -/
def adjust (t : BondTerms) (d : PyDate) : Except PyErr PyDate :=
  match t.adjustment with
  | .following => Scheduler.followingDateAdjustment t.calendar d
  | .modifiedFollowing => Scheduler.modifiedFollowingDateAdjustment t.calendar d

/-- us_treasury_instruments.py:199-216 / corporate_bond.py:163-180. -/
def datedDate (t : BondTerms) : Except PyErr PyDate :=
  match t.tenor.length with
  | none => .error .valueError
  | some n =>
    if t.tenor.unit = 'Y' then t.maturityDate.addMonths (-(12 * n))
    else if t.tenor.unit = 'M' then t.maturityDate.addMonths (-n)
    else .error .valueError

/-- us_treasury_instruments.py:264-279 / corporate_bond.py:233-248: the step between coupons; `none` for a zero-coupon bond. -/
def increment (t : BondTerms) : Except PyErr (Option Scheduler.Increment) :=
  match t.frequency with
  | .zeroCoupon => .ok none
  | .quarterly => .ok (some (.relativedelta (-3) 0))
  | .semiAnnual => .ok (some (.relativedelta (-6) 0))
  | .annual => .ok (some (.relativedelta (-12) 0))
  | .monthly => .error .valueError

/-- us_treasury_instruments.py:258-292 / corporate_bond.py:227-261; sorted here and again by the Cashflow constructor (base_cashflow.py:27). -/
def couponCashflow (t : BondTerms) (dated : PyDate) : Except PyErr (List BondPayment) := do
  let inc ← t.increment
  let payments ← match inc with
    | none => .ok []
    | some i => do
      let stop ← dated.addDays 1
      let unadjusted ← Scheduler.generateDatesByIncrements t.maturityDate stop i
      let adjusted ← collect t.adjust unadjusted
      .ok (List.zipWith (fun u a => (⟨u, a, t.couponPayment⟩ : BondPayment)) unadjusted adjusted)
  .ok (pySorted BondPayment.date (pySorted BondPayment.date payments))

/-- us_treasury_instruments.py:248-256 / corporate_bond.py:217-225. -/
def principalCashflow (t : BondTerms) : Except PyErr (List BondPayment) := do
  let a ← t.adjust t.maturityDate
  .ok [⟨t.maturityDate, a, t.principal⟩]

end BondTerms

/-- A constructed bond (us_treasury_instruments.py:50-78, corporate_bond.py:46-74). -/
structure Bond where
  terms : BondTerms
  datedDate : PyDate
  coupons : List BondPayment
  principalPayments : List BondPayment
  settlementDate : PyDate
  accruedInterest : ℚ
  fullPrice : ℚ

namespace Bond

/-- us_treasury_instruments.py:134-136 / corporate_bond.py:273-275: the date compared with the first coupon (line 143). -/
def branchDate (t : BondTerms) (settlement : PyDate) (reference : Option PyDate) : Except PyErr PyDate :=
  match reference with
  | none => .ok settlement
  | some r => match t.cls with
    | .usTreasuryBond => Scheduler.calculateSettlementDate t.calendar r t.settlementConvention
    | .fixedRateBond => .error .attributeError

/-- us_treasury_instruments.py:143-151: start and end of the accrual period, the dated date and the first coupon date, or two
coupon dates around `self.purchase_date`.  A python index -1 is the last element. -/
def accrualPeriod (t : BondTerms) (dated : PyDate) (coupons : List BondPayment) (branch : PyDate) :
    Except PyErr (PyDate × PyDate) :=
  match coupons with
  | [] => .error .indexError
  | first :: _ =>
    if branch ≤ first.unadjusted then .ok (dated, first.unadjusted)
    else
      let i := bisectRight id (coupons.map BondPayment.date) t.purchaseDate
      let previous := if i = 0 then coupons.getLast? else coupons[i - 1]?
      match previous, coupons[i]? with
      | some p, some q => .ok (p.unadjusted, q.unadjusted)
      | _, _ => .error .indexError

/-- us_treasury_instruments.py:124-161 / corporate_bond.py:263-300, before the attribute `accrued_interest` exists.
`reference_date` only selects the branch; the accrual always runs to `self.settlement_date`, and the coupon period is the
one of `self.purchase_date`. -/
def accruedInterestOf (t : BondTerms) (dated : PyDate) (coupons : List BondPayment) (settlement : PyDate)
    (reference : Option PyDate) : Except PyErr ℚ :=
  if t.frequency = .zeroCoupon then .ok 0
  else do
    let branch ← branchDate t settlement reference
    if settlement < dated then .error .valueError
    else do
      let between ← accrualPeriod t dated coupons branch
      let period ← DayCount.accrual between.1 settlement t.dcc
      let whole ← DayCount.accrual between.1 between.2 t.dcc
      let fraction ← pyDiv period whole
      .ok (fraction * t.couponPayment)

/-- us_treasury_instruments.py:50-78 (with 187-197 for the full price) / corporate_bond.py:46-74 (with 308-318). -/
def create (t : BondTerms) : Except PyErr Bond := do
  let dated ← t.datedDate
  let coupons ← t.couponCashflow dated
  let principal ← t.principalCashflow
  let settlement ← Scheduler.calculateSettlementDate t.calendar t.purchaseDate t.settlementConvention
  let accrued ← accruedInterestOf t dated coupons settlement none
  let normalized ← pyDiv accrued t.principal
  .ok ⟨t, dated, coupons, principal, settlement, accrued, t.price + normalized * 100⟩

/-- us_treasury_instruments.py:124-161 / corporate_bond.py:263-300 on a constructed bond. -/
def calculateAccruedInterest (b : Bond) (reference : Option PyDate) : Except PyErr ℚ :=
  accruedInterestOf b.terms b.datedDate b.coupons b.settlementDate reference

/-- us_treasury_instruments.py:181-197 / corporate_bond.py:302-318 on a constructed bond: `accrued_interest` is not None then, so the reference date is
not used.  Returns the result and the bond after the assignment of line 195. -/
def getFullPrice (b : Bond) (_reference : Option PyDate) : Except PyErr ℚ × Bond :=
  match pyDiv b.accruedInterest b.terms.principal with
  | .error e => (.error e, b)
  | .ok x => (.ok (b.terms.price + x * 100), { b with fullPrice := b.terms.price + x * 100 })

/-- us_treasury_instruments.py:236-246 / corporate_bond.py:149-159. -/
def isPaymentReceived (b : Bond) (p : BondPayment) (reference : Option PyDate) : Except PyErr Bool := do
  let settlement ← match reference with
    | none => .ok b.settlementDate
    | some r => Scheduler.addBusinessDays b.terms.calendar r 1
  .ok (decide (settlement ≤ p.unadjusted))

/-- `sum(f(p) for p in payments if keep(p))` in python's order of evaluation. -/
def sumIf {α : Type} (keep : BondPayment → Except PyErr Bool) (f : BondPayment → Except PyErr α) [Add α] [Zero α] :
    List BondPayment → Except PyErr α
  | [] => .ok 0
  | p :: ps => do
    let k ← keep p
    if k then do
      let x ← f p
      let s ← sumIf keep f ps
      .ok (x + s)
    else sumIf keep f ps

/-- us_treasury_instruments.py:105-120 / corporate_bond.py:132-147. -/
def presentValue (b : Bond) (curve : DiscountFn) : Except PyErr ℚ := do
  let value := fun p : BondPayment => (do
    let df ← curve.call p.date
    .ok (df * p.amount) : Except PyErr ℚ)
  let keep := fun p => b.isPaymentReceived p (some curve.referenceDate)
  let c ← sumIf keep value b.coupons
  let p ← sumIf keep value b.principalPayments
  .ok (c + p)

/-- us_treasury_instruments.py:92-103 / corporate_bond.py:118-129. -/
def toKnotValuePair (b : Bond) : Except PyErr Knot :=
  match b.coupons.getLast?, b.principalPayments.head? with
  | some c, some p => .ok ⟨max c.date p.date, b.terms.price⟩
  | none, some p => .ok ⟨p.date, b.terms.price⟩
  | _, none => .error .indexError

/-- The discount factor of us_treasury_instruments.py:310-312 (and 320-321): `1 / (1 + rate/n) ** (accrual * n)`.  Simplified:
for a negative base python's power is complex, here it is `Real.rpow`; all theorems assume a positive base. -/
noncomputable def fixedRateFactor (n : Nat) (rate : ℝ) (accrual : ℚ) : Except PyErr ℝ :=
  if n = 0 then .error .zeroDivisionError
  else
    let power : ℝ := (1 + rate / n) ^ ((accrual : ℝ) * n)
    if power = 0 then .error .zeroDivisionError else .ok (1 / power)

/-- us_treasury_instruments.py:298-325 / corporate_bond.py:320-346. -/
noncomputable def discountByFixedRate (b : Bond) (rate : ℝ) (reference : Option PyDate) : Except PyErr ℝ := do
  let ref := reference.getD b.terms.purchaseDate
  let value := fun p : BondPayment => (do
    let a ← DayCount.accrual ref p.date b.terms.dcc
    let df ← fixedRateFactor b.terms.frequency.value rate a
    .ok (df * (p.amount : ℝ)) : Except PyErr ℝ)
  let keep := fun p => b.isPaymentReceived p (some ref)
  let c ← sumIf keep value b.coupons
  let p ← sumIf keep value b.principalPayments
  .ok (c + p)

/-- us_treasury_instruments.py:327-352 / corporate_bond.py:349-373: the equation whose root `yield_to_maturity` asks scipy for. -/
noncomputable def diffFromFullPrice (b : Bond) (reference : Option PyDate) (rate : ℝ) : Except PyErr ℝ := do
  let pv ← b.discountByFixedRate rate (some (reference.getD b.terms.purchaseDate))
  .ok ((b.fullPrice * b.terms.principal / 100 : ℚ) - pv)

/-- us_treasury_instruments.py:354-365 / corporate_bond.py:376-387 with a given yield. -/
noncomputable def pvDeriv (b : Bond) (offset ytm : ℝ) : Except PyErr ℝ := do
  let up ← b.discountByFixedRate (ytm + offset + (oneBasisPoint : ℝ) / 2) none
  let down ← b.discountByFixedRate (ytm + offset - (oneBasisPoint : ℝ) / 2) none
  .ok ((up - down) / (oneBasisPoint : ℝ))

/-- us_treasury_instruments.py:367-373 / corporate_bond.py:419-425, with the yield found by the solver. -/
noncomputable def duration (b : Bond) (ytm : ℝ) : Except PyErr ℝ := do
  let d ← b.pvDeriv 0 ytm
  if (b.fullPrice : ℝ) = 0 then .error .zeroDivisionError else .ok (-d / (b.fullPrice : ℝ))

/-- corporate_bond.py:389-416.  Payments are kept by the bond's settlement date; no reference date is passed on. -/
noncomputable def macaulayDuration (b : Bond) (rate : ℝ) (reference : Option PyDate) : Except PyErr ℝ := do
  let ref := reference.getD b.terms.purchaseDate
  let value := fun p : BondPayment => (do
    let a ← DayCount.accrual ref p.date b.terms.dcc
    let df ← fixedRateFactor b.terms.frequency.value rate a
    .ok (df * (p.amount : ℝ) * (a : ℝ)) : Except PyErr ℝ)
  let keep := fun p => b.isPaymentReceived p none
  let c ← sumIf keep value b.coupons
  let p ← sumIf keep value b.principalPayments
  let scaled : ℝ := (b.fullPrice * b.terms.principal / 100 : ℚ)
  if scaled = 0 then .error .zeroDivisionError else .ok ((c + p) / scaled)

/-- us_treasury_instruments.py:375-384 / corporate_bond.py:428-437, with the yield found by the solver: the method `calculate_pv_deriv` does not exist. -/
noncomputable def convexity (_b : Bond) (_ytm : ℝ) : Except PyErr ℝ := .error .attributeError

end Bond

/-- us_treasury_instruments.py:387-424 with base_cashflow.py:101, 148-163: UsTreasuryFuture does not define the abstract methods
`to_knot_value_pair` and `present_value` of CashflowCollection (a `collections.abc.Set`), so instantiation raises TypeError before the
constructor runs, whatever the arguments. -/
def UsTreasuryFuture.create (_calendar : HolidayCalendar) (_purchase _maturity : PyDate)
    (_convention : Scheduler.SettlementConvention) : Except PyErr Unit := .error .typeError

end Verif
