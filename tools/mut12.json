[
 {
  "id": "s01",
  "file": "Model/Loan.lean",
  "old": "PyDate.mk? (l.originationDate.year + 1) 1 1",
  "new": "PyDate.mk? l.originationDate.year 1 1",
  "edit": "December loans start in January of the same year",
  "claim": "C122 / C38",
  "all": false
 },
 {
  "id": "s03",
  "file": "Model/Loan.lean",
  "old": "    if d ≤ endDate then do\n      let d' ← d.addMonths",
  "new": "    if d < endDate then do\n      let d' ← d.addMonths",
  "edit": "last payment dropped",
  "claim": "C122 / C38",
  "all": false
 },
 {
  "id": "s04",
  "file": "Model/Loan.lean",
  "old": "| .semiAnnual => .ok 6\n  | .annual => .ok 12\n  | .zeroCoupon",
  "new": "| .semiAnnual => .ok 5\n  | .annual => .ok 12\n  | .zeroCoupon",
  "edit": "semi-annual loans step five months",
  "claim": "C122 / C38",
  "all": false
 },
 {
  "id": "s05",
  "file": "Model/Loan.lean",
  "old": "let stop ← Scheduler.addIncrement start l.termLength",
  "new": "let stop ← Scheduler.addIncrement l.originationDate l.termLength",
  "edit": "schedule ends at the loan's end date",
  "claim": "C122 / C38",
  "all": false
 },
 {
  "id": "s06",
  "file": "Model/Loan.lean",
  "old": "let compound : ℝ := (1 + (l.rate : ℝ) / f) ^ ((years : ℝ) * f)",
  "new": "let compound : ℝ := (1 + (l.rate : ℝ) / f) ^ ((years : ℝ))",
  "edit": "exponent in years",
  "claim": "C39 / C100",
  "all": false
 },
 {
  "id": "s07",
  "file": "Model/Loan.lean",
  "old": "xs ++ List.replicate (n - xs.length) 0",
  "new": "List.replicate (n - xs.length) 0 ++ xs",
  "edit": "extra payments padded in front",
  "claim": "C40 / C105",
  "all": false
 },
 {
  "id": "s08",
  "file": "Model/Bond.lean",
  "old": "if settlement < dated then .error .valueError",
  "new": "if settlement ≤ dated then .error .valueError",
  "edit": "settlement on the dated date refused",
  "claim": "C121",
  "all": false
 },
 {
  "id": "s09",
  "file": "Model/Bond.lean",
  "old": "if branch ≤ first.unadjusted then .ok (dated, first.unadjusted)",
  "new": "if branch < first.unadjusted then .ok (dated, first.unadjusted)",
  "edit": "boundary of the first period",
  "claim": "C121 / C35",
  "all": false
 },
 {
  "id": "s11",
  "file": "Model/Bond.lean",
  "old": "bisectRight id (coupons.map BondPayment.date) t.purchaseDate",
  "new": "bisectRight id (coupons.map BondPayment.unadjusted) t.purchaseDate",
  "edit": "period found by unadjusted dates",
  "claim": "C35 / C121",
  "all": false
 },
 {
  "id": "s12",
  "file": "Model/Bond.lean",
  "old": "t.maturityDate.addMonths (-(12 * n))",
  "new": "t.maturityDate.addMonths (-(11 * n))",
  "edit": "years of eleven months",
  "claim": "C121 / C33",
  "all": false
 },
 {
  "id": "s13",
  "file": "Model/Swap.lean",
  "old": "if t.tenor.unit = 'Y' then start.addMonths (12 * n)",
  "new": "if t.tenor.unit = 'Y' then start.addMonths (-(12 * n))",
  "edit": "a swap ends before it starts",
  "claim": "C120 / C41",
  "all": false
 },
 {
  "id": "s14",
  "file": "Model/Swap.lean",
  "old": "else if t.tenor.unit = 'M' then start.addMonths n\n",
  "new": "else if t.tenor.unit = 'M' then start.addDays n\n",
  "edit": "months counted as days",
  "claim": "C120 / C41",
  "all": false
 },
 {
  "id": "s15",
  "file": "Model/Swap.lean",
  "old": "  let accruals ← s.fixedAccruals\n  let annuity",
  "new": "  let accruals ← s.floatAccruals\n  let annuity",
  "edit": "annuity of the floating leg",
  "claim": "C125 / C43",
  "all": false
 },
 {
  "id": "s17",
  "file": "Model/Swap.lean",
  "old": "compoundLoop rate ps (acc.1 + a, acc.2 * (1 + r * a))",
  "new": "compoundLoop rate ps (acc.1 + a, acc.2 * (1 - r * a))",
  "edit": "growth with the wrong sign",
  "claim": "C124_compounding",
  "all": false
 },
 {
  "id": "s18",
  "file": "Model/Swap.lean",
  "old": "    let r ← rate p.1\n    compoundLoop",
  "new": "    let r ← rate p.2\n    compoundLoop",
  "edit": "rate at the end of the day",
  "claim": "C124_compounding / C42",
  "all": false
 },
 {
  "id": "s19",
  "file": "Model/Swap.lean",
  "old": "Scheduler.calculateSettlementDate s.terms.calendar a.start s.terms.fixing",
  "new": "Scheduler.calculateSettlementDate s.terms.calendar a.stop s.terms.fixing",
  "edit": "fixed in arrears",
  "claim": "C120 / C62",
  "all": false
 },
 {
  "id": "s20",
  "file": "Model/Swap.lean",
  "old": "  let r ← annualizedRate s.terms.calendar rate a.start a.stop\n  .ok ⟨d, some (a.factor * s.terms.notional * r)⟩",
  "new": "  let r ← annualizedRate s.terms.calendar rate a.start a.stop\n  .ok ⟨d, some (s.terms.notional * r)⟩",
  "edit": "overnight payment without the accrual",
  "claim": "C124 / C62",
  "all": false
 },
 {
  "id": "s22",
  "file": "Model/Swap.lean",
  "old": "pyDiv (r.2 - 1) r.1",
  "new": "pyDiv (r.2 - 1) (r.1 + r.1)",
  "edit": "annualized over twice the time",
  "claim": "C125 / C42",
  "all": false
 },
 {
  "id": "s23",
  "file": "Model/KeyRate.lean",
  "old": "    if d ≤ k.keyDate then .ok k.bump\n    else match following with",
  "new": "    if d < k.keyDate then .ok k.bump\n    else match following with",
  "edit": "boundary of the first key rate",
  "claim": "C22 / C102",
  "all": false
 },
 {
  "id": "s25",
  "file": "Model/KeyRate.lean",
  "old": "      let timeToNext ← DayCount.accrual d f k.dcc\n      let totalTime ← DayCount.accrual k.keyDate f k.dcc\n      let q ← pyDiv timeToNext totalTime\n      .ok (q * k.bump)",
  "new": "      let timeToNext ← DayCount.accrual k.keyDate d k.dcc\n      let totalTime ← DayCount.accrual k.keyDate f k.dcc\n      let q ← pyDiv timeToNext totalTime\n      .ok (q * k.bump)",
  "edit": "falling side rises",
  "claim": "C123 / C23",
  "all": false
 },
 {
  "id": "s27",
  "file": "Model/Curve.lean",
  "old": "let yields ← collect (fun d => yc.base.interpolate d adj) dates",
  "new": "let yields ← collect (fun d => yc.base.interpolate d (fun _ => .ok 0)) dates",
  "edit": "yields not bumped",
  "claim": "C123_yield_value",
  "all": false
 },
 {
  "id": "s28",
  "file": "Model/Curve.lean",
  "old": "let v ← yc.base.interpolate k.date adj\n    .ok ⟨k.date, v⟩",
  "new": "let v ← yc.base.interpolate k.date (fun _ => .ok 0)\n    .ok ⟨k.date, v⟩",
  "edit": "discount factors not bumped",
  "claim": "C123_discount_space",
  "all": false
 },
 {
  "id": "s29",
  "file": "Model/Curve.lean",
  "old": "let kDown := k.setBumpVal (-oneBasisPoint / 2)",
  "new": "let kDown := k.setBumpVal (oneBasisPoint / 2)",
  "edit": "both bumps up",
  "claim": "C30 / C123",
  "all": false
 },
 {
  "id": "s30",
  "file": "Model/Curve.lean",
  "old": "(pyDiv (up - down) oneBasisPoint, yc2, kUp)",
  "new": "(pyDiv (down - up) oneBasisPoint, yc2, kUp)",
  "edit": "derivative with the wrong sign",
  "claim": "C123 / C30",
  "all": false
 },
 {
  "id": "s31",
  "file": "Model/Curve.lean",
  "old": "v * oneBasisPoint, .usTreasury",
  "new": "v, .usTreasury",
  "edit": "derivative instead of one-basis-point risk",
  "claim": "C30 / C107",
  "all": false
 },
 {
  "id": "s32",
  "file": "Model/Curve.lean",
  "old": "| .ok knots => storeDiscount yc knots yc.base.method",
  "new": "| .ok knots => storeDiscount yc knots .linear",
  "edit": "discount curve always linear",
  "claim": "C29",
  "all": false
 }
]