[
 {
  "id": "r01",
  "file": "Model/PlainDates.lean",
  "old": "else .error .typeError\n\n/-- `min(l)` after",
  "new": "else .ok (decide (a.instant ≤ b.instant))\n\n/-- `min(l)` after",
  "edit": "a date compares with a datetime",
  "claim": "C117_compare_raises",
  "all": false
 },
 {
  "id": "r02",
  "file": "Model/PlainDates.lean",
  "old": "if a.isDatetime = b.isDatetime then .ok (decide (a.instant ≤ b.instant))",
  "new": "if a.isDatetime = b.isDatetime then .ok (decide (a.instant < b.instant))",
  "edit": "<= becomes <",
  "claim": "C117_datetimes",
  "all": false
 },
 {
  "id": "r03",
  "file": "Model/PlainDates.lean",
  "old": "minLoop (if x.instant < best.instant then x else best) xs else .error .typeError",
  "new": "minLoop (if best.instant < x.instant then x else best) xs else .error .typeError",
  "edit": "maximum instead of minimum",
  "claim": "C117_datetimes",
  "all": false
 },
 {
  "id": "r04",
  "file": "Model/PlainDates.lean",
  "old": "| [] => .error .valueError\n  | x :: xs => minLoop x xs",
  "new": "| [] => .error .typeError\n  | x :: xs => minLoop x xs",
  "edit": "empty list: another exception",
  "claim": "C117",
  "all": false
 },
 {
  "id": "r05",
  "file": "Model/PlainDates.lean",
  "old": "| none => .error .valueError\n    | some _ => .error .typeError",
  "new": "| none => .error .valueError\n    | some _ => .ok 0",
  "edit": "a plain purchase date gives a state",
  "claim": "C117_purchase_raises",
  "all": false
 },
 {
  "id": "r06",
  "file": "Model/PlainDates.lean",
  "old": "let accrual ← v.core.timeAt (v.core.purchaseAt p) maturity\n  let weight := Real.exp (-v.speed * (accrual : ℝ))",
  "new": "let accrual ← v.core.timeAt v.core.bm.start.like maturity\n  let weight := Real.exp (-v.speed * (accrual : ℝ))",
  "edit": "purchase date dropped in the expected rate",
  "claim": "C117_datetimes",
  "all": false
 },
 {
  "id": "r07",
  "file": "Model/PlainDates.lean",
  "old": "let c ← v.priceCoeffsAt maturity none\n  let r ← v.core.callAt (v.core.purchaseAt p)\n  .ok (Real.exp (c.1 + c.2 * r))",
  "new": "let c ← v.priceCoeffsAt maturity p\n  let r ← v.core.callAt (v.core.purchaseAt p)\n  .ok (Real.exp (c.1 + c.2 * r))",
  "edit": "purchase date passed on",
  "claim": "C117_datetimes",
  "all": false
 },
 {
  "id": "r08",
  "file": "Model/Vasicek.lean",
  "old": "let intercept ← floatDiv (term1 + term2) accrual\n  let c ← floatDiv (-coefficient) accrual\n  .ok (intercept, c)",
  "new": "let intercept ← floatDiv (term1 - term2) accrual\n  let c ← floatDiv (-coefficient) accrual\n  .ok (intercept, c)",
  "edit": "sign of the convexity term of the yield",
  "claim": "C113 / C47",
  "all": false
 },
 {
  "id": "r09",
  "file": "Model/Vasicek.lean",
  "old": "let convexityLimit ← floatDiv (-vol ^ 2) (2 * speed ^ 2)\n  .ok { mean",
  "new": "let convexityLimit ← floatDiv (vol ^ 2) (2 * speed ^ 2)\n  .ok { mean",
  "edit": "sign of the convexity limit",
  "claim": "C113 / C47",
  "all": false
 },
 {
  "id": "r10",
  "file": "Model/Vasicek.lean",
  "old": "let intercept ← floatDiv (term1 + term2) accrual\n  let c ← floatDiv (-coefficient) accrual\n  .ok (intercept, c)",
  "new": "let intercept ← floatDiv (term1 + term2) accrual\n  let c ← floatDiv coefficient accrual\n  .ok (intercept, c)",
  "edit": "yield falls with the short rate",
  "claim": "C113 / C47",
  "all": false
 },
 {
  "id": "r11",
  "file": "Model/MeanReverting.lean",
  "old": "!![q.longSpeed, 0, 0; -q.mediumSpeed, q.mediumSpeed, 0; 0, -q.shortSpeed, q.shortSpeed]",
  "new": "!![q.longSpeed, 0, 0; -q.longSpeed, q.mediumSpeed, 0; 0, -q.shortSpeed, q.shortSpeed]",
  "edit": "the medium rate follows at the wrong speed",
  "claim": "C69",
  "all": false
 },
 {
  "id": "r12",
  "file": "Model/MeanReverting.lean",
  "old": "!![q.longSpeed, 0, 0; -q.mediumSpeed, q.mediumSpeed, 0; 0, -q.shortSpeed, q.shortSpeed]",
  "new": "!![q.longSpeed, 0, 0; -q.mediumSpeed, q.mediumSpeed, 0; -q.shortSpeed, 0, q.shortSpeed]",
  "edit": "the short rate reverts to the long rate",
  "claim": "C69",
  "all": false
 },
 {
  "id": "r13",
  "file": "Model/MeanReverting.lean",
  "old": "!![q.riskSpeed, 0, 0; -q.mediumVol, q.mediumSpeed, 0; 0, -q.shortSpeed, q.shortSpeed]",
  "new": "!![q.riskSpeed, 0, 0; -q.mediumSpeed, q.mediumSpeed, 0; 0, -q.shortSpeed, q.shortSpeed]",
  "edit": "the price of risk scaled by the speed",
  "claim": "C69_risk_price",
  "all": false
 },
 {
  "id": "r14",
  "file": "Model/MeanReverting.lean",
  "old": "q.longVol * q.mediumVol * q.mediumLong, q.mediumVol ^ 2, q.mediumVol * q.shortVol * q.shortMedium;\n     q.longVol * q.shortVol * q.shortLong",
  "new": "q.longVol * q.mediumVol * q.mediumLong, q.mediumVol ^ 2, q.mediumVol * q.shortVol * q.shortLong;\n     q.longVol * q.shortVol * q.shortLong",
  "edit": "wrong correlation in the variance",
  "claim": "C69",
  "all": false
 },
 {
  "id": "r15",
  "file": "Model/MeanReverting.lean",
  "old": "def level (q : TreblyParams) : Vec 3 := ![q.mean, q.mean, q.mean]",
  "new": "def level (q : TreblyParams) : Vec 3 := ![q.mean, 0, 0]",
  "edit": "only the long rate has a level",
  "claim": "C69",
  "all": false
 },
 {
  "id": "r16",
  "file": "Model/Scheduler.lean",
  "old": "    if d ≤ endDate then do\n      let d' ← addSingleBusinessDay cal d\n      let rest",
  "new": "    if d < endDate then do\n      let d' ← addSingleBusinessDay cal d\n      let rest",
  "edit": "end date excluded",
  "claim": "C112 / C07",
  "all": false
 },
 {
  "id": "r17",
  "file": "Model/Scheduler.lean",
  "old": "let d ← addBusinessDays cal startDate 0\n  businessDayLoop",
  "new": "let d ← addBusinessDays cal startDate 1\n  businessDayLoop",
  "edit": "list starts one business day late",
  "claim": "C112 / C07",
  "all": false
 },
 {
  "id": "r18",
  "file": "Model/KeyRate.lean",
  "old": "let ids := c.keyRates.eraseIdx k\n    let r := setDates h ids\n    (r.1, { c with keyRates := ids }, r.2)",
  "new": "let ids := c.keyRates.eraseIdx k\n    (.ok (), { c with keyRates := ids }, h)",
  "edit": "deletion does not rewire",
  "claim": "C114 / C52",
  "all": false
 },
 {
  "id": "r19",
  "file": "Model/KeyRate.lean",
  "old": "if (h new).keyDate < n then",
  "new": "if (h new).keyDate ≤ n then",
  "edit": "replacement may coincide with its neighbour",
  "claim": "C114 / C52",
  "all": false
 },
 {
  "id": "r20",
  "file": "Model/Stochastic.lean",
  "old": "fun i => ∑ j, chol i j * (z j * Real.sqrt (dt : ℝ))",
  "new": "fun i => ∑ j, chol i j * (z j * (dt : ℝ))",
  "edit": "no square root",
  "claim": "C116 / C56",
  "all": false
 },
 {
  "id": "r21",
  "file": "Model/Stochastic.lean",
  "old": "fun i => ∑ j, chol i j * (z j * Real.sqrt (dt : ℝ))",
  "new": "fun i => ∑ j, chol j i * (z j * Real.sqrt (dt : ℝ))",
  "edit": "transposed factor",
  "claim": "C56 / C116",
  "all": false
 },
 {
  "id": "r22",
  "file": "Model/Stochastic.lean",
  "old": "| (shock, dt) :: rest, time, x => x :: euler coords rest (time + dt) (step coords time x shock dt)",
  "new": "| (shock, dt) :: rest, time, x => x :: euler coords rest (time + dt) (step coords (time + dt) x shock dt)",
  "edit": "coefficients read at the end of the step",
  "claim": "C45 / C116",
  "all": false
 },
 {
  "id": "r23",
  "file": "Model/Bond.lean",
  "old": "let power : ℝ := (1 + rate / n) ^ ((accrual : ℝ) * n)",
  "new": "let power : ℝ := (1 + rate / n) ^ ((accrual : ℝ))",
  "edit": "exponent not in periods",
  "claim": "C37 / C118",
  "all": false
 },
 {
  "id": "r24",
  "file": "Model/Bond.lean",
  "old": "let power : ℝ := (1 + rate / n) ^ ((accrual : ℝ) * n)",
  "new": "let power : ℝ := (1 + rate) ^ ((accrual : ℝ) * n)",
  "edit": "rate not divided by the frequency",
  "claim": "C37 / C115",
  "all": false
 },
 {
  "id": "r25",
  "file": "Model/Bond.lean",
  "old": "let up ← b.discountByFixedRate (ytm + offset + (oneBasisPoint : ℝ) / 2) none\n",
  "new": "let up ← b.discountByFixedRate (ytm + offset + (oneBasisPoint : ℝ)) none\n",
  "edit": "asymmetric difference",
  "claim": "C118_pv_deriv / C82",
  "all": false
 },
 {
  "id": "r26",
  "file": "Model/Bond.lean",
  "old": ".ok ((up - down) / (oneBasisPoint : ℝ))",
  "new": ".ok ((up - down) / (2 * (oneBasisPoint : ℝ)))",
  "edit": "difference divided by two basis points",
  "claim": "C118_pv_deriv / C82",
  "all": false
 },
 {
  "id": "r27",
  "file": "Model/Bond.lean",
  "old": "let keep := fun p => b.isPaymentReceived p (some curve.referenceDate)",
  "new": "let keep := fun p => b.isPaymentReceived p none",
  "edit": "present value counts from the bond's settlement",
  "claim": "C119_strips / C34",
  "all": false
 },
 {
  "id": "r28",
  "file": "Model/Bond.lean",
  "old": "let df ← curve.call p.date\n    .ok (df * p.amount)",
  "new": "let df ← curve.call p.unadjusted\n    .ok (df * p.amount)",
  "edit": "discounted to the unadjusted date",
  "claim": "C119_strips / C34",
  "all": false
 },
 {
  "id": "r29",
  "file": "Model/Bond.lean",
  "old": "  | f => t.principal * t.couponRate / (100 * f.value)",
  "new": "  | f => t.principal * t.couponRate / 100",
  "edit": "coupon not divided by the frequency",
  "claim": "C119_affine / C33",
  "all": false
 },
 {
  "id": "r30",
  "file": "Model/Curve.lean",
  "old": "let knots := c.knots.set index new\n    match makeGrid c.referenceDate c.dcc knots with\n    | .ok g => (.ok (), { c with knots := knots, grid := g })",
  "new": "let knots := c.knots.set index new\n    match makeGrid c.referenceDate c.dcc knots with\n    | .ok _ => (.ok (), { c with knots := knots })",
  "edit": "grid not rebuilt after a replacement",
  "claim": "C97_history",
  "all": false
 },
 {
  "id": "r31",
  "file": "Model/Curve.lean",
  "old": "let knots := pySorted Knot.date values\n  match makeGrid c.referenceDate c.dcc knots with\n  | .ok g => (.ok (), { c with knots := knots, grid := g })",
  "new": "let knots := values\n  match makeGrid c.referenceDate c.dcc knots with\n  | .ok g => (.ok (), { c with knots := knots, grid := g })",
  "edit": "reset does not sort",
  "claim": "C97_history",
  "all": false
 },
 {
  "id": "r32",
  "file": "Model/Holidays.lean",
  "old": "(\"Thanksgiving\", ⟨11, 22, fun d => getNextWeekday d 3⟩)",
  "new": "(\"Thanksgiving\", ⟨11, 21, fun d => getNextWeekday d 3⟩)",
  "edit": "Thanksgiving from the 21st",
  "claim": "C11 / C112",
  "all": false
 },
 {
  "id": "r33",
  "file": "Model/Holidays.lean",
  "old": "(\"Labor\",        ⟨9, 1, fun d => getNextWeekday d 0⟩)",
  "new": "(\"Labor\",        ⟨9, 1, usFederalHolidayAdjustment⟩)",
  "edit": "Labor day on the first",
  "claim": "C11 / C112",
  "all": false
 }
]