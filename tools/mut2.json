[
 {
  "id": "v01",
  "file": "Model/Curve.lean",
  "old": "(y0 + (x - x0) * ((y1 - y0) / (x1 - x0)))",
  "new": "(y1 + (x - x0) * ((y1 - y0) / (x1 - x0)))",
  "edit": "wrong anchor in linear interpolation",
  "claim": "C27",
  "all": false
 },
 {
  "id": "v02",
  "file": "Model/Curve.lean",
  "old": "else if x < x1 then .ok y0\n",
  "new": "else if x < x1 then .ok y1\n",
  "edit": "next instead of previous",
  "claim": "C27",
  "all": false
 },
 {
  "id": "v03",
  "file": "Model/Curve.lean",
  "old": "    else if last.date < d then",
  "new": "    else if last.date \u2264 d then",
  "edit": "the last knot extrapolated",
  "claim": "C28/C30",
  "all": false
 },
 {
  "id": "v04",
  "file": "Model/Curve.lean",
  "old": "{ c with knots := knots, grid := g })\n  | .error e => (.error e, { c with knots := knots })\n\n/-- base_curve.py:136",
  "new": "{ c with knots := knots })\n  | .error e => (.error e, { c with knots := knots })\n\n/-- base_curve.py:136",
  "edit": "interpolator not rebuilt on reset",
  "claim": "C28",
  "all": false
 },
 {
  "id": "v05",
  "file": "Model/Curve.lean",
  "old": "exp (-ya.1 * ya.2)",
  "new": "exp (ya.1 * ya.2)",
  "edit": "sign of the exponent",
  "claim": "C29/C30",
  "all": false
 },
 {
  "id": "v06",
  "file": "Model/Curve.lean",
  "old": "let kUp := kDown.setBumpVal (oneBasisPoint / 2)",
  "new": "let kUp := kDown.setBumpVal oneBasisPoint",
  "edit": "asymmetric bump",
  "claim": "C31",
  "all": false
 },
 {
  "id": "v07",
  "file": "Model/Curve.lean",
  "old": ".ok (e.quantity * v)) entries",
  "new": ".ok v) entries",
  "edit": "quantity ignored",
  "claim": "C32",
  "all": false
 },
 {
  "id": "v08",
  "file": "Model/Curve.lean",
  "old": ".ok (s + cash)",
  "new": ".ok s",
  "edit": "cash ignored",
  "claim": "C32",
  "all": false
 },
 {
  "id": "v09",
  "file": "Model/Curve.lean",
  "old": "match presentValue exp yc1 asset kUp.asAdjustment",
  "new": "match presentValue exp yc1 asset kDown.asAdjustment",
  "edit": "down bump used twice",
  "claim": "C31",
  "all": false
 },
 {
  "id": "v10",
  "file": "Model/Curve.lean",
  "old": "(.ok \u27e8k'.keyDate, v * oneBasisPoint\u27e9",
  "new": "(.ok \u27e8k'.keyDate, v\u27e9",
  "edit": "PV01 not scaled",
  "claim": "C31/C32",
  "all": false
 },
 {
  "id": "v11",
  "file": "Model/Curve.lean",
  "old": "let knots := pySorted Knot.date values\n  let ref",
  "new": "let knots := values\n  let ref",
  "edit": "knots not sorted",
  "claim": "C27",
  "all": false
 },
 {
  "id": "b01",
  "file": "Model/Bond.lean",
  "old": "t.principal * t.couponRate / (100 * f.value)",
  "new": "t.principal * t.couponRate / 100",
  "edit": "coupon not divided by frequency",
  "claim": "C33",
  "all": false
 },
 {
  "id": "b02",
  "file": "Model/Bond.lean",
  "old": "let stop \u2190 dated.addDays 1",
  "new": "let stop \u2190 dated.addDays 0",
  "edit": "coupon on the dated date",
  "claim": "C33",
  "all": false
 },
 {
  "id": "b03",
  "file": "Model/Bond.lean",
  "old": "let adjusted \u2190 collect t.adjust unadjusted\n      .ok (List.zipWith",
  "new": "let adjusted \u2190 collect (fun d => .ok d) unadjusted\n      .ok (List.zipWith",
  "edit": "payment dates not adjusted",
  "claim": "C33",
  "all": false
 },
 {
  "id": "b04",
  "file": "Model/Bond.lean",
  "old": "| some r => Scheduler.addBusinessDays b.terms.calendar r 1",
  "new": "| some r => Scheduler.addBusinessDays b.terms.calendar r 0",
  "edit": "cut-off one business day early",
  "claim": "C34",
  "all": false
 },
 {
  "id": "b05",
  "file": "Model/Bond.lean",
  "old": ".ok (decide (settlement \u2264 p.unadjusted))",
  "new": ".ok (decide (settlement < p.unadjusted))",
  "edit": "payment on the settlement date dropped",
  "claim": "C34",
  "all": false
 },
 {
  "id": "b06",
  "file": "Model/Bond.lean",
  "old": "let whole \u2190 DayCount.accrual between.1 between.2 t.dcc",
  "new": "let whole \u2190 DayCount.accrual dated between.2 t.dcc",
  "edit": "period measured from the dated date",
  "claim": "C35",
  "all": false
 },
 {
  "id": "b07",
  "file": "Model/Bond.lean",
  "old": "t.price + normalized * 100\u27e9",
  "new": "t.price - normalized * 100\u27e9",
  "edit": "accrued interest subtracted",
  "claim": "C36",
  "all": false
 },
 {
  "id": "b08",
  "file": "Model/Bond.lean",
  "old": "((accrual : \u211d) * n)",
  "new": "(accrual : \u211d)",
  "edit": "compounding exponent not multiplied",
  "claim": "C37",
  "all": false
 },
 {
  "id": "b09",
  "file": "Model/Bond.lean",
  "old": ".ok ((up - down) / (oneBasisPoint : \u211d))",
  "new": ".ok ((down - up) / (oneBasisPoint : \u211d))",
  "edit": "sign of derivative",
  "claim": "C37",
  "all": false
 },
 {
  "id": "b10",
  "file": "Model/Bond.lean",
  "old": ".ok ((b.fullPrice * b.terms.principal / 100 : \u211a) - pv)",
  "new": ".ok ((b.terms.price * b.terms.principal / 100 : \u211a) - pv)",
  "edit": "clean price solved for",
  "claim": "C37",
  "all": false
 },
 {
  "id": "b11",
  "file": "Model/Bond.lean",
  "old": "let i := bisectRight id",
  "new": "let i := bisectLeft id",
  "edit": "wrong bisection",
  "claim": "C35",
  "all": false
 },
 {
  "id": "l01",
  "file": "Model/Loan.lean",
  "old": "let interest := accrual * rate * remaining",
  "new": "let interest := accrual * rate",
  "edit": "interest not on the balance",
  "claim": "C38",
  "all": false
 },
 {
  "id": "l02",
  "file": "Model/Loan.lean",
  "old": "let principal := if remaining \u2264 candidate then remaining else candidate",
  "new": "let principal := candidate",
  "edit": "no payoff cap",
  "claim": "C38",
  "all": false
 },
 {
  "id": "l03",
  "file": "Model/Loan.lean",
  "old": "paymentLoop rate dcc (remaining - principal) amount rest",
  "new": "paymentLoop rate dcc remaining amount rest",
  "edit": "balance not reduced",
  "claim": "C38",
  "all": false
 },
 {
  "id": "l04",
  "file": "Model/Loan.lean",
  "old": "(1 - compound) / (-(l.rate : \u211d) / f)",
  "new": "(1 - compound) / (-(l.rate : \u211d))",
  "edit": "annuity formula wrong",
  "claim": "C39",
  "all": false
 },
 {
  "id": "l05",
  "file": "Model/Loan.lean",
  "old": "(daysInMonth l.originationDate.year 11)",
  "new": "(daysInMonth l.originationDate.year l.originationDate.month)",
  "edit": "END_OF_MONTH fixed (a repair)",
  "claim": "C40 negation theorems",
  "all": false
 },
 {
  "id": "l06",
  "file": "Model/Loan.lean",
  "old": "xs.take n",
  "new": "xs",
  "edit": "too many extras kept (invisible: zip truncates)",
  "claim": "none: equivalent program",
  "all": false
 },
 {
  "id": "l07",
  "file": "Model/Loan.lean",
  "old": "| .quarterly => .ok 3",
  "new": "| .quarterly => .ok 4",
  "edit": "quarterly every four months",
  "claim": "C38/C40",
  "all": false
 },
 {
  "id": "w01",
  "file": "Model/Swap.lean",
  "old": "| .receiverFixed => .ok (fixedPv - floatPv)",
  "new": "| .receiverFixed => .ok (floatPv - fixedPv)",
  "edit": "receiver sign",
  "claim": "C41",
  "all": false
 },
 {
  "id": "w02",
  "file": "Model/Swap.lean",
  "old": "acc.2 * (1 + r * a)",
  "new": "acc.2 * (1 + r)",
  "edit": "overnight rate not accrued",
  "claim": "C43",
  "all": false
 },
 {
  "id": "w03",
  "file": "Model/Swap.lean",
  "old": ".ok \u27e8d, some (a.factor * s.terms.notional * s.terms.fixedRate)\u27e9",
  "new": ".ok \u27e8d, some (s.terms.notional * s.terms.fixedRate)\u27e9",
  "edit": "fixed payment without accrual",
  "claim": "C42",
  "all": false
 },
 {
  "id": "w04",
  "file": "Model/Swap.lean",
  "old": ".ok (df * (a.factor * s.terms.notional))",
  "new": ".ok (df * a.factor)",
  "edit": "annuity without notional",
  "claim": "C42",
  "all": false
 },
 {
  "id": "w05",
  "file": "Model/Swap.lean",
  "old": "if set then { s with legs",
  "new": "if !set then { s with legs",
  "edit": "flag inverted",
  "claim": "C41",
  "all": false
 },
 {
  "id": "w06",
  "file": "Model/Swap.lean",
  "old": "| .quarterly => .ok (.relativedelta (-3) 0)\n  | _",
  "new": "| .quarterly => .ok (.relativedelta (-4) 0)\n  | _",
  "edit": "quarterly every four months",
  "claim": "C53",
  "all": false
 },
 {
  "id": "w07",
  "file": "Model/Swap.lean",
  "old": "let r \u2190 rate fixingDate",
  "new": "let r \u2190 rate a.start",
  "edit": "term rate fixed at the start of accrual",
  "claim": "term leg fixing",
  "all": false
 },
 {
  "id": "w08",
  "file": "Model/Swap.lean",
  "old": "let adjusted \u2190 collect s.terms.adjust unadjusted.reverse",
  "new": "let adjusted \u2190 collect s.terms.adjust unadjusted",
  "edit": "not reversed",
  "claim": "C53",
  "all": false
 },
 {
  "id": "w09",
  "file": "Model/Swap.lean",
  "old": "pyDiv (r.2 - 1) r.1",
  "new": "pyDiv r.2 r.1",
  "edit": "one not subtracted",
  "claim": "C43",
  "all": false
 }
]