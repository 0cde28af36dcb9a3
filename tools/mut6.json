[
 {
  "id": "g01",
  "file": "Model/SchedulerDatetime.lean",
  "old": "dates.any (fun _ => false)",
  "new": "dates.any (fun x => x == _x.day)",
  "edit": "membership compares the day of the datetime",
  "claim": "C83_is_business_day: holidays are not noticed",
  "all": false
 },
 {
  "id": "g02",
  "file": "Model/SchedulerDatetime.lean",
  "old": "d.day.weekday != 5 && d.day.weekday != 6",
  "new": "d.day.weekday != 5",
  "edit": "Sundays are business days on datetimes",
  "claim": "C83",
  "all": false
 },
 {
  "id": "g03",
  "file": "Model/SchedulerDatetime.lean",
  "old": "let d' \u2190 d.addMicros dayMicros\n    roll cal 1 loopFuel d'",
  "new": "let d' \u2190 d.addMicros (dayMicros / 2)\n    roll cal 1 loopFuel d'",
  "edit": "adds half a day",
  "claim": "C83: keeps time of day",
  "all": false
 },
 {
  "id": "g04",
  "file": "Model/SchedulerDatetime.lean",
  "old": "if c.day.month = d.day.month then .ok c else addBusinessDays cal d (-1)",
  "new": "if c.day.month = d.day.month then .ok c else addBusinessDays cal c (-1)",
  "edit": "modified following steps back from the wrong date",
  "claim": "C83_modified",
  "all": false
 },
 {
  "id": "g05",
  "file": "Model/SchedulerDatetime.lean",
  "old": "if d \u2264 endDate then do\n      let d' \u2190 addSingle",
  "new": "if d < endDate then do\n      let d' \u2190 addSingle",
  "edit": "generate excludes the end",
  "claim": "C83_generate",
  "all": false
 },
 {
  "id": "g06",
  "file": "Model/SchedulerDatetime.lean",
  "old": "| .tPlusTwoBusiness => addBusinessDays cal purchase 2",
  "new": "| .tPlusTwoBusiness => addBusinessDays cal purchase 3",
  "edit": "T+2 counts three days",
  "claim": "C83_settlement",
  "all": false
 },
 {
  "id": "g07",
  "file": "Model/SchedulerDatetime.lean",
  "old": "if b then .ok purchase else addBusinessDays cal purchase (-1)",
  "new": "if b then addBusinessDays cal purchase (-1) else .ok purchase",
  "edit": "T-0 branches swapped",
  "claim": "C83_settlement",
  "all": false
 },
 {
  "id": "g08",
  "file": "Model/SchedulerDatetime.lean",
  "old": "let d1 \u2190 if b then .ok d else roll cal 1 loopFuel d",
  "new": "let d1 \u2190 if b then .ok d else roll cal (-1) loopFuel d",
  "edit": "subtract rolls back first",
  "claim": "C83_subtract_iff (unreachable: argument is a business day)",
  "all": false
 },
 {
  "id": "g09",
  "file": "Model/Optimizer.lean",
  "old": "admitted w \u2227 \u2200 v, admitted v \u2192 o.varianceObjective w \u2264 o.varianceObjective v",
  "new": "admitted w \u2227 \u2200 v, admitted v \u2192 o.varianceObjective v \u2264 o.varianceObjective w",
  "edit": "maximizes variance",
  "claim": "C84_problem",
  "all": false
 },
 {
  "id": "g10",
  "file": "Model/Optimizer.lean",
  "old": "(allowShort = false \u2192 \u2200 i, 0 \u2264 v i) \u2227\n    (\u2200 i, (\u2200 lo",
  "new": "(allowShort = true \u2192 \u2200 i, 0 \u2264 v i) \u2227\n    (\u2200 i, (\u2200 lo",
  "edit": "sign constraint applied when short sales are allowed",
  "claim": "C84_problem",
  "all": false
 },
 {
  "id": "g11",
  "file": "Model/Optimizer.lean",
  "old": "fun w => Real.sqrt (w \u2b1d\u1d65 (o.cov *\u1d65 w))",
  "new": "fun w => (w \u2b1d\u1d65 (o.cov *\u1d65 w))",
  "edit": "frontier reports variances",
  "claim": "C84_frontier",
  "all": false
 },
 {
  "id": "g12",
  "file": "Model/Optimizer.lean",
  "old": "(r - riskFree) / v",
  "new": "r / v - riskFree",
  "edit": "Sharpe ratio precedence error",
  "claim": "C84_sharpe",
  "all": false
 },
 {
  "id": "g13",
  "file": "Model/Optimizer.lean",
  "old": "(returns, volatilities, weights)",
  "new": "(returns, volatilities, weights.reverse)",
  "edit": "weights listed in reverse",
  "claim": "C84_frontier",
  "all": false
 },
 {
  "id": "g14",
  "file": "Model/Optimizer.lean",
  "old": "-(w \u2b1d\u1d65 o.mean) + w \u2b1d\u1d65 (o.cov *\u1d65 w) * (param * wealth / 2)",
  "new": "-(w \u2b1d\u1d65 o.mean) - w \u2b1d\u1d65 (o.cov *\u1d65 w) * (param * wealth / 2)",
  "edit": "utility rewards variance",
  "claim": "C85_problem",
  "all": false
 },
 {
  "id": "g15",
  "file": "Model/Optimizer.lean",
  "old": "weightConstraint v = 0 \u2227\n",
  "new": "weightConstraint v \u2264 0 \u2227\n",
  "edit": "utility weights may sum to less than one",
  "claim": "C85_problem",
  "all": false
 },
 {
  "id": "g16",
  "file": "Model/Default.lean",
  "old": "if draw pos \u2264 prob then .ok (some time, pos + 1)",
  "new": "if draw pos \u2264 prob then .ok (some (time + dt), pos + 1)",
  "edit": "default reported one step late",
  "claim": "C76",
  "all": false
 },
 {
  "id": "g17",
  "file": "Model/Default.lean",
  "old": "pathLoop hazard maturity dt draw fuel dt pos",
  "new": "pathLoop hazard maturity dt draw fuel 0 pos",
  "edit": "first test at time zero",
  "claim": "C76",
  "all": false
 },
 {
  "id": "g18",
  "file": "Model/Default.lean",
  "old": "if time < maturity then",
  "new": "if time \u2264 maturity then",
  "edit": "tests at maturity",
  "claim": "C76_before_maturity",
  "all": false
 },
 {
  "id": "g19",
  "file": "Model/Default.lean",
  "old": "let prob := hazard time * dt",
  "new": "let prob := hazard (time + dt) * dt",
  "edit": "hazard of the next date",
  "claim": "C76",
  "all": false
 },
 {
  "id": "g20",
  "file": "Model/Default.lean",
  "old": "let ts \u2190 pathsFrom hazard maturity dt draw fuel n pos'",
  "new": "let ts \u2190 pathsFrom hazard maturity dt draw fuel n (pos + 1)",
  "edit": "paths reuse draws",
  "claim": "C76",
  "all": false
 },
 {
  "id": "g21",
  "file": "Model/CashflowSequence.lean",
  "old": "if i < 0 then max (i + n) lower else min i upper",
  "new": "if i < 0 then max (i + n) lower else i",
  "edit": "slice bounds not clipped",
  "claim": "C77",
  "all": false
 },
 {
  "id": "g22",
  "file": "Model/CashflowSequence.lean",
  "old": "| none => if step < 0 then -1 else n",
  "new": "| none => if step < 0 then 0 else n",
  "edit": "reverse slices drop the first element",
  "claim": "C77",
  "all": false
 },
 {
  "id": "g23",
  "file": "Model/CashflowSequence.lean",
  "old": "let j := if i < 0 then i + l.length else i\n  if j < 0 then .error",
  "new": "let j := if i < 0 then i + l.length - 1 else i\n  if j < 0 then .error",
  "edit": "negative index off by one",
  "claim": "C77",
  "all": false
 },
 {
  "id": "g24",
  "file": "Model/CashflowSequence.lean",
  "old": ".ok (create l)",
  "new": ".ok l",
  "edit": "slices are not sorted",
  "claim": "C77: slice with negative step is in date order",
  "all": false
 },
 {
  "id": "g25",
  "file": "Model/CashflowSequence.lean",
  "old": "if y = x then .ok true\n    else do",
  "new": "if y = x then .ok false\n    else do",
  "edit": "identical object not found",
  "claim": "C78",
  "all": false
 },
 {
  "id": "g26",
  "file": "Model/CashflowSequence.lean",
  "old": "if c.len = d.len then c.le d member else .ok false",
  "new": "if c.len \u2264 d.len then c.le d member else .ok false",
  "edit": "subset counts as equal",
  "claim": "C78",
  "all": false
 },
 {
  "id": "g27",
  "file": "Model/KeyRateSequence.lean",
  "old": "if same h v value then .ok i else indexLoop h value stop rest (i + 1)",
  "new": "if same h v value then .ok (i + 1) else indexLoop h value stop rest (i + 1)",
  "edit": "index is one-based",
  "claim": "C80",
  "all": false
 },
 {
  "id": "g28",
  "file": "Model/KeyRateSequence.lean",
  "old": "if start < 0 then max (c.keyRates.length + start) 0 else start",
  "new": "if start < 0 then max start 0 else start",
  "edit": "negative start not counted from the end",
  "claim": "C80",
  "all": false
 },
 {
  "id": "g29",
  "file": "Model/KeyRateSequence.lean",
  "old": "match c.delItem h i with\n    | (.ok _, c', h') => (.ok v, c', h')",
  "new": "match c.delItem h 0 with\n    | (.ok _, c', h') => (.ok v, c', h')",
  "edit": "pop deletes the first element",
  "claim": "C80",
  "all": false
 },
 {
  "id": "g30",
  "file": "Model/KeyRateSequence.lean",
  "old": "fun p => !idx.contains (p.2 : Int)",
  "new": "fun p => idx.contains (p.2 : Int)",
  "edit": "deleting a slice keeps the slice",
  "claim": "C80",
  "all": false
 },
 {
  "id": "g31",
  "file": "Model/KeyRateSequence.lean",
  "old": "let r := setDates h ids\n    (r.1, { c with keyRates := ids }, r.2)",
  "new": "(.ok (), { c with keyRates := ids }, h)",
  "edit": "slice deletion does not re-wire",
  "claim": "C80",
  "all": false
 },
 {
  "id": "g32",
  "file": "Model/KeyRateSequence.lean",
  "old": "v == value || (h v).eq (h value)",
  "new": "v == value",
  "edit": "membership by identity only",
  "claim": "C80",
  "all": false
 },
 {
  "id": "g33",
  "file": "Model/KeyRateSequence.lean",
  "old": "(List.range c.keyRates.length).reverse).mapM",
  "new": "(List.range c.keyRates.length)).mapM",
  "edit": "reversed goes forward",
  "claim": "C80",
  "all": false
 },
 {
  "id": "g34",
  "file": "Model/Bond.lean",
  "old": ".ok (df * (p.amount : \u211d) * (a : \u211d))",
  "new": ".ok (df * (p.amount : \u211d) * (a : \u211d) * b.terms.frequency.value)",
  "edit": "Macaulay time in periods",
  "claim": "C82_macaulay",
  "all": false
 },
 {
  "id": "g35",
  "file": "Model/Bond.lean",
  "old": "(ytm + offset - (oneBasisPoint : \u211d) / 2) none",
  "new": "(ytm + offset) none",
  "edit": "one-sided difference",
  "claim": "C82_derivative",
  "all": false
 },
 {
  "id": "g36",
  "file": "Model/Bond.lean",
  "old": ".ok (-d / (b.fullPrice : \u211d))",
  "new": ".ok (d / (b.fullPrice : \u211d))",
  "edit": "duration without the sign",
  "claim": "C82_duration",
  "all": false
 },
 {
  "id": "g37",
  "file": "Model/Bond.lean",
  "old": "let keep := fun p => b.isPaymentReceived p none\n  let c \u2190 sumIf keep value b.coupons\n  let p \u2190 sumIf keep value b.principalPayments\n  let scaled",
  "new": "let keep := fun p => b.isPaymentReceived p none\n  let c \u2190 sumIf keep value b.coupons\n  let p \u2190 sumIf keep value b.coupons\n  let scaled",
  "edit": "Macaulay duration forgets the principal",
  "claim": "C82_macaulay",
  "all": false
 }
]