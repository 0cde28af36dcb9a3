[
 {
  "id": "t01",
  "file": "Model/Stochastic.lean",
  "old": "next i * (factor : \u211d) + prev i * (1 - (factor : \u211d))",
  "new": "next i * (1 - (factor : \u211d)) + prev i * (factor : \u211d)",
  "edit": "weights unswapped (the bug fixed)",
  "claim": "C44 negation theorems: recorded defect",
  "all": false
 },
 {
  "id": "t02",
  "file": "Model/Stochastic.lean",
  "old": "let factor \u2190 pyDiv toNext (toNext + sinceLast)",
  "new": "let factor \u2190 pyDiv sinceLast toNext",
  "edit": "wrong denominator",
  "claim": "C44: read values lie between the neighbours",
  "all": false
 },
 {
  "id": "t03",
  "file": "Model/Stochastic.lean",
  "old": "if q = atUpper then pyGet path upper else",
  "new": "if q = atUpper then pyGet path (upper - 1 : Int) else",
  "edit": "grid point reads the previous column",
  "claim": "C44: exact at grid points",
  "all": false
 },
 {
  "id": "t04",
  "file": "Model/Stochastic.lean",
  "old": "if q < start \u2228 stop < q then .error .valueError",
  "new": "if q < start \u2228 stop \u2264 q then .error .valueError",
  "edit": "the end is out of range",
  "claim": "C44: range is inclusive",
  "all": false
 },
 {
  "id": "t05",
  "file": "Model/Stochastic.lean",
  "old": "if last < stop then dates ++ [stop] else dates",
  "new": "dates",
  "edit": "end not appended",
  "claim": "C55: grid ends at the end",
  "all": false
 },
 {
  "id": "t06",
  "file": "Model/Stochastic.lean",
  "old": "if last < stop then dates ++ [stop] else dates",
  "new": "dates ++ [stop]",
  "edit": "end appended twice",
  "claim": "C55: grid strictly increasing",
  "all": false
 },
 {
  "id": "t07",
  "file": "Model/Stochastic.lean",
  "old": "chol i j * (z j * Real.sqrt (dt : \u211d))",
  "new": "chol i j * (z j * (dt : \u211d))",
  "edit": "no square root of dt",
  "claim": "C56: covariance correlation*dt",
  "all": false
 },
 {
  "id": "t08",
  "file": "Model/Stochastic.lean",
  "old": "chol i j * (z j * Real.sqrt (dt : \u211d))",
  "new": "chol j i * (z j * Real.sqrt (dt : \u211d))",
  "edit": "Cholesky factor transposed",
  "claim": "C56",
  "all": false
 },
 {
  "id": "t09",
  "file": "Model/Stochastic.lean",
  "old": "increment chol (normals k) dt :: increments chol normals (k + 1) dts",
  "new": "increment chol (normals 0) dt :: increments chol normals (k + 1) dts",
  "edit": "same draws every step",
  "claim": "C56: independence across steps",
  "all": false
 },
 {
  "id": "t10",
  "file": "Model/Stochastic.lean",
  "old": "let path := cumulate (fun _ => 0) r.1",
  "new": "let path := cumulate (fun _ => 1) r.1",
  "edit": "Brownian path starts at one",
  "claim": "C45/C56",
  "all": false
 },
 {
  "id": "t11",
  "file": "Model/Stochastic.lean",
  "old": "x :: euler coords rest (time + dt) (step coords time x shock dt)",
  "new": "x :: euler coords rest time (step coords time x shock dt)",
  "edit": "time not advanced",
  "claim": "C45",
  "all": false
 },
 {
  "id": "t12",
  "file": "Model/Stochastic.lean",
  "old": "(coords i).drift time x * (dt : \u211d) + \u2211",
  "new": "(coords i).drift time x + \u2211",
  "edit": "drift not multiplied by dt",
  "claim": "C45",
  "all": false
 },
 {
  "id": "t13",
  "file": "Model/Stochastic.lean",
  "old": "\u2211 j, (coords i).diffusion time x j * shock j",
  "new": "(coords i).diffusion time x i * shock i",
  "edit": "only own shock used",
  "claim": "C45",
  "all": false
 },
 {
  "id": "t14",
  "file": "Model/Stochastic.lean",
  "old": "x i + drift * x i * (dt : \u211d) + volatility * x i * shock i",
  "new": "x i + drift * (dt : \u211d) + volatility * x i * shock i",
  "edit": "arithmetic drift",
  "claim": "C59",
  "all": false
 },
 {
  "id": "t15",
  "file": "Model/Stochastic.lean",
  "old": "{ d with path := none, dt := dt }",
  "new": "{ d with dt := dt }",
  "edit": "set_dt keeps the old path",
  "claim": "C45/C58",
  "all": false
 },
 {
  "id": "t16",
  "file": "Model/Stochastic.lean",
  "old": "path := some (cols.map m.transform) }",
  "new": "path := some (cols.map m.transform), integrated := none }",
  "edit": "integrated path reset (bug fixed)",
  "claim": "C57 negation theorems: recorded defect",
  "all": false
 },
 {
  "id": "t17",
  "file": "Model/Stochastic.lean",
  "old": "{ m with dt := dt, path := none, integrated := none }",
  "new": "{ m with dt := dt, path := none }",
  "edit": "set_dt keeps integrated path",
  "claim": "C57",
  "all": false
 },
 {
  "id": "t18",
  "file": "Model/Stochastic.lean",
  "old": "if minRate < 0 then maxRate * accrual + (minRate - maxRate) * accrual / 2",
  "new": "if minRate < 0 then maxRate * accrual + (minRate - maxRate) * accrual",
  "edit": "negative-rate trapezoid without half",
  "claim": "C46",
  "all": false
 },
 {
  "id": "t19",
  "file": "Model/Stochastic.lean",
  "old": "let oldAccrual : \u211d := 0",
  "new": "let oldAccrual : \u211d := 1",
  "edit": "accrual shifted",
  "claim": "C46",
  "all": false
 },
 {
  "id": "t20",
  "file": "Model/Stochastic.lean",
  "old": "      | some vs => (.ok (dts.zip (vs.map (fun v => Real.exp (-v)))), m)",
  "new": "      | some vs => (.ok (dts.zip (vs.map (fun v => Real.exp v))), m)",
  "edit": "discount curve from stored path grows",
  "claim": "C57/C46",
  "all": false
 },
 {
  "id": "t21",
  "file": "Model/Stochastic.lean",
  "old": "(.ok vs, m') => (.ok (dts.zip (vs.map (fun v => Real.exp (-v)))), m')",
  "new": "(.ok vs, m') => (.ok (dts.zip (vs.map (fun v => Real.exp v))), m')",
  "edit": "discount factors above one",
  "claim": "C57/C46",
  "all": false
 },
 {
  "id": "t22",
  "file": "Model/Stochastic.lean",
  "old": ".ok ((m.bm.start, 1) :: dts.zip (vs.map Real.exp))",
  "new": "  .ok (dts.zip (vs.map Real.exp))",
  "edit": "start knot missing",
  "claim": "accrual curve",
  "all": false
 },
 {
  "id": "t23",
  "file": "Model/Stochastic.lean",
  "old": "(.ok path, if set then { d with path := some path } else d, b')",
  "new": "(.ok path, { d with path := some path }, b')",
  "edit": "set_path ignored",
  "claim": "C45/C57",
  "all": false
 },
 {
  "id": "t24",
  "file": "Model/Stochastic.lean",
  "old": "(.ok path, if set then { b' with path := some path } else b')",
  "new": "(.ok path, { b' with path := some path })",
  "edit": "set_path ignored by Brownian motion",
  "claim": "C45",
  "all": false
 },
 {
  "id": "t25",
  "file": "Model/Stochastic.lean",
  "old": ".ok (increments b.chol normals 0 dts, dts), { b with grid := some grid })",
  "new": ".ok (increments b.chol normals 0 dts, dts), b)",
  "edit": "grid not stored",
  "claim": "C44/C58",
  "all": false
 },
 {
  "id": "t26",
  "file": "Model/Datetime.lean",
  "old": "match PyDate.ofOrd? (n / 86400000000) with",
  "new": "match PyDate.ofOrd? (n / 86400000001) with",
  "edit": "microseconds per day",
  "claim": "C55",
  "all": false
 },
 {
  "id": "t27",
  "file": "Model/Datetime.lean",
  "old": ".ok \u27e8e, d.micros, d.bounds\u27e9",
  "new": ".ok \u27e8e, 0, by omega\u27e9",
  "edit": "time of day lost adding months",
  "claim": "C55",
  "all": false
 },
 {
  "id": "t28",
  "file": "Model/Datetime.lean",
  "old": "    let e \u2190 addIncrement d (.relativedelta m k)\n    .ok (decide (d \u2264 e))",
  "new": "    let e \u2190 addIncrement d (.relativedelta m k)\n    .ok (decide (e \u2264 d))",
  "edit": "direction flipped for relativedelta",
  "claim": "C55",
  "all": false
 },
 {
  "id": "t29",
  "file": "Model/Datetime.lean",
  "old": "incrementLoop inc pos stop (maxDates + 1) start",
  "new": "incrementLoop inc pos stop maxDates start",
  "edit": "cap one lower",
  "claim": "C55",
  "all": false
 },
 {
  "id": "r01",
  "file": "Model/Risk.lean",
  "old": "{ l with iterIndex := 0 })",
  "new": "l)",
  "edit": "ladder iterator not restarted",
  "claim": "C49",
  "all": false
 },
 {
  "id": "r02",
  "file": "Model/Risk.lean",
  "old": "{ p with iterIndex := 0 })",
  "new": "p)",
  "edit": "portfolio iterator not restarted",
  "claim": "C49",
  "all": false
 },
 {
  "id": "r03",
  "file": "Model/Risk.lean",
  "old": "l.iter.map Risk.pv01",
  "new": "(l.iter.map Risk.pv01).reverse",
  "edit": "pv01 column reversed",
  "claim": "C48 columns",
  "all": false
 },
 {
  "id": "r04",
  "file": "Model/Risk.lean",
  "old": "(List.range' base knots.length)",
  "new": "(List.range' base (knots.length - 1))",
  "edit": "last asset dropped",
  "claim": "C60",
  "all": false
 },
 {
  "id": "r05",
  "file": "Model/Risk.lean",
  "old": "KeyRate.create dcc d none none",
  "new": "KeyRate.create .act360 d none none",
  "edit": "convention ignored",
  "claim": "C60",
  "all": false
 },
 {
  "id": "r06",
  "file": "Model/Risk.lean",
  "old": "def containsMethod (_l : RiskLadder) (_r : Risk) : Option Bool := none",
  "new": "def containsMethod (l : RiskLadder) (r : Risk) : Option Bool := some (decide (r \u2208 l.risks))",
  "edit": "defect fixed",
  "claim": "C48 negation theorems",
  "all": false
 },
 {
  "id": "o01",
  "file": "Model/Optimizer.lean",
  "old": "(2 : \u211d) \u2022 (o.cov *\u1d65 w)",
  "new": "(1 : \u211d) \u2022 (o.cov *\u1d65 w)",
  "edit": "gradient without factor 2",
  "claim": "C50",
  "all": false
 },
 {
  "id": "o02",
  "file": "Model/Optimizer.lean",
  "old": "((fun _ => 1) \u2b1d\u1d65 w - 1, o.mean \u2b1d\u1d65 w - target)",
  "new": "((fun _ => 1) \u2b1d\u1d65 w - 1, o.mean \u2b1d\u1d65 w + target)",
  "edit": "target sign",
  "claim": "C61",
  "all": false
 },
 {
  "id": "o03",
  "file": "Model/Optimizer.lean",
  "old": "if allowShort then (none, none) else (some 0, some 1)",
  "new": "if allowShort then (some 0, some 1) else (none, none)",
  "edit": "flag inverted",
  "claim": "C50/C61: no shorts means weights in [0,1]",
  "all": false
 },
 {
  "id": "o04",
  "file": "Model/Optimizer.lean",
  "old": "fun _ => 1 / (n : \u211d)",
  "new": "fun _ => 1",
  "edit": "starting weights one each",
  "claim": "C50",
  "all": false
 },
 {
  "id": "o05",
  "file": "Model/Optimizer.lean",
  "old": "-(w \u2b1d\u1d65 o.mean) + w",
  "new": "(w \u2b1d\u1d65 o.mean) + w",
  "edit": "mean sign",
  "claim": "C50",
  "all": false
 },
 {
  "id": "o06",
  "file": "Model/Optimizer.lean",
  "old": "-o.mean + (2 * (param",
  "new": "-o.mean + ((param",
  "edit": "gradient misses 2",
  "claim": "C50",
  "all": false
 },
 {
  "id": "o07",
  "file": "Model/Optimizer.lean",
  "old": "lower.getD (lo + increment)",
  "new": "lower.getD lo",
  "edit": "default lower bound on the boundary",
  "claim": "C61",
  "all": false
 },
 {
  "id": "o08",
  "file": "Model/Optimizer.lean",
  "old": "arange lowerReturn (upperReturn + increment) increment",
  "new": "arange lowerReturn upperReturn increment",
  "edit": "upper excluded",
  "claim": "C61",
  "all": false
 },
 {
  "id": "w10",
  "file": "Model/Swap.lean",
  "old": "let fixingDate \u2190 Scheduler.calculateSettlementDate s.terms.calendar a.start s.terms.fixing",
  "new": "let fixingDate \u2190 Scheduler.calculateSettlementDate s.terms.calendar a.stop s.terms.fixing",
  "edit": "fixing from period end",
  "claim": "C62",
  "all": false
 },
 {
  "id": "w11",
  "file": "Model/Swap.lean",
  "old": "Scheduler.calculateSettlementDate s.terms.calendar a.stop s.terms.paymentDelay",
  "new": "Scheduler.calculateSettlementDate s.terms.calendar a.start s.terms.paymentDelay",
  "edit": "paid at period start",
  "claim": "C62",
  "all": false
 },
 {
  "id": "w12",
  "file": "Model/Swap.lean",
  "old": "let r \u2190 annualizedRate s.terms.calendar rate a.start a.stop",
  "new": "let r \u2190 rate a.start",
  "edit": "no compounding",
  "claim": "C62/C54",
  "all": false
 }
]