[
 {
  "id": "p01",
  "file": "Model/PathCurve.lean",
  "old": "else if x < x1 then .ok (y0 + ((x - x0 : ℚ) : ℝ) * ((y1 - y0) / ((x1 - x0 : ℚ) : ℝ)))",
  "new": "else if x < x1 then .ok y0",
  "edit": "interpolates as 'previous' instead of linearly",
  "claim": "C103_linear",
  "all": false
 },
 {
  "id": "p02",
  "file": "Model/PathCurve.lean",
  "old": "else if x < x1 then .ok (y0 +",
  "new": "else if x < x1 then .ok (y1 +",
  "edit": "line drawn from the wrong knot",
  "claim": "C103_discount_curve",
  "all": false
 },
 {
  "id": "p03",
  "file": "Model/PathCurve.lean",
  "old": "let knots := pySorted DtKnot.knot values",
  "new": "let knots := values",
  "edit": "knots not sorted",
  "claim": "C103 sorted knots (input order)",
  "all": false
 },
 {
  "id": "p04",
  "file": "Model/PathCurve.lean",
  "old": "    | .date _ => .error .typeError\n    | .datetime d micros h =>\n      let t",
  "new": "    | .date _ => .ok first.value\n    | .datetime d micros h =>\n      let t",
  "edit": "a plain date silently gets the first value",
  "claim": "C103_discount_curve",
  "all": false
 },
 {
  "id": "p05",
  "file": "Model/PathCurve.lean",
  "old": "if t < first.knot then\n        match c.left",
  "new": "if t ≤ first.knot then\n        match c.left",
  "edit": "left boundary excluded",
  "claim": "C103_discount_curve",
  "all": false
 },
 {
  "id": "p06",
  "file": "Model/PathCurve.lean",
  "old": "else if last.knot < t then",
  "new": "else if last.knot ≤ t then",
  "edit": "right boundary excluded",
  "claim": "C103_discount_curve",
  "all": false
 },
 {
  "id": "p07",
  "file": "Model/PathCurve.lean",
  "old": "| .constant => .ok last.value\n        | .error => .error .valueError",
  "new": "| .constant => .ok last.value\n        | .error => .ok last.value",
  "edit": "flat extrapolation instead of an error",
  "claim": "C103_discount_curve",
  "all": false
 },
 {
  "id": "p08",
  "file": "Model/PathCurve.lean",
  "old": "let x ← dtAccrual c.reference t c.dcc",
  "new": "let x ← dtAccrual c.reference t .act365",
  "edit": "lookup axis ignores the curve's convention",
  "claim": "C103_discount_curve",
  "all": false
 },
 {
  "id": "p09",
  "file": "Model/PathCurve.lean",
  "old": "if c.reference ≤ (⟨d, micros, h⟩ : PyDatetime) then do",
  "new": "if c.reference < (⟨d, micros, h⟩ : PyDatetime) then do",
  "edit": "payment at the reference datetime dropped",
  "claim": "C103_present_value",
  "all": false
 },
 {
  "id": "p10",
  "file": "Model/PathCurve.lean",
  "old": ".ok (df * a + rest)",
  "new": ".ok (a + rest)",
  "edit": "payments not discounted",
  "claim": "C103_present_value",
  "all": false
 },
 {
  "id": "p11",
  "file": "Model/PathCurve.lean",
  "old": "      | .date _ => .error .typeError\n      | .datetime d micros h =>\n        if",
  "new": "      | .date _ => presentValue c ps\n      | .datetime d micros h =>\n        if",
  "edit": "date payments skipped silently",
  "claim": "C103_date_cashflow",
  "all": false
 },
 {
  "id": "p12",
  "file": "Model/PathCurve.lean",
  "old": "(.ok kvs, m') => (DtCurve.create (kvs.map fun kv => ⟨kv.1, kv.2⟩) m'.bm.dcc m'.bm.start .error .error, m')",
  "new": "(.ok kvs, m') => (DtCurve.create (kvs.map fun kv => ⟨kv.1, kv.2⟩) m'.bm.dcc m'.bm.start .constant .constant, m')",
  "edit": "discount curve extrapolates",
  "claim": "C103_discount_curve",
  "all": false
 },
 {
  "id": "p13",
  "file": "Model/PathCurve.lean",
  "old": "DtCurve.create (kvs.map fun kv => ⟨kv.1, kv.2⟩) m.bm.dcc m.bm.start .error .error\n",
  "new": "DtCurve.create (kvs.map fun kv => ⟨kv.1, kv.2⟩) m.bm.dcc m.bm.stop .error .error\n",
  "edit": "accrual curve's reference is the end",
  "claim": "C103_accrual_curve",
  "all": false
 },
 {
  "id": "p14",
  "file": "Model/Stochastic.lean",
  "old": "| some vs => .ok ((m.bm.start, 1) :: dts.zip (vs.map Real.exp))",
  "new": "| some vs => .ok ((m.bm.start, 1) :: dts.zip (vs.map fun v => Real.exp (-v)))",
  "edit": "accrual curve is the discount curve",
  "claim": "C103_inverse, C57",
  "all": false
 },
 {
  "id": "p15",
  "file": "Model/Stochastic.lean",
  "old": "    | none => .error .typeError\n    | some vs => .ok ((m.bm.start",
  "new": "    | none => .ok [(m.bm.start, 1)]\n    | some vs => .ok ((m.bm.start",
  "edit": "accrual curve without integrated path returns one knot",
  "claim": "C57_accrual_fresh",
  "all": false
 },
 {
  "id": "p16",
  "file": "Model/RoundedLoan.lean",
  "old": "let interest := rnd (rnd (acc * rate) * remaining)",
  "new": "let interest := rnd (acc * remaining)",
  "edit": "interest ignores the rate",
  "claim": "C100",
  "all": false
 },
 {
  "id": "p17",
  "file": "Model/RoundedLoan.lean",
  "old": "let candidate := rnd (rnd (amount - interest) + extra)",
  "new": "let candidate := rnd (amount + extra)",
  "edit": "interest not deducted from the instalment",
  "claim": "C100",
  "all": false
 },
 {
  "id": "p18",
  "file": "Model/RoundedLoan.lean",
  "old": "let principal := if remaining ≤ candidate then remaining else candidate",
  "new": "let principal := candidate",
  "edit": "last payment not capped",
  "claim": "C100_amortization",
  "all": false
 },
 {
  "id": "p19",
  "file": "Model/RoundedLoan.lean",
  "old": "if remaining ≤ candidate then rnd (remaining + interest) else amount",
  "new": "if remaining ≤ candidate then remaining else amount",
  "edit": "last payment without interest",
  "claim": "C100",
  "all": false
 },
 {
  "id": "p20",
  "file": "Model/RoundedLoan.lean",
  "old": "paymentLoop rnd rate dcc (rnd (remaining - principal)) amount rest",
  "new": "paymentLoop rnd rate dcc (rnd (remaining - amount)) amount rest",
  "edit": "balance reduced by the whole payment",
  "claim": "C100",
  "all": false
 },
 {
  "id": "p21",
  "file": "Model/RoundedLoan.lean",
  "old": ".ok (⟨ed, amount, principal, interest⟩ :: ps)",
  "new": ".ok (⟨sd, amount, principal, interest⟩ :: ps)",
  "edit": "payments dated at the period's start",
  "claim": "C100/C38 dates",
  "all": false
 },
 {
  "id": "p22",
  "file": "Model/Curve.lean",
  "old": "  let knots := pySorted Knot.date values\n  match makeGrid c.referenceDate c.dcc knots with",
  "new": "  let knots := values\n  match makeGrid c.referenceDate c.dcc knots with",
  "edit": "reset does not sort",
  "claim": "C97_reset_values",
  "all": false
 },
 {
  "id": "p23",
  "file": "Model/Curve.lean",
  "old": "    let knots := c.knots.set index new\n",
  "new": "    let knots := c.knots.set (index + 1) new\n",
  "edit": "replaces the following knot",
  "claim": "C97_replace_value",
  "all": false
 },
 {
  "id": "p24",
  "file": "Model/Curve.lean",
  "old": "    | .ok g => (.ok (), { c with knots := knots, grid := g })\n    | .error e => (.error e, { c with knots := knots })\n  else",
  "new": "    | .ok g => (.ok (), { c with knots := knots })\n    | .error e => (.error e, { c with knots := knots })\n  else",
  "edit": "interpolator not rebuilt after replacing a value",
  "claim": "C97_replace_value",
  "all": false
 },
 {
  "id": "p25",
  "file": "Model/Datetime.lean",
  "old": "    if (if positive then d ≤ stop else stop ≤ d) then do",
  "new": "    if (if positive then d < stop else stop < d) then do",
  "edit": "end date excluded from the grid",
  "claim": "C08_datetimes",
  "all": false
 },
 {
  "id": "p26",
  "file": "Model/Datetime.lean",
  "old": "  | .timedelta k => .ok (decide (0 ≤ k))",
  "new": "  | .timedelta k => .ok (decide (k ≤ 0))",
  "edit": "sign of the increment reversed",
  "claim": "C08_datetimes",
  "all": false
 },
 {
  "id": "p27",
  "file": "Model/Datetime.lean",
  "old": "  incrementLoop inc pos stop (maxDates + 1) start",
  "new": "  incrementLoop inc pos stop maxDates start",
  "edit": "one date fewer than the limit allows",
  "claim": "C08_datetimes",
  "all": false
 }
]