[
 {
  "id": "q01",
  "file": "Model/BrownianInit.lean",
  "old": "if j ≤ i then a i j else a j i",
  "new": "a i j",
  "edit": "Cholesky reads the whole matrix",
  "claim": "C110_lower_triangle",
  "all": false
 },
 {
  "id": "q02",
  "file": "Model/BrownianInit.lean",
  "old": "if j ≤ i then a i j else a j i",
  "new": "if i ≤ j then a i j else a j i",
  "edit": "Cholesky reads the upper triangle",
  "claim": "C110_lower_triangle",
  "all": false
 },
 {
  "id": "q03",
  "file": "Model/BrownianInit.lean",
  "old": "if dimension = 0 then .error .assertionError",
  "new": "if dimension ≠ p then .error .assertionError",
  "edit": "dimension checked against the matrix",
  "claim": "C110_dimension_unchecked",
  "all": false
 },
 {
  "id": "q04",
  "file": "Model/BrownianInit.lean",
  "old": "(if b.dimension = p then .ok x else .error .valueError",
  "new": "(.ok x",
  "edit": "the product of mismatched matrices goes through",
  "claim": "C110_dimension_unchecked",
  "all": false
 },
 {
  "id": "q05",
  "file": "Model/BrownianInit.lean",
  "old": "createDefault (start stop : PyDatetime) (dimension : Nat) (dcc : DayCountConvention := .actAct) :\n    Except PyErr (SizedBrownian dimension) := create start stop dimension 1 dcc",
  "new": "createDefault (start stop : PyDatetime) (dimension : Nat) (dcc : DayCountConvention := .actAct) :\n    Except PyErr (SizedBrownian dimension) := create start stop dimension (fun _ _ => 1) dcc",
  "edit": "default correlation is all ones",
  "claim": "C110_default",
  "all": false
 },
 {
  "id": "q06",
  "file": "Model/RoundedValuation.lean",
  "old": "| .receiverFixed => .ok (rnd (fixedPv - floatPv))\n  | .payerFixed => .ok (rnd (floatPv - fixedPv))",
  "new": "| .receiverFixed => .ok (rnd (floatPv - fixedPv))\n  | .payerFixed => .ok (rnd (fixedPv - floatPv))",
  "edit": "direction swapped",
  "claim": "C111_swap_value",
  "all": false
 },
 {
  "id": "q07",
  "file": "Model/RoundedValuation.lean",
  "old": "| .payerFixed => .ok (rnd (floatPv - fixedPv))",
  "new": "| .payerFixed => .ok (floatPv - fixedPv)",
  "edit": "difference not rounded for the payer",
  "claim": "C111_opposite",
  "all": false
 },
 {
  "id": "q08",
  "file": "Model/RoundedValuation.lean",
  "old": "rnd (acc.2 * rnd (1 + rnd (r * a)))",
  "new": "rnd (acc.2 + rnd (r * a))",
  "edit": "simple instead of compound growth",
  "claim": "C111_overnight",
  "all": false
 },
 {
  "id": "q09",
  "file": "Model/RoundedValuation.lean",
  "old": "let a ← accrual rnd p.1 p.2 .act360\n    let r ← rate p.1",
  "new": "let a ← accrual rnd p.1 p.2 .act365\n    let r ← rate p.1",
  "edit": "overnight accrual under ACT/365",
  "claim": "C111_overnight",
  "all": false
 },
 {
  "id": "q10",
  "file": "Model/RoundedValuation.lean",
  "old": "let fraction ← div rnd period whole",
  "new": "let fraction ← div rnd whole period",
  "edit": "accrual fraction inverted",
  "claim": "C111_accrued",
  "all": false
 },
 {
  "id": "q11",
  "file": "Model/RoundedValuation.lean",
  "old": ".ok (rnd (t.price + rnd (x * 100)))",
  "new": ".ok (rnd (t.price + x))",
  "edit": "accrued interest not per hundred",
  "claim": "C111_accrued full price",
  "all": false
 },
 {
  "id": "q12",
  "file": "Model/RoundedValuation.lean",
  "old": "div rnd floatPv (sum rnd xs)",
  "new": "div rnd (sum rnd xs) floatPv",
  "edit": "par rate inverted",
  "claim": "C111_par",
  "all": false
 },
 {
  "id": "q13",
  "file": "Model/RoundedValuation.lean",
  "old": "  .ok (rnd (df * rnd (a.factor * s.terms.notional)))",
  "new": "  .ok (rnd (a.factor * s.terms.notional))",
  "edit": "annuity undiscounted",
  "claim": "C111_par",
  "all": false
 },
 {
  "id": "q14",
  "file": "Model/RoundedValuation.lean",
  "old": "let fixingDate ← Scheduler.calculateSettlementDate s.terms.calendar a.start s.terms.fixing",
  "new": "let fixingDate ← Scheduler.calculateSettlementDate s.terms.calendar a.stop s.terms.fixing",
  "edit": "fixing in arrears",
  "claim": "C111_term_leg",
  "all": false
 },
 {
  "id": "q15",
  "file": "Model/Scheduler.lean",
  "old": "if c.month = d.month then .ok c else addBusinessDays cal d (-1)",
  "new": "if c.month = d.month then .ok c else addBusinessDays cal d (-2)",
  "edit": "modified following goes one day too far back",
  "claim": "C108_modified_monotone",
  "all": false
 },
 {
  "id": "q16",
  "file": "Model/Scheduler.lean",
  "old": "  let d0 ← roll cal 1 loopFuel d\n  if businessDays ≥ 0 then iterSteps",
  "new": "  let d0 ← roll cal (if businessDays < 0 then -1 else 1) loopFuel d\n  if businessDays ≥ 0 then iterSteps",
  "edit": "negative shifts roll backward first",
  "claim": "C108_order_of_shifts / C04",
  "all": false
 }
]