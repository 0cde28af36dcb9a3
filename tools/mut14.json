[
 {
  "id": "q01",
  "file": "Model/RoundedRisk.lean",
  "old": "        .ok (rnd (first.value + a))",
  "new": "        .ok first.value",
  "edit": "the adjustment ignored before the first knot",
  "claim": "C128_value / C128_exact",
  "all": false
 },
 {
  "id": "q02",
  "file": "Model/RoundedRisk.lean",
  "old": "      .ok (rnd (y + a))",
  "new": "      .ok (rnd (y - a))",
  "edit": "the adjustment subtracted",
  "claim": "C128_value / C128_pv01",
  "all": false
 },
 {
  "id": "q03",
  "file": "Model/RoundedRisk.lean",
  "old": "if linear then interpLinear rnd grid x else interpPrevious grid x",
  "new": "if linear then interpPrevious grid x else interpLinear rnd grid x",
  "edit": "the interpolation methods exchanged",
  "claim": "C128_value",
  "all": false
 },
 {
  "id": "q04",
  "file": "Model/RoundedRisk.lean",
  "old": "    if d < first.date then\n      match left with",
  "new": "    if d ≤ first.date then\n      match left with",
  "edit": "the first knot treated as outside",
  "claim": "C128_value / C128_exact",
  "all": false
 },
 {
  "id": "q05",
  "file": "Model/RoundedRisk.lean",
  "old": "    else if last.date < d then .error",
  "new": "    else if last.date ≤ d then .error",
  "edit": "the last knot treated as outside",
  "claim": "C128_value",
  "all": false
 },
 {
  "id": "q06",
  "file": "Model/RoundedRisk.lean",
  "old": "exp (rnd (-ya.1 * ya.2))",
  "new": "exp (rnd (ya.1 * ya.2))",
  "edit": "sign of the exponent dropped",
  "claim": "C128_value",
  "all": false
 },
 {
  "id": "q07",
  "file": "Model/RoundedRisk.lean",
  "old": "exp (rnd (-ya.1 * ya.2))",
  "new": "exp (rnd (-ya.1))",
  "edit": "yield not multiplied by the time",
  "claim": "C128_value",
  "all": false
 },
 {
  "id": "q08",
  "file": "Model/RoundedRisk.lean",
  "old": "exp (rnd (-ya.1 * ya.2))",
  "new": "rnd (1 - ya.1 * ya.2)",
  "edit": "first-order discounting",
  "claim": "C128_value",
  "all": false
 },
 {
  "id": "q09",
  "file": "Model/RoundedRisk.lean",
  "old": "(yields.zip accruals)",
  "new": "(accruals.zip accruals)",
  "edit": "accruals used as yields",
  "claim": "C128_value",
  "all": false
 },
 {
  "id": "q10",
  "file": "Model/RoundedRisk.lean",
  "old": "  presentValue rnd schedule ⟨ref, interpolate rnd knots dcc ref true",
  "new": "  presentValue rnd schedule ⟨ref, interpolate rnd knots dcc ref false",
  "edit": "discount curve not linear",
  "claim": "C128_exact",
  "all": false
 },
 {
  "id": "q11",
  "file": "Model/RoundedRisk.lean",
  "old": "ref true .error (fun _ => .ok 0)⟩",
  "new": "ref true .error adj⟩",
  "edit": "the adjustment applied twice",
  "claim": "C128_value",
  "all": false
 },
 {
  "id": "q12",
  "file": "Model/RoundedRisk.lean",
  "old": "(rnd (-bp / 2))",
  "new": "(rnd (-bp))",
  "edit": "a whole basis point down",
  "claim": "C128_pv01",
  "all": false
 },
 {
  "id": "q13",
  "file": "Model/RoundedRisk.lean",
  "old": "(rnd (bp / 2))",
  "new": "(rnd (-bp / 2))",
  "edit": "both bumps down",
  "claim": "C128_pv01",
  "all": false
 },
 {
  "id": "q14",
  "file": "Model/RoundedRisk.lean",
  "old": "div rnd (rnd (up - down)) bp",
  "new": "div rnd (rnd (down - up)) bp",
  "edit": "difference the wrong way round",
  "claim": "C128_pv01",
  "all": false
 },
 {
  "id": "q15",
  "file": "Model/RoundedRisk.lean",
  "old": "  .ok (rnd (deriv * bp))",
  "new": "  .ok deriv",
  "edit": "derivative returned instead of pv01",
  "claim": "C128_pv01",
  "all": false
 },
 {
  "id": "q16",
  "file": "Model/RoundedRisk.lean",
  "old": "div rnd (rnd (up - down)) bp",
  "new": "div rnd (rnd (up - down)) (rnd (bp / 2))",
  "edit": "divided by half a basis point",
  "claim": "C128_pv01",
  "all": false
 },
 {
  "id": "q17",
  "file": "Model/RoundedRisk.lean",
  "old": "  let bp := rnd oneBasisPoint",
  "new": "  let bp := rnd (oneBasisPoint * 10)",
  "edit": "ten basis points",
  "claim": "C128_pv01",
  "all": false
 },
 {
  "id": "q18",
  "file": "Model/RoundedRisk.lean",
  "old": "let dates ← YieldCurve.dateRange ref last.date",
  "new": "let dates ← YieldCurve.dateRange last.date last.date",
  "edit": "only the last day discounted",
  "claim": "C128_value",
  "all": false
 }
]