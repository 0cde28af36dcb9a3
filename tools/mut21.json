[
 {
  "id": "br01",
  "file": "Model/Bond.lean",
  "old": ".ok (decide (settlement \u2264 p.unadjusted))",
  "new": ".ok (decide (settlement < p.unadjusted))",
  "edit": "strict settlement boundary",
  "claim": "C142_remaining: a payment due on the next business day is remaining",
  "all": true
 },
 {
  "id": "br02",
  "file": "Model/Bond.lean",
  "old": "  .ok (c + p)\n\n/-- us_treasury_instruments.py:92-103",
  "new": "  .ok c\n\n/-- us_treasury_instruments.py:92-103",
  "edit": "principal dropped from the present value",
  "claim": "C142_remaining",
  "all": true
 },
 {
  "id": "br03",
  "file": "Model/Bond.lean",
  "old": "max c.date p.date, b",
  "new": "min c.date p.date, b",
  "edit": "knot at the earlier of last coupon and principal",
  "claim": "C142_workflow: knots of the curve reach the last payments",
  "all": true
 },
 {
  "id": "br04",
  "file": "Model/Curve.lean",
  "old": "(.ok \u27e8k'.keyDate, v * oneBasisPoint, .usTreasury\u27e9, yc', k')",
  "new": "(.ok \u27e8k'.keyDate, v, .usTreasury\u27e9, yc', k')",
  "edit": "derivative reported as the pv01",
  "claim": "C142_bond_ladder",
  "all": true
 },
 {
  "id": "br05",
  "file": "Model/Curve.lean",
  "old": "  .ok (s + cash)",
  "new": "  .ok (s - cash)",
  "edit": "cash subtracted",
  "claim": "C142_workflow (value only)",
  "all": true
 },
 {
  "id": "br06",
  "file": "Model/Curve.lean",
  "old": "    .ok (e.quantity * v)) entries",
  "new": "    .ok v) entries",
  "edit": "quantity ignored",
  "claim": "C142_workflow: quantity times risk",
  "all": true
 },
 {
  "id": "br07",
  "file": "Model/Curve.lean",
  "old": "riskLadderLoop exp asset c.keyRates yc h",
  "new": "riskLadderLoop exp asset c.keyRates.reverse yc h",
  "edit": "ladder computed from the last key rate",
  "claim": "C142_workflow: risks in date order",
  "all": true
 },
 {
  "id": "br08",
  "file": "Model/Curve.lean",
  "old": "let kDown := k.setBumpVal (-oneBasisPoint / 2)",
  "new": "let kDown := k.setBumpVal (oneBasisPoint / 2)",
  "edit": "both values with the upward bump",
  "claim": "C142_bond_ladder",
  "all": true
 },
 {
  "id": "br09",
  "file": "Model/Curve.lean",
  "old": "(pyDiv (up - down) oneBasisPoint, yc2, kUp)",
  "new": "(pyDiv (down - up) oneBasisPoint, yc2, kUp)",
  "edit": "sign of the derivative",
  "claim": "C142_bond_risk",
  "all": true
 },
 {
  "id": "br10",
  "file": "Model/Risk.lean",
  "old": "(KeyRate.create dcc d none none)",
  "new": "(KeyRate.create .thirty360 d none none)",
  "edit": "key rates ignore the day count convention given",
  "claim": "C142_workflow",
  "all": true
 },
 {
  "id": "br11",
  "file": "Model/Risk.lean",
  "old": "(List.range' base knots.length)",
  "new": "(List.range' base (knots.length - 1))",
  "edit": "last asset gets no key rate",
  "claim": "C142_workflow: a risk for each last payment date",
  "all": true
 },
 {
  "id": "br12",
  "file": "Model/Curve.lean",
  "old": "riskLadderLoop exp asset ids yc' (Function.update h i k')",
  "new": "riskLadderLoop exp asset ids yc h",
  "edit": "history of the first risk forgotten",
  "claim": "equivalent for C142_workflow results; heap effects claimed elsewhere",
  "all": true
 }
]