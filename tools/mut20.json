[
 {
  "id": "gi01",
  "file": "Model/GeometricInit.lean",
  "old": "let motion ← SizedBrownian.create start stop dimension corr\n",
  "new": "let motion ← SizedBrownian.create stop start dimension corr\n",
  "edit": "start and end of the Brownian motion swapped",
  "claim": "C141_constructor",
  "all": false
 },
 {
  "id": "gi02",
  "file": "Model/GeometricInit.lean",
  "old": ".ok ⟨drift, volatility, dt, motion, none⟩",
  "new": ".ok ⟨volatility, drift, dt, motion, none⟩",
  "edit": "drift and volatility swapped in the constructor",
  "claim": "C141_constructor, C141_simulated",
  "all": false
 },
 {
  "id": "gi03",
  "file": "Model/GeometricInit.lean",
  "old": "create drift volatility start stop dimension 1 dt",
  "new": "create drift volatility start stop dimension 0 dt",
  "edit": "zero matrix instead of the identity",
  "claim": "C141_default",
  "all": false
 },
 {
  "id": "gi04",
  "file": "Model/GeometricInit.lean",
  "old": "else if xs.length = 1 then some (fun _ => xs.headD 0)\n",
  "new": "",
  "edit": "no broadcasting of a single number",
  "claim": "C141_starting_value",
  "all": false
 },
 {
  "id": "gi05",
  "file": "Model/GeometricInit.lean",
  "old": "else if xs.length = 1 then some",
  "new": "else if xs.length ≤ 1 then some",
  "edit": "an empty array broadcast",
  "claim": "C141_starting_value",
  "all": false
 },
 {
  "id": "gi06",
  "file": "Model/GeometricInit.lean",
  "old": "| .float _ => (.error .attributeError, { g with motion := b })",
  "new": "| .float _ => (.ok [], { g with motion := b })",
  "edit": "a float accepted",
  "claim": "C141_starting_value",
  "all": false
 },
 {
  "id": "gi07",
  "file": "Model/GeometricInit.lean",
  "old": "path := if set then some path else g.path",
  "new": "path := some path",
  "edit": "path stored although not asked for",
  "claim": "C141_repeatable",
  "all": false
 },
 {
  "id": "gi08",
  "file": "Model/GeometricInit.lean",
  "old": "path := if set then some path else g.path",
  "new": "path := if set then some path else none",
  "edit": "path cleared when not asked for",
  "claim": "C141_repeatable",
  "all": false
 },
 {
  "id": "gi09",
  "file": "Model/GeometricInit.lean",
  "old": "| none => (.error .valueError, { g with motion := b })",
  "new": "| none => (.error .valueError, { g with motion := b, path := none })",
  "edit": "a failed simulation drops the stored path",
  "claim": "C141_repeatable",
  "all": false
 },
 {
  "id": "gi10",
  "file": "Model/GeometricInit.lean",
  "old": "let path := Geometric.loop g.drift g.volatility (r.1.zip r.2) x",
  "new": "let path := Geometric.loop g.drift g.volatility (r.1.zip r.2).tail x",
  "edit": "first increment left out",
  "claim": "C141_starting_value, C141_simulated",
  "all": false
 },
 {
  "id": "gi11",
  "file": "Model/GeometricInit.lean",
  "old": "let path := Geometric.loop g.drift g.volatility (r.1.zip r.2) x",
  "new": "let path := Geometric.loop g.drift g.volatility (r.1.zip r.2) ((g.path.getD []).getLastD x)",
  "edit": "simulation continued from the stored path",
  "claim": "C141_repeatable",
  "all": false
 },
 {
  "id": "kb01",
  "file": "Model/KeyRate.lean",
  "old": "    if f ≤ d ∨ d ≤ p then .ok 0",
  "new": "    if f ≤ d ∨ d < p then .ok 0",
  "edit": "boundary of the window at the prior date",
  "claim": "C140 (same value: the ramp is zero there)",
  "all": false
 },
 {
  "id": "kb02",
  "file": "Model/KeyRate.lean",
  "old": "      let timeSincePrior ← DayCount.accrual p d k.dcc\n",
  "new": "      let timeSincePrior ← DayCount.accrual p d .act360\n",
  "edit": "rising ramp measured in ACT/360 whatever the convention",
  "claim": "C140_yield",
  "all": false
 },
 {
  "id": "kb03",
  "file": "Model/KeyRate.lean",
  "old": "    if k.keyDate ≤ d then .ok k.bump\n    else if d ≤ p then .ok 0",
  "new": "    if d ≤ p then .ok 0\n    else if p < d then .ok k.bump",
  "edit": "bump jumps to its full size after the prior date",
  "claim": "C140_yield",
  "all": false
 },
 {
  "id": "kb04",
  "file": "Model/Curve.lean",
  "old": "      let x ← axis c.referenceDate c.dcc d\n      let y ← c.interpolator x\n      let a ← adj (.date d)\n      .ok (y + a)",
  "new": "      let x ← axis c.referenceDate c.dcc d\n      let y ← c.interpolator x\n      let a ← adj (.date c.referenceDate)\n      .ok (y + a)",
  "edit": "adjustment taken at the reference date",
  "claim": "C140_curve",
  "all": false
 },
 {
  "id": "kb05",
  "file": "Model/Curve.lean",
  "old": "let v ← yc.base.interpolate k.date adj",
  "new": "let v ← yc.base.interpolate k.date noAdjustment",
  "edit": "bump ignored in discount-factor space",
  "claim": "C140_risk",
  "all": false
 }
]