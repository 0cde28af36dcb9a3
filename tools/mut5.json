[
 {
  "id": "y01",
  "file": "Model/CurveFactory.lean",
  "old": "(.ok (v - a.price), yc')",
  "new": "(.ok (a.price - v), yc')",
  "edit": "bootstrap error has the wrong sign",
  "claim": "C73: PV = price + last value seen",
  "all": false
 },
 {
  "id": "y02",
  "file": "Model/CurveFactory.lean",
  "old": "yc.base.resetValue \u27e8k.date, x\u27e9 index with",
  "new": "yc.base.resetValue \u27e8k.date, x\u27e9 (index + 1) with",
  "edit": "bootstrap resets the next knot",
  "claim": "C73: each search fits its own knot",
  "all": false
 },
 {
  "id": "y03",
  "file": "Model/CurveFactory.lean",
  "old": "match evaluate (bootstrapDiff exp index a) (0 :: points index) yc with",
  "new": "match evaluate (bootstrapDiff exp index a) (points index) yc with",
  "edit": "bootstrap does not evaluate the start",
  "claim": "C73: the final knot is the last evaluated point, start included",
  "all": false
 },
 {
  "id": "y04",
  "file": "Model/CurveFactory.lean",
  "old": "bootstrapLoop exp points (index + 1) as yc2",
  "new": "bootstrapLoop exp points index as yc2",
  "edit": "index not advanced",
  "claim": "C73: i-th search moves i-th knot",
  "all": false
 },
 {
  "id": "y05",
  "file": "Model/CurveFactory.lean",
  "old": "  | (.ok vss, yc') => .ok (yc', vss)",
  "new": "  | (.ok vss, _) => .ok (yc, vss)",
  "edit": "bootstrap returns the curve before the searches",
  "claim": "C73: the curve returned is the fitted one",
  "all": false
 },
 {
  "id": "y06",
  "file": "Model/CurveFactory.lean",
  "old": ".actAct .continuouslyCompoundedYield ref .constant .constant",
  "new": ".act360 .continuouslyCompoundedYield ref .constant .constant",
  "edit": "factory uses ACT/360",
  "claim": "C73/C74: the curve is the documented ACT/ACT curve",
  "all": false
 },
 {
  "id": "y07",
  "file": "Model/CurveFactory.lean",
  "old": ".actAct .continuouslyCompoundedYield ref .constant .constant",
  "new": ".actAct .discountFactor ref .constant .constant",
  "edit": "factory interpolates discount factors",
  "claim": "C73/C74: knots are continuously compounded yields",
  "all": false
 },
 {
  "id": "y08",
  "file": "Model/CurveFactory.lean",
  "old": ".actAct .continuouslyCompoundedYield ref .constant .constant",
  "new": ".actAct .continuouslyCompoundedYield ref .error .constant",
  "edit": "no extrapolation to the left",
  "claim": "C73_builds: a curve is returned",
  "all": false
 },
 {
  "id": "y09",
  "file": "Model/CurveFactory.lean",
  "old": "    .ok \u27e8k.date, ax.2\u27e9) (instruments.zip xs)",
  "new": "    .ok \u27e8k.date, k.value\u27e9) (instruments.zip xs)",
  "edit": "knots keep their prices",
  "claim": "C74: knots hold the solution",
  "all": false
 },
 {
  "id": "y10",
  "file": "Model/CurveFactory.lean",
  "old": "(fun v (a : FactoryInstrument) => v - a.price) pvs instruments), yc2)",
  "new": "(fun v (a : FactoryInstrument) => a.price - v) pvs instruments), yc2)",
  "edit": "simultaneous error has the wrong sign",
  "claim": "C74: PV = price + value seen",
  "all": false
 },
 {
  "id": "y11",
  "file": "Model/CurveFactory.lean",
  "old": "    match setKnots instruments yc1 solution with\n    | (.error e, _) => .error e\n    | (.ok _, yc2) => .ok (yc2, vss)",
  "new": "    match setKnots instruments yc1 solution with\n    | (.error e, _) => .error e\n    | (.ok _, _) => .ok (yc1, vss)",
  "edit": "solution not written back",
  "claim": "C74: the curve holds the solution",
  "all": false
 },
 {
  "id": "y12",
  "file": "Model/CurveFactory.lean",
  "old": "match setKnots instruments yc1 solution with",
  "new": "match setKnots instruments yc1 (solution.map (- \u00b7)) with",
  "edit": "solution negated",
  "claim": "C74",
  "all": false
 },
 {
  "id": "y13",
  "file": "Model/CurveFactory.lean",
  "old": "    let r := yc.base.resetValues knots",
  "new": "    let r := yc.base.resetValues knots.reverse",
  "edit": "knots reversed before the reset (which sorts)",
  "claim": "none: equivalent",
  "all": false
 },
 {
  "id": "y14",
  "file": "Model/CurveFactory.lean",
  "old": "  if index = 4 then",
  "new": "  if index = 3 then",
  "edit": "the extra valuation happens for another instrument",
  "claim": "none: equivalent up to exceptions",
  "all": false
 },
 {
  "id": "y15",
  "file": "Model/CurveFactory.lean",
  "old": "      match evaluate f xs yc' with",
  "new": "      match evaluate f xs yc with",
  "edit": "each evaluation starts from the curve before the previous one (state dropped)",
  "claim": "C73: the curve left is the one of the last point",
  "all": false
 },
 {
  "id": "y16",
  "file": "Model/CurveFactory.lean",
  "old": "match presentValues exp as yc1 with",
  "new": "match presentValues exp as yc with",
  "edit": "discount cache not carried along",
  "claim": "none observable",
  "all": false
 },
 {
  "id": "y17",
  "file": "Model/CurveFactory.lean",
  "old": ".actAct .other ref .constant .constant",
  "new": ".actAct .continuouslyCompoundedYield ref .constant .constant",
  "edit": "YTM curve in a space that can be valued",
  "claim": "C75: TypeError",
  "all": false
 },
 {
  "id": "y18",
  "file": "Model/CurveFactory.lean",
  "old": "(instruments.map (fun _ => 0) :: points) yc with",
  "new": "points yc with",
  "edit": "start not evaluated",
  "claim": "C74: values seen at the start",
  "all": false
 },
 {
  "id": "y19",
  "file": "Model/Bond.lean",
  "old": "| none, some p => .ok \u27e8p.date, b.terms.price\u27e9",
  "new": "| none, some p => .ok \u27e8p.unadjusted, b.terms.price\u27e9",
  "edit": "zero-coupon bond knot at the unadjusted maturity",
  "claim": "C73_fixed: bonds depend on factors up to their knot",
  "all": false
 },
 {
  "id": "y20",
  "file": "Model/Bond.lean",
  "old": ".ok \u27e8max c.date p.date, b.terms.price\u27e9",
  "new": ".ok \u27e8min c.date p.date, b.terms.price\u27e9",
  "edit": "knot at the earlier of coupon and principal dates",
  "claim": "C73_fixed",
  "all": false
 },
 {
  "id": "y21",
  "file": "Model/Bond.lean",
  "old": ".ok \u27e8max c.date p.date, b.terms.price\u27e9",
  "new": ".ok \u27e8max c.date p.date, b.fullPrice\u27e9",
  "edit": "knot value is the full price",
  "claim": "C73_fixed/C75: the knot value is the quoted price",
  "all": false
 }
]