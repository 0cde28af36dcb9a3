[
 {
  "id": "st01",
  "file": "Model/Curve.lean",
  "old": ".ok (y0 + (x - x0) * ((y1 - y0) / (x1 - x0)))",
  "new": ".ok (y0 + (x - x0) * ((y0 - y1) / (x1 - x0)))",
  "edit": "sign of the slope of linear interpolation",
  "claim": "C144_bond: yields before a knot stay within the difference of the knots",
  "all": true
 },
 {
  "id": "st02",
  "file": "Model/Curve.lean",
  "old": "    else if x < x1 then .ok y0\n",
  "new": "    else if x < x1 then .ok y1\n",
  "edit": "previous interpolation takes the next knot",
  "claim": "C144_bond: yields before the last payment depend on earlier knots only",
  "all": true
 },
 {
  "id": "st03",
  "file": "Model/CurveFactory.lean",
  "old": "bootstrapLoop exp points (index + 1) as yc2",
  "new": "bootstrapLoop exp points index as yc2",
  "edit": "every search fits the first knot",
  "claim": "C143_bootstrap, C144_bootstrap",
  "all": true
 },
 {
  "id": "st04",
  "file": "Model/CurveFactory.lean",
  "old": "match yc.base.resetValue \u27e8k.date, x\u27e9 index with",
  "new": "match yc.base.resetValue \u27e8k.date, -x\u27e9 index with",
  "edit": "the point is put into the knot with the opposite sign",
  "claim": "C143_search, C144_bootstrap: the searches end at the yields",
  "all": true
 },
 {
  "id": "st05",
  "file": "Model/CurveFactory.lean",
  "old": "| (.ok v, yc') => (.ok (v - a.price), yc')\n\n/-- The evaluations",
  "new": "| (.ok v, yc') => (.ok (2 * (v - a.price)), yc')\n\n/-- The evaluations",
  "edit": "difference doubled",
  "claim": "C144_bootstrap: an error of the search is an error of the price",
  "all": true
 },
 {
  "id": "st06",
  "file": "Model/Bond.lean",
  "old": "max c.date p.date, b",
  "new": "max c.unadjusted p.unadjusted, b",
  "edit": "knot at the unadjusted last payment date",
  "claim": "C144_bootstrap: every bond has its last payment at its knot",
  "all": true
 }
]