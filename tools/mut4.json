[
 {
  "id": "v01",
  "file": "Model/Vasicek.lean",
  "old": "drift := fun _ x => speed * (mean - x 0)",
  "new": "drift := fun _ x => speed * (x 0 - mean)",
  "edit": "drift away from the mean",
  "claim": "C47 simulated dynamics",
  "all": false
 },
 {
  "id": "v02",
  "file": "Model/Vasicek.lean",
  "old": "floatDiv (-vol ^ 2) (2 * speed ^ 2)",
  "new": "floatDiv (-vol ^ 2) (2 * speed)",
  "edit": "speed not squared in the convexity limit",
  "claim": "C47 price",
  "all": false
 },
 {
  "id": "v03",
  "file": "Model/Vasicek.lean",
  "old": "let shrinkage := 1 - Real.exp (-2 * v.speed",
  "new": "let shrinkage := 1 - Real.exp (-v.speed",
  "edit": "factor two missing in the variance",
  "claim": "C47 moments: variance",
  "all": false
 },
 {
  "id": "v04",
  "file": "Model/Vasicek.lean",
  "old": ".ok (weight * r + (1 - weight) * v.mean)",
  "new": ".ok ((1 - weight) * r + weight * v.mean)",
  "edit": "weights of rate and mean swapped",
  "claim": "C47 moments: expected rate",
  "all": false
 },
 {
  "id": "v05",
  "file": "Model/Vasicek.lean",
  "old": ".ok (-term1 - term2, coefficient)",
  "new": ".ok (-term1 + term2, coefficient)",
  "edit": "sign of the quadratic term",
  "claim": "C47 price",
  "all": false
 },
 {
  "id": "v06",
  "file": "Model/Vasicek.lean",
  "old": ".ok (-oneMinusExp * (v.mean + oneMinusExp * v.convexityLimit), -expFactor)",
  "new": ".ok (-oneMinusExp * (v.mean + v.convexityLimit), -expFactor)",
  "edit": "factor dropped in the intercept derivative",
  "claim": "C47 forward rate",
  "all": false
 },
 {
  "id": "v07",
  "file": "Model/Vasicek.lean",
  "old": "let c \u2190 v.priceCoeffs maturity none\n  let r \u2190 v.call (v.purchase p)\n  .ok (Real.exp",
  "new": "let c \u2190 v.priceCoeffs maturity p\n  let r \u2190 v.call (v.purchase p)\n  .ok (Real.exp",
  "edit": "purchase date passed on (the bug fixed)",
  "claim": "C47_later_purchase_false: recorded defect",
  "all": false
 },
 {
  "id": "v08",
  "file": "Model/Vasicek.lean",
  "old": "let term1 \u2190 floatDiv (-c.2 - (accrual : \u211d)) (2 * v.speed ^ 2)",
  "new": "let term1 \u2190 floatDiv (-c.2 + (accrual : \u211d)) (2 * v.speed ^ 2)",
  "edit": "sign in the yield convexity",
  "claim": "C47 yield convexity",
  "all": false
 },
 {
  "id": "v09",
  "file": "Model/Vasicek.lean",
  "old": "  .ok (-ratio * v.vol)",
  "new": "  .ok (ratio * v.vol)",
  "edit": "sign of the yield volatility",
  "claim": "C47 volatilities",
  "all": false
 },
 {
  "id": "v10",
  "file": "Model/Vasicek.lean",
  "old": "  if maturities = [] \u2228 \u2203 m \u2208 maturities, m \u2264 v.purchase p then .error .valueError\n  else collect (v.priceConvexity p)",
  "new": "  if maturities = [] \u2228 \u2203 m \u2208 maturities, m < v.purchase p then .error .valueError\n  else collect (v.priceConvexity p)",
  "edit": "boundary: maturity on the purchase date accepted",
  "claim": "C47 price convexities are refused",
  "all": false
 },
 {
  "id": "v11",
  "file": "Model/Vasicek.lean",
  "old": "  .ok (v.vol * Real.exp (-(accrual : \u211d) * v.speed))",
  "new": "  .ok (v.vol * Real.exp ((accrual : \u211d) * v.speed))",
  "edit": "sign of the exponent",
  "claim": "C47 forward volatility",
  "all": false
 },
 {
  "id": "v12",
  "file": "Model/Vasicek.lean",
  "old": "let meanTimesAccrual := -v.mean * (c.2 + (accrual : \u211d)) + c.2 * r",
  "new": "let meanTimesAccrual := -v.mean * (c.2 + (accrual : \u211d)) - c.2 * r",
  "edit": "sign of the starting rate",
  "claim": "C47 average",
  "all": false
 },
 {
  "id": "v13",
  "file": "Model/Vasicek.lean",
  "old": "| a :: b :: _ => (.ok (), { v with vol := a, speed := b })",
  "new": "| a :: b :: _ => (.ok (), { v with vol := b, speed := a })",
  "edit": "volatility and speed swapped by the setter",
  "claim": "C71 setters copy the dictionary",
  "all": false
 },
 {
  "id": "v14",
  "file": "Model/Vasicek.lean",
  "old": "params := \u27e8[vol, speed], [mean], [garbage]\u27e9",
  "new": "params := \u27e8[speed, vol], [mean], [garbage]\u27e9",
  "edit": "dictionary order swapped",
  "claim": "C71: dictionary holds the parameters in the setter's order",
  "all": false
 },
 {
  "id": "v15",
  "file": "Model/Vasicek.lean",
  "old": "-(1 / 2) * (accrual : \u211d) ^ 2 * price * volatility ^ 2",
  "new": "-(1 / 2) * (accrual : \u211d) * price * volatility ^ 2",
  "edit": "accrual not squared",
  "claim": "C47 price convexities",
  "all": false
 },
 {
  "id": "x01",
  "file": "Model/MultiVasicek.lean",
  "old": "drift := fun _ x => (reversion i) \u2b1d\u1d65 (level - x)",
  "new": "drift := fun _ x => (reversion\u1d40 i) \u2b1d\u1d65 (level - x)",
  "edit": "reversion matrix transposed in the drift",
  "claim": "C68 paths follow the equations",
  "all": false
 },
 {
  "id": "x02",
  "file": "Model/MultiVasicek.lean",
  "old": "cMat := volatility * volatility\u1d40",
  "new": "cMat := volatility\u1d40 * volatility",
  "edit": "covariance matrix S^T S",
  "claim": "C63 price",
  "all": false
 },
 {
  "id": "x03",
  "file": "Model/MultiVasicek.lean",
  "old": ".ok (v.matExp accrual *\u1d65 x + (1 - v.matExp accrual) *\u1d65 v.level)",
  "new": ".ok (v.matExp accrual *\u1d65 (x - v.level) - v.level)",
  "edit": "sign of the level",
  "claim": "C65 mean",
  "all": false
 },
 {
  "id": "x04",
  "file": "Model/MultiVasicek.lean",
  "old": "fun i => Real.exp (-v.eig.values i * accrual)) * v.eig.inverse",
  "new": "fun i => Real.exp (v.eig.values i * accrual)) * v.eig.inverse",
  "edit": "exponent sign",
  "claim": "C65 mean",
  "all": false
 },
 {
  "id": "x05",
  "file": "Model/MultiVasicek.lean",
  "old": "(((v.matExp accrual)\u1d40 - 1) * v.reversionInv\u1d40) *\u1d65 v.coefficients",
  "new": "((v.matExp accrual - 1) * v.reversionInv) *\u1d65 v.coefficients",
  "edit": "transpose dropped in the price coefficients",
  "claim": "C63 price",
  "all": false
 },
 {
  "id": "x06",
  "file": "Model/MultiVasicek.lean",
  "old": "let int3d := (1 / 2) *",
  "new": "let int3d := -(1 / 2) *",
  "edit": "sign of an integral",
  "claim": "C63 price",
  "all": false
 },
 {
  "id": "x07",
  "file": "Model/MultiVasicek.lean",
  "old": "let int1 := -v.intercept * accrual",
  "new": "let int1 := -v.intercept",
  "edit": "accrual dropped",
  "claim": "C63 price",
  "all": false
 },
 {
  "id": "x08",
  "file": "Model/MultiVasicek.lean",
  "old": "let differences : Mat p := Matrix.of fun i j => (derivs.getD j 0) i - last i",
  "new": "let differences : Mat p := Matrix.of fun i j => (derivs.getD i 0) j - last j",
  "edit": "weights' matrix transposed",
  "claim": "C67 weights",
  "all": false
 },
 {
  "id": "x09",
  "file": "Model/MultiVasicek.lean",
  "old": ".ok (List.ofFn w ++ [1 - \u2211 i, w i])",
  "new": ".ok (List.ofFn w ++ [1])",
  "edit": "last weight not completing to one",
  "claim": "C67 weights add up to one",
  "all": false
 },
 {
  "id": "x10",
  "file": "Model/MultiVasicek.lean",
  "old": ".ok ((price * weight) \u2022 Matrix.vecMulVec c.2 c.2)",
  "new": ".ok (weight \u2022 Matrix.vecMulVec c.2 c.2)",
  "edit": "price dropped in the convexity",
  "claim": "C67 no arbitrage",
  "all": false
 },
 {
  "id": "x11",
  "file": "Model/MultiVasicek.lean",
  "old": ".ok ((1 / 2) * (v.volatility\u1d40 * d * v.volatility).trace)",
  "new": ".ok ((1 / 2) * (v.volatility * d * v.volatility\u1d40).trace)",
  "edit": "volatility transposed in the trace",
  "claim": "C67 no arbitrage",
  "all": false
 },
 {
  "id": "x12",
  "file": "Model/MultiVasicek.lean",
  "old": ".ok (-c.1 / (accrual : \u211d), fun i => -c.2 i / (accrual : \u211d))",
  "new": ".ok (-c.1 / (accrual : \u211d), fun i => -c.2 i)",
  "edit": "coefficient not divided by the accrual",
  "claim": "C66 yield",
  "all": false
 },
 {
  "id": "x13",
  "file": "Model/MultiVasicek.lean",
  "old": "noncomputable def zeroCouponBondYield (v : MultiVasicek p) (maturity : PyDatetime) (q : Option PyDatetime) : Except PyErr \u211d :=\n  if maturity \u2264 v.purchase q",
  "new": "noncomputable def zeroCouponBondYield (v : MultiVasicek p) (maturity : PyDatetime) (q : Option PyDatetime) : Except PyErr \u211d :=\n  if maturity < v.purchase q",
  "edit": "boundary: maturity on the purchase date accepted",
  "claim": "C66 refused",
  "all": false
 },
 {
  "id": "x14",
  "file": "Model/MultiVasicek.lean",
  "old": ".ok (Real.sqrt (c.2 \u2b1d\u1d65 (v.cMat *\u1d65 c.2)))",
  "new": ".ok (c.2 \u2b1d\u1d65 (v.cMat *\u1d65 c.2))",
  "edit": "variance instead of volatility",
  "claim": "C66 volatilities",
  "all": false
 },
 {
  "id": "x15",
  "file": "Model/MultiVasicek.lean",
  "old": "    .ok (y - a)",
  "new": "    .ok (a - y)",
  "edit": "yield convexity sign",
  "claim": "C66 yield convexity",
  "all": false
 },
 {
  "id": "x16",
  "file": "Model/MultiVasicek.lean",
  "old": "-(v.matExp accrual *\u1d65 v.coefficients)",
  "new": "-((v.matExp accrual)\u1d40 *\u1d65 v.coefficients)",
  "edit": "transpose added (the bug fixed)",
  "claim": "C64_forward_false: recorded defect",
  "all": false
 },
 {
  "id": "x17",
  "file": "Model/MultiVasicek.lean",
  "old": "-v.intercept + b \u2b1d\u1d65 (v.reversion *\u1d65 v.level) + (1 / 2) * (b \u2b1d\u1d65 (v.cMat *\u1d65 b))",
  "new": "-v.intercept + b \u2b1d\u1d65 (v.reversion *\u1d65 v.level) - (1 / 2) * (b \u2b1d\u1d65 (v.cMat *\u1d65 b))",
  "edit": "sign of the quadratic term",
  "claim": "C64 forward",
  "all": false
 },
 {
  "id": "x18",
  "file": "Model/MultiVasicek.lean",
  "old": "  .ok (price * (d.1 + d.2 \u2b1d\u1d65 x))",
  "new": "  .ok (d.1 + d.2 \u2b1d\u1d65 x)",
  "edit": "price factor dropped in the maturity derivative",
  "claim": "C64 price derivative",
  "all": false
 },
 {
  "id": "x19",
  "file": "Model/MultiVasicek.lean",
  "old": "let h := v.eig.inverse * v.cMat * v.eig.vectors",
  "new": "let h := v.eig.inverse * v.cMat * v.eig.inverse\u1d40",
  "edit": "other change of basis",
  "claim": "C65 covariance",
  "all": false
 },
 {
  "id": "x20",
  "file": "Model/MultiVasicek.lean",
  "old": "  .ok (price \u2022 c.2)",
  "new": "  .ok c.2",
  "edit": "price dropped in the gradient",
  "claim": "C63 gradient",
  "all": false
 },
 {
  "id": "r01",
  "file": "Model/MeanReverting.lean",
  "old": "def level (q : DoublyParams) : Vec 2 := ![q.mean, q.mean]",
  "new": "def level (q : DoublyParams) : Vec 2 := ![q.mean, 0]",
  "edit": "short-rate level zero",
  "claim": "C68 paths",
  "all": false
 },
 {
  "id": "r02",
  "file": "Model/MeanReverting.lean",
  "old": "!![q.longSpeed, 0; -q.shortSpeed, q.shortSpeed]",
  "new": "!![q.longSpeed, 0; -q.longSpeed, q.shortSpeed]",
  "edit": "wrong coupling",
  "claim": "C68 paths",
  "all": false
 },
 {
  "id": "r03",
  "file": "Model/MeanReverting.lean",
  "old": "let across := q.shortVol * q.longVol * q.correlation",
  "new": "let across := q.longVol * q.correlation",
  "edit": "short volatility dropped",
  "claim": "C68 correlation",
  "all": false
 },
 {
  "id": "r04",
  "file": "Model/MeanReverting.lean",
  "old": "\u27e8[q.longSpeed, q.longVol, q.shortSpeed, q.shortVol, q.correlation], [q.mean], List.ofFn starting\u27e9",
  "new": "\u27e8[q.shortSpeed, q.shortVol, q.longSpeed, q.longVol, q.correlation], [q.mean], List.ofFn starting\u27e9",
  "edit": "dictionary order",
  "claim": "C70 round trip",
  "all": false
 },
 {
  "id": "r05",
  "file": "Model/MeanReverting.lean",
  "old": "  let longVol \u2190 item d.volatility 1\n  let shortSpeed \u2190 item d.volatility 2",
  "new": "  let longVol \u2190 item d.volatility 2\n  let shortSpeed \u2190 item d.volatility 1",
  "edit": "entries swapped when reading",
  "claim": "C70 from dict",
  "all": false
 },
 {
  "id": "r06",
  "file": "Model/MeanReverting.lean",
  "old": "-q.mediumSpeed, q.mediumSpeed, 0; 0, -q.shortSpeed, q.shortSpeed]",
  "new": "-q.mediumSpeed, q.mediumSpeed, 0; -q.shortSpeed, 0, q.shortSpeed]",
  "edit": "short rate reverts to the long-term rate",
  "claim": "C69 trebly paths",
  "all": false
 },
 {
  "id": "r07",
  "file": "Model/MeanReverting.lean",
  "old": "q.longVol * q.shortVol * q.shortLong, q.mediumVol * q.shortVol * q.shortMedium, q.shortVol ^ 2]",
  "new": "q.longVol * q.shortVol * q.shortMedium, q.mediumVol * q.shortVol * q.shortMedium, q.shortVol ^ 2]",
  "edit": "wrong correlation used below the diagonal",
  "claim": "C69 trebly correlations",
  "all": false
 },
 {
  "id": "r08",
  "file": "Model/MeanReverting.lean",
  "old": "let level : Vec 3 := ![q.riskMean, q.mediumMean + average, q.mediumMean + average]",
  "new": "let level : Vec 3 := ![q.riskMean, q.mediumMean, q.mediumMean]",
  "edit": "risk premium dropped from the level",
  "claim": "C69 risk price paths",
  "all": false
 },
 {
  "id": "r09",
  "file": "Model/MeanReverting.lean",
  "old": "!![q.riskSpeed, 0, 0; -q.mediumVol, q.mediumSpeed, 0;",
  "new": "!![q.riskSpeed, 0, 0; q.mediumVol, q.mediumSpeed, 0;",
  "edit": "sign of the risk premium",
  "claim": "C69 risk price paths",
  "all": false
 },
 {
  "id": "r10",
  "file": "Model/MeanReverting.lean",
  "old": "  let r := model.base.generatePathFrom d.stateVariables true normals",
  "new": "  let r := model.base.generatePathFrom d.shape true normals",
  "edit": "path started from the shape parameters",
  "claim": "C70 from dict",
  "all": false
 },
 {
  "id": "r11",
  "file": "Model/MeanReverting.lean",
  "old": "longSpeed := a, longVol := b, shortSpeed := c, shortVol := d, correlation := e } })",
  "new": "longSpeed := a, longVol := b, shortSpeed := c, shortVol := d } })",
  "edit": "correlation not set",
  "claim": "C71 setters",
  "all": false
 },
 {
  "id": "r12",
  "file": "Model/MeanReverting.lean",
  "old": "| [a, b] => (.ok (), { v with starting := ![a, b] })",
  "new": "| [a, b] => (.ok (), { v with starting := ![b, a] })",
  "edit": "state variables swapped",
  "claim": "C71 setters",
  "all": false
 },
 {
  "id": "f01",
  "file": "Model/Calibrator.lean",
  "old": "volatilityInputs := pySorted (fun c => c.maturity) volatilityInputs",
  "new": "volatilityInputs := pySorted (fun c => c.maturity) priceInputs",
  "edit": "volatility inputs from the prices",
  "claim": "C72: inputs",
  "all": false
 },
 {
  "id": "f02",
  "file": "Model/Calibrator.lean",
  "old": "let d' := { d with volatility := point }",
  "new": "let d' := d",
  "edit": "point not stored",
  "claim": "C72 last evaluated",
  "all": false
 },
 {
  "id": "f03",
  "file": "Model/Calibrator.lean",
  "old": "shape := point.take d.shape.length, stateVariables := point.drop d.shape.length",
  "new": "shape := point.drop d.stateVariables.length, stateVariables := point.take d.stateVariables.length",
  "edit": "shape and state read in the other order",
  "claim": "C72 last evaluated",
  "all": false
 },
 {
  "id": "f04",
  "file": "Model/Calibrator.lean",
  "old": "    | (.ok _, d') => evaluate loss points d'",
  "new": "    | (.ok _, _) => evaluate loss points d",
  "edit": "dictionary restored after each evaluation",
  "claim": "C72 last evaluated",
  "all": false
 },
 {
  "id": "f05",
  "file": "Model/Calibrator.lean",
  "old": "    make r.2 target eig (garbage 1) normals, d)",
  "new": "    make target.dict target eig (garbage 1) normals, d)",
  "edit": "shape fit dropped",
  "claim": "C72 last evaluated",
  "all": false
 },
 {
  "id": "f06",
  "file": "Model/Calibrator.lean",
  "old": "initial m.dict.volatility.length :: more",
  "new": "initial 5 :: more",
  "edit": "fixed number of parameters",
  "claim": "C72 one-factor",
  "all": false
 },
 {
  "id": "f07",
  "file": "Model/Calibrator.lean",
  "old": "if c.imported then .error .nameError else",
  "new": "if !c.imported then .error .nameError else",
  "edit": "name error in the script instead",
  "claim": "C72 imported",
  "all": false
 },
 {
  "id": "f08",
  "file": "Model/Calibrator.lean",
  "old": "(pa.1 - pa.2.value) ^ 2",
  "new": "(pa.1 + pa.2.value) ^ 2",
  "edit": "loss adds the target",
  "claim": "C72: loss is the distance to the targets",
  "all": false
 },
 {
  "id": "f09",
  "file": "Model/Calibrator.lean",
  "old": "collect (fun i : CalibrationInput => model.base.zeroCouponBondPrice i.maturity none) c.priceInputs",
  "new": "collect (fun i : CalibrationInput => model.base.zeroCouponBondPrice i.maturity none) c.volatilityInputs",
  "edit": "prices of the wrong maturities",
  "claim": "C72: loss is the distance to the targets",
  "all": false
 },
 {
  "id": "f10",
  "file": "Model/Calibrator.lean",
  "old": "model.base.yieldVolatility i.maturity none",
  "new": "model.base.zeroCouponBondYield i.maturity none",
  "edit": "yields instead of volatilities in the loss",
  "claim": "C72: loss is the distance to the targets",
  "all": false
 }
]