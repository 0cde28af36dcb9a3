import json
M=[]
def m(id,file,old,new,edit,claim,all=False): M.append(dict(id=id,file='Model/'+file,old=old,new=new,edit=edit,claim=claim,all=all))
V='Vasicek.lean';W='MultiVasicek.lean';R='MeanReverting.lean';C='Calibrator.lean'
m('v01',V,"drift := fun _ x => speed * (mean - x 0)","drift := fun _ x => speed * (x 0 - mean)","drift away from the mean","C47 simulated dynamics")
m('v02',V,"floatDiv (-vol ^ 2) (2 * speed ^ 2)","floatDiv (-vol ^ 2) (2 * speed)","speed not squared in the convexity limit","C47 price")
m('v03',V,"let shrinkage := 1 - Real.exp (-2 * v.speed","let shrinkage := 1 - Real.exp (-v.speed","factor two missing in the variance","C47 moments: variance")
m('v04',V,".ok (weight * r + (1 - weight) * v.mean)",".ok ((1 - weight) * r + weight * v.mean)","weights of rate and mean swapped","C47 moments: expected rate")
m('v05',V,".ok (-term1 - term2, coefficient)",".ok (-term1 + term2, coefficient)","sign of the quadratic term","C47 price")
m('v06',V,".ok (-oneMinusExp * (v.mean + oneMinusExp * v.convexityLimit), -expFactor)",".ok (-oneMinusExp * (v.mean + v.convexityLimit), -expFactor)","factor dropped in the intercept derivative","C47 forward rate")
m('v07',V,"let c ← v.priceCoeffs maturity none\n  let r ← v.call (v.purchase p)\n  .ok (Real.exp","let c ← v.priceCoeffs maturity p\n  let r ← v.call (v.purchase p)\n  .ok (Real.exp","purchase date passed on (the bug fixed)","C47_later_purchase_false: recorded defect")
m('v08',V,"let term1 ← floatDiv (-c.2 - (accrual : ℝ)) (2 * v.speed ^ 2)","let term1 ← floatDiv (-c.2 + (accrual : ℝ)) (2 * v.speed ^ 2)","sign in the yield convexity","C47 yield convexity")
m('v09',V,"  .ok (-ratio * v.vol)","  .ok (ratio * v.vol)","sign of the yield volatility","C47 volatilities")
m('v10',V,"  if maturities = [] ∨ ∃ m ∈ maturities, m ≤ v.purchase p then .error .valueError\n  else collect (v.priceConvexity p)","  if maturities = [] ∨ ∃ m ∈ maturities, m < v.purchase p then .error .valueError\n  else collect (v.priceConvexity p)","boundary: maturity on the purchase date accepted","C47 price convexities are refused")
m('v11',V,"  .ok (v.vol * Real.exp (-(accrual : ℝ) * v.speed))","  .ok (v.vol * Real.exp ((accrual : ℝ) * v.speed))","sign of the exponent","C47 forward volatility")
m('v12',V,"let meanTimesAccrual := -v.mean * (c.2 + (accrual : ℝ)) + c.2 * r","let meanTimesAccrual := -v.mean * (c.2 + (accrual : ℝ)) - c.2 * r","sign of the starting rate","C47 average")
m('v13',V,"| a :: b :: _ => (.ok (), { v with vol := a, speed := b })","| a :: b :: _ => (.ok (), { v with vol := b, speed := a })","volatility and speed swapped by the setter","C71 setters copy the dictionary")
m('v14',V,"params := ⟨[vol, speed], [mean], [garbage]⟩","params := ⟨[speed, vol], [mean], [garbage]⟩","dictionary order swapped","C71: dictionary holds the parameters in the setter's order")
m('v15',V,"-(1 / 2) * (accrual : ℝ) ^ 2 * price * volatility ^ 2","-(1 / 2) * (accrual : ℝ) * price * volatility ^ 2","accrual not squared","C47 price convexities")
m('x01',W,"drift := fun _ x => (reversion i) ⬝ᵥ (level - x)","drift := fun _ x => (reversionᵀ i) ⬝ᵥ (level - x)","reversion matrix transposed in the drift","C68 paths follow the equations")
m('x02',W,"cMat := volatility * volatilityᵀ","cMat := volatilityᵀ * volatility","covariance matrix S^T S","C63 price")
m('x03',W,".ok (v.matExp accrual *ᵥ x + (1 - v.matExp accrual) *ᵥ v.level)",".ok (v.matExp accrual *ᵥ (x - v.level) - v.level)","sign of the level","C65 mean")
m('x04',W,"fun i => Real.exp (-v.eig.values i * accrual)) * v.eig.inverse","fun i => Real.exp (v.eig.values i * accrual)) * v.eig.inverse","exponent sign","C65 mean")
m('x05',W,"(((v.matExp accrual)ᵀ - 1) * v.reversionInvᵀ) *ᵥ v.coefficients","((v.matExp accrual - 1) * v.reversionInv) *ᵥ v.coefficients","transpose dropped in the price coefficients","C63 price")
m('x06',W,"let int3d := (1 / 2) *","let int3d := -(1 / 2) *","sign of an integral","C63 price")
m('x07',W,"let int1 := -v.intercept * accrual","let int1 := -v.intercept","accrual dropped","C63 price")
m('x08',W,"let differences : Mat p := Matrix.of fun i j => (derivs.getD j 0) i - last i","let differences : Mat p := Matrix.of fun i j => (derivs.getD i 0) j - last j","weights' matrix transposed","C67 weights")
m('x09',W,".ok (List.ofFn w ++ [1 - ∑ i, w i])",".ok (List.ofFn w ++ [1])","last weight not completing to one","C67 weights add up to one")
m('x10',W,".ok ((price * weight) • Matrix.vecMulVec c.2 c.2)",".ok (weight • Matrix.vecMulVec c.2 c.2)","price dropped in the convexity","C67 no arbitrage")
m('x11',W,".ok ((1 / 2) * (v.volatilityᵀ * d * v.volatility).trace)",".ok ((1 / 2) * (v.volatility * d * v.volatilityᵀ).trace)","volatility transposed in the trace","C67 no arbitrage")
m('x12',W,".ok (-c.1 / (accrual : ℝ), fun i => -c.2 i / (accrual : ℝ))",".ok (-c.1 / (accrual : ℝ), fun i => -c.2 i)","coefficient not divided by the accrual","C66 yield")
m('x13',W,"noncomputable def zeroCouponBondYield (v : MultiVasicek p) (maturity : PyDatetime) (q : Option PyDatetime) : Except PyErr ℝ :=\n  if maturity ≤ v.purchase q","noncomputable def zeroCouponBondYield (v : MultiVasicek p) (maturity : PyDatetime) (q : Option PyDatetime) : Except PyErr ℝ :=\n  if maturity < v.purchase q","boundary: maturity on the purchase date accepted","C66 refused")
m('x14',W,".ok (Real.sqrt (c.2 ⬝ᵥ (v.cMat *ᵥ c.2)))",".ok (c.2 ⬝ᵥ (v.cMat *ᵥ c.2))","variance instead of volatility","C66 volatilities")
m('x15',W,"    .ok (y - a)","    .ok (a - y)","yield convexity sign","C66 yield convexity")
m('x16',W,"-(v.matExp accrual *ᵥ v.coefficients)","-((v.matExp accrual)ᵀ *ᵥ v.coefficients)","transpose added (the bug fixed)","C64_forward_false: recorded defect")
m('x17',W,"-v.intercept + b ⬝ᵥ (v.reversion *ᵥ v.level) + (1 / 2) * (b ⬝ᵥ (v.cMat *ᵥ b))","-v.intercept + b ⬝ᵥ (v.reversion *ᵥ v.level) - (1 / 2) * (b ⬝ᵥ (v.cMat *ᵥ b))","sign of the quadratic term","C64 forward")
m('x18',W,"  .ok (price * (d.1 + d.2 ⬝ᵥ x))","  .ok (d.1 + d.2 ⬝ᵥ x)","price factor dropped in the maturity derivative","C64 price derivative")
m('x19',W,"let h := v.eig.inverse * v.cMat * v.eig.vectors","let h := v.eig.inverse * v.cMat * v.eig.inverseᵀ","other change of basis","C65 covariance")
m('x20',W,"  .ok (price • c.2)","  .ok c.2","price dropped in the gradient","C63 gradient")
m('r01',R,"def level (q : DoublyParams) : Vec 2 := ![q.mean, q.mean]","def level (q : DoublyParams) : Vec 2 := ![q.mean, 0]","short-rate level zero","C68 paths")
m('r02',R,"!![q.longSpeed, 0; -q.shortSpeed, q.shortSpeed]","!![q.longSpeed, 0; -q.longSpeed, q.shortSpeed]","wrong coupling","C68 paths")
m('r03',R,"let across := q.shortVol * q.longVol * q.correlation","let across := q.longVol * q.correlation","short volatility dropped","C68 correlation")
m('r04',R,"⟨[q.longSpeed, q.longVol, q.shortSpeed, q.shortVol, q.correlation], [q.mean], List.ofFn starting⟩","⟨[q.shortSpeed, q.shortVol, q.longSpeed, q.longVol, q.correlation], [q.mean], List.ofFn starting⟩","dictionary order","C70 round trip")
m('r05',R,"  let longVol ← item d.volatility 1\n  let shortSpeed ← item d.volatility 2","  let longVol ← item d.volatility 2\n  let shortSpeed ← item d.volatility 1","entries swapped when reading","C70 from dict")
m('r06',R,"-q.mediumSpeed, q.mediumSpeed, 0; 0, -q.shortSpeed, q.shortSpeed]","-q.mediumSpeed, q.mediumSpeed, 0; -q.shortSpeed, 0, q.shortSpeed]","short rate reverts to the long-term rate","C69 trebly paths")
m('r07',R,"q.longVol * q.shortVol * q.shortLong, q.mediumVol * q.shortVol * q.shortMedium, q.shortVol ^ 2]","q.longVol * q.shortVol * q.shortMedium, q.mediumVol * q.shortVol * q.shortMedium, q.shortVol ^ 2]","wrong correlation used below the diagonal","C69 trebly correlations")
m('r08',R,"let level : Vec 3 := ![q.riskMean, q.mediumMean + average, q.mediumMean + average]","let level : Vec 3 := ![q.riskMean, q.mediumMean, q.mediumMean]","risk premium dropped from the level","C69 risk price paths")
m('r09',R,"!![q.riskSpeed, 0, 0; -q.mediumVol, q.mediumSpeed, 0;","!![q.riskSpeed, 0, 0; q.mediumVol, q.mediumSpeed, 0;","sign of the risk premium","C69 risk price paths")
m('r10',R,"  let r := model.base.generatePathFrom d.stateVariables true normals","  let r := model.base.generatePathFrom d.shape true normals","path started from the shape parameters","C70 from dict")
m('r11',R,"longSpeed := a, longVol := b, shortSpeed := c, shortVol := d, correlation := e } })","longSpeed := a, longVol := b, shortSpeed := c, shortVol := d } })","correlation not set","C71 setters")
m('r12',R,"| [a, b] => (.ok (), { v with starting := ![a, b] })","| [a, b] => (.ok (), { v with starting := ![b, a] })","state variables swapped","C71 setters")
m('f01',C,"volatilityInputs := pySorted (fun c => c.maturity) volatilityInputs","volatilityInputs := pySorted (fun c => c.maturity) priceInputs","volatility inputs from the prices","C72: inputs")
m('f02',C,"let d' := { d with volatility := point }","let d' := d","point not stored","C72 last evaluated")
m('f03',C,"shape := point.take d.shape.length, stateVariables := point.drop d.shape.length","shape := point.drop d.stateVariables.length, stateVariables := point.take d.stateVariables.length","shape and state read in the other order","C72 last evaluated")
m('f04',C,"    | (.ok _, d') => evaluate loss points d'","    | (.ok _, _) => evaluate loss points d","dictionary restored after each evaluation","C72 last evaluated")
m('f05',C,"    make r.2 target eig (garbage 1) normals, d)","    make target.dict target eig (garbage 1) normals, d)","shape fit dropped","C72 last evaluated")
m('f06',C,"initial m.dict.volatility.length :: more","initial 5 :: more","fixed number of parameters","C72 one-factor")
m('f07',C,"if c.imported then .error .nameError else","if !c.imported then .error .nameError else","name error in the script instead","C72 imported")
m('f08',C,"(pa.1 - pa.2.value) ^ 2","(pa.1 + pa.2.value) ^ 2","loss adds the target","C72: loss is the distance to the targets")
m('f09',C,"collect (fun i : CalibrationInput => model.base.zeroCouponBondPrice i.maturity none) c.priceInputs","collect (fun i : CalibrationInput => model.base.zeroCouponBondPrice i.maturity none) c.volatilityInputs","prices of the wrong maturities","C72: loss is the distance to the targets")
m('f10',C,"model.base.yieldVolatility i.maturity none","model.base.zeroCouponBondYield i.maturity none","yields instead of volatilities in the loss","C72: loss is the distance to the targets")
json.dump(M,open('mut4.json','w'),indent=1);print(len(M))
