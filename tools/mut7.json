[
 {
  "id": "h01",
  "file": "Model/Rounded.lean",
  "old": ".ok (rnd (rnd (((wholeYears - 1 : Int) : ℚ) + startResidual) + endResidual))",
  "new": ".ok (rnd (rnd (((wholeYears : Int) : ℚ) + startResidual) + endResidual))",
  "edit": "one whole year too many",
  "claim": "C95_accrual",
  "all": false
 },
 {
  "id": "h02",
  "file": "Model/Rounded.lean",
  "old": "| .thirty360 => .ok (rnd ((DayCount.thirty360Days s e : ℚ) / 360))",
  "new": "| .thirty360 => .ok (rnd ((DayCount.thirty360Days s e : ℚ) / 365))",
  "edit": "30/360 divided by 365",
  "claim": "C95_accrual",
  "all": false
 },
 {
  "id": "h03",
  "file": "Model/Rounded.lean",
  "old": "foldl (fun acc x => rnd (acc + x)) 0",
  "new": "foldl (fun acc x => rnd (acc + rnd x) + 0) 1",
  "edit": "sum starts at one",
  "claim": "C95_parallel, C95_present_value",
  "all": false
 },
 {
  "id": "h04",
  "file": "Model/Rounded.lean",
  "old": "if curve.referenceDate ≤ p.date then",
  "new": "if curve.referenceDate < p.date then",
  "edit": "payments on the reference date dropped",
  "claim": "C95_present_value",
  "all": false
 },
 {
  "id": "h05",
  "file": "Model/Rounded.lean",
  "old": ".ok (rnd (df * pa.2)))",
  "new": ".ok (rnd (df + pa.2)))",
  "edit": "discount factor added",
  "claim": "C95_present_value",
  "all": false
 },
 {
  "id": "h06",
  "file": "Model/Rounded.lean",
  "old": "else if x < x1 then .ok (rnd (rnd (rnd (rnd (y1 - y0) / rnd (x1 - x0)) * rnd (x - x0)) + y0))",
  "new": "else if x < x1 then .ok (rnd (rnd (rnd (rnd (y1 - y0) / rnd (x1 - x0)) * rnd (x - x0)) + y1))",
  "edit": "interpolation starts from the right value",
  "claim": "C95_linear",
  "all": false
 },
 {
  "id": "h07",
  "file": "Model/Rounded.lean",
  "old": "let y ← if linear then interpLinear rnd grid x else interpPrevious grid x",
  "new": "let y ← if linear then interpPrevious grid x else interpLinear rnd grid x",
  "edit": "interpolation methods swapped",
  "claim": "C95_step, C95_linear",
  "all": false
 },
 {
  "id": "h08",
  "file": "Model/Rounded.lean",
  "old": "let timeSincePrior ← accrual rnd p d k.dcc",
  "new": "let timeSincePrior ← accrual rnd d k.keyDate k.dcc",
  "edit": "hat rises the wrong way",
  "claim": "C95_hat",
  "all": false
 },
 {
  "id": "h09",
  "file": "Model/Rounded.lean",
  "old": "    if f ≤ d ∨ d ≤ p then .ok 0\n    else if d ≤ k.keyDate",
  "new": "    if f < d ∨ d ≤ p then .ok 0\n    else if d ≤ k.keyDate",
  "edit": "strict comparison with the following date: the value there is computed, and is zero",
  "claim": "(equivalent)",
  "all": false
 },
 {
  "id": "h10",
  "file": "Model/Future.lean",
  "old": ".ok (state.1 + fixing * a, state.2 + a)",
  "new": ".ok (state.1 + fixing, state.2 + a)",
  "edit": "rates not weighted",
  "claim": "C89_average_partial",
  "all": false
 },
 {
  "id": "h11",
  "file": "Model/Future.lean",
  "old": "let fixing ← rate p.1",
  "new": "let fixing ← rate p.2",
  "edit": "rate fixed at the end of the period",
  "claim": "C89_average_partial",
  "all": false
 },
 {
  "id": "h12",
  "file": "Model/Future.lean",
  "old": "let days ← Scheduler.generateBusinessDays f.calendar firstDay lastDay",
  "new": "let days ← Scheduler.generateBusinessDays f.calendar lastDay firstDay",
  "edit": "dates swapped",
  "claim": "C89_average_partial",
  "all": false
 },
 {
  "id": "h13",
  "file": "Model/Future.lean",
  "old": "def dateWithoutArguments : Except PyErr PyDate := .error .typeError",
  "new": "def dateWithoutArguments : Except PyErr PyDate := PyDate.mk? 2023 1 1",
  "edit": "date() returns a date",
  "claim": "C89_settlement_raises",
  "all": false
 },
 {
  "id": "h14",
  "file": "Model/CallableBond.lean",
  "old": "⟨[.price], price, some (pySorted CallOption.callDate calls)⟩",
  "new": "⟨[.price], price, some calls⟩",
  "edit": "call schedule not sorted",
  "claim": "C94_schedule_partial",
  "all": false
 },
 {
  "id": "h15",
  "file": "Model/CallableBond.lean",
  "old": "⟨[.price], price, some (pySorted",
  "new": "⟨[.price, .cashflows], price, some (pySorted",
  "edit": "base class half initialized",
  "claim": "C94_methods_raise",
  "all": false
 },
 {
  "id": "h16",
  "file": "Model/CallableBond.lean",
  "old": "CreditDefaultSwap := ⟨spread⟩",
  "new": "CreditDefaultSwap := ⟨-spread⟩",
  "edit": "spread negated",
  "claim": "C94_schedule_partial",
  "all": false
 },
 {
  "id": "h17",
  "file": "Model/KeyRateOrder.lean",
  "old": "def le (a b : KeyRate) : Bool := decide (a.keyDate ≤ b.keyDate)",
  "new": "def le (a b : KeyRate) : Bool := decide (a.keyDate < b.keyDate)",
  "edit": "<= strict",
  "claim": "C93_order_partial",
  "all": false
 },
 {
  "id": "h18",
  "file": "Model/KeyRateOrder.lean",
  "old": "def gt (a b : KeyRate) : Bool := decide (b.keyDate < a.keyDate)",
  "new": "def gt (a b : KeyRate) : Bool := decide (a.keyDate < b.keyDate)",
  "edit": "> swapped",
  "claim": "C93_order_partial",
  "all": false
 },
 {
  "id": "h19",
  "file": "Model/KeyRateOrder.lean",
  "old": "hash (k.dcc, k.keyDate)",
  "new": "hash (k.dcc, (k.next.getD k.keyDate))",
  "edit": "hash reads the next date",
  "claim": "C93: equal key rates have equal hashes",
  "all": false
 },
 {
  "id": "h20",
  "file": "Model/KeyRateOrder.lean",
  "old": "def truthy (c : KeyRateCollection) : Bool := !c.keyRates.isEmpty",
  "new": "def truthy (c : KeyRateCollection) : Bool := c.keyRates.isEmpty",
  "edit": "truth inverted",
  "claim": "C93_truthy",
  "all": false
 },
 {
  "id": "h21",
  "file": "Model/KeyRateOrder.lean",
  "old": "| (.error .valueError, h') => (.ok c, h')",
  "new": "| (.error .valueError, h') => (.ok d, h')",
  "edit": "the other collection returned on failure",
  "claim": "C93_combine",
  "all": false
 },
 {
  "id": "h22",
  "file": "Model/KeyRateOrder.lean",
  "old": "bisectRight (fun j",
  "new": "bisectLeft (fun j",
  "edit": "inserted on the left",
  "claim": "C93_add_duplicate_raises",
  "all": false
 },
 {
  "id": "h23",
  "file": "Model/KeyRateOrder.lean",
  "old": "c.keyRates.insertIdx i x } else c",
  "new": "c.keyRates.insertIdx (i + 1) x } else c",
  "edit": "inserted one place too far",
  "claim": "C93_add_partial: same outcome, the constructor sorts",
  "all": false
 },
 {
  "id": "h24",
  "file": "Model/Date.lean",
  "old": "def isLeap (y : Int) : Bool := y % 4 == 0 && (y % 100 != 0 || y % 400 == 0)",
  "new": "def isLeap (y : Int) : Bool := y % 4 == 0 && y % 100 != 0",
  "edit": "no leap year in years divisible by 400",
  "claim": "C96_constructor",
  "all": false
 },
 {
  "id": "h25",
  "file": "Model/Date.lean",
  "old": "def maxOrd : Int := 3652059",
  "new": "def maxOrd : Int := 3652058",
  "edit": "last day of 9999 lost",
  "claim": "C96_add_days",
  "all": false
 },
 {
  "id": "h26",
  "file": "Model/Date.lean",
  "old": "  mk? y m (min d.day (daysInMonth y m))",
  "new": "  mk? y m (min d.day (daysInMonth y d.month))",
  "edit": "clipped by the wrong month",
  "claim": "C96_add_months",
  "all": false
 },
 {
  "id": "h27",
  "file": "Model/Date.lean",
  "old": "def weekday (d : PyDate) : Int := (d.ord + 6) % 7",
  "new": "def weekday (d : PyDate) : Int := (d.ord + 5) % 7",
  "edit": "weekday off by one",
  "claim": "C96_weekday",
  "all": false
 },
 {
  "id": "n01",
  "file": "Model/Vasicek.lean",
  "old": "(1 - weight) * v.mean",
  "new": "(1 - weight) * v.vol",
  "edit": "expected rate reverts to the volatility",
  "claim": "C98_same_model, C47",
  "all": false
 },
 {
  "id": "n02",
  "file": "Model/MultiVasicek.lean",
  "old": ".ok (v.matExp accrual *ᵥ x + (1 - v.matExp accrual) *ᵥ v.level)",
  "new": ".ok (v.matExp accrual *ᵥ x + v.matExp accrual *ᵥ v.level)",
  "edit": "complement forgotten",
  "claim": "C98_same_model, C65",
  "all": false
 },
 {
  "id": "n03",
  "file": "Model/MultiVasicek.lean",
  "old": "drift := fun _ x => (reversion i) ⬝ᵥ (level - x)",
  "new": "drift := fun _ x => (reversion i) ⬝ᵥ (x - level)",
  "edit": "drift away from the level",
  "claim": "C98_paths, C99",
  "all": false
 },
 {
  "id": "n04",
  "file": "Model/MeanReverting.lean",
  "old": "!![q.longSpeed, 0; -q.shortSpeed, q.shortSpeed]",
  "new": "!![q.longSpeed, q.shortSpeed; -q.shortSpeed, q.shortSpeed]",
  "edit": "long-term rate depends on the short rate",
  "claim": "C99_doubly, C68",
  "all": false
 },
 {
  "id": "n05",
  "file": "Model/MeanReverting.lean",
  "old": "!![q.longSpeed, 0, 0; -q.mediumSpeed, q.mediumSpeed, 0; 0, -q.shortSpeed, q.shortSpeed]",
  "new": "!![q.longSpeed, 0, 0; -q.mediumSpeed, q.mediumSpeed, q.shortSpeed; 0, -q.shortSpeed, q.shortSpeed]",
  "edit": "medium rate depends on the short rate",
  "claim": "C99_trebly, C69",
  "all": false
 },
 {
  "id": "n06",
  "file": "Model/MeanReverting.lean",
  "old": "def level (q : TreblyParams) : Vec 3 := ![q.mean, q.mean, q.mean]",
  "new": "def level (q : TreblyParams) : Vec 3 := ![q.mean, q.mean + 1, q.mean]",
  "edit": "medium level shifted",
  "claim": "C99_trebly, C69",
  "all": false
 },
 {
  "id": "n07",
  "file": "Model/MeanReverting.lean",
  "old": "!![q.riskVol ^ 2, q.riskVol * q.mediumVol * q.mediumRisk,",
  "new": "!![q.mediumVol ^ 2, q.riskVol * q.mediumVol * q.mediumRisk,",
  "edit": "variance of the market price of risk",
  "claim": "C99_risk_price, C69",
  "all": false
 },
 {
  "id": "n08",
  "file": "Model/MultiVasicek.lean",
  "old": "    .ok (Real.sqrt ((-d.2) ⬝ᵥ (v.cMat *ᵥ (-d.2))))",
  "new": "    .ok ((-d.2) ⬝ᵥ (v.cMat *ᵥ (-d.2)))",
  "edit": "variance instead of volatility",
  "claim": "C98_same_model, C64",
  "all": false
 },
 {
  "id": "n09",
  "file": "Model/Vasicek.lean",
  "old": ".ok (-ratio * v.vol)",
  "new": ".ok (ratio * v.vol)",
  "edit": "sign of the yield volatility",
  "claim": "C98_same_bonds, C47",
  "all": false
 },
 {
  "id": "n10",
  "file": "Model/MultiVasicek.lean",
  "old": "    .ok (y - a)",
  "new": "    .ok (a - y)",
  "edit": "yield convexity negated",
  "claim": "C98_same_bonds, C66",
  "all": false
 },
 {
  "id": "s01",
  "file": "Model/Stochastic.lean",
  "old": "(fun i => x i + d i) ds",
  "new": "(fun i => d i) ds",
  "edit": "increments not accumulated",
  "claim": "C44",
  "all": false
 },
 {
  "id": "s02",
  "file": "Model/Stochastic.lean",
  "old": "fun i => x i + drift * x i * (dt : ℝ) + volatility * x i * shock i",
  "new": "fun i => x i + drift * x i * (dt : ℝ) + volatility * shock i",
  "edit": "absolute volatility in the geometric motion",
  "claim": "C86, C55",
  "all": false
 },
 {
  "id": "s03",
  "file": "Model/Stochastic.lean",
  "old": "fun i => x i + ((coords i).drift time x * (dt : ℝ) + ∑ j",
  "new": "fun i => x i + ((coords i).drift time x + ∑ j",
  "edit": "drift not scaled by the step",
  "claim": "C87, C45",
  "all": false
 }
]