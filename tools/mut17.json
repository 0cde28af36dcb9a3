[
 {
  "id": "q01",
  "file": "Model/Vasicek.lean",
  "old": "diffusion := fun _ _ _ => vol\n",
  "new": "diffusion := fun _ x _ => vol * x 0\n",
  "edit": "volatility proportional to the rate",
  "claim": "C133_rates",
  "all": false
 },
 {
  "id": "q02",
  "file": "Model/Vasicek.lean",
  "old": "diffusion := fun _ _ _ => vol\n",
  "new": "diffusion := fun _ _ _ => vol ^ 2\n",
  "edit": "variance used as volatility",
  "claim": "C133_rates",
  "all": false
 },
 {
  "id": "q03",
  "file": "Model/Vasicek.lean",
  "old": "drift := fun _ x => speed * (mean - x 0)",
  "new": "drift := fun _ x => mean - x 0",
  "edit": "drift ignores the speed",
  "claim": "C133_rates",
  "all": false
 },
 {
  "id": "q04",
  "file": "Model/Vasicek.lean",
  "old": "ShortRateModel.new (fun x => x 0) process bm",
  "new": "ShortRateModel.new (fun x => |x 0|) process bm",
  "edit": "the short rate is the absolute value of the state",
  "claim": "C133_rates",
  "all": false
 },
 {
  "id": "q05",
  "file": "Model/Vasicek.lean",
  "old": "ShortRateModel.new (fun x => x 0) process bm",
  "new": "ShortRateModel.new (fun x => max (x 0) 0) process bm",
  "edit": "the short rate is floored at zero",
  "claim": "C133_rates",
  "all": false
 },
 {
  "id": "q06",
  "file": "Model/Stochastic.lean",
  "old": "fun i => x i + drift * x i * (dt : ℝ) + volatility * x i * shock i",
  "new": "fun i => max 0 (x i + drift * x i * (dt : ℝ) + volatility * x i * shock i)",
  "edit": "geometric Brownian motion floored at zero",
  "claim": "C134_false",
  "all": false
 },
 {
  "id": "q07",
  "file": "Model/Stochastic.lean",
  "old": "fun i => x i + drift * x i * (dt : ℝ) + volatility * x i * shock i",
  "new": "fun i => x i * Real.exp (drift * (dt : ℝ) + volatility * shock i)",
  "edit": "log-Euler step",
  "claim": "C134_false",
  "all": false
 },
 {
  "id": "q09",
  "file": "Model/Stochastic.lean",
  "old": "  | x, [] => [x]\n  | x, d :: ds => x :: cumulate",
  "new": "  | _, [] => []\n  | x, d :: ds => x :: cumulate",
  "edit": "last column of the path dropped",
  "claim": "C133_brownian",
  "all": false
 },
 {
  "id": "q10",
  "file": "Model/Stochastic.lean",
  "old": "vs.map (fun v => Real.exp (-v))",
  "new": "vs.map (fun v => 1 / (1 + v))",
  "edit": "simple discounting",
  "claim": "C133_discounts",
  "all": true
 },
 {
  "id": "q11",
  "file": "Model/Stochastic.lean",
  "old": "if minRate < 0 then maxRate * accrual + (minRate - maxRate) * accrual / 2",
  "new": "if minRate < 0 then maxRate * accrual",
  "edit": "negative rates contribute only the higher end",
  "claim": "C133_discounts",
  "all": false
 },
 {
  "id": "q12",
  "file": "Model/Stochastic.lean",
  "old": "(coords i).drift time x * (dt : ℝ) + ∑ j, (coords i).diffusion time x j * shock j",
  "new": "(coords i).drift time x * (dt : ℝ) + (∑ j, (coords i).diffusion time x j) * shock i",
  "edit": "every volatility applied to the coordinate's own shock",
  "claim": "C133_factors",
  "all": false
 },
 {
  "id": "q13",
  "file": "Model/MultiVasicek.lean",
  "old": "drift := fun _ x => (reversion i) ⬝ᵥ (level - x)",
  "new": "drift := fun _ x => reversion i i * (level i - x i)",
  "edit": "only the diagonal of the mean reversion matrix used",
  "claim": "C133_factors",
  "all": false
 },
 {
  "id": "q14",
  "file": "Model/MultiVasicek.lean",
  "old": "diffusion := fun _ _ => volatility i",
  "new": "diffusion := fun _ x => fun j => volatility i j * x i",
  "edit": "volatility proportional to the factor",
  "claim": "C133_factors",
  "all": false
 }
]