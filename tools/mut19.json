[
 {
  "id": "ex01",
  "file": "Model/Examples.lean",
  "old": "let termTwo := b2 * ((1 - Real.exp (-t / tau1)) / (t / tau1) - Real.exp (t / tau1))",
  "new": "let termTwo := b2 * ((1 - Real.exp (-t / tau1)) / (t / tau1) - Real.exp (-t / tau1))",
  "edit": "first hump term corrected only",
  "claim": "C137_error",
  "all": false
 },
 {
  "id": "ex02",
  "file": "Model/Examples.lean",
  "old": "let termOne := b1 * (1 - Real.exp (-t / tau1)) / (t / tau1)",
  "new": "let termOne := b1 * (1 - Real.exp (-t / tau1)) / (t * tau1)",
  "edit": "division by t tau instead of t / tau",
  "claim": "C137_short_end",
  "all": false
 },
 {
  "id": "ex03",
  "file": "Model/Examples.lean",
  "old": "(∑ i, data i j) / n",
  "new": "(∑ i, data i j) / (n - 1)",
  "edit": "mean divided by n - 1",
  "claim": "C138_scores",
  "all": false
 },
 {
  "id": "ex04",
  "file": "Model/Examples.lean",
  "old": "fun j => vtᵀ j i",
  "new": "fun j => vt j i",
  "edit": "columns of Vt taken instead of its rows",
  "claim": "C138_closest",
  "all": false
 },
 {
  "id": "ex05",
  "file": "Model/Examples.lean",
  "old": "if ∑ j, component vt i j < 0 then",
  "new": "if 0 < ∑ j, component vt i j then",
  "edit": "sign test the wrong way round",
  "claim": "C138_sign",
  "all": false
 },
 {
  "id": "ex06",
  "file": "Model/Examples.lean",
  "old": "(pcs.map fun pc => (pc ⬝ᵥ (curve - means)) • pc).sum + means",
  "new": "(pcs.map fun pc => (pc ⬝ᵥ curve) • pc).sum + means",
  "edit": "curve not centered before projecting",
  "claim": "C138_closest",
  "all": false
 },
 {
  "id": "ex07",
  "file": "Model/Examples.lean",
  "old": "(pcs.map fun pc => (pc ⬝ᵥ (curve - means)) • pc).sum + means",
  "new": "(pcs.map fun pc => (pc ⬝ᵥ (curve - means)) • pc).sum",
  "edit": "mean curve not added back",
  "claim": "C138_closest",
  "all": false
 },
 {
  "id": "ex08",
  "file": "Model/Examples.lean",
  "old": "centered data *ᵥ pc",
  "new": "data *ᵥ pc",
  "edit": "scores of uncentered data",
  "claim": "C138_scores",
  "all": false
 },
 {
  "id": "ex09",
  "file": "Model/Examples.lean",
  "old": "data i.succ j - data i.castSucc j",
  "new": "data i.castSucc j - data i.succ j",
  "edit": "changes with the wrong sign",
  "claim": "C138_changes",
  "all": false
 },
 {
  "id": "ex10",
  "file": "Model/Examples.lean",
  "old": "(c1 - c0) / c1 ::",
  "new": "(c1 - c0) / c0 ::",
  "edit": "relative change of the price (the intended program)",
  "claim": "C139_returns_false",
  "all": false
 },
 {
  "id": "ex11",
  "file": "Model/Examples.lean",
  "old": "Real.sqrt ((∑ i, (x i - (∑ j, x j) / n) ^ 2) / n)",
  "new": "Real.sqrt ((∑ i, (x i) ^ 2) / n)",
  "edit": "root mean square instead of the standard deviation",
  "claim": "C139_risk",
  "all": false
 },
 {
  "id": "ex12",
  "file": "Model/Examples.lean",
  "old": "returns i - marketPart beta market i",
  "new": "returns i - market i",
  "edit": "excess return instead of the residual",
  "claim": "C139_beta",
  "all": false
 },
 {
  "id": "ex13",
  "file": "Model/Examples.lean",
  "old": "Real.sqrt (std (marketPart beta market) ^ 2 + std (idioPart beta market returns) ^ 2)",
  "new": "std (marketPart beta market) + std (idioPart beta market returns)",
  "edit": "risks added without squaring",
  "claim": "C139_risk",
  "all": false
 },
 {
  "id": "ex14",
  "file": "Model/Examples.lean",
  "old": "let returns := NdArray.vec frontierReturns",
  "new": "let returns := _returns",
  "edit": "table of returns not overwritten (the intended program)",
  "claim": "C139_bootstrap_raises",
  "all": false
 },
 {
  "id": "ex15",
  "file": "Model/Examples.lean",
  "old": "List.ofFn fun i : Fin k => if (i : Nat) = 0 then",
  "new": "List.ofFn fun i : Fin k => if (i : Nat) = 1 then",
  "edit": "second component turned over instead of the first",
  "claim": "C138_sign",
  "all": false
 },
 {
  "id": "ex16",
  "file": "Model/Examples.lean",
  "old": "then -component vt i else component vt i",
  "new": "then 0 else component vt i",
  "edit": "a component with negative sum dropped",
  "claim": "C138_best",
  "all": false
 }
]