[
 {
  "id": "z01",
  "file": "Model/Default.lean",
  "old": "let ts ← pathsFrom hazard maturity dt draw fuel n pos'",
  "new": "let ts ← pathsFrom hazard maturity dt draw fuel n pos",
  "edit": "every path uses the same draws",
  "claim": "C135_independent",
  "all": false
 },
 {
  "id": "z02",
  "file": "Model/Default.lean",
  "old": "let ts ← pathsFrom hazard maturity dt draw fuel n pos'",
  "new": "let ts ← pathsFrom hazard maturity dt draw fuel n (pos' + 1)",
  "edit": "a draw is skipped between paths",
  "claim": "C103_default_times",
  "all": false
 },
 {
  "id": "z03",
  "file": "Model/Default.lean",
  "old": "if draw pos ≤ prob then .ok (some time, pos + 1)",
  "new": "if prob ≤ draw pos then .ok (some time, pos + 1)",
  "edit": "comparison the wrong way round",
  "claim": "C76_default_times",
  "all": false
 },
 {
  "id": "z04",
  "file": "Model/Default.lean",
  "old": "else .ok (none, pos)",
  "new": "else .ok (some maturity, pos)",
  "edit": "survivors get the maturity as default time",
  "claim": "C76_default_times",
  "all": false
 },
 {
  "id": "z05",
  "file": "Model/RoundedDefault.lean",
  "old": "(rnd (time + dt)) (pos + 1)",
  "new": "(time + dt) (pos + 1)",
  "edit": "running time not rounded",
  "claim": "C136_extra_test",
  "all": false
 },
 {
  "id": "z06",
  "file": "Model/RoundedDefault.lean",
  "old": "if time < maturity then",
  "new": "if time ≤ maturity then",
  "edit": "maturity itself tested",
  "claim": "C136_paths",
  "all": false
 },
 {
  "id": "z07",
  "file": "Model/RoundedDefault.lean",
  "old": "defaultLoop rnd hazard maturity dt draw fuel dt pos",
  "new": "defaultLoop rnd hazard maturity dt draw fuel 0 pos",
  "edit": "first test at time 0",
  "claim": "C136_paths",
  "all": false
 },
 {
  "id": "z08",
  "file": "Model/RoundedDefault.lean",
  "old": "let prob := rnd (hazard time * dt)",
  "new": "let prob := rnd (hazard (rnd (time + dt)) * dt)",
  "edit": "hazard at the end of the interval",
  "claim": "C136_paths",
  "all": false
 },
 {
  "id": "z09",
  "file": "Model/RoundedDefault.lean",
  "old": "let prob := rnd (hazard time * dt)",
  "new": "let prob := hazard time * dt",
  "edit": "product not rounded",
  "claim": "C136_paths",
  "all": false
 },
 {
  "id": "z10",
  "file": "Model/RoundedDefault.lean",
  "old": ".ok (some time, pos + 1)",
  "new": ".ok (some (rnd (time + dt)), pos + 1)",
  "edit": "default reported one step late",
  "claim": "C136_paths",
  "all": false
 },
 {
  "id": "z11",
  "file": "Model/RoundedDefault.lean",
  "old": "let ts ← defaultPaths rnd hazard maturity dt draw fuel n pos'",
  "new": "let ts ← defaultPaths rnd hazard maturity dt draw fuel n pos",
  "edit": "every path uses the same draws",
  "claim": "C136_paths",
  "all": false
 },
 {
  "id": "z12",
  "file": "Model/RoundedDefault.lean",
  "old": "if draw pos ≤ prob",
  "new": "if draw pos < prob",
  "edit": "strict comparison",
  "claim": "C136_paths",
  "all": false
 }
]