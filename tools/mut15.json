[
 {
  "id": "r01",
  "file": "Model/RoundedRisk.lean",
  "old": "let v ← interpolate rnd values dcc ref linear left adj k.date\n    .ok ⟨k.date, v⟩",
  "new": "let v ← interpolate rnd values dcc ref linear left (fun _ => .ok 0) k.date\n    .ok ⟨k.date, v⟩",
  "edit": "discount factors not bumped",
  "claim": "C129_value / C129_pv01",
  "all": false
 },
 {
  "id": "r02",
  "file": "Model/RoundedRisk.lean",
  "old": "let v ← interpolate rnd values dcc ref linear left adj k.date\n    .ok ⟨k.date, v⟩",
  "new": "let v ← interpolate rnd values dcc ref linear left adj ref\n    .ok ⟨k.date, v⟩",
  "edit": "every knot evaluated at the reference date",
  "claim": "C129_value",
  "all": false
 },
 {
  "id": "r03",
  "file": "Model/RoundedRisk.lean",
  "old": "    .ok ⟨k.date, v⟩) (pySorted Knot.date values)",
  "new": "    .ok ⟨k.date, v⟩) (pySorted Knot.date values).tail",
  "edit": "first knot dropped",
  "claim": "C129_value",
  "all": false
 },
 {
  "id": "r04",
  "file": "Model/RoundedRisk.lean",
  "old": "    .ok ⟨k.date, v⟩) (pySorted Knot.date values)",
  "new": "    .ok ⟨k.date, k.value⟩) (pySorted Knot.date values)",
  "edit": "adjusted value discarded",
  "claim": "C129_value",
  "all": false
 },
 {
  "id": "r05",
  "file": "Model/RoundedRisk.lean",
  "old": "interpolate rnd knots dcc ref linear .error (fun _ => .ok 0)⟩",
  "new": "interpolate rnd knots dcc ref linear .error adj⟩",
  "edit": "the adjustment applied twice",
  "claim": "C129_value",
  "all": false
 },
 {
  "id": "r06",
  "file": "Model/RoundedRisk.lean",
  "old": "interpolate rnd knots dcc ref linear .error (fun _ => .ok 0)⟩",
  "new": "interpolate rnd knots dcc ref true .error (fun _ => .ok 0)⟩",
  "edit": "always linear",
  "claim": "C129_value",
  "all": false
 },
 {
  "id": "r07",
  "file": "Model/RoundedRisk.lean",
  "old": "interpolate rnd knots dcc ref linear .error (fun _ => .ok 0)⟩",
  "new": "interpolate rnd knots dcc ref linear left (fun _ => .ok 0)⟩",
  "edit": "the curve's own end behaviour used for the discount curve",
  "claim": "C129_exact",
  "all": false
 },
 {
  "id": "r08",
  "file": "Model/RoundedRisk.lean",
  "old": "interpolate rnd knots dcc ref linear .error (fun _ => .ok 0)⟩",
  "new": "interpolate rnd values dcc ref linear .error (fun _ => .ok 0)⟩",
  "edit": "unbumped knots interpolated",
  "claim": "C129_value",
  "all": false
 },
 {
  "id": "r09",
  "file": "Model/RoundedRisk.lean",
  "old": "  pv01Of rnd (discountPresentValue rnd values dcc ref linear left schedule) k",
  "new": "  pv01Of rnd (fun _ => discountPresentValue rnd values dcc ref linear left schedule (fun _ => .ok 0)) k",
  "edit": "risk without a bump",
  "claim": "C129_pv01",
  "all": false
 },
 {
  "id": "r10",
  "file": "Model/RoundedRisk.lean",
  "old": "schedule (heap i)) c.keyRates",
  "new": "schedule (heap i)) c.keyRates.tail",
  "edit": "first key rate missing from the ladder",
  "claim": "C129_ladder",
  "all": false
 },
 {
  "id": "r11",
  "file": "Model/RoundedRisk.lean",
  "old": "schedule (heap i)) c.keyRates",
  "new": "schedule (heap 0)) c.keyRates",
  "edit": "the same key rate throughout the ladder",
  "claim": "C129_ladder",
  "all": false
 }
]