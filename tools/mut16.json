[
 {
  "id": "n01",
  "file": "Model/RoundedYield.lean",
  "old": "power := pow (rnd (1 + rnd (rate / n))) (rnd (a * n))",
  "new": "power := pow (rnd (1 + rnd (rate / n))) (rnd a)",
  "edit": "exponent in years",
  "claim": "C131_value",
  "all": false
 },
 {
  "id": "n02",
  "file": "Model/RoundedYield.lean",
  "old": "power := pow (rnd (1 + rnd (rate / n))) (rnd (a * n))",
  "new": "power := pow (rnd (1 + rate)) (rnd (a * n))",
  "edit": "rate not divided by the frequency",
  "claim": "C131_value",
  "all": false
 },
 {
  "id": "n03",
  "file": "Model/RoundedYield.lean",
  "old": ".ok (rnd (1 / power))",
  "new": ".ok power",
  "edit": "growth factor instead of discount factor",
  "claim": "C131_value",
  "all": false
 },
 {
  "id": "n04",
  "file": "Model/RoundedYield.lean",
  "old": "    else discountLoop rnd pow b rate ref ps acc",
  "new": "    else discountLoop rnd pow b rate ref ps (rnd (acc + p.amount))",
  "edit": "past payments added undiscounted",
  "claim": "C131_value",
  "all": false
 },
 {
  "id": "n05",
  "file": "Model/RoundedYield.lean",
  "old": "(rnd (acc + rnd (df * p.amount)))",
  "new": "(rnd (acc + rnd (df * b.terms.principal)))",
  "edit": "every payment the principal",
  "claim": "C131_value",
  "all": false
 },
 {
  "id": "n06",
  "file": "Model/RoundedYield.lean",
  "old": "let a ← accrual rnd ref p.date b.terms.dcc",
  "new": "let a ← accrual rnd ref p.unadjusted b.terms.dcc",
  "edit": "accrual to the unadjusted date",
  "claim": "C131_value",
  "all": false
 },
 {
  "id": "n07",
  "file": "Model/RoundedYield.lean",
  "old": "let a ← accrual rnd ref p.date b.terms.dcc",
  "new": "let a ← accrual rnd b.settlementDate p.date b.terms.dcc",
  "edit": "accrual from the settlement date",
  "claim": "C131_value",
  "all": false
 },
 {
  "id": "n08",
  "file": "Model/RoundedYield.lean",
  "old": "discountLoop rnd pow b rate ref b.principalPayments c",
  "new": "discountLoop rnd pow b rate ref b.principalPayments 0",
  "edit": "coupons dropped",
  "claim": "C131_value",
  "all": false
 },
 {
  "id": "n09",
  "file": "Model/RoundedYield.lean",
  "old": "  discountLoop rnd pow b rate ref b.principalPayments c",
  "new": "  .ok c",
  "edit": "principal dropped",
  "claim": "C131_value",
  "all": false
 },
 {
  "id": "n10",
  "file": "Model/RoundedYield.lean",
  "old": "rnd (rnd (rnd (b.fullPrice * b.terms.principal) / 100) - pv)",
  "new": "rnd (pv - rnd (rnd (b.fullPrice * b.terms.principal) / 100))",
  "edit": "sign of the residual",
  "claim": "C131_yield (only the size of the residual enters: the bound is symmetric)",
  "all": false
 },
 {
  "id": "n11",
  "file": "Model/RoundedYield.lean",
  "old": "rnd (rnd (rnd (b.fullPrice * b.terms.principal) / 100) - pv)",
  "new": "rnd (b.fullPrice - pv)",
  "edit": "price not scaled by the principal",
  "claim": "C131_yield",
  "all": false
 },
 {
  "id": "n12",
  "file": "Model/RoundedYield.lean",
  "old": "rnd (rnd (rnd (b.fullPrice * b.terms.principal) / 100) - pv)",
  "new": "rnd (rnd (rnd (b.terms.price * b.terms.principal) / 100) - pv)",
  "edit": "clean price",
  "claim": "C131_yield",
  "all": false
 },
 {
  "id": "n13",
  "file": "Model/RoundedYield.lean",
  "old": "p.date, couponPayment rnd t⟩",
  "new": "p.date, rnd (t.principal * t.couponRate)⟩",
  "edit": "annual coupon in percent",
  "claim": "C131_value",
  "all": false
 },
 {
  "id": "n14",
  "file": "Model/RoundedYield.lean",
  "old": "accruedInterest := accrued, fullPrice := full",
  "new": "accruedInterest := accrued, fullPrice := b.fullPrice",
  "edit": "exact full price kept (more accurate than the code)",
  "claim": "none of C131 but the claim that this is what the code computes",
  "all": false
 },
 {
  "id": "n15",
  "file": "Model/RoundedYield.lean",
  "old": "let full ← fullPrice rnd t accrued",
  "new": "let full ← fullPrice rnd t 0",
  "edit": "accrued interest left out of the full price",
  "claim": "C131_yield",
  "all": false
 },
 {
  "id": "n16",
  "file": "Model/RoundedYield.lean",
  "old": "(some (reference.getD b.terms.purchaseDate))",
  "new": "(some b.terms.purchaseDate)",
  "edit": "reference date ignored",
  "claim": "C131_yield",
  "all": false
 },
 {
  "id": "n17",
  "file": "Model/RoundedYield.lean",
  "old": "let k ← b.isPaymentReceived p (some ref)",
  "new": "let k ← b.isPaymentReceived p none",
  "edit": "settlement date instead of reference date",
  "claim": "C131_value",
  "all": false
 },
 {
  "id": "n18",
  "file": "Model/RoundedYield.lean",
  "old": "  let ref := reference.getD b.terms.purchaseDate\n  let c",
  "new": "  let ref := b.terms.purchaseDate\n  let c",
  "edit": "reference date ignored in discounting",
  "claim": "C131_value",
  "all": false
 }
]