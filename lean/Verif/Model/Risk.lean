/- Model of fixedIncome/src/risk/risk_metrics.py and of iteration in portfolio/base_portfolio.py. -/
import Verif.Model.KeyRate
import Verif.Model.Curve

namespace Verif

/-- risk_metrics.py:25-32: a risk ladder and its iteration index. -/
structure RiskLadder where
  risks : List Risk
  iterIndex : Nat := 0
deriving DecidableEq

namespace RiskLadder

/-- risk_metrics.py:26-28. -/
def create (risks : List Risk) : RiskLadder := { risks := risks }

/-- risk_metrics.py:34-36: the method body is `pass`, so it returns None for every argument. -/
def containsMethod (_l : RiskLadder) (_r : Risk) : Option Bool := none

/-- `risk in ladder`: the truth value of what `__contains__` returns (risk_metrics.py:34-36). -/
def contains (l : RiskLadder) (r : Risk) : Bool :=
  match l.containsMethod r with
  | some b => b
  | none => false

/-- risk_metrics.py:38-39: `iter(ladder)`, also used by lines 65-75. -/
def iter (l : RiskLadder) : List Risk := l.risks

/-- risk_metrics.py:41-50, `__next__`. -/
def next (l : RiskLadder) : Except PyErr Risk × RiskLadder :=
  match l.risks[l.iterIndex]? with
  | some a => (.ok a, { l with iterIndex := l.iterIndex + 1 })
  | none => (.error .stopIteration, { l with iterIndex := 0 })

/-- risk_metrics.py:52-54. -/
def len (l : RiskLadder) : Nat := l.risks.length

/-- risk_metrics.py:65-67. -/
def getKeyRateDates (l : RiskLadder) : List PyDate := l.iter.map Risk.keyRateDate

/-- risk_metrics.py:69-71. -/
def getPv01s (l : RiskLadder) : List ℚ := l.iter.map Risk.pv01

/-- risk_metrics.py:73-75. -/
def getIndices (l : RiskLadder) : List CurveIndex := l.iter.map Risk.index

end RiskLadder

/-- base_portfolio.py:17-20: a portfolio, with its iteration index. -/
structure Portfolio where
  assets : List PortfolioEntry
  cash : ℚ
  iterIndex : Nat := 0

namespace Portfolio

/-- base_portfolio.py:26-28: a generator over the assets. -/
def iter (p : Portfolio) : List PortfolioEntry := p.assets

/-- base_portfolio.py:29-37, `__next__`. -/
def next (p : Portfolio) : Except PyErr PortfolioEntry × Portfolio :=
  match p.assets[p.iterIndex]? with
  | some a => (.ok a, { p with iterIndex := p.iterIndex + 1 })
  | none => (.error .stopIteration, { p with iterIndex := 0 })

/-- base_portfolio.py:52-53: the fresh `KeyRate` objects, one per asset, at addresses `base, base + 1, …`. -/
def allocate (dcc : DayCountConvention) : List PyDate → Nat → KRHeap → KRHeap
  | [], _, h => h
  | d :: ds, base, h => allocate dcc ds (base + 1) (Function.update h base (KeyRate.create dcc d none none))

/-- base_portfolio.py:47-55, `to_key_rate_collection`.  `knots` are the knot dates of the assets in order; `base` is the first free
address. -/
def toKeyRateCollection (dcc : DayCountConvention) (knots : List PyDate) (base : Nat) (h : KRHeap) : KROutcome KeyRateCollection :=
  KeyRateCollection.create (allocate dcc knots base h) (List.range' base knots.length)

end Portfolio
end Verif
