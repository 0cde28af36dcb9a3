import Verif.Props.Scheduling
import Verif.Props.Holidays
import Verif.Props.Increments
import Verif.Props.DayCount
import Verif.Props.Cashflow
import Verif.Props.KeyRateOps
import Verif.Props.Curve
import Verif.Props.YieldCurve
import Verif.Props.Bond
import Verif.Props.Loan
import Verif.Props.Swap
import Verif.Props.Stochastic
import Verif.Props.Paths
import Verif.Props.ShortRate
import Verif.Props.Correlation
import Verif.Props.Risk
import Verif.Props.Optimizer
import Verif.Props.SwapLegs
import Verif.Props.Vasicek
import Verif.Props.MultiVasicek
import Verif.Props.MultiRates
import Verif.Props.Riskless
import Verif.Props.MeanReverting
import Verif.Props.MultiConcrete
import Verif.Props.ThreeFactor
import Verif.Props.Calibration
import Verif.Model.CurveFactory
import Verif.Props.CurveFactory
import Verif.Model.Default
import Verif.Props.Default
import Verif.Model.CashflowSequence
import Verif.Props.CashflowSequence
import Verif.Props.LoanInterest
import Verif.Model.KeyRateSequence
import Verif.Props.KeyRateSequence
import Verif.Props.Duration
import Verif.Model.SchedulerDatetime
import Verif.Lemmas.SchedulerDatetime
import Verif.Props.SchedulerDatetime
import Verif.Props.Frontier
import Verif.Props.TwoFund
import Verif.Props.GeometricMoments
import Verif.Props.SimulatedRates
import Verif.Model.Future
import Verif.Props.Hedging
import Verif.Props.Future
import Verif.Props.NoArbitrage
import Verif.Props.YieldSpace
import Verif.Props.Yields
import Verif.Model.KeyRateOrder
import Verif.Props.KeyRateOrder
import Verif.Model.CallableBond
import Verif.Props.CallableBond
import Verif.Model.Rounded
import Verif.Spec.Rounded
import Verif.Lemmas.Rounded
import Verif.Lemmas.RoundedAxis
import Verif.Props.Rounded
import Verif.Props.IncrementsDatetime
import Verif.Spec.Gregorian
import Verif.Props.Gregorian
import Verif.Props.CurveReset
import Verif.Validation
import Verif.Props.OneFactor
import Verif.Props.Nested
import Verif.Props.RoundedLoan
import Verif.Props.SimulatedFactors
import Verif.Props.Failures
import Verif.Props.FailuresMore
import Verif.Props.ActActDatetimes
import Verif.Props.PathCurve
import Verif.Props.LoanCompare
import Verif.Props.SwapLinear
import Verif.Props.LadderSum
import Verif.Lemmas.Cholesky
import Verif.Model.BrownianInit
import Verif.Props.FailuresModels
import Verif.Props.BusinessDayShift
import Verif.Props.DayCountCompare
import Verif.Props.BrownianInit
import Verif.Model.RoundedValuation
import Verif.Lemmas.RoundedValuation
import Verif.Props.RoundedValuation
import Verif.Props.BusinessDayCount
import Verif.Props.TermStructure
import Verif.Props.KeyRateHistory
import Verif.Props.ParBond
import Verif.Props.ParThirty360
import Verif.Props.PathResponse
import Verif.Model.PlainDates
import Verif.Props.PlainDates
import Verif.Props.ThreeFactorPrices
import Verif.Props.PriceConvexity
import Verif.Props.BondLinear
import Verif.Props.CurveHistory
import Verif.Lemmas.UsDates
import Verif.Props.UsSwaps
import Verif.Props.UsBonds
import Verif.Props.LoanTotal
import Verif.Props.KeyRateSign
import Verif.Props.SwapFloating
import Verif.Props.SwapAverage
import Verif.Model.Spline
import Verif.Spec.Spline
import Verif.Lemmas.Spline
import Verif.Lemmas.SplineCurve
import Verif.Props.Splines
import Verif.Props.SplineRisk
import Verif.Model.RoundedRisk
import Verif.Spec.RoundedRisk
import Verif.Props.RoundedRisk
import Verif.Props.RoundedRiskDouble
import Verif.Props.RoundedDiscount
import Verif.Props.RoundedSum
import Verif.Props.ApproximateYield
import Verif.Spec.RoundedYield
import Verif.Model.RoundedYield
import Verif.Lemmas.Close
import Verif.Props.RoundedYield
import Verif.Props.SimulatedDiscounts
import Verif.Spec.Normal
import Verif.Props.NormalLaws
import Verif.Props.SimulatedLaws
import Verif.Props.SimulatedFactorLaws
import Verif.Props.GeometricSigns
import Verif.Props.DefaultLaws
import Verif.Model.RoundedDefault
import Verif.Props.RoundedDefault
import Verif.Model.Examples
import Verif.Spec.Examples
import Verif.Props.Svensson
import Verif.Props.PrincipalComponents
import Verif.Props.EquityExample
import Verif.Props.KnotBump
import Verif.Model.GeometricInit
import Verif.Props.GeometricInit
import Verif.Props.BondRisk
import Verif.Props.CurveUnique
import Verif.Props.CurveStability
import Verif.Props.BondConvexity
