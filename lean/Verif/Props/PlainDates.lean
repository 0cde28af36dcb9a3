/- Property C117: maturity and purchase dates given as plain dates. -/
import Verif.Model.PlainDates
import Verif.Props.ActActDatetimes
import Verif.Props.Vasicek
import Verif.Props.MultiConcrete

namespace Verif.Props
open Verif Verif.Spec Verif.DayCount

/-! ## C117 -/

/-- Midnight of a date. -/
def midnight (d : PyDate) : PyDatetime := ⟨d, 0, by omega⟩

theorem midnight_instant (d : PyDate) : (midnight d).like.instant = (DateLike.date d).instant := rfl

theorem like_pyLe (a b : PyDatetime) : a.like.pyLe b.like = .ok (decide (a ≤ b)) := rfl

theorem like_minLoop (x : PyDatetime) (l : List PyDatetime) :
    ∃ m, m ∈ x :: l ∧ (∀ y ∈ x :: l, m ≤ y) ∧ DateLike.minLoop x.like (l.map PyDatetime.like) = .ok m.like := by
  induction l generalizing x with
  | nil => exact ⟨x, by simp, by simp, rfl⟩
  | cons y l ih =>
    have h0 : DateLike.minLoop x.like ((y :: l).map PyDatetime.like) =
        DateLike.minLoop (if y < x then y else x).like (l.map PyDatetime.like) := by
      rw [List.map_cons, DateLike.minLoop, if_pos (show y.like.isDatetime = x.like.isDatetime from rfl)]
      by_cases h : y < x
      · rw [if_pos h, if_pos (show y.like.instant < x.like.instant from PyDatetime.lt_iff.1 h)]
      · rw [if_neg h, if_neg (show ¬ y.like.instant < x.like.instant from fun h' => h (PyDatetime.lt_iff.2 h'))]
    obtain ⟨m, hm, hle, heq⟩ := ih (if y < x then y else x)
    refine ⟨m, ?_, ?_, h0.trans heq⟩
    · rcases List.mem_cons.1 hm with h | h
      · rw [h]; split <;> simp
      · simp [h]
    · intro z hz
      have h1 := hle (if y < x then y else x) (by simp)
      have h2 : (if y < x then y else x) ≤ x ∧ (if y < x then y else x) ≤ y := by
        split
        · rename_i h; exact ⟨le_of_lt h, le_refl _⟩
        · rename_i h; exact ⟨le_refl _, not_lt.1 h⟩
      rcases List.mem_cons.1 hz with h | h
      · rw [h]; exact h1.trans h2.1
      · rcases List.mem_cons.1 h with h | h
        · rw [h]; exact h1.trans h2.2
        · exact hle z (List.mem_cons_of_mem _ h)

theorem like_checkMaturities (l : List PyDatetime) (p : PyDatetime) :
    DateLike.checkMaturities (l.map PyDatetime.like) p.like =
      if l = [] ∨ ∃ m ∈ l, m ≤ p then .error .valueError else .ok () := by
  unfold DateLike.checkMaturities
  cases l with
  | nil => rfl
  | cons x l =>
    obtain ⟨m, hm, hle, heq⟩ := like_minLoop x l
    rw [List.map_cons, DateLike.pyMin, heq, ok_bind, like_pyLe, ok_bind]
    by_cases h : m ≤ p
    · rw [if_pos (Or.inr ⟨m, hm, h⟩)]; simp [h]
    · have hno : ¬ (x :: l = [] ∨ ∃ m ∈ x :: l, m ≤ p) := by
        rintro (h' | ⟨y, hy, h'⟩)
        · cases h'
        · exact h ((hle y hy).trans h')
      rw [if_neg hno, if_neg (by simpa using h)]

theorem purchaseAt_like {p : Nat} (m : ShortRateModel p) (q : Option PyDatetime) :
    m.purchaseAt (q.map PyDatetime.like) = (q.getD m.bm.start).like := by cases q <;> rfl

theorem callAt_like {p : Nat} (m : ShortRateModel p) (q : PyDatetime) : m.callAt q.like = m.call q := rfl

theorem collect_like {β : Type} (f : DateLike → Except PyErr β) (g : PyDatetime → Except PyErr β) (h : ∀ m, f m.like = g m)
    (l : List PyDatetime) : collect f (l.map PyDatetime.like) = collect g l := by
  induction l with
  | nil => rfl
  | cons x l ih => rw [List.map_cons, collect, collect, h, ih]

/-- C117. Datetimes for maturity and purchase: the methods of a one-factor model that take either kind of argument are the methods on
datetimes of which the other properties speak. -/
theorem C117_datetimes (v : Vasicek) (m : PyDatetime) (ms : List PyDatetime) (p : Option PyDatetime) :
    v.shortRateVarianceAt m.like (p.map PyDatetime.like) = v.shortRateVariance m p ∧
    v.expectedShortRateAt m.like (p.map PyDatetime.like) = v.expectedShortRate m p ∧
    v.priceCoeffsAt m.like (p.map PyDatetime.like) = v.priceCoeffs m p ∧
    v.priceCoeffDerivativesAt m.like (p.map PyDatetime.like) = v.priceCoeffDerivatives m p ∧
    v.yieldCoeffsAt m.like = v.yieldCoeffs m ∧
    v.zeroCouponBondPriceAt m.like (p.map PyDatetime.like) = v.zeroCouponBondPrice m p ∧
    v.zeroCouponYieldAt m.like (p.map PyDatetime.like) = v.zeroCouponYield m p ∧
    v.yieldConvexityAt m.like = v.yieldConvexity m ∧
    v.yieldVolatilityAt m.like = v.yieldVolatility m ∧
    v.priceConvexitiesAt (ms.map PyDatetime.like) (p.map PyDatetime.like) = v.priceConvexities ms p ∧
    v.instantaneousForwardRateAt m.like (p.map PyDatetime.like) = v.instantaneousForwardRate m p ∧
    v.forwardRateVolatilityAt m.like (p.map PyDatetime.like) = v.forwardRateVolatility m p ∧
    v.averageExpectedShortRateAt m.like (p.map PyDatetime.like) = v.averageExpectedShortRate m p := by
  have h9 : ∀ m : PyDatetime, v.yieldVolatilityAt m.like = v.yieldVolatility m := fun _ => rfl
  refine ⟨?_, ?_, ?_, ?_, rfl, ?_, ?_, rfl, rfl, ?_, ?_, ?_, ?_⟩
  · cases p <;> rfl
  · cases p <;> rfl
  · cases p <;> rfl
  · cases p <;> rfl
  · cases p <;> rfl
  · cases p <;> rfl
  · have h1 : collect (v.priceConvexityAt (p.map PyDatetime.like)) (ms.map PyDatetime.like) = collect (v.priceConvexity p) ms :=
      collect_like _ _ (fun m => by cases p <;> rfl) ms
    unfold Vasicek.priceConvexitiesAt Vasicek.priceConvexities
    rw [purchaseAt_like, like_checkMaturities, h1]
    unfold Vasicek.purchase
    split <;> rfl
  · cases p <;> rfl
  · cases p <;> rfl
  · cases p <;> rfl

/-- C117. The same for the multivariate model. -/
theorem C117_multi_datetimes {n : Nat} (v : MultiVasicek n) (m : PyDatetime) (ms : List PyDatetime) (p : Option PyDatetime) :
    v.expectedStateMeanAt m.like (p.map PyDatetime.like) = v.expectedStateMean m p ∧
    v.expectedShortRateAt m.like (p.map PyDatetime.like) = v.expectedShortRate m p ∧
    v.averageExpectedShortRateAt m.like (p.map PyDatetime.like) = v.averageExpectedShortRate m p ∧
    v.stateCovarianceAt m.like (p.map PyDatetime.like) = v.stateCovariance m p ∧
    v.shortRateVarianceAt m.like (p.map PyDatetime.like) = v.shortRateVariance m p ∧
    v.priceCoeffsAt m.like (p.map PyDatetime.like) = v.priceCoeffs m p ∧
    v.zeroCouponBondPriceAt m.like (p.map PyDatetime.like) = v.zeroCouponBondPrice m p ∧
    v.priceDerivStateAt m.like (p.map PyDatetime.like) = v.priceDerivState m p ∧
    v.risklessWeightsAt (ms.map PyDatetime.like) (p.map PyDatetime.like) = v.risklessWeights ms p ∧
    v.risklessConvexityAt (ms.map PyDatetime.like) (p.map PyDatetime.like) = v.risklessConvexity ms p ∧
    v.yieldCoeffsAt m.like (p.map PyDatetime.like) = v.yieldCoeffs m p ∧
    v.zeroCouponBondYieldAt m.like (p.map PyDatetime.like) = v.zeroCouponBondYield m p ∧
    v.yieldCovarianceAt (ms.map PyDatetime.like) (p.map PyDatetime.like) = v.yieldCovariance ms p ∧
    v.yieldVolatilityAt m.like (p.map PyDatetime.like) = v.yieldVolatility m p ∧
    v.priceConvexitiesAt (ms.map PyDatetime.like) (p.map PyDatetime.like) = v.priceConvexities ms p ∧
    v.yieldConvexityAt m.like (p.map PyDatetime.like) = v.yieldConvexity m p ∧
    v.coeffDerivativesAt m.like (p.map PyDatetime.like) = v.coeffDerivatives m p ∧
    v.instantaneousForwardRateAt m.like (p.map PyDatetime.like) = v.instantaneousForwardRate m p ∧
    v.forwardCovarianceAt (ms.map PyDatetime.like) (p.map PyDatetime.like) = v.forwardCovariance ms p ∧
    v.forwardVolatilityAt m.like (p.map PyDatetime.like) = v.forwardVolatility m p ∧
    v.priceDerivMaturityAt m.like (p.map PyDatetime.like) = v.priceDerivMaturity m p := by
  have hchk : ∀ (m q : PyDatetime), MultiVasicek.checkMaturity m.like q.like = if m ≤ q then .error .valueError else .ok () := by
    intro m q
    unfold MultiVasicek.checkMaturity
    rw [like_pyLe, ok_bind]
    by_cases h : m ≤ q <;> simp [h]
  have hlist : (ms.map PyDatetime.like).length = ms.length := List.length_map _
  have have_price : ∀ (m : PyDatetime) (p : Option PyDatetime),
      v.zeroCouponBondPriceAt m.like (p.map PyDatetime.like) = v.zeroCouponBondPrice m p := by
    intro m p; cases p <;> rfl
  have have_deriv : ∀ (m : PyDatetime) (q : PyDatetime),
      v.priceDerivStateAt m.like (some q.like) = v.priceDerivState m (some q) := fun _ _ => rfl
  have have_avg : ∀ (m : PyDatetime) (p : Option PyDatetime),
      v.averageExpectedShortRateAt m.like (p.map PyDatetime.like) = v.averageExpectedShortRate m p := by
    intro m p
    unfold MultiVasicek.averageExpectedShortRateAt MultiVasicek.averageExpectedShortRate
    rw [purchaseAt_like, hchk]
    unfold MultiVasicek.purchase
    split <;> rfl
  have have_yield : ∀ (m : PyDatetime) (p : Option PyDatetime),
      v.zeroCouponBondYieldAt m.like (p.map PyDatetime.like) = v.zeroCouponBondYield m p := by
    intro m p
    unfold MultiVasicek.zeroCouponBondYieldAt MultiVasicek.zeroCouponBondYield
    rw [purchaseAt_like, hchk]
    unfold MultiVasicek.purchase
    split <;> rfl
  have have_weights : ∀ (q : PyDatetime), v.risklessWeightsAt (ms.map PyDatetime.like) (some q.like) = v.risklessWeights ms (some q) := by
    intro q
    unfold MultiVasicek.risklessWeightsAt MultiVasicek.risklessWeights
    by_cases h : ms.length = n + 1
    · rw [dif_pos h, dif_pos (hlist.trans h)]
      have h1 : (ms.map PyDatetime.like)[n]'(by omega) = (ms[n]'(by omega)).like := List.getElem_map ..
      rw [h1, ← List.map_take, collect_like (fun m => v.priceDerivStateAt m (some (v.core.purchaseAt (some q.like))))
        (fun m => v.priceDerivState m (some (v.purchase (some q)))) (fun m => rfl)]
      rfl
    · rw [dif_neg h, dif_neg (fun h' => h (hlist.symm.trans h'))]
  refine ⟨?_, ?_, have_avg m p, ?_, ?_, ?_, have_price m p, ?_, ?_, ?_, ?_, have_yield m p, ?_, ?_, ?_, ?_, ?_, ?_, ?_, ?_, ?_⟩
  · cases p <;> rfl
  · cases p <;> rfl
  · cases p <;> rfl
  · cases p <;> rfl
  · cases p <;> rfl
  · cases p <;> rfl
  · cases p with
    | none => exact have_weights v.core.bm.start
    | some q => exact have_weights q
  · have h1 : ∀ ws : List ℝ, ws.zip (ms.map PyDatetime.like) = (ws.zip ms).map fun wm => (wm.1, wm.2.like) := by
      intro ws; rw [List.zip_map_right]; rfl
    have h2 : ∀ l : List (ℝ × PyDatetime), collect (fun wm : ℝ × DateLike => v.convexityTermAt (p.map PyDatetime.like) wm.1 wm.2)
        (l.map fun wm => (wm.1, wm.2.like)) = collect (fun wm : ℝ × PyDatetime => v.convexityTerm p wm.1 wm.2) l := by
      intro l
      induction l with
      | nil => rfl
      | cons x l ih =>
        have : v.convexityTermAt (p.map PyDatetime.like) x.1 x.2.like = v.convexityTerm p x.1 x.2 := by cases p <;> rfl
        rw [List.map_cons, collect, collect, ih]
        dsimp only
        rw [this]
    unfold MultiVasicek.risklessConvexityAt MultiVasicek.risklessConvexity
    rw [purchaseAt_like, have_weights]
    simp only [h1, h2]
    rfl
  · cases p <;> rfl
  · have h1 : ∀ q : Option PyDatetime, collect (fun m => v.yieldCoeffsAt m (some (v.core.purchaseAt (q.map PyDatetime.like))))
        (ms.map PyDatetime.like) = collect (fun m => v.yieldCoeffs m (some (v.purchase q))) ms :=
      fun q => collect_like _ _ (fun m => by cases q <;> rfl) ms
    unfold MultiVasicek.yieldCovarianceAt MultiVasicek.yieldCovariance
    rw [h1]
  · cases p <;> rfl
  · have h1 : collect (v.priceConvexityAt (p.map PyDatetime.like)) (ms.map PyDatetime.like) = collect (v.priceConvexity p) ms :=
      collect_like _ _ (fun m => by cases p <;> rfl) ms
    unfold MultiVasicek.priceConvexitiesAt MultiVasicek.priceConvexities
    rw [purchaseAt_like, like_checkMaturities, h1]
    unfold MultiVasicek.purchase
    split <;> rfl
  · unfold MultiVasicek.yieldConvexityAt MultiVasicek.yieldConvexity
    have hy := have_yield m (some (v.purchase p))
    have ha := have_avg m (some (v.purchase p))
    rw [purchaseAt_like, hchk]
    unfold MultiVasicek.purchase at hy ha ⊢
    rw [show (some (p.getD v.core.bm.start).like) = (some (p.getD v.core.bm.start)).map PyDatetime.like from rfl, hy, ha]
    split <;> rfl
  · cases p <;> rfl
  · cases p <;> rfl
  · have h1 : ∀ q : Option PyDatetime, collect (fun m => v.coeffDerivativesAt m (some (v.core.purchaseAt (q.map PyDatetime.like))))
        (ms.map PyDatetime.like) = collect (fun m => v.coeffDerivatives m (some (v.purchase q))) ms :=
      fun q => collect_like _ _ (fun m => by cases q <;> rfl) ms
    unfold MultiVasicek.forwardCovarianceAt MultiVasicek.forwardCovariance
    rw [h1, purchaseAt_like, like_checkMaturities]
    unfold MultiVasicek.purchase
    split <;> rfl
  · have h2 := like_checkMaturities [m] (p.getD v.core.bm.start)
    have h3 : ([m] = [] ∨ ∃ x ∈ [m], x ≤ p.getD v.core.bm.start) ↔ m ≤ p.getD v.core.bm.start := by simp
    unfold MultiVasicek.forwardVolatilityAt MultiVasicek.forwardVolatility
    rw [purchaseAt_like, show [m.like] = [m].map PyDatetime.like from rfl, h2]
    simp only [h3]
    unfold MultiVasicek.purchase
    split <;> rfl
  · cases p <;> rfl

/-- C117. Under the conventions with a fixed year, a date counts as its midnight at either end of the interval. -/
theorem C117_time {p : Nat} (m : ShortRateModel p) (q : ℚ) (hq : FixedDenominator m.bm.dcc = some q) (d : PyDate)
    (hd : d.ord < PyDate.maxOrd) (x : DateLike) (hx : x.day.ord < PyDate.maxOrd) :
    m.timeAt x (.date d) = m.timeAt x (midnight d).like ∧ m.timeAt (.date d) x = m.timeAt (midnight d).like x := by
  have key : ∀ a b a' b' : DateLike, a.instant = a'.instant → b.instant = b'.instant →
      a.day.ord < PyDate.maxOrd → b.day.ord < PyDate.maxOrd → a'.day.ord < PyDate.maxOrd → b'.day.ord < PyDate.maxOrd →
      m.timeAt a b = m.timeAt a' b' := by
    intro a b a' b' ha hb h1 h2 h3 h4
    unfold ShortRateModel.timeAt
    by_cases h : a.instant ≤ b.instant
    · rw [C16_act_fixed_datetimes _ q hq a b h (fun _ => h1) (fun _ => h2),
        C16_act_fixed_datetimes _ q hq a' b' (by rw [← ha, ← hb]; exact h) (fun _ => h3) (fun _ => h4), ha, hb]
    · unfold computeAccrualLength
      rw [if_neg (fun hc => h (checkDates_iff.1 hc)), if_neg (fun hc => h (by rw [ha, hb]; exact checkDates_iff.1 hc))]
  exact ⟨key _ _ _ _ rfl (midnight_instant d).symm hx hd hx hd, key _ _ _ _ (midnight_instant d).symm rfl hd hx hd hx⟩

/-- C117. One-factor model, a convention with a fixed year: every quantity but the price convexities is, for a plain maturity date, the
one for midnight of that date, whatever the purchase date. -/
theorem C117_midnight_partial (v : Vasicek) (q : ℚ) (hq : FixedDenominator v.core.bm.dcc = some q) (d : PyDate)
    (hd : d.ord < PyDate.maxOrd) (p : Option DateLike) (hp : (v.core.purchaseAt p).day.ord < PyDate.maxOrd)
    (hs : v.core.bm.start.day.ord < PyDate.maxOrd) :
    v.shortRateVarianceAt (.date d) p = v.shortRateVarianceAt (midnight d).like p ∧
    v.expectedShortRateAt (.date d) p = v.expectedShortRateAt (midnight d).like p ∧
    v.priceCoeffsAt (.date d) p = v.priceCoeffsAt (midnight d).like p ∧
    v.priceCoeffDerivativesAt (.date d) p = v.priceCoeffDerivativesAt (midnight d).like p ∧
    v.yieldCoeffsAt (.date d) = v.yieldCoeffsAt (midnight d).like ∧
    v.zeroCouponBondPriceAt (.date d) p = v.zeroCouponBondPriceAt (midnight d).like p ∧
    v.zeroCouponYieldAt (.date d) p = v.zeroCouponYieldAt (midnight d).like p ∧
    v.yieldConvexityAt (.date d) = v.yieldConvexityAt (midnight d).like ∧
    v.yieldVolatilityAt (.date d) = v.yieldVolatilityAt (midnight d).like ∧
    v.instantaneousForwardRateAt (.date d) p = v.instantaneousForwardRateAt (midnight d).like p ∧
    v.forwardRateVolatilityAt (.date d) p = v.forwardRateVolatilityAt (midnight d).like p ∧
    v.averageExpectedShortRateAt (.date d) p = v.averageExpectedShortRateAt (midnight d).like p := by
  have t1 := (C117_time v.core q hq d hd _ hp).1
  have t2 := (C117_time v.core q hq d hd v.core.bm.start.like hs).1
  have h0 : v.core.purchaseAt none = v.core.bm.start.like := rfl
  have hself : v.core.purchaseAt (some (v.core.purchaseAt p)) = v.core.purchaseAt p := rfl
  have c0 : v.priceCoeffsAt (.date d) none = v.priceCoeffsAt (midnight d).like none := by
    unfold Vasicek.priceCoeffsAt; rw [h0, t2]
  have c1 : v.priceCoeffsAt (.date d) (some (v.core.purchaseAt p)) = v.priceCoeffsAt (midnight d).like (some (v.core.purchaseAt p)) := by
    unfold Vasicek.priceCoeffsAt; rw [hself, t1]
  have y0 : v.yieldCoeffsAt (.date d) = v.yieldCoeffsAt (midnight d).like := by unfold Vasicek.yieldCoeffsAt; rw [t2]
  have d0 : ∀ p', v.core.purchaseAt p' = v.core.purchaseAt p →
      v.priceCoeffDerivativesAt (.date d) p' = v.priceCoeffDerivativesAt (midnight d).like p' := by
    intro p' hp'; unfold Vasicek.priceCoeffDerivativesAt; rw [hp', t1]
  refine ⟨?_, ?_, ?_, d0 p rfl, y0, ?_, ?_, ?_, ?_, ?_, ?_, ?_⟩
  · unfold Vasicek.shortRateVarianceAt; rw [t1]
  · unfold Vasicek.expectedShortRateAt; rw [t1]
  · unfold Vasicek.priceCoeffsAt; rw [t1]
  · unfold Vasicek.zeroCouponBondPriceAt; rw [c0]
  · unfold Vasicek.zeroCouponYieldAt; rw [y0]
  · unfold Vasicek.yieldConvexityAt; rw [t2, c0]
  · unfold Vasicek.yieldVolatilityAt; rw [t2, c0]
  · unfold Vasicek.instantaneousForwardRateAt; rw [d0 _ hself]
  · unfold Vasicek.forwardRateVolatilityAt; rw [t1]
  · unfold Vasicek.averageExpectedShortRateAt; rw [c1, t1]

/-- C117. Multivariate model: the quantities that do not compare the dates. -/
theorem C117_multi_midnight_partial {n : Nat} (v : MultiVasicek n) (q : ℚ) (hq : FixedDenominator v.core.bm.dcc = some q) (d : PyDate)
    (hd : d.ord < PyDate.maxOrd) (p : Option DateLike) (hp : (v.core.purchaseAt p).day.ord < PyDate.maxOrd) :
    v.expectedStateMeanAt (.date d) p = v.expectedStateMeanAt (midnight d).like p ∧
    v.expectedShortRateAt (.date d) p = v.expectedShortRateAt (midnight d).like p ∧
    v.stateCovarianceAt (.date d) p = v.stateCovarianceAt (midnight d).like p ∧
    v.shortRateVarianceAt (.date d) p = v.shortRateVarianceAt (midnight d).like p ∧
    v.priceCoeffsAt (.date d) p = v.priceCoeffsAt (midnight d).like p ∧
    v.zeroCouponBondPriceAt (.date d) p = v.zeroCouponBondPriceAt (midnight d).like p ∧
    v.priceDerivStateAt (.date d) p = v.priceDerivStateAt (midnight d).like p ∧
    v.yieldCoeffsAt (.date d) p = v.yieldCoeffsAt (midnight d).like p ∧
    v.yieldVolatilityAt (.date d) p = v.yieldVolatilityAt (midnight d).like p ∧
    v.coeffDerivativesAt (.date d) p = v.coeffDerivativesAt (midnight d).like p ∧
    v.instantaneousForwardRateAt (.date d) p = v.instantaneousForwardRateAt (midnight d).like p ∧
    v.priceDerivMaturityAt (.date d) p = v.priceDerivMaturityAt (midnight d).like p := by
  have key : ∀ p', v.core.purchaseAt p' = v.core.purchaseAt p →
      v.core.timeAt (v.core.purchaseAt p') (.date d) = v.core.timeAt (v.core.purchaseAt p') (midnight d).like := by
    intro p' hp'; rw [hp']; exact (C117_time v.core q hq d hd _ hp).1
  have hself : v.core.purchaseAt (some (v.core.purchaseAt p)) = v.core.purchaseAt p := rfl
  have m0 : v.expectedStateMeanAt (.date d) p = v.expectedStateMeanAt (midnight d).like p := by
    unfold MultiVasicek.expectedStateMeanAt; rw [key p rfl]
  have s0 : ∀ p', v.core.purchaseAt p' = v.core.purchaseAt p →
      v.stateCovarianceAt (.date d) p' = v.stateCovarianceAt (midnight d).like p' := by
    intro p' hp'; unfold MultiVasicek.stateCovarianceAt; rw [key p' hp']
  have c0 : ∀ p', v.core.purchaseAt p' = v.core.purchaseAt p →
      v.priceCoeffsAt (.date d) p' = v.priceCoeffsAt (midnight d).like p' := by
    intro p' hp'; unfold MultiVasicek.priceCoeffsAt; rw [key p' hp']
  have z0 : ∀ p', v.core.purchaseAt p' = v.core.purchaseAt p →
      v.zeroCouponBondPriceAt (.date d) p' = v.zeroCouponBondPriceAt (midnight d).like p' := by
    intro p' hp'; unfold MultiVasicek.zeroCouponBondPriceAt; rw [hp', c0 _ hself]
  have y0 : ∀ p', v.core.purchaseAt p' = v.core.purchaseAt p →
      v.yieldCoeffsAt (.date d) p' = v.yieldCoeffsAt (midnight d).like p' := by
    intro p' hp'; unfold MultiVasicek.yieldCoeffsAt; rw [hp', c0 _ hself, (C117_time v.core q hq d hd _ hp).1]
  have d0 : ∀ p', v.core.purchaseAt p' = v.core.purchaseAt p →
      v.coeffDerivativesAt (.date d) p' = v.coeffDerivativesAt (midnight d).like p' := by
    intro p' hp'; unfold MultiVasicek.coeffDerivativesAt; rw [key p' hp']
  refine ⟨m0, ?_, s0 p rfl, ?_, c0 p rfl, z0 p rfl, ?_, y0 p rfl, ?_, d0 p rfl, ?_, ?_⟩
  · unfold MultiVasicek.expectedShortRateAt; rw [m0]
  · unfold MultiVasicek.shortRateVarianceAt; rw [s0 _ hself]
  · unfold MultiVasicek.priceDerivStateAt; rw [z0 _ hself, c0 _ hself]
  · unfold MultiVasicek.yieldVolatilityAt; rw [y0 _ hself]
  · unfold MultiVasicek.instantaneousForwardRateAt; rw [d0 _ hself]
  · unfold MultiVasicek.priceDerivMaturityAt; rw [d0 _ hself, z0 _ hself]

/-- C117. Under ACT/ACT a plain date is better than its midnight: the accrual from a datetime to a date is the exact distance on the
axis of calendar years, without the correction of `C104_value`. -/
theorem C117_act_act (s : PyDatetime) (e s' : PyDate) (h : s ≤ midnight e) (hy : 2 ≤ s.day.year) (hs : s'.ord = s.day.ord + 1) :
    computeAccrualLength s.like (.date e) .actAct = .ok (yearCoord e - yearTime s s') := by
  have hd : s.day ≤ e := by
    rw [PyDatetime.le_iff] at h
    unfold PyDatetime.instant midnight at h
    have := s.bounds
    rw [PyDate.le_iff]
    dsimp only at h
    omega
  have yearle : ∀ {a b : PyDate}, a ≤ b → a.year ≤ b.year := by
    intro a b hab
    rw [← not_lt, PyDate.lt_iff_lex] at hab
    omega
  have y1 := yearle hd
  have y2 : s.day.year ≤ s'.year := yearle (by rw [PyDate.le_iff]; omega)
  have h1 : s.day.addDays 1 = .ok s' := PyDate.addDays_ok.2 hs
  unfold computeAccrualLength
  rw [if_pos (checkDates_iff.2 (by exact h))]
  simp only
  simp only [includeDatetimes, PyDatetime.like, DateLike.isDatetime, DateLike.day, DateLike.instant, DateLike.micros,
      Bool.true_eq_false, if_true]
  rw [if_neg (by simp), if_neg (by simp), h1]
  simp only [ok_bind]
  rw [actAct_eq (by omega) (by omega), ok_bind, actAct_eq (by omega) (by omega), ok_bind, hs,
      pyDiv_of_ne (by push_cast; ring_nf; norm_num), ok_bind]
  congr 1
  rw [yearCoord_next hs]
  unfold yearTime dayFraction
  have p1 := yearLength_pos s'.year
  push_cast
  field_simp
  ring

/-- C117. … so date and midnight differ there by half the difference of the two day lengths times the rest of the first day. -/
theorem C117_act_act_gap (s : PyDatetime) (e s' e' : PyDate) (h : s ≤ midnight e) (hy : 2 ≤ s.day.year) (hs : s'.ord = s.day.ord + 1)
    (he : e'.ord = e.ord + 1) : ∃ x y, computeAccrualLength s.like (.date e) .actAct = .ok x ∧ dtAccrual s (midnight e) .actAct = .ok y ∧
      y - x = (1 / (yearLength e'.year : ℚ) - 1 / (yearLength s'.year : ℚ)) / 2 * (1 - dayFraction s) := by
  refine ⟨_, _, C117_act_act s e s' h hy hs, C104_value s (midnight e) s' e' h hy hs he, ?_⟩
  have h0 : dayFraction (midnight e) = 0 := by simp [dayFraction, midnight]
  have h1 : yearTime (midnight e) e' = yearCoord e := by unfold yearTime; rw [h0]; simp [midnight]
  rw [h0, h1]; ring

/-- A date among the maturities, and a datetime to compare them with. -/
theorem checkMaturities_mixed (l : List DateLike) (p : PyDatetime) (h : ∃ d, DateLike.date d ∈ l) :
    DateLike.checkMaturities l p.like = .error .typeError := by
  have key : ∀ (l : List DateLike) (b : DateLike), (DateLike.minLoop b l = .error .typeError ∨
      ∃ m, DateLike.minLoop b l = .ok m ∧ m.isDatetime = b.isDatetime ∧ ∀ x ∈ l, x.isDatetime = b.isDatetime) := by
    intro l
    induction l with
    | nil => intro b; exact Or.inr ⟨b, rfl, rfl, by simp⟩
    | cons x l ih =>
      intro b
      unfold DateLike.minLoop
      by_cases hx : x.isDatetime = b.isDatetime
      · rw [if_pos hx]
        have hb : (if x.instant < b.instant then x else b).isDatetime = b.isDatetime := by split <;> simp [hx]
        rcases ih (if x.instant < b.instant then x else b) with h1 | ⟨m, h1, h2, h3⟩
        · exact Or.inl h1
        · refine Or.inr ⟨m, h1, h2.trans hb, fun y hy => ?_⟩
          rcases List.mem_cons.1 hy with rfl | hy
          · exact hx
          · exact (h3 y hy).trans hb
      · rw [if_neg hx]; exact Or.inl rfl
  obtain ⟨d, hd⟩ := h
  cases l with
  | nil => cases hd
  | cons b l =>
    unfold DateLike.checkMaturities DateLike.pyMin
    dsimp only
    rcases key l b with h1 | ⟨m, h1, h2, h3⟩
    · rw [h1]; rfl
    · rw [h1, ok_bind]
      have hm : m.isDatetime = false := by
        rcases List.mem_cons.1 hd with h4 | h4
        · rw [h2, ← h4]; rfl
        · rw [h2, ← h3 _ h4]; rfl
      unfold DateLike.pyLe
      rw [hm, if_neg (by simp [PyDatetime.like, DateLike.isDatetime])]
      rfl

/-- C117. The price convexities compare maturity and purchase date, and fail with a TypeError for a plain maturity date, with the
default purchase date or a given datetime. -/
theorem C117_compare_raises (v : Vasicek) (d : PyDate) (ms : List DateLike) (h : .date d ∈ ms) (p : Option PyDatetime) :
    v.priceConvexitiesAt ms (p.map PyDatetime.like) = .error .typeError := by
  unfold Vasicek.priceConvexitiesAt; rw [purchaseAt_like, checkMaturities_mixed _ _ ⟨d, h⟩]; rfl

/-- C117. So do those methods of the multivariate model that compare the dates. -/
theorem C117_multi_compare_raises {n : Nat} (w : MultiVasicek n) (d : PyDate) (ms : List DateLike) (h : .date d ∈ ms)
    (p : Option PyDatetime) :
    w.averageExpectedShortRateAt (.date d) (p.map PyDatetime.like) = .error .typeError ∧
    w.zeroCouponBondYieldAt (.date d) (p.map PyDatetime.like) = .error .typeError ∧
    w.yieldConvexityAt (.date d) (p.map PyDatetime.like) = .error .typeError ∧
    w.priceConvexitiesAt ms (p.map PyDatetime.like) = .error .typeError ∧
    w.forwardCovarianceAt ms (p.map PyDatetime.like) = .error .typeError ∧
    w.forwardVolatilityAt (.date d) (p.map PyDatetime.like) = .error .typeError := by
  have hc : ∀ q : PyDatetime, MultiVasicek.checkMaturity (.date d) q.like = .error .typeError := fun q => rfl
  refine ⟨?_, ?_, ?_, ?_, ?_, ?_⟩
  · unfold MultiVasicek.averageExpectedShortRateAt; rw [purchaseAt_like, hc]; rfl
  · unfold MultiVasicek.zeroCouponBondYieldAt; rw [purchaseAt_like, hc]; rfl
  · unfold MultiVasicek.yieldConvexityAt; rw [purchaseAt_like, hc]; rfl
  · unfold MultiVasicek.priceConvexitiesAt; rw [purchaseAt_like, checkMaturities_mixed _ _ ⟨d, h⟩]; rfl
  · unfold MultiVasicek.forwardCovarianceAt; rw [purchaseAt_like, checkMaturities_mixed _ _ ⟨d, h⟩]; rfl
  · unfold MultiVasicek.forwardVolatilityAt; rw [purchaseAt_like, checkMaturities_mixed _ _ ⟨d, by simp⟩]; rfl

/-- C117. A plain purchase date: no quantity that depends on the current state has a value.  Reading the state is a TypeError once a
path is set, and a ValueError before. -/
theorem C117_purchase_raises (v : Vasicek) (m : DateLike) (d : PyDate) :
    (v.core.stateAt (.date d) = if v.core.process.path.isSome then .error .typeError else .error .valueError) ∧
    (∀ r, v.expectedShortRateAt m (some (.date d)) ≠ .ok r) ∧ (∀ r, v.zeroCouponBondPriceAt m (some (.date d)) ≠ .ok r) ∧
    (∀ r, v.zeroCouponYieldAt m (some (.date d)) ≠ .ok r) ∧ (∀ r, v.instantaneousForwardRateAt m (some (.date d)) ≠ .ok r) ∧
    (∀ r, v.averageExpectedShortRateAt m (some (.date d)) ≠ .ok r) := by
  have hv : v.core.stateAt (.date d) = if v.core.process.path.isSome then .error .typeError else .error .valueError := by
    unfold ShortRateModel.stateAt; cases v.core.process.path <;> rfl
  have hv' : ∀ x, v.core.callAt (v.core.purchaseAt (some (.date d))) ≠ .ok x := by
    intro x; show v.core.callAt (.date d) ≠ _; unfold ShortRateModel.callAt; rw [hv]
    split <;> (intro h'; cases h')
  refine ⟨hv, ?_, ?_, ?_, ?_, ?_⟩
  · intro r h; unfold Vasicek.expectedShortRateAt at h; simp only [bind_ok] at h
    obtain ⟨_, -, x, hx, -⟩ := h; exact hv' x hx
  · intro r h; unfold Vasicek.zeroCouponBondPriceAt at h; simp only [bind_ok] at h
    obtain ⟨_, -, x, hx, -⟩ := h; exact hv' x hx
  · intro r h; unfold Vasicek.zeroCouponYieldAt at h; simp only [bind_ok] at h
    obtain ⟨_, -, x, hx, -⟩ := h; exact hv' x hx
  · intro r h; unfold Vasicek.instantaneousForwardRateAt at h
    split at h
    · cases h
    · simp only [bind_ok] at h
      obtain ⟨x, hx, -⟩ := h; exact hv' x hx
  · intro r h; unfold Vasicek.averageExpectedShortRateAt at h; simp only [bind_ok] at h
    obtain ⟨_, -, _, -, x, hx, -⟩ := h; exact hv' x hx

/-- C117. The same for the multivariate model. -/
theorem C117_multi_purchase_raises {n : Nat} (w : MultiVasicek n) (m : DateLike) (d : PyDate) :
    (w.core.stateAt (.date d) = if w.core.process.path.isSome then .error .typeError else .error .valueError) ∧
    (∀ r, w.expectedStateMeanAt m (some (.date d)) ≠ .ok r) ∧ (∀ r, w.expectedShortRateAt m (some (.date d)) ≠ .ok r) ∧
    (∀ r, w.averageExpectedShortRateAt m (some (.date d)) ≠ .ok r) ∧ (∀ r, w.zeroCouponBondPriceAt m (some (.date d)) ≠ .ok r) ∧
    (∀ r, w.zeroCouponBondYieldAt m (some (.date d)) ≠ .ok r) ∧ (∀ r, w.instantaneousForwardRateAt m (some (.date d)) ≠ .ok r) ∧
    (∀ r, w.priceDerivStateAt m (some (.date d)) ≠ .ok r) ∧ (∀ r, w.priceDerivMaturityAt m (some (.date d)) ≠ .ok r) := by
  have hw : w.core.stateAt (.date d) = if w.core.process.path.isSome then .error .typeError else .error .valueError := by
    unfold ShortRateModel.stateAt; cases w.core.process.path <;> rfl
  have hw' : ∀ x, w.core.stateAt (w.core.purchaseAt (some (.date d))) ≠ .ok x := by
    intro x; show w.core.stateAt (.date d) ≠ _; rw [hw]; split <;> simp
  have hz : ∀ r, w.zeroCouponBondPriceAt m (some (.date d)) ≠ .ok r := by
    intro r h; unfold MultiVasicek.zeroCouponBondPriceAt at h; simp only [bind_ok] at h
    obtain ⟨_, -, x, hx, -⟩ := h; exact hw' x hx
  have hm : ∀ r, w.expectedStateMeanAt m (some (.date d)) ≠ .ok r := by
    intro r h; unfold MultiVasicek.expectedStateMeanAt at h; simp only [bind_ok] at h
    obtain ⟨_, -, x, hx, -⟩ := h; exact hw' x hx
  refine ⟨hw, hm, ?_, ?_, hz, ?_, ?_, ?_, ?_⟩
  · intro r h; unfold MultiVasicek.expectedShortRateAt at h; simp only [bind_ok] at h
    obtain ⟨x, hx, -⟩ := h; exact hm x hx
  · intro r h; unfold MultiVasicek.averageExpectedShortRateAt at h; simp only [bind_ok] at h
    obtain ⟨_, -, _, -, x, hx, -⟩ := h; exact hw' x hx
  · intro r h; unfold MultiVasicek.zeroCouponBondYieldAt at h; simp only [bind_ok] at h
    obtain ⟨_, -, x, hx, -⟩ := h; exact hw' x hx
  · intro r h; unfold MultiVasicek.instantaneousForwardRateAt at h; simp only [bind_ok] at h
    obtain ⟨_, -, x, hx, -⟩ := h; exact hw' x hx
  · intro r h; unfold MultiVasicek.priceDerivStateAt at h; simp only [bind_ok] at h
    obtain ⟨x, hx, -⟩ := h; exact hz x hx
  · intro r h; unfold MultiVasicek.priceDerivMaturityAt at h; simp only [bind_ok] at h
    obtain ⟨_, -, x, hx, -⟩ := h; exact hz x hx

/-- Concrete case for C117: a model with a path from 1 to 3 January 2023, under ACT/365; the price of a bond due on the plain date
3 January is the one of midnight, but its price convexity is a TypeError, and a plain purchase date too. -/
example (θ k σ r : ℝ) (hk : k ≠ 0) (normals : Nat → Vec 1) : ∃ v x, MadeVasicek θ k σ v ∧
    v.zeroCouponBondPriceAt (.date (D 2023 1 3)) none = .ok x ∧ v.zeroCouponBondPrice (T 2023 1 3) none = .ok x ∧
    v.priceConvexitiesAt [.date (D 2023 1 3)] none = .error .typeError ∧
    v.core.stateAt (.date (D 2023 1 1)) = .error .typeError := by
  obtain ⟨v, hdcc, h1, h2, h3, h4, h5, -⟩ := vasicek_concrete_dcc θ k σ r hk
    { start := T 2023 1 1, stop := T 2023 1 3, chol := fun _ _ => 1, dcc := .act365, grid := none, path := none } rfl rfl rfl normals
  have hp := h1.params
  have hcoeff : ∃ c, v.priceCoeffs (T 2023 1 3) none = .ok c := by
    unfold Vasicek.priceCoeffs
    rw [show v.purchase none = v.core.bm.start from rfl, h2, h5, ok_bind, floatDiv_of_ne (by rw [hp.2.1]; exact hk), ok_bind,
      floatDiv_of_ne (by rw [hp.2.1]; simpa using hk), ok_bind]
    exact ⟨_, rfl⟩
  obtain ⟨c, hc⟩ := hcoeff
  have hx : v.zeroCouponBondPrice (T 2023 1 3) none = .ok (Real.exp (c.1 + c.2 * r)) := by
    unfold Vasicek.zeroCouponBondPrice
    rw [hc, ok_bind, show v.purchase none = v.core.bm.start from rfl, h2, h4, ok_bind]
  refine ⟨v, _, h1, ?_, hx, ?_, ?_⟩
  · have := (C117_midnight_partial v 365 (by rw [hdcc]; rfl) (D 2023 1 3) (by decide) none
      (by show v.core.bm.start.day.ord < _; rw [h2]; decide) (by rw [h2]; decide)).2.2.2.2.2.1
    rw [this, ← hx]
    exact (C117_datetimes v (T 2023 1 3) [] none).2.2.2.2.2.1
  · exact (C117_compare_raises v (D 2023 1 3) [.date (D 2023 1 3)] (by simp) none)
  · rw [(C117_purchase_raises v (.date (D 2023 1 3)) (D 2023 1 1)).1, if_pos]
    by_contra hn
    have hn : v.core.process.path = none := by simpa using hn
    unfold Vasicek.call ShortRateModel.call Diffusion.call PathCall.call at h4
    rw [hn] at h4
    cases h4

/-- Concrete case for C117 under ACT/ACT: from 30 December 2023 at noon to 1 March 2024; the date and its midnight differ. -/
example : T 2023 12 30 (micros := 43200000000) ≤ midnight (D 2024 3 1) ∧
    computeAccrualLength (T 2023 12 30 (micros := 43200000000)).like (.date (D 2024 3 1)) .actAct = .ok (184 / 1095) ∧
    dtAccrual (T 2023 12 30 (micros := 43200000000)) (midnight (D 2024 3 1)) .actAct = .ok (89791 / 534360) := by
  decide +kernel

/-- Concrete case for C117, multivariate: any model under ACT/365 that starts in 2023. -/
example {n : Nat} (μ : ℝ) (g θ : Vec n) (K S : Mat n) (eig : Eig n) (chol : Mat n) (dt : DtIncrement) :
    let bm : BrownianMotion n := { start := T 2023 1 1, stop := T 2023 1 3, chol := chol, dcc := .act365, grid := none, path := none }
    let v := MultiVasicek.init μ g θ K S eig bm dt
    v.priceCoeffsAt (.date (D 2023 1 3)) none = v.priceCoeffs (T 2023 1 3) none ∧
    v.zeroCouponBondYieldAt (.date (D 2023 1 3)) none = .error .typeError := by
  intro bm v
  refine ⟨?_, (C117_multi_compare_raises v (D 2023 1 3) [.date (D 2023 1 3)] (by simp) none).2.1⟩
  rw [(C117_multi_midnight_partial v 365 rfl (D 2023 1 3) (by decide) none
    (by show (T 2023 1 1).like.day.ord < _; decide)).2.2.2.2.1]
  exact (C117_multi_datetimes v (T 2023 1 3) [] none).2.2.2.2.2.1

end Verif.Props
