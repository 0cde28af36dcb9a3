/- Property C89: the one-month SOFR future. -/
import Verif.Model.Future
import Verif.Props.Scheduling
import Verif.Props.DayCount
import Mathlib.Tactic.Linarith

namespace Verif.Props
open Verif Verif.Spec Verif.DayCount Verif.Scheduler

/-! ## C89 -/

/-- The average of the fixings `r` over the days of `L`, each fixing in force until the next day of `L`, times the whole
length: `Σ r(d) * (τ(next d) - τ(d))`. -/
def fixingSum (τ : PyDate → ℚ) (r : PyDate → ℚ) : List PyDate → ℚ
  | a :: b :: rest => r a * (τ b - τ a) + fixingSum τ r (b :: rest)
  | _ => 0

theorem sofr_loop {dcc : DayCountConvention} {τ : PyDate → ℚ} (hτ : timeAxis dcc = some τ) {rate : PyDate → Except PyErr ℚ}
    {r : PyDate → ℚ} : ∀ (L : List PyDate) (a : PyDate) (s : ℚ × ℚ), (a :: L).Pairwise (· < ·) → (∀ d ∈ a :: L, AxisOk dcc d) →
    (∀ d ∈ (a :: L).dropLast, rate d = .ok (r d)) →
    SofrFuture.loop dcc rate (Loan.pairwise (a :: L)) s =
      .ok (s.1 + fixingSum τ r (a :: L), s.2 + (τ ((a :: L).getLast (by simp)) - τ a))
  | [], a, s, _, _, _ => by simp [Loan.pairwise, SofrFuture.loop, fixingSum]
  | b :: L, a, s, hp, hax, hr => by
    have hab : a < b := (List.pairwise_cons.1 hp).1 b (by simp)
    have hra : rate a = .ok (r a) := hr a (by simp)
    simp only [Loan.pairwise, SofrFuture.loop, SofrFuture.step]
    rw [hra, ok_bind, accrual_axis hτ (le_of_lt hab) (hax a (by simp)), ok_bind, ok_bind,
      sofr_loop hτ L b _ (List.pairwise_cons.1 hp).2 (fun d hd => hax d (by simp [List.mem_cons.1 hd]))
        (fun d hd => hr d (by rw [List.dropLast_cons_of_ne_nil (by simp)]; exact List.mem_cons_of_mem _ hd))]
    have hlast : (a :: b :: L).getLast (by simp) = (b :: L).getLast (by simp) := List.getLast_cons (by simp)
    rw [hlast]
    simp only [fixingSum]
    congr 2
    · ring
    · ring

theorem fixingSum_bounds {dcc : DayCountConvention} {τ : PyDate → ℚ} (hτ : timeAxis dcc = some τ) {r : PyDate → ℚ} {lo hi : ℚ} :
    ∀ (L : List PyDate) (a : PyDate), (a :: L).Pairwise (· < ·) → (∀ d ∈ (a :: L).dropLast, lo ≤ r d ∧ r d ≤ hi) →
    lo * (τ ((a :: L).getLast (by simp)) - τ a) ≤ fixingSum τ r (a :: L) ∧
      fixingSum τ r (a :: L) ≤ hi * (τ ((a :: L).getLast (by simp)) - τ a)
  | [], a, _, _ => by simp [fixingSum]
  | b :: L, a, hp, hr => by
    have hab : a < b := (List.pairwise_cons.1 hp).1 b (by simp)
    have ht := axis_strictMono hτ hab
    obtain ⟨i1, i2⟩ := fixingSum_bounds hτ L b (List.pairwise_cons.1 hp).2
      (fun d hd => hr d (by rw [List.dropLast_cons_of_ne_nil (by simp)]; exact List.mem_cons_of_mem _ hd))
    obtain ⟨h1, h2⟩ := hr a (by simp)
    rw [List.getLast_cons (by simp)]
    simp only [fixingSum]
    constructor
    · nlinarith
    · nlinarith

/-- C89 (failure). The settlement rate is never computed: the method raises TypeError for every future and every rate function. -/
theorem C89_settlement_raises (f : SofrFuture) (rate : PyDate → Except PyErr ℚ) :
    f.calculateSettlementRate rate = .error .typeError := rfl

/-- C89 (failure). Nor do the future's value, knot, last trading date or cashflows exist. -/
theorem C89_methods_missing (f : SofrFuture) (curve : DiscountFn) (key : Nat) :
    f.presentValue curve = none ∧ f.toKnotValuePair = none ∧ f.lastTradingDate = none ∧ f.getItem key = .error .attributeError :=
  ⟨rfl, rfl, rfl, rfl⟩

/-- C89, what the rest of the method computes for given first and last days of a month: if the month has at least two business
days, with a fixing on each but the last, the result is their accrual-weighted average from the first to the last business day;
it lies between any bounds of these fixings; and the fixing of the last business day is not used.  Missing: the dates, see
`C89_settlement_raises`; and the average stops at the last business day, not at the end of the month. -/
theorem C89_average_partial (f : SofrFuture) (τ : PyDate → ℚ) (hτ : timeAxis f.dcc = some τ) (rate : PyDate → Except PyErr ℚ)
    (r : PyDate → ℚ) (firstDay lastDay a b : PyDate) (L : List PyDate)
    (hL : generateBusinessDays f.calendar firstDay lastDay = .ok (a :: (L ++ [b]))) (hax : AxisOk f.dcc a)
    (hr : ∀ d, firstDay ≤ d → d < b → BusinessDay f.calendar d → rate d = .ok (r d)) :
    ∃ v, f.averageRate rate firstDay lastDay = .ok v ∧ a < b ∧
      (∀ d, firstDay ≤ d ∧ d ≤ lastDay ∧ BusinessDay f.calendar d ↔ d ∈ a :: (L ++ [b])) ∧
      v * (τ b - τ a) = fixingSum τ r (a :: (L ++ [b])) ∧
      ∀ lo hi, (∀ d, firstDay ≤ d → d < b → BusinessDay f.calendar d → lo ≤ r d ∧ r d ≤ hi) → lo ≤ v ∧ v ≤ hi := by
  obtain ⟨hp, hmem⟩ := C07_generate_business_days f.calendar firstDay lastDay _ hL
  have hab : a < b := (List.pairwise_cons.1 hp).1 b (by simp)
  have ht := axis_strictMono hτ hab
  have hge : ∀ d ∈ a :: (L ++ [b]), a ≤ d := by
    intro d hd
    rcases List.mem_cons.1 hd with rfl | hd
    · exact le_refl _
    · exact le_of_lt ((List.pairwise_cons.1 hp).1 d hd)
  have hdl : ∀ d ∈ (a :: (L ++ [b])).dropLast, firstDay ≤ d ∧ d < b ∧ BusinessDay f.calendar d := by
    intro d hd
    have h1 := (hmem d).1 (List.mem_of_mem_dropLast hd)
    refine ⟨h1.1, ?_, h1.2.2⟩
    have he : a :: (L ++ [b]) = (a :: L) ++ [b] := rfl
    rw [he] at hd hp
    rw [List.dropLast_concat] at hd
    exact (List.pairwise_append.1 hp).2.2 d hd b (by simp)
  have hlast : (a :: (L ++ [b])).getLast (by simp) = b := by simp
  have hloop := sofr_loop hτ (rate := rate) (r := r) (L ++ [b]) a (0, 0) hp
    (fun d hd => AxisOk_mono (hge d hd) hax) (fun d hd => hr d (hdl d hd).1 (hdl d hd).2.1 (hdl d hd).2.2)
  rw [hlast] at hloop
  have hpos : 0 < τ b - τ a := by linarith
  refine ⟨fixingSum τ r (a :: (L ++ [b])) / (τ b - τ a), ?_, hab, fun d => (hmem d).symm, div_mul_cancel₀ _ (ne_of_gt hpos), ?_⟩
  · unfold SofrFuture.averageRate
    rw [hL, ok_bind, hloop, ok_bind]
    simp only [zero_add]
    exact pyDiv_of_ne (ne_of_gt hpos)
  · intro lo hi hb
    obtain ⟨i1, i2⟩ := fixingSum_bounds hτ (r := r) (lo := lo) (hi := hi) (L ++ [b]) a hp
      (fun d hd => hb d (hdl d hd).1 (hdl d hd).2.1 (hdl d hd).2.2)
    rw [hlast] at i1 i2
    exact ⟨(le_div_iff₀ hpos).2 i1, (div_le_iff₀ hpos).2 i2⟩

/-- C89 (limit). With fewer than two business days in the interval the average divides by zero. -/
theorem C89_too_short (f : SofrFuture) (rate : PyDate → Except PyErr ℚ) (firstDay lastDay : PyDate) (L : List PyDate)
    (hL : generateBusinessDays f.calendar firstDay lastDay = .ok L) (h : L.length ≤ 1) :
    f.averageRate rate firstDay lastDay = .error .zeroDivisionError := by
  unfold SofrFuture.averageRate
  rw [hL, ok_bind]
  match L, h with
  | [], _ => rfl
  | [_], _ => rfl

/-- Concrete case for C89: the business days of the first week of February 2024 under the federal calendar. -/
example : generateBusinessDays usFederalHolidays (D 2024 2 1) (D 2024 2 7) =
    .ok (D 2024 2 1 :: ([D 2024 2 2, D 2024 2 5, D 2024 2 6] ++ [D 2024 2 7])) ∧ AxisOk .act360 (D 2024 2 1) := by
  constructor <;> decide +kernel

end Verif.Props
