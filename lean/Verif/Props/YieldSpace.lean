/- Property C91: discount factors of a curve of continuously compounded yields. -/
import Verif.Props.NoArbitrage

namespace Verif.Props
open Verif Verif.Spec Verif.DayCount

/-! ## C91 -/

/-- What a curve of yields gives for a unit payment: the exponential of minus yield times time. -/
theorem yieldSpace_value (exp : ℚ → ℚ) (values : List Knot) (m : InterpolationMethod) (hm : Interpolates m values.length)
    (dcc : DayCountConvention) (ref : PyDate) (l r : EndBehavior) (h : CurveInput values dcc ref)
    (hl : l = .constant ∨ ∃ k ∈ values, k.date = ref) (τ : PyDate → ℚ) (hτ : timeAxis dcc = some τ)
    (yc yc' : YieldCurve)
    (hyc : YieldCurve.create values [] m dcc .continuouslyCompoundedYield ref l r = .ok yc) (hu : Used exp yc yc')
    (d : PyDate) (hd1 : ref ≤ d) (hd2 : ∃ k ∈ values, d ≤ k.date) :
    ∃ y, yc.base.call d = .ok y ∧
      (yc'.presentValue exp (ZeroCoupon.presentValue d) noAdjustment).1 = .ok (exp (-(y * (τ d - τ ref)))) := by
  obtain ⟨y, hy, hpv⟩ := C29_yield_space exp values m hm dcc ref l r h hl τ hτ yc yc' hyc hu noAdjustment (fun _ => 0)
    (fun _ => rfl) d hd1 hd2
  refine ⟨y, hy, ?_⟩
  rw [hpv]
  congr 2
  ring

/-- C91. Nonnegative yields give discount factors in (0, 1] (`exp` is any positive nondecreasing function with value 1 at 0). -/
theorem C91_bounds (exp : ℚ → ℚ) (hexp : Monotone exp) (hpos : ∀ x, 0 < exp x) (h0 : exp 0 = 1)
    (values : List Knot) (m : InterpolationMethod) (hm : m = .linear ∨ m = .previous)
    (dcc : DayCountConvention) (ref : PyDate) (l r : EndBehavior) (h : CurveInput values dcc ref)
    (hl : l = .constant ∨ ∃ k ∈ values, k.date = ref) (yc yc' : YieldCurve)
    (hyc : YieldCurve.create values [] m dcc .continuouslyCompoundedYield ref l r = .ok yc) (hu : Used exp yc yc')
    (hy : ∀ k ∈ values, 0 ≤ k.value) (d : PyDate) (hd1 : ref ≤ d) (hd2 : ∃ k ∈ values, d ≤ k.date) :
    ∃ v, (yc'.presentValue exp (ZeroCoupon.presentValue d) noAdjustment).1 = .ok v ∧ 0 < v ∧ v ≤ 1 := by
  obtain ⟨τ, hτ⟩ := h.axis
  obtain ⟨y, hcall, hpv⟩ := yieldSpace_value exp values m (.basic hm _) dcc ref l r h hl τ hτ yc yc' hyc hu d hd1 hd2
  obtain ⟨_, base, hbase, rfl⟩ := settings_create (exp := exp) hyc
  refine ⟨_, hpv, hpos _, ?_⟩
  rw [← h0]
  apply hexp
  obtain ⟨B, hB⟩ : ∃ B, ∀ k ∈ values, k.value ≤ B := by
    obtain ⟨k, hk⟩ := List.exists_mem_of_ne_nil _ h.nonempty
    obtain ⟨x, _, hx⟩ := Finset.exists_max_image values.toFinset Knot.value ⟨k, by simp [hk]⟩
    exact ⟨x.value, fun k hk => hx k (by simp [hk])⟩
  have hy0 := (C90_bounds values m hm dcc ref l r h base hbase 0 B (fun k hk => ⟨hy k hk, hB k hk⟩) d y hcall).1
  have ht : 0 ≤ τ d - τ ref := by
    rcases eq_or_lt_of_le hd1 with he | he
    · rw [he]; simp
    · have := axis_strictMono hτ he; linarith
  have := mul_nonneg hy0 ht
  linarith

/-- C91. A later unit payment is worth no more than an earlier one exactly when the product of yield and time has not decreased. -/
theorem C91_decreasing_iff (exp : ℚ → ℚ) (hexp : StrictMono exp) (values : List Knot) (m : InterpolationMethod)
    (hm : Interpolates m values.length) (dcc : DayCountConvention) (ref : PyDate) (l r : EndBehavior)
    (h : CurveInput values dcc ref) (hl : l = .constant ∨ ∃ k ∈ values, k.date = ref) (τ : PyDate → ℚ)
    (hτ : timeAxis dcc = some τ) (yc yc' : YieldCurve)
    (hyc : YieldCurve.create values [] m dcc .continuouslyCompoundedYield ref l r = .ok yc) (hu : Used exp yc yc')
    (d e : PyDate) (hd1 : ref ≤ d) (hde : d ≤ e) (he : ∃ k ∈ values, e ≤ k.date) :
    ∃ y z v w, yc.base.call d = .ok y ∧ yc.base.call e = .ok z ∧
      (yc'.presentValue exp (ZeroCoupon.presentValue d) noAdjustment).1 = .ok v ∧
      (yc'.presentValue exp (ZeroCoupon.presentValue e) noAdjustment).1 = .ok w ∧
      (w ≤ v ↔ y * (τ d - τ ref) ≤ z * (τ e - τ ref)) := by
  have hd2 : ∃ k ∈ values, d ≤ k.date := by obtain ⟨k, hk, hke⟩ := he; exact ⟨k, hk, hde.trans hke⟩
  obtain ⟨y, hcall, hpv⟩ := yieldSpace_value exp values m hm dcc ref l r h hl τ hτ yc yc' hyc hu d hd1 hd2
  obtain ⟨z, hcall', hpv'⟩ := yieldSpace_value exp values m hm dcc ref l r h hl τ hτ yc yc' hyc hu e (hd1.trans hde) he
  refine ⟨y, z, _, _, hcall, hcall', hpv, hpv', ?_⟩
  rw [hexp.le_iff_le]
  constructor <;> intro hh <;> linarith

/-- C91, where it holds: nonnegative yields that do not decrease with maturity give discount factors that do not increase.
Missing: yields that fall with maturity, see `C91_falling_yields_false`. -/
theorem C91_rising_yields_partial (exp : ℚ → ℚ) (hexp : Monotone exp) (values : List Knot) (m : InterpolationMethod)
    (hm : m = .linear ∨ m = .previous) (dcc : DayCountConvention) (ref : PyDate) (l r : EndBehavior)
    (h : CurveInput values dcc ref) (hl : l = .constant ∨ ∃ k ∈ values, k.date = ref) (yc yc' : YieldCurve)
    (hyc : YieldCurve.create values [] m dcc .continuouslyCompoundedYield ref l r = .ok yc) (hu : Used exp yc yc')
    (hy : ∀ k ∈ values, 0 ≤ k.value) (hmono : ∀ a ∈ values, ∀ b ∈ values, a.date ≤ b.date → a.value ≤ b.value)
    (d e : PyDate) (hd1 : ref ≤ d) (hde : d ≤ e) (he : ∃ k ∈ values, e ≤ k.date) :
    ∃ v w, (yc'.presentValue exp (ZeroCoupon.presentValue d) noAdjustment).1 = .ok v ∧
      (yc'.presentValue exp (ZeroCoupon.presentValue e) noAdjustment).1 = .ok w ∧ w ≤ v := by
  obtain ⟨τ, hτ⟩ := h.axis
  have hd2 : ∃ k ∈ values, d ≤ k.date := by obtain ⟨k, hk, hke⟩ := he; exact ⟨k, hk, hde.trans hke⟩
  obtain ⟨y, hcall, hv⟩ := yieldSpace_value exp values m (.basic hm _) dcc ref l r h hl τ hτ yc yc' hyc hu d hd1 hd2
  obtain ⟨z, hcall', hw⟩ := yieldSpace_value exp values m (.basic hm _) dcc ref l r h hl τ hτ yc yc' hyc hu e (hd1.trans hde) he
  refine ⟨_, _, hv, hw, hexp (neg_le_neg ?_)⟩
  obtain ⟨_, base, hbase, rfl⟩ := settings_create (exp := exp) hyc
  have hyz := C90_increasing values m hm dcc ref l r h base hbase hmono d e hde y z hcall hcall'
  obtain ⟨B, hB⟩ : ∃ B, ∀ k ∈ values, k.value ≤ B := by
    obtain ⟨k, hk⟩ := List.exists_mem_of_ne_nil _ h.nonempty
    obtain ⟨x, _, hx⟩ := Finset.exists_max_image values.toFinset Knot.value ⟨k, by simp [hk]⟩
    exact ⟨x.value, fun k hk => hx k (by simp [hk])⟩
  have hy0 := (C90_bounds values m hm dcc ref l r h base hbase 0 B (fun k hk => ⟨hy k hk, hB k hk⟩) d y hcall).1
  have ht : 0 ≤ τ d - τ ref := by
    rcases eq_or_lt_of_le hd1 with he | he
    · rw [he]; simp
    · have := axis_strictMono hτ he; linarith
  have ht' : τ d ≤ τ e := by
    rcases eq_or_lt_of_le hde with he | he
    · rw [he]
    · exact (axis_strictMono hτ he).le
  nlinarith

/-- Yields of 10% for one year and 5.5% for two. -/
def fallingKnots : List Knot := [⟨D 2024 1 1, 1 / 10⟩, ⟨D 2024 12 31, 11 / 200⟩]

/-- C91 (failure). The two bonds behind the curve are priced without arbitrage (the later one is worth less), and yet a unit payment
on a date between them is worth less than the later payment at the second bond's maturity: interpolating yields linearly implies a
negative forward rate. -/
theorem C91_falling_yields_false (exp : ℚ → ℚ) (hexp : StrictMono exp) :
    ∃ yc, YieldCurve.create fallingKnots [] .linear .act365 .continuouslyCompoundedYield (D 2023 1 1) .constant .error = .ok yc ∧
    ∃ v u w, (yc.presentValue exp (ZeroCoupon.presentValue (D 2024 1 1)) noAdjustment).1 = .ok v ∧
      (yc.presentValue exp (ZeroCoupon.presentValue (D 2024 8 7)) noAdjustment).1 = .ok u ∧
      (yc.presentValue exp (ZeroCoupon.presentValue (D 2024 12 31)) noAdjustment).1 = .ok w ∧ w < v ∧ u < w := by
  have hin : CurveInput fallingKnots .act365 (D 2023 1 1) :=
    ⟨by decide, by decide +kernel, by decide +kernel, by decide +kernel, by decide +kernel⟩
  obtain ⟨base, hc, _⟩ := (C27_builds fallingKnots .linear .act365 .constant .error).1 _ hin
  have hyc : YieldCurve.create fallingKnots [] .linear .act365 .continuouslyCompoundedYield (D 2023 1 1) .constant .error =
      .ok ⟨base, .continuouslyCompoundedYield, none⟩ := by
    simp [fallingKnots, YieldCurve.create] at hc ⊢; rw [hc]; rfl
  obtain ⟨τ, hτ⟩ := hin.axis
  have val := fun d h1 h2 => yieldSpace_value exp fallingKnots .linear (Or.inl rfl) .act365 (D 2023 1 1) .constant .error hin
    (Or.inl rfl) τ hτ _ _ hyc Used.start d h1 h2
  obtain ⟨y1, hy1, hv⟩ := val (D 2024 1 1) (by decide +kernel) ⟨⟨D 2024 1 1, 1 / 10⟩, by simp [fallingKnots], by decide +kernel⟩
  obtain ⟨y2, hy2, hu⟩ := val (D 2024 8 7) (by decide +kernel) ⟨⟨D 2024 12 31, 11 / 200⟩, by simp [fallingKnots], by decide +kernel⟩
  obtain ⟨y3, hy3, hw⟩ := val (D 2024 12 31) (by decide +kernel) ⟨⟨D 2024 12 31, 11 / 200⟩, by simp [fallingKnots], by decide +kernel⟩
  have k1 := C27_knots fallingKnots .linear (Or.inl rfl) .act365 (D 2023 1 1) .constant .error hin base hc ⟨D 2024 1 1, 1 / 10⟩
    (by simp [fallingKnots])
  have k3 := C27_knots fallingKnots .linear (Or.inl rfl) .act365 (D 2023 1 1) .constant .error hin base hc ⟨D 2024 12 31, 11 / 200⟩
    (by simp [fallingKnots])
  obtain ⟨w2, hw2, _, _, k2⟩ := (C27_between fallingKnots .act365 (D 2023 1 1) .constant .error hin τ hτ ⟨D 2024 1 1, 1 / 10⟩
    ⟨D 2024 12 31, 11 / 200⟩ (by unfold Adjacent; decide +kernel) (D 2024 8 7) (by decide +kernel) (by decide +kernel)).1 base hc
  replace hy1 := hy1.symm.trans k1
  replace hy2 := hy2.symm.trans k2
  replace hy3 := hy3.symm.trans k3
  injection hy1 with hy1
  injection hy2 with hy2
  injection hy3 with hy3
  simp only [timeAxis, Option.some.injEq] at hτ
  subst hτ
  have t1 : ((D 2024 1 1).ord : ℚ) = 738886 := by decide +kernel
  have t0 : ((D 2023 1 1).ord : ℚ) = 738521 := by decide +kernel
  have t2 : ((D 2024 8 7).ord : ℚ) = 739105 := by decide +kernel
  have t3 : ((D 2024 12 31).ord : ℚ) = 739251 := by decide +kernel
  refine ⟨_, hyc, _, _, _, hv, hu, hw, ?_, ?_⟩
  · apply hexp
    rw [hy1, hy3]
    simp only [t0, t1, t3]
    norm_num
  · apply hexp
    rw [hy2, hy3, hw2]
    simp only [t0, t1, t2, t3]
    norm_num

/-- Rising yields meet the hypotheses of `C91_rising_yields_partial`. -/
example : (∀ k ∈ exampleKnots, 0 ≤ k.value) ∧
    (∀ a ∈ exampleKnots, ∀ b ∈ exampleKnots, a.date ≤ b.date → a.value ≤ b.value) := by
  constructor <;> decide +kernel

/-- A positive increasing function of the rationals with value one at zero, so the hypotheses on `exp` can be met. -/
example : ∃ exp : ℚ → ℚ, StrictMono exp ∧ (∀ x, 0 < exp x) ∧ exp 0 = 1 := by
  refine ⟨fun x => if x < 0 then 1 / (1 - x) else 1 + x, ?_, ?_, by simp⟩
  · intro a b hab
    simp only
    split_ifs with h1 h2 h2
    · apply one_div_lt_one_div_of_lt <;> linarith
    · rw [div_lt_iff₀ (by linarith)]; nlinarith
    · linarith
    · linarith
  · intro x
    simp only
    split_ifs with h
    · apply div_pos <;> linarith
    · linarith

end Verif.Props
