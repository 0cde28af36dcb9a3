/- Lemmas for the rounded swap and bond numbers. -/
import Verif.Lemmas.RoundedAxis
import Verif.Lemmas.PyList
import Verif.Lemmas.Except
import Verif.Model.RoundedValuation
import Mathlib.Data.List.Forall2

namespace Verif
open Verif.Spec Verif.DayCount

variable {rnd : ℚ → ℚ} {u tiny : ℚ}

theorem pyInsert_forall₂ {α κ : Type} [LinearOrder κ] {key : α → κ} {r : α → α → Prop} (hkey : ∀ a b, r a b → key a = key b)
    {a a' : α} (ha : r a a') : ∀ {l l' : List α}, List.Forall₂ r l l' → List.Forall₂ r (pyInsert key a l) (pyInsert key a' l')
  | _, _, .nil => .cons ha .nil
  | b :: l, b' :: l', .cons hb h => by
    simp only [pyInsert]
    rw [hkey a a' ha, hkey b b' hb]
    split_ifs
    · exact .cons ha (.cons hb h)
    · exact .cons hb (pyInsert_forall₂ hkey ha h)

/-- A stable sort keeps a relation between two lists that respects the sort key. -/
theorem pySorted_forall₂ {α κ : Type} [LinearOrder κ] {key : α → κ} {r : α → α → Prop} (hkey : ∀ a b, r a b → key a = key b)
    {l l' : List α} (h : List.Forall₂ r l l') : List.Forall₂ r (pySorted key l) (pySorted key l') := by
  induction h with
  | nil => exact .nil
  | cons hb _ ih => exact pyInsert_forall₂ hkey hb ih

/-- The absolute error after `k` roundings. -/
theorem near_abs {k : Nat} (hu0 : 0 ≤ u) (hu1 : u < 1) (hk : k * u ≤ 1 / 2) {X x : ℚ} (hX : 0 ≤ X) (h : Near u k X x) :
    |x - X| ≤ 2 * (k * u) * X := by
  have hb : 1 - k * u ≤ (1 - u) ^ k := by
    have := one_add_mul_le_pow (a := -u) (by linarith) k
    rw [show (1 : ℚ) - u = 1 + -u by ring]
    linarith
  have hx := h.nonneg hu1 hX
  have h1 : (1 - k * u) * X ≤ x := le_trans (mul_le_mul_of_nonneg_right hb hX) h.1
  have h2 : (1 - k * u) * x ≤ X := le_trans (mul_le_mul_of_nonneg_right hb hx) h.2
  have hku : 0 ≤ (k : ℚ) * u := by positivity
  rw [abs_le]
  constructor
  · nlinarith
  · have h3 : x ≤ 2 * X := by nlinarith
    nlinarith

/-- An accrual that the exact code computes, and that is not negative, is computed in floating point too, up to three roundings. -/
theorem rounded_accrual_ok (R : Rounding rnd u tiny) {s e : PyDate} {dcc : DayCountConvention} {x : ℚ}
    (h : DayCount.accrual s e dcc = .ok x) (hx : 0 ≤ x) :
    ∃ y, Rounded.accrual rnd s e dcc = .ok y ∧ Near u 3 x y ∧ (x = 0 ∨ 1 / 366 ≤ x) ∧ x ≤ 20000 := by
  have hse : s ≤ e := by
    by_contra hc
    rw [accrual_gt (not_le.1 hc) dcc] at h; cases h
  have hok : AxisOk dcc s := by
    rintro rfl
    rw [accrual_eq hse] at h
    simp only [actAct] at h
    rw [bind_ok] at h; obtain ⟨_, -, h⟩ := h
    rw [bind_ok] at h; obtain ⟨y, hy, -⟩ := h
    by_contra hc
    have hb := s.bounds
    have h1 : s.year = 1 := by omega
    rw [h1] at hy
    have hbad : PyDate.mk? (1 - 1) 12 31 = .error .valueError := by decide +kernel
    rw [hbad] at hy; cases hy
  rcases hτ : timeAxis dcc with _ | τ
  · have hd : dcc = .thirty360 ∨ dcc = .unknown := by cases dcc <;> simp [timeAxis] at hτ <;> simp
    rcases hd with rfl | rfl
    · rw [accrual_eq hse] at h
      injection h with h
      have hn : 0 ≤ thirty360Days s e := by
        by_contra hc
        have : (thirty360Days s e : ℚ) ≤ -1 := by exact_mod_cast (by omega : thirty360Days s e ≤ -1)
        rw [← h] at hx
        have h0 : (thirty360Days s e : ℚ) / 360 < 0 := by linarith
        exact absurd hx (not_le.2 h0)
      have hor : x = 0 ∨ 1 / 360 ≤ x := by
        rcases hn.lt_or_eq with h1 | h1
        · right
          rw [← h]
          have : (1 : ℚ) ≤ thirty360Days s e := by exact_mod_cast h1
          show (1 : ℚ) / 360 ≤ (thirty360Days s e : ℚ) / 360
          linarith
        · left; rw [← h, ← h1]; simp
      have hor' : x = 0 ∨ tiny ≤ x := hor.imp id (fun h1 => by
        have h2 := R.tiny_small
        have h3 : (1 : ℚ) / 2 ^ 100 ≤ 1 / 360 := by norm_num
        linarith)
      refine ⟨rnd x, ?_, (R.near hor').weaken R.u_nonneg R.u_lt (by norm_num) hx (R.nonneg hx), hor.imp id (fun h1 => by linarith), ?_⟩
      swap
      · have hb : thirty360Days s e ≤ 3600000 := by
          have b1 := s.bounds
          have b2 := e.bounds
          have b3 := daysInMonth_bounds e.year e.month
          have b4 := daysInMonth_bounds s.year s.month
          unfold thirty360Days
          dsimp only
          split_ifs <;> omega
        have : (thirty360Days s e : ℚ) ≤ 3600000 := by exact_mod_cast hb
        rw [← h]
        show (thirty360Days s e : ℚ) / 360 ≤ 20000
        linarith
      unfold Rounded.accrual
      rw [if_pos hse, ← h]
    · rw [accrual_eq hse] at h; cases h
  · rw [accrual_axis hτ hse hok] at h
    injection h with h
    obtain ⟨y, hy, hn⟩ := rounded_accrual R hτ hse hok
    rw [h] at hn
    refine ⟨y, hy, hn, ?_, by linarith [axis_bounds hτ s, axis_bounds hτ e, (axis_bounds hτ s).1, (axis_bounds hτ e).2]⟩
    rcases lt_or_eq_of_le hse with h1 | rfl
    · right
      have := axis_gap hτ h1
      linarith
    · left; rw [← h]; ring

end Verif
