/- Lemmas about the rounded accrual length. -/
import Verif.Model.Rounded
import Verif.Lemmas.Rounded
import Verif.Lemmas.DayCount
import Verif.Lemmas.Curve

namespace Verif
open Verif.Spec Verif.DayCount

/-- Consecutive dates are at least a 366th apart on every axis. -/
theorem axis_gap {dcc : DayCountConvention} {τ : PyDate → ℚ} (h : timeAxis dcc = some τ) {a b : PyDate} (hab : a < b) :
    τ a + 1 / 366 ≤ τ b := by
  have h0 : (a.ord : ℚ) + 1 ≤ b.ord := by exact_mod_cast PyDate.lt_iff.1 hab
  cases dcc <;> simp [timeAxis] at h <;> subst h
  · show (a.ord : ℚ) / 360 + 1 / 366 ≤ b.ord / 360
    linarith
  · show (a.ord : ℚ) / 365 + 1 / 366 ≤ b.ord / 365
    linarith
  · show (a.ord : ℚ) / (1461 / 4) + 1 / 366 ≤ b.ord / (1461 / 4)
    rw [div_eq_mul_inv, div_eq_mul_inv (b.ord : ℚ)]
    norm_num
    linarith
  · have hl : ∀ y : Int, (365 : ℚ) ≤ yearLength y ∧ (yearLength y : ℚ) ≤ 366 := by
      intro y; unfold yearLength; split_ifs <;> norm_num
    have hy : a.year ≤ b.year := by rw [PyDate.lt_iff_lex] at hab; omega
    rcases lt_or_eq_of_le hy with hlt | heq
    · have ha := (yearCoord_bounds a).2
      have hb := b.ord_year_bounds
      have h1 : (1 : ℚ) ≤ ((b.ord - daysBeforeYear b.year : Int) : ℚ) := by
        have : 1 ≤ b.ord - daysBeforeYear b.year := by omega
        exact_mod_cast this
      have h2 : (1 : ℚ) / 366 ≤ ((b.ord - daysBeforeYear b.year : Int) : ℚ) / yearLength b.year :=
        div_le_div₀ (by linarith) h1 (yearLength_pos _) (hl _).2
      have h3 : (a.year : ℚ) + 1 ≤ b.year := by exact_mod_cast hlt
      unfold yearCoord at ha ⊢
      linarith
    · unfold yearCoord
      rw [heq]
      have h2 : (1 : ℚ) / 366 ≤ 1 / yearLength b.year := one_div_le_one_div_of_le (yearLength_pos _) (hl _).2
      have h3 : ((a.ord - daysBeforeYear b.year : Int) : ℚ) / yearLength b.year + 1 / yearLength b.year ≤
          ((b.ord - daysBeforeYear b.year : Int) : ℚ) / yearLength b.year := by
        rw [← add_div]
        refine div_le_div_of_nonneg_right ?_ (le_of_lt (yearLength_pos _))
        push_cast
        linarith
      linarith

/-- No date is further than 20000 years along any axis. -/
theorem axis_bounds {dcc : DayCountConvention} {τ : PyDate → ℚ} (h : timeAxis dcc = some τ) (d : PyDate) :
    0 ≤ τ d ∧ τ d ≤ 20000 := by
  have ho := d.ord_bounds
  have h1 : (1 : ℚ) ≤ d.ord := by exact_mod_cast ho.1
  have h2 : (d.ord : ℚ) ≤ 3652059 := by
    have : d.ord ≤ 3652059 := ho.2
    exact_mod_cast this
  cases dcc <;> simp [timeAxis] at h <;> subst h
  · show 0 ≤ (d.ord : ℚ) / 360 ∧ (d.ord : ℚ) / 360 ≤ 20000
    constructor <;> linarith
  · show 0 ≤ (d.ord : ℚ) / 365 ∧ (d.ord : ℚ) / 365 ≤ 20000
    constructor <;> linarith
  · show 0 ≤ (d.ord : ℚ) / (1461 / 4) ∧ (d.ord : ℚ) / (1461 / 4) ≤ 20000
    rw [div_eq_mul_inv]
    norm_num
    constructor <;> linarith
  · have := yearCoord_bounds d
    have hb := d.bounds
    have h3 : (1 : ℚ) ≤ d.year := by exact_mod_cast (by omega : 1 ≤ d.year)
    have h4 : (d.year : ℚ) ≤ 9999 := by exact_mod_cast (by omega : d.year ≤ 9999)
    constructor <;> linarith

variable {rnd : ℚ → ℚ} {u tiny : ℚ}

theorem Rounded.div_of_ne {a b : ℚ} (h : b ≠ 0) : Rounded.div rnd a b = .ok (rnd (a / b)) := by
  unfold Rounded.div; rw [if_neg h]

/-- A difference of whole days over a denominator of at most 366 is 0 or not tiny. -/
theorem days_over (R : Rounding rnd u tiny) {n : Int} {q : ℚ} (hn : 0 ≤ n) (hq : 0 < q) (hq' : q ≤ 366) :
    (n : ℚ) / q = 0 ∨ tiny ≤ (n : ℚ) / q := by
  rcases lt_or_eq_of_le hn with hn | rfl
  · right
    have h1 : (1 : ℚ) ≤ n := by exact_mod_cast hn
    have h2 : (1 : ℚ) / 366 ≤ n / q := div_le_div₀ (by linarith) h1 hq hq'
    have h3 := R.tiny_small
    have h4 : (1 : ℚ) / 2 ^ 100 ≤ 1 / 366 := by norm_num
    linarith
  · left; simp

theorem yearLength_le (y : Int) : (yearLength y : ℚ) ≤ 366 := by unfold yearLength; split_ifs <;> norm_num

/-- The rounded ACT/ACT fraction. -/
theorem rounded_actAct (R : Rounding rnd u tiny) {s e : PyDate} (hse : s ≤ e) (hs : 2 ≤ s.year) :
    ∃ x, Rounded.actAct rnd s e = .ok x ∧ Near u 3 (yearCoord e - yearCoord s) x := by
  have he : 2 ≤ e.year := le_trans hs (year_mono hse)
  have hord : s.ord ≤ e.ord := PyDate.le_iff.1 hse
  have bs := s.bounds
  have be := e.bounds
  have u0 := R.u_nonneg
  have u1 := R.u_lt
  obtain ⟨a, ha⟩ := dec31_ok (y := s.year) (by omega) (by omega)
  obtain ⟨b, hb⟩ := dec31_ok (y := s.year - 1) (by omega) (by omega)
  obtain ⟨c, hc⟩ := dec31_ok (y := e.year) (by omega) (by omega)
  obtain ⟨d, hd⟩ := dec31_ok (y := e.year - 1) (by omega) (by omega)
  have oa := dec31_ord ha
  have ob := dec31_ord hb
  have oc := dec31_ord hc
  have od := dec31_ord hd
  rw [show s.year - 1 + 1 = s.year by omega] at ob
  rw [show e.year - 1 + 1 = e.year by omega] at od
  have ls := yearLength_eq s.year
  have le := yearLength_eq e.year
  have ps := yearLength_pos s.year
  have pe := yearLength_pos e.year
  have e1 : (((c.ord - d.ord : Int)) : ℚ) = yearLength e.year := by rw [oc, od, le]
  have e2 : (((a.ord - b.ord : Int)) : ℚ) = yearLength s.year := by rw [oa, ob, ls]
  have ys := s.ord_year_bounds
  have ye := e.ord_year_bounds
  unfold Rounded.actAct
  simp only [ha, hb, hc, hd, ok_bind]
  by_cases hy : s.year = e.year
  · rw [if_pos hy, e1, Rounded.div_of_ne (by linarith)]
    refine ⟨_, rfl, ?_⟩
    have hx := days_over R (n := e.ord - s.ord) (by omega) pe (yearLength_le _)
    have hnn : (0 : ℚ) ≤ ((e.ord - s.ord : Int) : ℚ) / yearLength e.year :=
      div_nonneg (by exact_mod_cast (by omega : 0 ≤ e.ord - s.ord)) (le_of_lt pe)
    have heq : yearCoord e - yearCoord s = ((e.ord - s.ord : Int) : ℚ) / yearLength e.year := by
      unfold yearCoord
      rw [hy]
      field_simp
      push_cast
      ring
    rw [heq]
    exact (R.near hx).weaken u0 u1 (by norm_num) hnn (R.nonneg hnn)
  · rw [if_neg hy, e1, e2, Rounded.div_of_ne (by linarith), ok_bind, Rounded.div_of_ne (by linarith), ok_bind]
    refine ⟨_, rfl, ?_⟩
    have hyl : s.year < e.year := lt_of_le_of_ne (year_mono hse) hy
    have heq : yearCoord e - yearCoord s = ((e.year - s.year - 1 : Int) : ℚ) +
        ((a.ord - s.ord : Int) : ℚ) / yearLength s.year + ((e.ord - d.ord : Int) : ℚ) / yearLength e.year := by
      unfold yearCoord
      rw [oa, od]
      have : daysBeforeYear (s.year + 1) = daysBeforeYear s.year + yearLength s.year := by omega
      rw [this]
      field_simp
      push_cast
      ring
    rw [heq]
    have x1 := days_over R (n := a.ord - s.ord) (by omega) ps (yearLength_le _)
    have x2 := days_over R (n := e.ord - d.ord) (by omega) pe (yearLength_le _)
    have n1 : (0 : ℚ) ≤ ((a.ord - s.ord : Int) : ℚ) / yearLength s.year :=
      div_nonneg (by exact_mod_cast (by omega : 0 ≤ a.ord - s.ord)) (le_of_lt ps)
    have n2 : (0 : ℚ) ≤ ((e.ord - d.ord : Int) : ℚ) / yearLength e.year :=
      div_nonneg (by exact_mod_cast (by omega : 0 ≤ e.ord - d.ord)) (le_of_lt pe)
    generalize hA : ((a.ord - s.ord : Int) : ℚ) / yearLength s.year = A at *
    generalize hB : ((e.ord - d.ord : Int) : ℚ) / yearLength e.year = B at *
    have hw : (0 : Int) ≤ e.year - s.year - 1 := by omega
    have hwq : (0 : ℚ) ≤ ((e.year - s.year - 1 : Int) : ℚ) := by exact_mod_cast hw
    have rA := R.nonneg n1
    have rB := R.nonneg n2
    have w0 : Near u 1 ((e.year - s.year - 1 : Int) : ℚ) ((e.year - s.year - 1 : Int) : ℚ) :=
      (Near.refl _).weaken u0 u1 (by norm_num) hwq hwq
    have hor : ((e.year - s.year - 1 : Int) : ℚ) + rnd A = 0 ∨ tiny ≤ ((e.year - s.year - 1 : Int) : ℚ) + rnd A := by
      rcases lt_or_eq_of_le hw with h | h
      · right
        have h1 : (1 : ℚ) ≤ ((e.year - s.year - 1 : Int) : ℚ) := by exact_mod_cast h
        have h3 := R.tiny_small
        have h4 : (1 : ℚ) / 2 ^ 100 ≤ 1 := by norm_num
        linarith
      · rw [← h]
        simpa using R.keep x1
    have s1 := w0.add (R.near x1)
    have s2 := s1.trans u1 (R.near hor)
    have hB1 : Near u 2 B (rnd B) := (R.near x2).weaken u0 u1 (by norm_num) n2 rB
    have s3 := s2.add hB1
    have hC := R.keep hor
    have hD := R.keep x2
    have hC0 := R.nonneg (add_nonneg hwq rA)
    have hor2 : rnd (((e.year - s.year - 1 : Int) : ℚ) + rnd A) + rnd B = 0 ∨
        tiny ≤ rnd (((e.year - s.year - 1 : Int) : ℚ) + rnd A) + rnd B := by
      rcases hC with h | h
      · rw [h, zero_add]; exact hD
      · right; linarith
    exact s3.trans u1 (R.near hor2)

/-- The rounded accrual differs from the exact one by at most three roundings. -/
theorem rounded_accrual (R : Rounding rnd u tiny) {dcc : DayCountConvention} {τ : PyDate → ℚ} (h : timeAxis dcc = some τ)
    {s e : PyDate} (hse : s ≤ e) (hs : AxisOk dcc s) :
    ∃ x, Rounded.accrual rnd s e dcc = .ok x ∧ Near u 3 (τ e - τ s) x := by
  have hord : s.ord ≤ e.ord := PyDate.le_iff.1 hse
  have u0 := R.u_nonneg
  have u1 := R.u_lt
  have key : ∀ q : ℚ, 0 < q → q ≤ 366 → ∃ x, Rounded.actOver rnd q s e = .ok x ∧ Near u 3 ((e.ord : ℚ) / q - s.ord / q) x := by
    intro q hq hq'
    refine ⟨_, rfl, ?_⟩
    have hx := days_over R (n := e.ord - s.ord) (by omega) hq hq'
    have hnn : (0 : ℚ) ≤ ((e.ord - s.ord : Int) : ℚ) / q :=
      div_nonneg (by exact_mod_cast (by omega : 0 ≤ e.ord - s.ord)) (le_of_lt hq)
    have heq : (e.ord : ℚ) / q - s.ord / q = ((e.ord - s.ord : Int) : ℚ) / q := by push_cast; ring
    rw [heq]
    exact (R.near hx).weaken u0 u1 (by norm_num) hnn (R.nonneg hnn)
  unfold Rounded.accrual
  rw [if_pos hse]
  cases dcc <;> simp [timeAxis] at h <;> subst h
  · exact key 360 (by norm_num) (by norm_num)
  · exact key 365 (by norm_num) (by norm_num)
  · have := key (36525 / 100) (by norm_num) (by norm_num)
    have e1 : (36525 : ℚ) / 100 = 1461 / 4 := by norm_num
    simpa [e1] using this
  · exact rounded_actAct R hse (hs rfl)

/-- Numbers of moderate size at least a 366th apart keep their order after a few roundings. -/
theorem near_lt (R : Rounding rnd u tiny) {k m : Nat} (hk : k + m ≤ 1024) {X X' Y Y' : ℚ} (hX : 0 ≤ X) (hgap : X + 1 / 366 ≤ X')
    (hX' : X' ≤ 20000) (h : Near u k X Y) (g : Near u m X' Y') : Y < Y' := by
  have u1 := R.u_lt
  have hp := R.pow_ge (k + m) hk
  have hk0 : 0 < (1 - u) ^ k := pow_pos (by linarith) _
  have hY := h.nonneg u1 hX
  have h1 : (1 - u) ^ (k + m) * X' ≤ (1 - u) ^ k * Y' := by
    rw [pow_add, mul_assoc]
    exact mul_le_mul_of_nonneg_left g.1 (le_of_lt hk0)
  have h2 : X < (1 - u) ^ (k + m) * X' := by
    have : (1 - 1 / 2 ^ 30) * X' ≤ (1 - u) ^ (k + m) * X' := mul_le_mul_of_nonneg_right hp (by linarith)
    have h3 : X' * (1 / 2 ^ 30) ≤ 20000 * (1 / 2 ^ 30) := mul_le_mul_of_nonneg_right hX' (by norm_num)
    have h4 : (20000 : ℚ) * (1 / 2 ^ 30) < 1 / 366 := by norm_num
    linarith
  have h3 : (1 - u) ^ k * Y < (1 - u) ^ k * Y' := lt_of_le_of_lt h.2 (lt_of_lt_of_le h2 h1)
  exact lt_of_mul_lt_mul_left h3 (le_of_lt hk0)

/-- With exact arithmetic the rounded accrual is the exact one. -/
theorem rounded_accrual_id (s e : PyDate) (dcc : DayCountConvention) :
    Rounded.accrual id s e dcc = DayCount.accrual s e dcc := by
  by_cases h : s ≤ e
  · rw [accrual_eq h]
    unfold Rounded.accrual
    rw [if_pos h]
    cases dcc <;> rfl
  · rw [accrual_gt (not_le.1 h)]
    unfold Rounded.accrual
    rw [if_neg h]

end Verif
