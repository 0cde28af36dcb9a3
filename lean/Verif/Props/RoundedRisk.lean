/- Property C128: prices and key-rate risk on a yield curve in floating point. -/
import Verif.Model.RoundedRisk
import Verif.Spec.RoundedRisk
import Verif.Lemmas.RoundedValuation
import Verif.Props.Rounded
import Verif.Props.KeyRateSign
import Mathlib.Analysis.Complex.ExponentialBounds

namespace Verif.Props
open Verif Verif.Spec Verif.DayCount Verif.KeyRateCollection

variable {rnd exp : ℚ → ℚ} {u tiny v : ℚ}

/-! ## Sums and exponentials -/

/-- The error of a rounded sum of numbers of any sign. -/
theorem rounded_sum_abs (R : Rounding rnd u tiny) : ∀ (xs : List ℚ) (n : Nat) (acc acc' A : ℚ), |acc| + (xs.map (fun x => |x|)).sum ≤ A →
    ((n + xs.length : Nat) : ℚ) * u ≤ 1 / 2 → |acc' - acc| ≤ n * (2 * (u * A + 2 * tiny)) →
    |xs.foldl (fun a x => rnd (a + x)) acc' - (acc + xs.sum)| ≤ ((n + xs.length : Nat) : ℚ) * (2 * (u * A + 2 * tiny))
  | [], n, acc, acc', A, _, _, h => by simpa using h
  | x :: xs, n, acc, acc', A, hA, hn, h => by
    have u0 := R.u_nonneg
    have t0 := R.tiny_pos
    simp only [List.map_cons, List.sum_cons, List.length_cons, List.foldl_cons] at hA hn ⊢
    have hS : 0 ≤ (xs.map (fun x => |x|)).sum := List.sum_nonneg (by simp)
    have hx : |acc + x| ≤ |acc| + |x| := abs_add_le _ _
    have ha0 := abs_nonneg acc
    have hx0 := abs_nonneg x
    have hA0 : 0 ≤ A := by linarith
    have hnu : (n : ℚ) * u ≤ 1 / 2 := by
      push_cast at hn
      have : (0 : ℚ) ≤ ((xs.length : ℚ) + 1) * u := by positivity
      nlinarith
    have hc : 0 ≤ 2 * (u * A + 2 * tiny) := by positivity
    have step : |rnd (acc' + x) - (acc + x)| ≤ ((n + 1 : Nat) : ℚ) * (2 * (u * A + 2 * tiny)) := by
      have e1 := R.abs_err (acc' + x)
      have e2 : |acc' + x| ≤ A + n * (2 * (u * A + 2 * tiny)) := by
        have : acc' + x = (acc' - acc) + (acc + x) := by ring
        rw [this]
        refine le_trans (abs_add_le _ _) ?_
        linarith
      have e3 : u * |acc' + x| ≤ u * A + (n * u) * (2 * (u * A + 2 * tiny)) := by
        calc u * |acc' + x| ≤ u * (A + n * (2 * (u * A + 2 * tiny))) := mul_le_mul_of_nonneg_left e2 u0
          _ = _ := by ring
      have e4 : (n * u) * (2 * (u * A + 2 * tiny)) ≤ 1 / 2 * (2 * (u * A + 2 * tiny)) := mul_le_mul_of_nonneg_right hnu hc
      have e5 : rnd (acc' + x) - (acc + x) = (rnd (acc' + x) - (acc' + x)) + (acc' - acc) := by ring
      rw [e5]
      refine le_trans (abs_add_le _ _) ?_
      push_cast
      linarith
    have := rounded_sum_abs R xs (n + 1) (acc + x) (rnd (acc' + x)) A (by linarith)
      (by rw [show n + 1 + xs.length = n + (xs.length + 1) by omega]; exact hn) step
    rw [show n + (xs.length + 1) = n + 1 + xs.length by omega, ← add_assoc]
    exact this

/-- Up to the argument 1 the exponential function is Lipschitz with constant 3. -/
theorem exp_lipschitz {x y : ℝ} (hx : x ≤ 1) (hy : y ≤ 1) : |Real.exp x - Real.exp y| ≤ 3 * |x - y| := by
  have e3 : Real.exp 1 ≤ 3 := by have := Real.exp_one_lt_d9; linarith
  have key : ∀ x y : ℝ, x ≤ 1 → y ≤ x → |Real.exp x - Real.exp y| ≤ 3 * |x - y| := by
    intro x y hx hyx
    have h1 : Real.exp y ≤ Real.exp x := Real.exp_le_exp.2 hyx
    have h2 : Real.exp x ≤ 3 := le_trans (Real.exp_le_exp.2 hx) e3
    have h3 : y - x + 1 ≤ Real.exp (y - x) := Real.add_one_le_exp _
    have h4 : Real.exp y = Real.exp x * Real.exp (y - x) := by rw [← Real.exp_add]; congr 1; ring
    rw [abs_of_nonneg (by linarith), abs_of_nonneg (by linarith)]
    have h5 := Real.exp_pos x
    nlinarith
  rcases le_total y x with h | h
  · exact key x y hx h
  · rw [abs_sub_comm, abs_sub_comm x y]; exact key y x hy h

/-! ## Interpolation with an adjustment -/

/-- Interpolated values are floats when the knots' values are. -/
theorem rounded_linear_rep (R : Rounding rnd u tiny) : ∀ (g : List (ℚ × ℚ)), (∀ p ∈ g, rnd p.2 = p.2) → ∀ x y,
    Rounded.interpLinear rnd g x = .ok y → rnd y = y
  | [], _, x, y, h => by simp [Rounded.interpLinear] at h
  | [(x0, y0)], hg, x, y, h => by
    simp only [Rounded.interpLinear] at h
    split_ifs at h
    injection h with h
    rw [← h]; exact hg (x0, y0) (by simp)
  | (x0, y0) :: (x1, y1) :: rest, hg, x, y, h => by
    simp only [Rounded.interpLinear] at h
    split_ifs at h
    · injection h with h
      rw [← h]; exact R.idem _
    · exact rounded_linear_rep R _ (fun p hp => hg p (List.mem_cons_of_mem _ hp)) x y h

theorem previous_rep (rnd : ℚ → ℚ) : ∀ (g : List (ℚ × ℚ)), (∀ p ∈ g, rnd p.2 = p.2) → ∀ x y,
    interpPrevious g x = .ok y → rnd y = y
  | [], _, x, y, h => by simp [interpPrevious] at h
  | [(x0, y0)], hg, x, y, h => by
    simp only [interpPrevious] at h
    split_ifs at h
    injection h with h
    rw [← h]; exact hg (x0, y0) (by simp)
  | (x0, y0) :: (x1, y1) :: rest, hg, x, y, h => by
    simp only [interpPrevious] at h
    split_ifs at h
    · injection h with h
      rw [← h]; exact hg (x0, y0) (by simp)
    · exact previous_rep rnd _ (fun p hp => hg p (List.mem_cons_of_mem _ hp)) x y h

theorem first_knot {values : List Knot} (hne : values ≠ []) (hd : (values.map Knot.date).Nodup) :
    ∃ first last, (pySorted Knot.date values).head? = some first ∧ (pySorted Knot.date values).getLast? = some last ∧ first ∈ values ∧
      last ∈ values ∧ (∀ k ∈ values, first.date ≤ k.date) ∧ ∀ k ∈ values, k.date ≤ last.date := by
  have hp := pySorted_perm Knot.date values
  have hs := knotSorted_pySorted hd
  match hk : pySorted Knot.date values with
  | [] => rw [hk] at hp; exact absurd (List.Perm.eq_nil hp.symm) hne
  | a :: l =>
    obtain ⟨last, hlast⟩ : ∃ x, (a :: l).getLast? = some x := ⟨_, List.getLast?_eq_getLast_of_ne_nil (by simp)⟩
    rw [hk] at hp hs
    have h1 := head_le hs (x := a) rfl
    have h2 := le_last hs hlast
    exact ⟨a, last, rfl, hlast, hp.mem_iff.1 (by simp), hp.mem_iff.1 h2.1, fun k hk => h1.2 k (hp.mem_iff.2 hk), fun k hk => h2.2 k (hp.mem_iff.2 hk)⟩

theorem curveValue_parts {values : List Knot} {dcc : DayCountConvention} {ref d : PyDate} {linear : Bool} {y' : ℚ}
    (h : Rounded.curveValue rnd values dcc ref linear d = .ok y') :
    ∃ grid x y, Rounded.makeGrid rnd ref dcc (pySorted Knot.date values) = .ok grid ∧ Rounded.accrual rnd ref d dcc = .ok x ∧
      (if linear then Rounded.interpLinear rnd grid x else interpPrevious grid x) = .ok y ∧ rnd (y + 0) = y' := by
  unfold Rounded.curveValue at h
  rw [bind_ok] at h; obtain ⟨grid, hg, h⟩ := h
  rw [bind_ok] at h; obtain ⟨x, hx, h⟩ := h
  cases linear
  · simp only [Bool.false_eq_true, if_false] at h
    rw [bind_ok] at h; obtain ⟨y, hy, h⟩ := h
    injection h with h
    exact ⟨grid, x, y, hg, hx, by simpa using hy, h⟩
  · simp only [if_true] at h
    rw [bind_ok] at h; obtain ⟨y, hy, h⟩ := h
    injection h with h
    exact ⟨grid, x, y, hg, hx, by simpa using hy, h⟩

/-- A curve evaluated in floating point, with an adjustment, at any date from the reference date to the last knot. -/
theorem rounded_interpolate (R : Rounding rnd u tiny) {values : List Knot} {dcc : DayCountConvention} {ref : PyDate}
    (h : CurveInput values dcc ref) {τ : PyDate → ℚ} (hτ : timeAxis dcc = some τ) (linear : Bool) {left right : EndBehavior}
    {T M : ℚ} (hT1 : 1 ≤ T) (hT2 : T ≤ 20000)
    (hT : ∀ k ∈ values, τ k.date - τ ref ≤ T) (hM : ∀ k ∈ values, |k.value| ≤ M)
    (hrep : ∀ k ∈ values, rnd k.value = k.value) {c : Curve}
    (hc : Curve.create values (if linear then .linear else .previous) dcc (some ref) left right = .ok c)
    {d : PyDate} (hl : left = .constant ∨ ∃ k ∈ values, k.date ≤ d) (h2 : ∃ k ∈ values, d ≤ k.date) :
    ∃ y I, c.call d = .ok y ∧ |I - y| ≤ 40000 * T * u * M + 2 ^ 64 * tiny ∧ |y| ≤ M ∧ rnd I = I ∧
      ∀ adj : PyDate → Except PyErr ℚ, Rounded.interpolate rnd values dcc ref linear left adj d =
        (do let a ← adj d; .ok (rnd (I + a))) := by
  obtain ⟨first, last, hf, hla, hfm, hlm, hfmin, hlmax⟩ := first_knot h.nonempty h.distinct
  have hM0 : 0 ≤ M := le_trans (abs_nonneg _) (hM first hfm)
  have hB : 0 ≤ 40000 * T * u * M + 2 ^ 64 * tiny := by
    have := R.u_nonneg
    have := R.tiny_pos
    positivity
  have hm : (if linear then InterpolationMethod.linear else .previous) = .linear ∨
      (if linear then InterpolationMethod.linear else .previous) = .previous := by cases linear <;> simp
  by_cases h0 : d < first.date
  · have hlc : left = .constant := by
      rcases hl with hl | ⟨k, hk, he⟩
      · exact hl
      · have := hfmin k hk
        exact absurd (lt_of_lt_of_le h0 this) (not_lt.2 he)
    subst hlc
    refine ⟨first.value, first.value, ?_, by simpa using hB, hM first hfm, hrep first hfm, fun adj => ?_⟩
    · exact (C27_outside values _ dcc ref .constant right h c hc first hfm d).1 hfmin h0
    · unfold Rounded.interpolate
      simp only [hf, hla, if_pos h0]
  · have hlast : ¬ last.date < d := by
      obtain ⟨k, hk, hkd⟩ := h2
      exact not_lt.2 (le_trans hkd (hlmax k hk))
    have reduce : ∀ y', Rounded.curveValue rnd values dcc ref linear d = .ok y' → rnd y' = y' ∧
        ∀ adj : PyDate → Except PyErr ℚ, Rounded.interpolate rnd values dcc ref linear left adj d =
          (do let a ← adj d; .ok (rnd (y' + a))) := by
      intro y' hy'
      obtain ⟨grid, x, y, hg, hx, hy, hy'⟩ := curveValue_parts hy'
      have hgrep : ∀ p ∈ grid, rnd p.2 = p.2 := by
        intro p hp
        unfold Rounded.makeGrid at hg
        obtain ⟨k, hk, hkp⟩ := (collect_mem hg p).1 hp
        rw [bind_ok] at hkp; obtain ⟨_, _, hkp⟩ := hkp
        injection hkp with hkp
        rw [← hkp]
        exact hrep k ((pySorted_perm Knot.date values).mem_iff.1 hk)
      have hyr : rnd y = y := by
        cases linear
        · exact previous_rep rnd grid hgrep x y (by simpa using hy)
        · exact rounded_linear_rep R grid hgrep x y (by simpa using hy)
      rw [add_zero, hyr] at hy'
      subst hy'
      refine ⟨hyr, fun adj => ?_⟩
      unfold Rounded.interpolate
      simp only [hf, hla, if_neg h0, if_neg hlast]
      rw [hg, ok_bind, hx, ok_bind]
      cases linear
      · simp only [Bool.false_eq_true, if_false] at hy ⊢
        rw [hy, ok_bind]
      · simp only [if_true] at hy ⊢
        rw [hy, ok_bind]
    rcases bracket ⟨first, hfm, not_lt.1 h0⟩ h2 with ⟨k, hk, rfl⟩ | ⟨a, b, hab, ha, hb⟩
    · obtain ⟨r1, r2⟩ := reduce _ (C95_knots R values dcc ref h linear k hk (hrep k hk))
      exact ⟨k.value, k.value, C27_knots values _ (.basic hm _) dcc ref left right h c hc k hk, by simpa using hB, hM k hk, r1, r2⟩
    · cases linear
      · obtain ⟨r1, r2⟩ := reduce _ (C95_step R values dcc ref h a b hab (hrep a hab.1) d ha hb)
        exact ⟨a.value, a.value, (C27_between values dcc ref left right h τ hτ a b hab d ha hb).2 c hc, by simpa using hB,
          hM a hab.1, r1, r2⟩
      · obtain ⟨y, y', e1, e2, e3⟩ := C95_linear R values dcc ref h τ hτ a b hab T M hT1 hT2 (hT b hab.2.1)
          (hM a hab.1) (hM b hab.2.1) (hrep a hab.1) d ha hb c left right hc
        obtain ⟨r1, r2⟩ := reduce _ e2
        have := C90_bounds values _ hm dcc ref left right h c hc (-M) M (fun k hk => abs_le.1 (hM k hk)) d y e1
        exact ⟨y, y', e1, e3, abs_le.2 this, r1, r2⟩

/-! ## Discount factors -/

/-- The exponent of a discount factor in floating point. -/
theorem rounded_exponent (R : Rounding rnd u tiny) {T M y I a a' t t' : ℚ} (hT1 : 1 ≤ T) (hT2 : T ≤ 300) (hM : 1 / 10000 ≤ M)
    (hI : |I - y| ≤ 40000 * T * u * M + 2 ^ 64 * tiny) (hy : |y| ≤ M) (ha : |a' - a| ≤ 24 * u * M) (haM : |a| ≤ M) (ht0 : 0 ≤ t)
    (htT : t ≤ T) (ht : |t' - t| ≤ 4 * u * t) :
    |rnd (-rnd (I + a') * t') - -((y + a) * t)| ≤ 40046 * T ^ 2 * u * M + 2 ^ 65 * T * tiny := by
  have u0 := R.u_nonneg
  have us := R.u_small
  have t0 := R.tiny_pos
  have ts := R.tiny_small
  have uM0 : 0 ≤ u * M := by positivity
  have uMs : u * M ≤ 1 / 2 ^ 40 * M := mul_le_mul_of_nonneg_right us (by linarith)
  have TuM : T * (u * M) ≤ 300 * (u * M) := mul_le_mul_of_nonneg_right hT2 uM0
  have TuM1 : u * M ≤ T * (u * M) := le_mul_of_one_le_left uM0 hT1
  have tinyM : 2 ^ 65 * tiny ≤ M / 1000 := by
    have : 2 ^ 65 * ((1 : ℚ) / 2 ^ 100) ≤ 1 / 10000000 := by norm_num
    linarith
  have hI' : |I - y| ≤ 40000 * (T * (u * M)) + 2 ^ 64 * tiny := by linarith [show 40000 * T * u * M = 40000 * (T * (u * M)) by ring]
  have hEI : |I - y| ≤ M / 10 := by
    have : 40000 * (300 * (1 / 2 ^ 40 * M)) ≤ M / 1000 := by
      have : (40000 * 300 / 2 ^ 40 : ℚ) ≤ 1 / 1000 := by norm_num
      nlinarith
    linarith
  have ha' : |a' - a| ≤ 24 * (u * M) := by linarith [show 24 * u * M = 24 * (u * M) by ring]
  have hEa : |a' - a| ≤ M / 10 := by
    have : 24 * (1 / 2 ^ 40 * M) ≤ M / 1000 := by
      have : (24 / 2 ^ 40 : ℚ) ≤ 1 / 1000 := by norm_num
      nlinarith
    linarith
  have hMM : 0 ≤ M := by linarith
  obtain ⟨i1, i2⟩ := abs_le.1 hEI
  obtain ⟨y1, y2⟩ := abs_le.1 hy
  obtain ⟨a1, a2⟩ := abs_le.1 hEa
  obtain ⟨b1, b2⟩ := abs_le.1 haM
  have s1 : |I + a'| ≤ 4 * M := abs_le.2 ⟨by linarith, by linarith⟩
  have e1 := R.abs_err (I + a')
  have e2 : u * |I + a'| ≤ 4 * (u * M) := by
    calc u * |I + a'| ≤ u * (4 * M) := mul_le_mul_of_nonneg_left s1 u0
      _ = _ := by ring
  have s2 : |rnd (I + a') - (y + a)| ≤ 40028 * (T * (u * M)) + (2 ^ 64 + 2) * tiny := by
    have : rnd (I + a') - (y + a) = (rnd (I + a') - (I + a')) + ((I - y) + (a' - a)) := by ring
    rw [this]
    refine le_trans (abs_add_le _ _) ?_
    have := abs_add_le (I - y) (a' - a)
    linarith
  set Y := rnd (I + a') with hYdef
  have s2' : |Y - (y + a)| ≤ M / 2 := by
    have : 40028 * (300 * (1 / 2 ^ 40 * M)) ≤ M / 1000 := by
      have : (40028 * 300 / 2 ^ 40 : ℚ) ≤ 1 / 1000 := by norm_num
      nlinarith
    linarith
  obtain ⟨c1, c2⟩ := abs_le.1 s2'
  have s3 : |Y| ≤ 3 * M := abs_le.2 ⟨by linarith, by linarith⟩
  have ut : u * t ≤ u * T := mul_le_mul_of_nonneg_left htT u0
  have uT : u * T ≤ 1 / 2 ^ 40 * 300 := mul_le_mul us hT2 (by linarith) (by norm_num)
  have htt : |t' - t| ≤ 4 * (u * T) := by linarith [show 4 * u * t = 4 * (u * t) by ring]
  have s4 : |t'| ≤ 2 * T := by
    obtain ⟨d1, d2⟩ := abs_le.1 htt
    have : (4 * (1 / 2 ^ 40 * 300) : ℚ) ≤ 1 := by norm_num
    exact abs_le.2 ⟨by linarith, by linarith⟩
  have s5 : |-Y * t'| ≤ 6 * (M * T) := by
    rw [abs_mul, abs_neg]
    calc |Y| * |t'| ≤ (3 * M) * (2 * T) := mul_le_mul s3 s4 (abs_nonneg _) (by linarith)
      _ = _ := by ring
  have s6 := R.abs_err (-Y * t')
  have s6' : u * |-Y * t'| ≤ 6 * (T * (u * M)) := by
    calc u * |-Y * t'| ≤ u * (6 * (M * T)) := mul_le_mul_of_nonneg_left s5 u0
      _ = _ := by ring
  have s7 : |-Y * t' - -((y + a) * t)| ≤ 12 * (T * (u * M)) + T * (40028 * (T * (u * M)) + (2 ^ 64 + 2) * tiny) := by
    have : -Y * t' - -((y + a) * t) = -Y * (t' - t) + -(Y - (y + a)) * t := by ring
    rw [this]
    refine le_trans (abs_add_le _ _) ?_
    rw [abs_mul, abs_mul, abs_neg, abs_neg, abs_of_nonneg ht0]
    have g1 : |Y| * |t' - t| ≤ (3 * M) * (4 * (u * T)) := mul_le_mul s3 htt (abs_nonneg _) (by linarith)
    have g2 : |Y - (y + a)| * t ≤ (40028 * (T * (u * M)) + (2 ^ 64 + 2) * tiny) * T := mul_le_mul s2 htT ht0 (le_trans (abs_nonneg _) s2)
    linarith [show (3 * M) * (4 * (u * T)) = 12 * (T * (u * M)) by ring]
  have s8 : rnd (-Y * t') - -((y + a) * t) = (rnd (-Y * t') - -Y * t') + (-Y * t' - -((y + a) * t)) := by ring
  rw [s8]
  refine le_trans (abs_add_le _ _) ?_
  have TT : T * (u * M) ≤ T ^ 2 * (u * M) := by
    rw [pow_two, mul_assoc]
    exact le_mul_of_one_le_left (by positivity) hT1
  have Tt : tiny ≤ T * tiny := le_mul_of_one_le_left t0.le hT1
  have e9 : T * (40028 * (T * (u * M)) + (2 ^ 64 + 2) * tiny) = 40028 * (T ^ 2 * (u * M)) + (2 ^ 64 + 2) * (T * tiny) := by ring
  have e10 : 40046 * T ^ 2 * u * M + 2 ^ 65 * T * tiny = 40046 * (T ^ 2 * (u * M)) + 2 ^ 65 * (T * tiny) := by ring
  rw [e10]
  linarith

/-- The hypotheses on a curve of yields in floating point: knots in years from the reference date up to `T`, yields between 0 and `M`
that are floats. -/
structure YieldInput (rnd : ℚ → ℚ) (values : List Knot) (dcc : DayCountConvention) (ref : PyDate) (τ : PyDate → ℚ)
    (left : EndBehavior) (T M : ℚ) : Prop where
  input : CurveInput values dcc ref
  axis : timeAxis dcc = some τ
  defined : left = .constant ∨ ∃ k ∈ values, k.date = ref
  one_le : 1 ≤ T
  horizon : T ≤ 300
  low : 1 / 10000 ≤ M
  high : M ≤ 10
  times : ∀ k ∈ values, τ k.date - τ ref ≤ T
  yields : ∀ k ∈ values, 0 ≤ k.value ∧ k.value ≤ M
  floats : ∀ k ∈ values, rnd k.value = k.value

/-- The error of a discount factor. -/
def factorError (u tiny v T M : ℚ) : ℚ := 121000 * T ^ 2 * M * u + 2 ^ 67 * T * tiny + v

theorem factorError_le (R : Rounding rnd u tiny) {T M : ℚ} (hT1 : 1 ≤ T) (hT2 : T ≤ 300) (hM : M ≤ 10) (hM0 : 0 ≤ M) (hv : v ≤ 1 / 2) :
    factorError u tiny v T M ≤ 1 := by
  unfold factorError
  have u0 := R.u_nonneg
  have us := R.u_small
  have t0 := R.tiny_pos
  have ts := R.tiny_small
  have h1 : T ^ 2 ≤ 300 ^ 2 := pow_le_pow_left₀ (by linarith) hT2 2
  have h2 : T ^ 2 * M ≤ 300 ^ 2 * 10 := mul_le_mul h1 hM hM0 (by norm_num)
  have h3 : T ^ 2 * M * u ≤ 300 ^ 2 * 10 * (1 / 2 ^ 40) := mul_le_mul h2 us u0 (by norm_num)
  have h4 : T * tiny ≤ 300 * (1 / 2 ^ 100) := mul_le_mul hT2 ts t0.le (by norm_num)
  have h5 : (121000 * (300 ^ 2 * 10 * (1 / 2 ^ 40)) + 2 ^ 67 * (300 * (1 / 2 ^ 100)) + 1 / 2 : ℚ) ≤ 1 := by norm_num
  nlinarith

/-- The daily discount factors in floating point. -/
theorem rounded_factors (R : Rounding rnd u tiny) (E : FloatExp rnd exp v) {values : List Knot} {dcc : DayCountConvention}
    {ref : PyDate} {τ : PyDate → ℚ} {left right : EndBehavior} {T M : ℚ} (h : YieldInput rnd values dcc ref τ left T M)
    (linear : Bool) {c : Curve} (hc : Curve.create values (if linear then .linear else .previous) dcc (some ref) left right = .ok c)
    (y : PyDate → ℚ) (hy : ∀ d, ref ≤ d → (∃ k ∈ values, d ≤ k.date) → c.call d = .ok (y d))
    (adj : PyDate → Except PyErr ℚ) (a a' : PyDate → ℚ) (hadj : ∀ d, adj d = .ok (a' d)) (ha : ∀ d, |a' d - a d| ≤ 24 * u * M)
    (haM : ∀ d, |a d| ≤ M ∧ |a d| * T ≤ 1 / 2) :
    ∃ (knots : List Knot) (df : PyDate → ℚ), Rounded.yieldKnots rnd exp values dcc ref linear left adj = .ok knots ∧
      CurveInput knots dcc ref ∧ (∀ k, k ∈ knots ↔ ref ≤ k.date ∧ (∃ x ∈ values, k.date ≤ x.date) ∧ k.value = df k.date) ∧
      ∀ d, ref ≤ d → (∃ k ∈ values, d ≤ k.date) → rnd (df d) = df d ∧
        |(df d : ℝ) - Real.exp (-(((y d + a d : ℚ) : ℝ) * ((τ d - τ ref : ℚ) : ℝ)))| ≤ factorError u tiny v T M ∧
        Real.exp (-(((y d + a d : ℚ) : ℝ) * ((τ d - τ ref : ℚ) : ℝ))) ≤ 2 := by
  obtain ⟨hin, hτ, hl, hT1, hT2, hM1, hM2, hT, hY, hrep⟩ := h
  have hm : (if linear then InterpolationMethod.linear else .previous) = .linear ∨
      (if linear then InterpolationMethod.linear else .previous) = .previous := by cases linear <;> simp
  obtain ⟨f, hf, -⟩ := rounded_axis R hτ hin.refOk
  obtain ⟨first, last, -, hla, -, hlm, -, hlmax⟩ := first_knot hin.nonempty hin.distinct
  have hupto : ∀ d : PyDate, (∃ x ∈ values, d ≤ x.date) ↔ d ≤ last.date :=
    fun d => ⟨fun ⟨x, hx, hd⟩ => le_trans hd (hlmax x hx), fun hd => ⟨last, hlm, hd⟩⟩
  obtain ⟨dates, hdates, hnodup, hmem⟩ := dateRange_ok ref last.date (hin.notBefore last hlm)
  have hval : ∀ d, ∃ I, ref ≤ d → (∃ k ∈ values, d ≤ k.date) → |I - y d| ≤ 40000 * T * u * M + 2 ^ 64 * tiny ∧ |y d| ≤ M ∧
      Rounded.interpolate rnd values dcc ref linear left adj d = .ok (rnd (I + a' d)) := by
    intro d
    by_cases hd : ref ≤ d ∧ ∃ k ∈ values, d ≤ k.date
    · obtain ⟨y0, I, e1, e2, e3, -, e4⟩ := rounded_interpolate R hin hτ linear hT1 (by linarith) hT
        (fun k hk => abs_le.2 ⟨by have := (hY k hk).1; linarith, (hY k hk).2⟩) hrep hc
        (hl.imp id (fun ⟨k, hk, he⟩ => ⟨k, hk, by rw [he]; exact hd.1⟩)) hd.2
      rw [hy d hd.1 hd.2] at e1
      injection e1 with e1
      subst e1
      exact ⟨I, fun _ _ => ⟨e2, e3, by rw [e4, hadj, ok_bind]⟩⟩
    · exact ⟨0, fun a b => absurd ⟨a, b⟩ hd⟩
  choose I hI using hval
  let df : PyDate → ℚ := fun d => exp (rnd (-rnd (I d + a' d) * f d))
  refine ⟨dates.map (fun d => ⟨d, df d⟩), df, ?_, ?_, ?_, ?_⟩
  · unfold Rounded.yieldKnots
    simp only [hla, hdates, ok_bind]
    rw [collect_eq_map (g := f) (fun d hd => (hf d ((hmem d).1 hd).1).1), ok_bind]
    rw [collect_eq_map (g := fun d => rnd (I d + a' d)) (fun d hd => by
      obtain ⟨h1, h2⟩ := (hmem d).1 hd
      exact (hI d h1 ((hupto d).2 h2)).2.2), ok_bind]
    congr 1
    rw [List.zip_map', List.zipWith_map_right]
    rw [List.zipWith_self]
  · refine ⟨hin.convention, hin.refOk, ?_, ?_, ?_⟩
    · intro hh
      rw [List.map_eq_nil_iff] at hh
      have := (hmem ref).2 ⟨le_refl _, hin.notBefore last hlm⟩
      rw [hh] at this; simp at this
    · rw [List.map_map]; simpa [Function.comp_def] using hnodup
    · intro k hk
      obtain ⟨d, hd, rfl⟩ := List.mem_map.1 hk
      exact ((hmem d).1 hd).1
  · intro k
    rw [List.mem_map]
    constructor
    · rintro ⟨d, hd, rfl⟩
      obtain ⟨h1, h2⟩ := (hmem d).1 hd
      exact ⟨h1, (hupto d).2 h2, rfl⟩
    · rintro ⟨h1, h2, h3⟩
      refine ⟨k.date, (hmem _).2 ⟨h1, (hupto _).1 h2⟩, ?_⟩
      rw [← h3]
  · intro d h1 h2
    obtain ⟨i1, i2, -⟩ := hI d h1 h2
    have ht0 : 0 ≤ τ d - τ ref := by have := axis_mono hτ h1; linarith
    have htT : τ d - τ ref ≤ T := by
      obtain ⟨k, hk, hkd⟩ := h2
      have := axis_mono hτ hkd
      have := hT k hk
      linarith
    have hy0 : 0 ≤ y d := (C90_bounds values _ hm dcc ref left right hin c hc 0 M hY d (y d) (hy d h1 h2)).1
    have key := rounded_exponent R hT1 hT2 hM1 i1 i2 (ha d) (haM d).1 ht0 htT
      (Near.abs_err R.u_nonneg R.u_small ht0 (hf d h1).2)
    have hz : -((y d + a d) * (τ d - τ ref)) ≤ 1 / 2 := by
      have e1 : -(a d) ≤ |a d| := neg_le_abs _
      have e2 : -(a d) * (τ d - τ ref) ≤ |a d| * T := mul_le_mul e1 htT ht0 (abs_nonneg _)
      have e3 := (haM d).2
      have e4 := mul_nonneg hy0 ht0
      nlinarith
    set z' := rnd (-rnd (I d + a' d) * f d) with hz'
    set z := -((y d + a d) * (τ d - τ ref)) with hzd
    have hFE : 40046 * T ^ 2 * u * M + 2 ^ 65 * T * tiny ≤ 1 / 2 := by
      have := factorError_le (v := 0) R hT1 hT2 hM2 (by linarith) (by norm_num)
      unfold factorError at this
      have u0 := R.u_nonneg
      have t0 := R.tiny_pos
      have q1 : 0 ≤ T ^ 2 * u * M := by have : 0 ≤ M := by linarith
                                        positivity
      have q2 : 0 ≤ T * tiny := by positivity
      have : 121000 * T ^ 2 * M * u = 121000 * (T ^ 2 * u * M) := by ring
      nlinarith
    have hz'1 : z' ≤ 1 := by
      have := (abs_le.1 key).2
      linarith
    refine ⟨E.rep _, ?_, ?_⟩
    · have c1 := E.close z' hz'1
      have c2 := exp_lipschitz (x := (z' : ℝ)) (y := (z : ℝ)) (by exact_mod_cast hz'1) (by
        have : z ≤ 1 := by linarith
        exact_mod_cast this)
      have c3 : |(z' : ℝ) - z| ≤ ((40046 * T ^ 2 * u * M + 2 ^ 65 * T * tiny : ℚ) : ℝ) := by exact_mod_cast key
      have c4 : (-(((y d + a d : ℚ) : ℝ) * ((τ d - τ ref : ℚ) : ℝ))) = (z : ℝ) := by rw [hzd]; push_cast; ring
      rw [c4]
      have c5 : (df d : ℝ) - Real.exp z = ((exp z' : ℚ) - Real.exp z') + (Real.exp z' - Real.exp z) := by ring
      rw [c5]
      refine le_trans (abs_add_le _ _) ?_
      have c6 : 3 * (40046 * T ^ 2 * u * M + 2 ^ 65 * T * tiny) + v ≤ factorError u tiny v T M := by
        unfold factorError
        have u0 := R.u_nonneg
        have q1 : 0 ≤ T ^ 2 * u * M := by have : 0 ≤ M := by linarith
                                          positivity
        have t0 := R.tiny_pos
        have q2 : 0 ≤ T * tiny := by positivity
        nlinarith
      have c7 : ((3 * (40046 * T ^ 2 * u * M + 2 ^ 65 * T * tiny) + v : ℚ) : ℝ) ≤ factorError u tiny v T M := by exact_mod_cast c6
      push_cast at c7 c3
      linarith
    · have c4 : (-(((y d + a d : ℚ) : ℝ) * ((τ d - τ ref : ℚ) : ℝ))) = (z : ℝ) := by rw [hzd]; push_cast; ring
      rw [c4]
      have d1 : (z : ℝ) ≤ 1 / 2 := by
        have : ((z : ℚ) : ℝ) ≤ ((1 / 2 : ℚ) : ℝ) := by exact_mod_cast hz
        push_cast at this
        linarith
      have d2 : Real.exp (1 / 2) ≤ 2 := by
        have d3 : Real.exp (1 / 2) ^ 2 = Real.exp 1 := by rw [← Real.exp_nat_mul]; norm_num
        have d4 := Real.exp_one_lt_d9
        nlinarith [Real.exp_pos (1 / 2)]
      exact le_trans (Real.exp_le_exp.2 d1) d2

/-! ## Values -/

/-- The payments that count, as the code selects them. -/
def countedPairs (ref : PyDate) (schedule : List Payment) : List (PyDate × ℚ) :=
  schedule.filterMap (fun p => match p.amount with
    | some a => if ref ≤ p.date then some (p.date, a) else none
    | none => none)

theorem countedPairs_sum (ref : PyDate) (y t : PyDate → ℝ) : ∀ schedule : List Payment,
    continuousValue ref y t schedule = ((countedPairs ref schedule).map (fun pa => (pa.2 : ℝ) * Real.exp (-(y pa.1 * t pa.1)))).sum ∧
    totalSize ref schedule = ((countedPairs ref schedule).map (fun pa => |pa.2|)).sum ∧
    (countedPairs ref schedule).length ≤ schedule.length
  | [] => ⟨rfl, rfl, le_rfl⟩
  | ⟨d, amount⟩ :: rest => by
    obtain ⟨h1, h2, h3⟩ := countedPairs_sum ref y t rest
    unfold continuousValue totalSize at *
    unfold countedPairs at *
    cases amount with
    | none =>
      simp only [List.map_cons, List.sum_cons, continuousWorth, countedSize, zero_add, h1, h2, List.length_cons]
      exact ⟨rfl, rfl, by simpa using Nat.le_succ_of_le h3⟩
    | some a =>
      by_cases hd : ref ≤ d
      · simp only [List.map_cons, List.sum_cons, continuousWorth, countedSize, if_pos hd, h1, h2, List.length_cons, List.filterMap_cons]
        exact ⟨trivial, trivial, by simpa using h3⟩
      · simp only [List.map_cons, List.sum_cons, continuousWorth, countedSize, if_neg hd, zero_add, h1, h2, List.length_cons,
          List.filterMap_cons]
        exact ⟨trivial, trivial, Nat.le_succ_of_le h3⟩

theorem countedPairs_mem {ref : PyDate} {schedule : List Payment} {pa : PyDate × ℚ} (h : pa ∈ countedPairs ref schedule) :
    ref ≤ pa.1 ∧ ∃ p ∈ schedule, p.amount = some pa.2 ∧ p.date = pa.1 := by
  unfold countedPairs at h
  obtain ⟨p, hp, he⟩ := List.mem_filterMap.1 h
  cases ha : p.amount with
  | none => rw [ha] at he; simp at he
  | some a =>
    rw [ha] at he
    simp only at he
    split_ifs at he with hd
    injection he with he
    subst he
    exact ⟨hd, p, hp, ha, rfl⟩

theorem rounded_products (R : Rounding rnd u tiny) {e : ℚ} (he0 : 0 ≤ e) (he1 : e ≤ 1) (df : PyDate → ℚ) (D : PyDate → ℝ) : ∀ L : List (PyDate × ℚ),
    (∀ pa ∈ L, |(df pa.1 : ℝ) - D pa.1| ≤ e ∧ |D pa.1| ≤ 2) →
    ((L.map (fun pa => rnd (df pa.1 * pa.2))).map (fun x => |x|)).sum ≤ 4 * (L.map (fun pa => |pa.2|)).sum + 2 * L.length * tiny ∧
    |((L.map (fun pa => rnd (df pa.1 * pa.2))).sum : ℝ) - (L.map (fun pa => (pa.2 : ℝ) * D pa.1)).sum| ≤
      (3 * u + e) * (L.map (fun pa => |pa.2|)).sum + 2 * L.length * tiny
  | [], _ => by simp
  | pa :: L, h => by
    obtain ⟨i1, i2⟩ := rounded_products R he0 he1 df D L (fun q hq => h q (by simp [hq]))
    obtain ⟨h1, h23⟩ := h pa (by simp)
    obtain ⟨h2, h3⟩ := abs_le.1 h23
    have u0 := R.u_nonneg
    have us := R.u_small
    have t0 := R.tiny_pos
    have hdfR : |(df pa.1 : ℝ)| ≤ 3 := by
      obtain ⟨j1, j2⟩ := abs_le.1 h1
      have : (e : ℝ) ≤ 1 := by exact_mod_cast he1
      exact abs_le.2 ⟨by linarith, by linarith⟩
    have hdf : |df pa.1| ≤ 3 := by exact_mod_cast hdfR
    have hp : |df pa.1 * pa.2| ≤ 3 * |pa.2| := by rw [abs_mul]; exact mul_le_mul_of_nonneg_right hdf (abs_nonneg _)
    have er := R.abs_err (df pa.1 * pa.2)
    have er2 : |rnd (df pa.1 * pa.2) - df pa.1 * pa.2| ≤ 3 * u * |pa.2| + 2 * tiny := by
      have : u * |df pa.1 * pa.2| ≤ u * (3 * |pa.2|) := mul_le_mul_of_nonneg_left hp u0
      linarith
    have ha := abs_nonneg pa.2
    simp only [List.map_cons, List.sum_cons, List.length_cons]
    generalize ((L.map (fun pa => rnd (df pa.1 * pa.2))).map (fun x => |x|)).sum = Q at i1 ⊢
    generalize (L.map (fun pa => rnd (df pa.1 * pa.2))).sum = S at i2 ⊢
    generalize (L.map (fun pa => (pa.2 : ℝ) * D pa.1)).sum = S' at i2 ⊢
    generalize (L.map (fun pa => |pa.2|)).sum = A at i1 i2 ⊢
    push_cast at i2 ⊢
    constructor
    · have g1 : |rnd (df pa.1 * pa.2)| ≤ |rnd (df pa.1 * pa.2) - df pa.1 * pa.2| + |df pa.1 * pa.2| := by
        have := abs_add_le (rnd (df pa.1 * pa.2) - df pa.1 * pa.2) (df pa.1 * pa.2)
        simpa using this
      have g2 : 3 * u * |pa.2| ≤ 1 * |pa.2| := by
        refine mul_le_mul_of_nonneg_right ?_ ha
        have : (3 * (1 / 2 ^ 40) : ℚ) ≤ 1 := by norm_num
        linarith
      linarith
    · have er3 : |(rnd (df pa.1 * pa.2) : ℝ) - df pa.1 * pa.2| ≤ 3 * u * |(pa.2 : ℝ)| + 2 * tiny := by exact_mod_cast er2
      have g3 : |(df pa.1 : ℝ) * pa.2 - pa.2 * D pa.1| ≤ e * |(pa.2 : ℝ)| := by
        rw [show (df pa.1 : ℝ) * pa.2 - pa.2 * D pa.1 = (df pa.1 - D pa.1) * pa.2 by ring, abs_mul]
        exact mul_le_mul_of_nonneg_right h1 (abs_nonneg _)
      rw [show (rnd (df pa.1 * pa.2) : ℝ) + S - (pa.2 * D pa.1 + S') =
        ((rnd (df pa.1 * pa.2) : ℝ) - df pa.1 * pa.2) + ((df pa.1 : ℝ) * pa.2 - pa.2 * D pa.1) + (S - S') by ring]
      refine le_trans (abs_add_le _ _) (le_trans (add_le_add_left (abs_add_le _ _) _) ?_)
      nlinarith

/-- The error of the value of a schedule of `n` payments of total size `A` when discount factors have the error `e`. -/
def scheduleError (u tiny e A : ℚ) (n : Nat) : ℚ := A * (e + (8 * n + 3) * u) + 8 * n * tiny

/-- A schedule valued with inexact discount factors. -/
theorem rounded_schedule (R : Rounding rnd u tiny) {e : ℚ} (he0 : 0 ≤ e) (he1 : e ≤ 1) {ref : PyDate} {call : PyDate → Except PyErr ℚ}
    (df : PyDate → ℚ) (D : PyDate → ℝ) {schedule : List Payment} (hn : (schedule.length : ℚ) * u ≤ 1 / 2)
    (h : ∀ pa ∈ countedPairs ref schedule, call pa.1 = .ok (df pa.1) ∧ |(df pa.1 : ℝ) - D pa.1| ≤ e ∧ |D pa.1| ≤ 2) :
    ∃ w, Rounded.presentValue rnd schedule ⟨ref, call⟩ = .ok w ∧
      |(w : ℝ) - ((countedPairs ref schedule).map (fun pa => (pa.2 : ℝ) * D pa.1)).sum| ≤
        scheduleError u tiny e (totalSize ref schedule) schedule.length := by
  have u0 := R.u_nonneg
  have t0 := R.tiny_pos
  obtain ⟨-, s2, s3⟩ := countedPairs_sum ref (fun _ => 0) (fun _ => 0) schedule
  set L := countedPairs ref schedule with hL
  have hpv : Rounded.presentValue rnd schedule ⟨ref, call⟩ = .ok (Rounded.sum rnd (L.map (fun pa => rnd (df pa.1 * pa.2)))) := by
    unfold Rounded.presentValue
    show (do
      let xs ← collect (fun (pa : PyDate × ℚ) => do
        let df ← call pa.1
        .ok (rnd (df * pa.2))) L
      .ok (Rounded.sum rnd xs)) = _
    rw [collect_eq_map (g := fun pa => rnd (df pa.1 * pa.2)) (fun pa hpa => by rw [(h pa hpa).1, ok_bind]), ok_bind]
  obtain ⟨p1, p2⟩ := rounded_products R he0 he1 df D L (fun pa hpa => (h pa hpa).2)
  rw [← s2] at p1 p2
  refine ⟨_, hpv, ?_⟩
  have hnL : (L.length : ℚ) ≤ schedule.length := by exact_mod_cast s3
  have hA : 0 ≤ totalSize ref schedule := by
    rw [s2]
    refine List.sum_nonneg fun x hx => ?_
    obtain ⟨q, -, rfl⟩ := List.mem_map.1 hx
    exact abs_nonneg _
  have hsum := rounded_sum_abs R (L.map (fun pa => rnd (df pa.1 * pa.2))) 0 0 0 (4 * totalSize ref schedule + 2 * L.length * tiny)
    (by simpa using p1) (by
      rw [List.length_map, Nat.zero_add]
      exact le_trans (mul_le_mul_of_nonneg_right hnL u0) hn) (by simp)
  rw [List.length_map, Nat.zero_add, zero_add] at hsum
  set W := (L.map (fun pa => rnd (df pa.1 * pa.2))).foldl (fun a x => rnd (a + x)) 0 with hW
  rw [show Rounded.sum rnd (L.map (fun pa => rnd (df pa.1 * pa.2))) = W from rfl]
  set S := (L.map (fun pa => rnd (df pa.1 * pa.2))).sum with hS
  set A := totalSize ref schedule with hAdef
  set V := (L.map (fun pa => (pa.2 : ℝ) * D pa.1)).sum with hV
  set n : ℚ := (L.length : ℚ) with hn'
  set N : ℚ := (schedule.length : ℚ) with hN
  have n0 : 0 ≤ n := by rw [hn']; positivity
  have k1 : n * (2 * (u * (4 * A + 2 * n * tiny) + 2 * tiny)) ≤ 8 * N * u * A + 6 * N * tiny := by
    have q1 : n * u ≤ 1 / 2 := le_trans (mul_le_mul_of_nonneg_right hnL u0) hn
    have q2 : (n * u) * (n * tiny) ≤ 1 / 2 * (n * tiny) := mul_le_mul_of_nonneg_right q1 (by positivity)
    have q3 : n * (u * A) ≤ N * (u * A) := mul_le_mul_of_nonneg_right hnL (by positivity)
    have q4 : n * tiny ≤ N * tiny := mul_le_mul_of_nonneg_right hnL t0.le
    calc n * (2 * (u * (4 * A + 2 * n * tiny) + 2 * tiny)) = 8 * (n * (u * A)) + 4 * ((n * u) * (n * tiny)) + 4 * (n * tiny) := by ring
      _ ≤ 8 * (N * (u * A)) + 4 * (1 / 2 * (N * tiny)) + 4 * (N * tiny) := by linarith
      _ = _ := by ring
  have k2 : |W - S| ≤ 8 * N * u * A + 6 * N * tiny := le_trans hsum k1
  have k3 : |(W : ℝ) - S| ≤ ((8 * N * u * A + 6 * N * tiny : ℚ) : ℝ) := by exact_mod_cast k2
  have k4 : ((3 * u + e) * A + 2 * n * tiny : ℚ) ≤ (3 * u + e) * A + 2 * N * tiny := by
    have : n * tiny ≤ N * tiny := mul_le_mul_of_nonneg_right hnL t0.le
    linarith
  have k5 : |(S : ℝ) - V| ≤ ((3 * u + e) * A + 2 * N * tiny : ℚ) := by
    refine le_trans p2 ?_
    have k4R := (Rat.cast_le (K := ℝ)).2 k4
    have hnR : ((n : ℚ) : ℝ) = (L.length : ℝ) := by rw [hn']; exact Rat.cast_natCast _
    rw [← hnR]
    refine le_trans (le_of_eq ?_) k4R
    push_cast
    ring
  have k6 : scheduleError u tiny e A schedule.length = (8 * N * u * A + 6 * N * tiny) + ((3 * u + e) * A + 2 * N * tiny) := by
    unfold scheduleError; rw [← hN]; ring
  rw [k6, show (W : ℝ) - V = (W - S) + (S - V) by ring]
  refine le_trans (abs_add_le _ _) ?_
  push_cast at k3 k5 ⊢
  linarith

/-- The error of the value of a schedule with payments of total size `A`. -/
def valueError (u tiny v T M A : ℚ) (n : Nat) : ℚ := scheduleError u tiny (factorError u tiny v T M) A n

/-- C128. In floating point the value of any schedule of payments on a curve of continuously compounded yields, under any adjustment, is
the sum of the payments times the true exponentials, up to an error of a few units of rounding relative to the total size of the
payments. -/
theorem C128_value (R : Rounding rnd u tiny) (E : FloatExp rnd exp v) (values : List Knot) (dcc : DayCountConvention)
    (ref : PyDate) (τ : PyDate → ℚ) (left right : EndBehavior) (T M : ℚ) (h : YieldInput rnd values dcc ref τ left T M)
    (linear : Bool) (c : Curve) (hc : Curve.create values (if linear then .linear else .previous) dcc (some ref) left right = .ok c)
    (y : PyDate → ℚ) (hy : ∀ d, ref ≤ d → (∃ k ∈ values, d ≤ k.date) → c.call d = .ok (y d))
    (adj : PyDate → Except PyErr ℚ) (a a' : PyDate → ℚ) (hadj : ∀ d, adj d = .ok (a' d)) (ha : ∀ d, |a' d - a d| ≤ 24 * u * M)
    (haM : ∀ d, |a d| ≤ M ∧ |a d| * T ≤ 1 / 2) (schedule : List Payment) (hn : (schedule.length : ℚ) * u ≤ 1 / 2)
    (hin : ∀ p ∈ schedule, p.amount ≠ none → ref ≤ p.date → ∃ k ∈ values, p.date ≤ k.date) :
    ∃ w, Rounded.yieldPresentValue rnd exp values dcc ref linear left schedule adj = .ok w ∧
      |(w : ℝ) - continuousValue ref (fun d => ((y d + a d : ℚ) : ℝ)) (fun d => ((τ d - τ ref : ℚ) : ℝ)) schedule| ≤
        valueError u tiny v T M (totalSize ref schedule) schedule.length := by
  obtain ⟨knots, df, hk, hki, hmem, hdf⟩ := rounded_factors R E h linear hc y hy adj a a' hadj ha haM
  have u0 := R.u_nonneg
  have t0 := R.tiny_pos
  have hv0 : 0 ≤ v := by
    have := le_trans (abs_nonneg _) (E.close 0 (by norm_num))
    exact_mod_cast this
  have hM0 : 0 ≤ M := by have := h.low; linarith
  have hT0 : 0 ≤ T := by have := h.one_le; linarith
  have he0 : 0 ≤ factorError u tiny v T M := by unfold factorError; positivity
  have he1 := factorError_le (v := v) R h.one_le h.horizon h.high hM0 E.small
  set L := countedPairs ref schedule with hL
  have hrange : ∀ pa ∈ L, ref ≤ pa.1 ∧ ∃ k ∈ values, pa.1 ≤ k.date := by
    intro pa hpa
    obtain ⟨h1, p, hp, h2, h3⟩ := countedPairs_mem hpa
    refine ⟨h1, ?_⟩
    have := hin p hp (by rw [h2]; simp) (by rw [h3]; exact h1)
    rwa [h3] at this
  have hcall : ∀ pa ∈ L, Rounded.interpolate rnd knots dcc ref true .error (fun _ => .ok 0) pa.1 = .ok (df pa.1) := by
    intro pa hpa
    obtain ⟨h1, h2⟩ := hrange pa hpa
    have hkm : (⟨pa.1, df pa.1⟩ : Knot) ∈ knots := (hmem _).2 ⟨h1, h2, rfl⟩
    obtain ⟨grid, x, y', e1, e2, e3, e4⟩ := curveValue_parts (C95_knots R knots dcc ref hki true ⟨pa.1, df pa.1⟩ hkm (hdf pa.1 h1 h2).1)
    obtain ⟨first, last, hf, hla, -, -, hmin, hmax⟩ := first_knot hki.nonempty hki.distinct
    unfold Rounded.interpolate
    simp only [hf, hla, if_neg (not_lt.2 (hmin _ hkm)), if_neg (not_lt.2 (hmax _ hkm)), if_true] at e3 ⊢
    rw [e1, ok_bind, e2, ok_bind, e3, ok_bind, ok_bind, e4]
  obtain ⟨s1, -, -⟩ := countedPairs_sum ref (fun d => ((y d + a d : ℚ) : ℝ)) (fun d => ((τ d - τ ref : ℚ) : ℝ)) schedule
  obtain ⟨w, hw, hwe⟩ := rounded_schedule R he0 he1 df (fun d => Real.exp (-(((y d + a d : ℚ) : ℝ) * ((τ d - τ ref : ℚ) : ℝ)))) hn
    (fun pa hpa => ⟨hcall pa hpa, (hdf pa.1 (hrange pa hpa).1 (hrange pa hpa).2).2.1, by
      rw [abs_of_pos (Real.exp_pos _)]; exact (hdf pa.1 (hrange pa hpa).1 (hrange pa hpa).2).2.2⟩)
  refine ⟨w, ?_, ?_⟩
  · unfold Rounded.yieldPresentValue
    rw [hk, ok_bind, hw]
  · rw [s1]; exact hwe

/-! ## Key-rate risk -/

/-- A key rate in floating point: the weight times the bump, for bumps of either sign. -/
theorem rounded_weight (R : Rounding rnd u tiny) (k : KeyRate) (hk : Neighboured k) :
    ∃ w : PyDate → ℚ, (∀ b d, (k.setBumpVal b).call d = .ok (b * w d)) ∧ (∀ d, 0 ≤ w d ∧ w d ≤ 1) ∧
      ∀ b d, tiny * 2 ^ 40 ≤ b → rnd b = b → CallNear rnd u tiny (k.setBumpVal b) d (w d) := by
  obtain ⟨w, hw, hwb⟩ := keyRate_weight k hk
  refine ⟨w, hw, fun d => ⟨(hwb d).1, (hwb d).2.1⟩, fun b d hb hrep => ?_⟩
  obtain ⟨dcc, m, prior, next, b0⟩ := k
  obtain ⟨hdcc, hsome, hprior, hnext, hkey⟩ := hk
  simp only [KeyRate.setBumpVal] at hdcc hsome hprior hnext hkey hw ⊢
  obtain ⟨τ, hτ⟩ : ∃ τ, timeAxis dcc = some τ := by
    cases dcc <;> simp [timeAxis] at hdcc ⊢
  have key := keyRate_near R ⟨dcc, m, prior, next, b⟩ τ hτ hb hrep hkey hprior hnext d
  have one := hw 1 d
  rw [one_mul] at one
  cases prior with
  | none =>
    cases next with
    | none => simp at hsome
    | some n =>
      have e := C22_no_prior dcc τ hτ m n (hnext n rfl) hkey 1 d
      rw [one, one_mul] at e
      injection e with e
      rw [e]; exact key.2.2 n rfl rfl
  | some p =>
    cases next with
    | none =>
      have e := C22_no_next dcc τ hτ p m (hprior p rfl).1 (hprior p rfl).2 1 d
      rw [one, one_mul] at e
      injection e with e
      rw [e]; exact key.2.1 p rfl rfl
    | some n =>
      have e := C22_hat dcc τ hτ p m n (hprior p rfl).1 (hnext n rfl) (hprior p rfl).2 1 d
      rw [one, one_mul] at e
      injection e with e
      rw [e]; exact key.1 p n rfl rfl

/-- The opposite bump gives the opposite value. -/
theorem keyRateCall_neg (R : Rounding rnd u tiny) (k : KeyRate) (b g : ℚ) (d : PyDate)
    (h : Rounded.keyRateCall rnd (k.setBumpVal b) d = .ok g) : Rounded.keyRateCall rnd (k.setBumpVal (-b)) d = .ok (-g) := by
  obtain ⟨dcc, m, prior, next, b0⟩ := k
  unfold Rounded.keyRateCall KeyRate.setBumpVal at *
  have chain : ∀ (X Y : Except PyErr ℚ), (do
        let x ← X; let y ← Y; let q ← Rounded.div rnd x y; .ok (rnd (q * b))) = .ok g →
      (do let x ← X; let y ← Y; let q ← Rounded.div rnd x y; .ok (rnd (q * -b))) = (.ok (-g) : Except PyErr ℚ) := by
    intro X Y h
    rw [bind_ok] at h; obtain ⟨x, hx, h⟩ := h
    rw [bind_ok] at h; obtain ⟨y, hy, h⟩ := h
    rw [bind_ok] at h; obtain ⟨q, hq, h⟩ := h
    injection h with h
    rw [hx, ok_bind, hy, ok_bind, hq, ok_bind, mul_neg, R.neg, h]
  have chain' : ∀ (X Y : Except PyErr ℚ), (do
        let x ← X; let y ← Y; let q ← Rounded.div rnd x y; .ok (rnd (b * q))) = .ok g →
      (do let x ← X; let y ← Y; let q ← Rounded.div rnd x y; .ok (rnd (-b * q))) = (.ok (-g) : Except PyErr ℚ) := by
    intro X Y h
    simp only [mul_comm b, mul_comm (-b)] at h ⊢
    exact chain X Y h
  have zero : (.ok 0 : Except PyErr ℚ) = .ok g → (.ok 0 : Except PyErr ℚ) = .ok (-g) := by
    intro h; injection h with h; rw [← h, neg_zero]
  have bump : (.ok b : Except PyErr ℚ) = .ok g → (.ok (-b) : Except PyErr ℚ) = .ok (-g) := by
    intro h; injection h with h; rw [h]
  cases prior with
  | none =>
    simp only at h ⊢
    split_ifs at h ⊢ with h1
    · exact bump h
    · cases next with
      | none => simp at h
      | some n =>
        simp only at h ⊢
        split_ifs at h ⊢
        · exact zero h
        · exact chain' _ _ h
  | some p =>
    cases next with
    | none =>
      simp only at h ⊢
      split_ifs at h ⊢
      · exact bump h
      · exact zero h
      · exact chain _ _ h
    | some n =>
      simp only at h ⊢
      split_ifs at h ⊢
      · exact zero h
      · exact chain _ _ h
      · exact chain _ _ h

/-- Central differences in floating point: the values half a basis point up and down have errors of at most `e`. -/
theorem rounded_central (R : Rounding rnd u tiny) {U L : ℚ} {VU VL : ℝ} {e : ℚ} (hU : |(U : ℝ) - VU| ≤ e) (hL : |(L : ℝ) - VL| ≤ e) :
    ∃ r, (do
        let deriv ← Rounded.div rnd (rnd (U - L)) (rnd oneBasisPoint)
        .ok (rnd (deriv * rnd oneBasisPoint)) : Except PyErr ℚ) = .ok r ∧
      |(r : ℝ) - (VU - VL)| ≤ 3 * (e : ℝ) + 4 * u * |VU - VL| + 8 * tiny := by
  have u0 := R.u_nonneg
  have us := R.u_small
  have t0 := R.tiny_pos
  have ts := R.tiny_small
  have hbpn : Near u 1 (1 / 10000) (rnd oneBasisPoint) := R.near (Or.inr (by
    have : (1 : ℚ) / 2 ^ 100 ≤ 1 / 10000 := by norm_num
    show tiny ≤ 1 / 10000
    linarith))
  have hbp0 : 1 / 20000 ≤ rnd oneBasisPoint := by
    have := hbpn.1
    have : (1 - u) ^ 1 * (1 / 10000 : ℚ) = (1 - u) * (1 / 10000) := by ring
    have : u ≤ 1 / 4 := le_trans us (by norm_num)
    linarith
  have bp1 : rnd oneBasisPoint ≤ 1 := by
    have := R.mono (show oneBasisPoint ≤ 1 by norm_num [oneBasisPoint])
    rw [R.one] at this
    exact this
  generalize rnd oneBasisPoint = bp at *
  have hbp_ne : bp ≠ 0 := by intro hz; rw [hz] at hbp0; norm_num at hbp0
  rw [Rounded.div_of_ne hbp_ne, ok_bind]
  refine ⟨_, rfl, ?_⟩
  obtain ⟨D, hD⟩ : ∃ D, D = VU - VL := ⟨_, rfl⟩
  rw [← hD]
  -- the error of the last three operations
  have f1 := R.abs_err (U - L)
  set s := U - L with hs
  set s1 := rnd s with hs1
  have f2 := R.abs_err (s1 / bp)
  set q := rnd (s1 / bp) with hq
  have f3 := R.abs_err (q * bp)
  set r := rnd (q * bp) with hr
  have bpp : 0 < bp := by linarith
  have f4 : |q * bp - s1| ≤ u * |s1| + 2 * tiny := by
    have e1 : q * bp - s1 = (q - s1 / bp) * bp := by field_simp
    rw [e1, abs_mul, abs_of_pos bpp]
    have e2 : |q - s1 / bp| * bp ≤ (u * |s1 / bp| + 2 * tiny) * bp := mul_le_mul_of_nonneg_right f2 bpp.le
    have e3 : (u * |s1 / bp| + 2 * tiny) * bp = u * |s1| + 2 * tiny * bp := by
      rw [abs_div, abs_of_pos bpp]; field_simp
    have e4 : 2 * tiny * bp ≤ 2 * tiny := by nlinarith
    linarith
  have us' : u ≤ 1 / 100 := le_trans us (by norm_num)
  have g1 : |s1| ≤ |s1 - s| + |s| := by have := abs_add_le (s1 - s) s; simpa using this
  have g2 : |q * bp| ≤ |q * bp - s1| + |s1| := by have := abs_add_le (q * bp - s1) s1; simpa using this
  have hs0 := abs_nonneg s
  have us0 : 0 ≤ u * |s| := mul_nonneg u0 hs0
  have ut0 : 0 ≤ u * tiny := mul_nonneg u0 t0.le
  have utl : u * tiny ≤ 1 / 100 * tiny := mul_le_mul_of_nonneg_right us' t0.le
  have g3 : |s1| ≤ (1 + u) * |s| + 2 * tiny := by linarith
  have g4 : u * |s1| ≤ u * ((1 + u) * |s| + 2 * tiny) := mul_le_mul_of_nonneg_left g3 u0
  have uu : u * (u * |s|) ≤ 1 / 100 * (u * |s|) := mul_le_mul_of_nonneg_right us' us0
  have g5 : u * |s1| ≤ 101 / 100 * (u * |s|) + 1 / 50 * tiny := by
    have : u * ((1 + u) * |s| + 2 * tiny) = u * |s| + u * (u * |s|) + 2 * (u * tiny) := by ring
    linarith
  have g6 : |q * bp| ≤ (1 + 3 * u) * |s| + 5 * tiny := by linarith
  have g7 : u * |q * bp| ≤ u * ((1 + 3 * u) * |s| + 5 * tiny) := mul_le_mul_of_nonneg_left g6 u0
  have g8 : u * |q * bp| ≤ 103 / 100 * (u * |s|) + 1 / 20 * tiny := by
    have : u * ((1 + 3 * u) * |s| + 5 * tiny) = u * |s| + 3 * (u * (u * |s|)) + 5 * (u * tiny) := by ring
    linarith
  have g9 : |r - s| ≤ 7 / 2 * (u * |s|) + 7 * tiny := by
    have : r - s = (r - q * bp) + ((q * bp - s1) + (s1 - s)) := by ring
    rw [this]
    have a1 := abs_add_le (r - q * bp) ((q * bp - s1) + (s1 - s))
    have a2 := abs_add_le (q * bp - s1) (s1 - s)
    linarith
  have g9' : |(r : ℝ) - s| ≤ 7 / 2 * (u * |(s : ℝ)|) + 7 * tiny := by
    have := (Rat.cast_le (K := ℝ)).2 g9
    push_cast at this
    exact this
  have hsR : ((s : ℚ) : ℝ) = U - L := by rw [hs]; push_cast; ring
  have k1 : |(s : ℝ) - D| ≤ 2 * e := by
    rw [hsR, hD]
    have : ((U : ℝ) - L) - (VU - VL) = (U - VU) + -(L - VL) := by ring
    rw [this]
    refine le_trans (abs_add_le _ _) ?_
    rw [abs_neg]
    linarith
  have k2 : |(s : ℝ)| ≤ |D| + 2 * e := by
    have := abs_add_le ((s : ℝ) - D) D
    rw [sub_add_cancel] at this
    linarith
  have e0 : (0 : ℝ) ≤ e := by have := abs_nonneg ((s : ℝ) - D); linarith
  have uR : (u : ℝ) ≤ 1 / 100 := by
    have := (Rat.cast_le (K := ℝ)).2 us'
    push_cast at this
    exact this
  have uR0 : (0 : ℝ) ≤ u := by exact_mod_cast u0
  have tR0 : (0 : ℝ) < tiny := by exact_mod_cast t0
  have k3 : (u : ℝ) * |(s : ℝ)| ≤ u * (|D| + 2 * e) := mul_le_mul_of_nonneg_left k2 uR0
  have k4 : (u : ℝ) * e ≤ 1 / 100 * e := mul_le_mul_of_nonneg_right uR e0
  have k5 : 0 ≤ (u : ℝ) * |D| := mul_nonneg uR0 (abs_nonneg _)
  have : (r : ℝ) - D = (r - s) + (s - D) := by ring
  rw [this]
  refine le_trans (abs_add_le _ _) ?_
  nlinarith

/-- Key-rate risk in floating point, of any value that tolerates small errors of the adjustment. -/
theorem rounded_pv01Of (R : Rounding rnd u tiny) (k : KeyRate) (hk : Neighboured k) (up down : PyDate → ℚ)
    (hup : ∀ d, (k.setBumpVal (1 / 20000)).call d = .ok (up d)) (hdown : ∀ d, (k.setBumpVal (-1 / 20000)).call d = .ok (down d))
    (value : (PyDate → Except PyErr ℚ) → Except PyErr ℚ) {e : ℚ} {VU VL : ℝ}
    (hU : (∀ d, |up d| ≤ 1 / 20000) → ∀ (adj : PyDate → Except PyErr ℚ) (g : PyDate → ℚ), (∀ d, adj d = .ok (g d)) →
      (∀ d, |g d - up d| ≤ u / 1000) → ∃ U, value adj = .ok U ∧ |(U : ℝ) - VU| ≤ e)
    (hL : (∀ d, |down d| ≤ 1 / 20000) → ∀ (adj : PyDate → Except PyErr ℚ) (g : PyDate → ℚ), (∀ d, adj d = .ok (g d)) →
      (∀ d, |g d - down d| ≤ u / 1000) → ∃ L, value adj = .ok L ∧ |(L : ℝ) - VL| ≤ e) :
    ∃ r, Rounded.pv01Of rnd value k = .ok r ∧ |(r : ℝ) - (VU - VL)| ≤ 3 * (e : ℝ) + 4 * u * |VU - VL| + 8 * tiny := by
  have u0 := R.u_nonneg
  have us := R.u_small
  have t0 := R.tiny_pos
  have ts := R.tiny_small
  obtain ⟨w, hw, hwb, hnear⟩ := rounded_weight R k hk
  have hupw : ∀ d, up d = 1 / 20000 * w d := fun d => by
    have := hup d; rw [hw] at this; injection this with this; exact this.symm
  have hdownw : ∀ d, down d = -(1 / 20000 * w d) := fun d => by
    have := hdown d; rw [hw] at this; injection this with this; rw [← this]; ring
  -- the basis point and half of it
  set bp := rnd oneBasisPoint with hbp
  set b := rnd (bp / 2) with hb
  have ts' : tiny ≤ 1 / 10 ^ 20 := le_trans ts (by norm_num)
  have hbpn : Near u 1 (1 / 10000) bp := R.near (Or.inr (by linarith))
  have hbp0 : 1 / 20000 ≤ bp := by
    have := hbpn.1
    have : (1 - u) ^ 1 * (1 / 10000 : ℚ) = (1 - u) * (1 / 10000) := by ring
    have : u ≤ 1 / 4 := le_trans us (by norm_num)
    linarith
  have hbn : Near u 1 (bp / 2) b := R.near (Or.inr (by linarith))
  have hbp2 : Near u 1 (1 / 20000) (bp / 2) := by
    obtain ⟨n1, n2⟩ := hbpn
    exact ⟨by linarith, by linarith⟩
  have hb2 : Near u 2 (1 / 20000) b := hbp2.trans R.u_lt hbn
  have hb0 : 1 / 40000 ≤ b := by
    have := hbn.1
    have e : (1 - u) ^ 1 * (bp / 2) = bp / 2 - u * (bp / 2) := by ring
    have us4 : u ≤ 1 / 4 := le_trans us (by norm_num)
    have hbp1 : bp ≤ 1 := by
      have := R.mono (show oneBasisPoint ≤ 1 by norm_num [oneBasisPoint])
      rw [R.one] at this
      exact this
    have hbp3 : 3 / 40000 ≤ bp := by
      have := hbpn.1
      have : (1 - u) ^ 1 * (1 / 10000 : ℚ) = (1 - u) * (1 / 10000) := by ring
      linarith
    have : u * (bp / 2) ≤ 1 / 4 * (bp / 2) := mul_le_mul_of_nonneg_right us4 (by linarith)
    linarith
  have hbt : tiny * 2 ^ 40 ≤ b := by
    have : tiny * 2 ^ 40 ≤ 1 / 2 ^ 100 * 2 ^ 40 := mul_le_mul_of_nonneg_right ts (by norm_num)
    have : (1 / 2 ^ 100 * 2 ^ 40 : ℚ) ≤ 1 / 40000 := by norm_num
    linarith
  have hbrep : rnd b = b := R.idem _
  choose g hg using fun d => hnear b d hbt hbrep
  have herr : ∀ d, |g d - 1 / 20000 * w d| ≤ u / 1000 := by
    intro d
    have n1 : Near u 8 (b * w d) (g d) := (hg d).2.1
    have n2 : Near u 2 (1 / 20000 * w d) (b * w d) := by
      obtain ⟨q1, q2⟩ := hb2
      have := (hwb d).1
      exact ⟨by nlinarith, by nlinarith⟩
    have n3 := n2.trans R.u_lt n1
    have hw0 : 0 ≤ 1 / 20000 * w d := by have := (hwb d).1; positivity
    have n4 := near_abs u0 R.u_lt (k := 2 + 8) (by
      push_cast
      have : ((2 + 8) * (1 / 2 ^ 40) : ℚ) ≤ 1 / 2 := by norm_num
      linarith) hw0 n3
    refine le_trans n4 ?_
    push_cast
    have q3 : 1 / 20000 * w d ≤ 1 / 20000 := by
      have := (hwb d).2
      linarith
    have q4 : u * (1 / 20000 * w d) ≤ u * (1 / 20000) := mul_le_mul_of_nonneg_left q3 u0
    linarith
  have hsize : ∀ d, |1 / 20000 * w d| ≤ 1 / 20000 := by
    intro d
    have q1 := hwb d
    rw [abs_of_nonneg (by have := q1.1; positivity)]; linarith
  obtain ⟨U, hU, hUe⟩ := hU (fun d => by rw [hupw]; exact hsize d) (Rounded.keyRateCall rnd (k.setBumpVal b)) g (fun d => (hg d).1)
    (fun d => by rw [hupw]; exact herr d)
  obtain ⟨L, hL, hLe⟩ := hL (fun d => by rw [hdownw, abs_neg]; exact hsize d) (Rounded.keyRateCall rnd (k.setBumpVal (-b)))
    (fun d => -g d) (fun d => keyRateCall_neg R k b (g d) d (hg d).1)
    (fun d => by
      rw [hdownw, show -g d - -(1 / 20000 * w d) = -(g d - 1 / 20000 * w d) by ring, abs_neg]; exact herr d)
  obtain ⟨r, hr, hre⟩ := rounded_central R hUe hLe
  refine ⟨r, ?_, hre⟩
  unfold Rounded.pv01Of
  rw [← hbp]
  dsimp only
  rw [show -bp / 2 = -(bp / 2) by ring, R.neg, ← hb, hL, ok_bind, hU, ok_bind]
  exact hr

/-- C128. In floating point the one-basis-point risk of any schedule of payments to a key rate is the true difference of values for half a
basis point up and down, up to three times the error of a value (dividing by a basis point and multiplying by it again does not amplify
the error). -/
theorem C128_pv01 (R : Rounding rnd u tiny) (E : FloatExp rnd exp v) (values : List Knot) (dcc : DayCountConvention)
    (ref : PyDate) (τ : PyDate → ℚ) (left right : EndBehavior) (T M : ℚ) (h : YieldInput rnd values dcc ref τ left T M)
    (linear : Bool) (c : Curve) (hc : Curve.create values (if linear then .linear else .previous) dcc (some ref) left right = .ok c)
    (y : PyDate → ℚ) (hy : ∀ d, ref ≤ d → (∃ k ∈ values, d ≤ k.date) → c.call d = .ok (y d))
    (k : KeyRate) (hk : Neighboured k) (up down : PyDate → ℚ) (hup : ∀ d, (k.setBumpVal (1 / 20000)).call d = .ok (up d))
    (hdown : ∀ d, (k.setBumpVal (-1 / 20000)).call d = .ok (down d))
    (schedule : List Payment) (hn : (schedule.length : ℚ) * u ≤ 1 / 2)
    (hin : ∀ p ∈ schedule, p.amount ≠ none → ref ≤ p.date → ∃ k ∈ values, p.date ≤ k.date) :
    ∃ r, Rounded.pv01 rnd exp values dcc ref linear left schedule k = .ok r ∧
      ∀ D, D = continuousValue ref (fun d => ((y d + up d : ℚ) : ℝ)) (fun d => ((τ d - τ ref : ℚ) : ℝ)) schedule -
          continuousValue ref (fun d => ((y d + down d : ℚ) : ℝ)) (fun d => ((τ d - τ ref : ℚ) : ℝ)) schedule →
        |(r : ℝ) - D| ≤ 3 * (valueError u tiny v T M (totalSize ref schedule) schedule.length : ℝ) + 4 * u * |D| + 8 * tiny := by
  have u0 := R.u_nonneg
  have small : ∀ x : ℚ, |x| ≤ 1 / 20000 → |x| ≤ M ∧ |x| * T ≤ 1 / 2 := by
    intro x q2
    have q3 := h.low
    have q4 := h.horizon
    have q5 := h.one_le
    refine ⟨by linarith, ?_⟩
    have : |x| * T ≤ 1 / 20000 * 300 := mul_le_mul q2 q4 (by linarith) (by norm_num)
    linarith
  have hM : u / 1000 ≤ 24 * u * M := by
    have := mul_le_mul_of_nonneg_left h.low u0
    linarith
  obtain ⟨r, hr, hre⟩ := rounded_pv01Of R k hk up down hup hdown
    (Rounded.yieldPresentValue rnd exp values dcc ref linear left schedule)
    (fun hs adj g hadj hg => C128_value R E values dcc ref τ left right T M h linear c hc y hy adj up g hadj
      (fun d => le_trans (hg d) hM) (fun d => small _ (hs d)) schedule hn hin)
    (fun hs adj g hadj hg => C128_value R E values dcc ref τ left right T M h linear c hc y hy adj down g hadj
      (fun d => le_trans (hg d) hM) (fun d => small _ (hs d)) schedule hn hin)
  exact ⟨r, hr, fun D hD => by rw [hD]; exact hre⟩

end Verif.Props
