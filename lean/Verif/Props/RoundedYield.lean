/- Property C131: the value of a bond at a fixed rate, and its yield, in floating point. -/
import Verif.Model.RoundedYield
import Verif.Spec.RoundedYield
import Verif.Lemmas.Close
import Verif.Lemmas.RoundedAxis
import Verif.Lemmas.RoundedValuation
import Verif.Props.ApproximateYield
import Verif.Props.RoundedValuation

namespace Verif.Props
open Verif Verif.Spec Verif.DayCount Verif.Scheduler

variable {rnd : ℚ → ℚ} {u tiny : ℚ} {pow : ℚ → ℚ → ℚ}

/-! ## C131 -/

theorem half_le_exp {η : ℝ} (h : η ≤ 1 / 2) : (1 : ℝ) / 2 ≤ Real.exp (-η) := by
  have := Real.add_one_le_exp (-η)
  linarith

/-- A discount factor in floating point. -/
theorem rounded_factor (R : Rounding rnd u tiny) (Pw : PowerFn pow u tiny) {n : Nat} (hn : 0 < n) {r A a : ℚ} {N : Nat}
    (hr1 : -((n : ℚ) / 2) ≤ r) (hr2 : r ≤ n) (hr0 : r = 0 ∨ tiny * n ≤ |r|) (hA : 1 / 366 ≤ A) (hAN : A * n ≤ N)
    (ha : Near u 3 A a) (htiny : tiny * 2 ^ (N + 4) ≤ 1) (hsmall : 16 * ((N : ℚ) + 1) * u ≤ 1 / 2) :
    ∃ df, Rounded.fixedRateFactor rnd pow n r a = .ok df ∧
      Close ((16 * (N : ℝ) + 10) * u) (1 / (1 + (r : ℝ) / n) ^ ((A : ℝ) * n)) df ∧ 1 / 2 ^ (N + 2) ≤ df := by
  have u0 := R.u_nonneg
  have u1 := R.u_lt
  have us : u ≤ 1 / 1000 := R.u_small.trans (by norm_num)
  have t0 := R.tiny_pos
  have hnQ : (0 : ℚ) < n := by exact_mod_cast hn
  have hn1 : (1 : ℚ) ≤ n := by exact_mod_cast hn
  have u0R : (0 : ℝ) ≤ u := by exact_mod_cast u0
  have usR : (u : ℝ) ≤ 1 / 1000 := by
    calc (u : ℝ) ≤ ((1 / 1000 : ℚ) : ℝ) := (Rat.cast_le (K := ℝ)).2 us
      _ = 1 / 1000 := by norm_num
  -- the base
  set q := r / n with hq
  have hq1 : -(1 / 2) ≤ q := by rw [hq, le_div_iff₀ hnQ]; linarith
  have hq2 : q ≤ 1 := by rw [hq, div_le_one hnQ]; exact hr2
  set X := 1 + q with hX
  have hX1 : 1 / 2 ≤ X := by linarith
  have hX2 : X ≤ 2 := by linarith
  have hqX : |q| ≤ X := by rw [abs_le]; constructor <;> linarith
  have herr : |rnd q - q| ≤ u * |q| := by
    rcases hr0 with h | h
    · have : q = 0 := by rw [hq, h, zero_div]
      rw [this, R.zero]; simp
    · refine R.err q ?_
      rw [hq, abs_div, abs_of_pos hnQ, le_div_iff₀ hnQ]
      exact h
  set y := 1 + rnd q with hy
  have hyX : |y - X| ≤ u * X := by
    have : y - X = rnd q - q := by rw [hy, hX]; ring
    rw [this]
    exact herr.trans (mul_le_mul_of_nonneg_left hqX u0)
  have hylow : 1 / 4 ≤ y := by
    have h1 := (abs_le.1 hyX).1
    have h2 : u * X ≤ 1 / 1000 * X := mul_le_mul_of_nonneg_right us (by linarith)
    linarith
  have htsmall : tiny ≤ 1 / 4 := R.tiny_small.trans (by norm_num)
  have hyr : |rnd y - y| ≤ u * y := by
    have hy0 : 0 < y := by linarith
    have := R.err y (by rw [abs_of_pos hy0]; linarith)
    rw [abs_of_pos hy0] at this
    exact this
  set x := rnd y with hx
  have hXR : (0 : ℝ) < X := by exact_mod_cast (by linarith : (0 : ℚ) < X)
  have hyR : (0 : ℝ) < y := by exact_mod_cast (by linarith : (0 : ℚ) < y)
  have cast_rel : ∀ a b : ℚ, |b - a| ≤ u * a → |(b : ℝ) - a| ≤ (u : ℝ) * a := by
    intro a b hab
    have := (Rat.cast_le (K := ℝ)).2 hab
    push_cast at this
    exact this
  have c1 : Close (2 * (u : ℝ)) X y := Close.of_rel hXR.le u0R (by linarith) (cast_rel _ _ hyX)
  have c2 : Close (2 * (u : ℝ)) y x := Close.of_rel hyR.le u0R (by linarith) (cast_rel _ _ hyr)
  have cx := c1.trans c2
  have hxR : (0 : ℝ) < x := cx.pos hXR
  have hxQ : 0 < x := by exact_mod_cast hxR
  -- the exponent
  have ha0 : 0 ≤ a := ha.nonneg u1 (by linarith)
  have halow : 1 / 1000 ≤ a := by
    have := near_abs u0 u1 (k := 3) (by push_cast; linarith) (by linarith) ha
    have h1 := (abs_le.1 this).1
    push_cast at h1
    have h2 : 2 * (3 * u) * A ≤ 6 / 1000 * A := mul_le_mul_of_nonneg_right (by linarith) (by linarith)
    linarith
  set E := A * n with hE
  have hE0 : 0 ≤ E := mul_nonneg (by linarith) hnQ.le
  have hNE : Near u 3 E (a * n) := by
    constructor
    · calc (1 - u) ^ 3 * E = (1 - u) ^ 3 * A * n := by rw [hE]; ring
        _ ≤ a * n := mul_le_mul_of_nonneg_right ha.1 hnQ.le
    · calc (1 - u) ^ 3 * (a * n) = (1 - u) ^ 3 * a * n := by ring
        _ ≤ A * n := mul_le_mul_of_nonneg_right ha.2 hnQ.le
  have han : a * n = 0 ∨ tiny ≤ a * n := by
    right
    have h1 : a * 1 ≤ a * n := mul_le_mul_of_nonneg_left hn1 ha0
    have h2 : tiny ≤ 1 / 1000 := R.tiny_small.trans (by norm_num)
    linarith
  set e := rnd (a * n) with he
  have hNe : Near u 4 E e := hNE.trans u1 (R.near han)
  have he0 : 0 ≤ e := hNe.nonneg u1 hE0
  have hde : |e - E| ≤ 8 * u * E := by
    have := near_abs u0 u1 (k := 4) (by push_cast; linarith) hE0 hNe
    push_cast at this
    linarith
  have heE : e ≤ 2 * E := by
    have h1 := (abs_le.1 hde).2
    have h2 : 8 * u * E ≤ 1 * E := mul_le_mul_of_nonneg_right (by linarith) hE0
    linarith
  have hER : (0 : ℝ) ≤ E := by exact_mod_cast hE0
  have heR : (0 : ℝ) ≤ e := by exact_mod_cast he0
  have heER : (e : ℝ) ≤ 2 * E := by exact_mod_cast heE
  have hENR : (E : ℝ) ≤ N := by exact_mod_cast hAN
  have hdeR : |(e : ℝ) - E| ≤ 8 * (u : ℝ) * E := by
    have := (Rat.cast_le (K := ℝ)).2 hde
    push_cast at this
    exact this
  have hX1R : (1 / 2 : ℝ) ≤ X := by
    calc (1 / 2 : ℝ) = ((1 / 2 : ℚ) : ℝ) := by norm_num
      _ ≤ X := (Rat.cast_le (K := ℝ)).2 hX1
  have hX2R : (X : ℝ) ≤ 2 := by exact_mod_cast hX2
  have hlog : |Real.log (X : ℝ)| ≤ 1 := by
    rw [abs_le]
    constructor
    · have h1 := Real.one_sub_inv_le_log_of_pos hXR
      have h2 : (X : ℝ)⁻¹ ≤ 2 := by
        rw [inv_le_comm₀ hXR (by norm_num)]
        linarith
      linarith
    · have := Real.log_le_sub_one_of_pos hXR
      linarith
  have huE : (u : ℝ) * E ≤ u * N := mul_le_mul_of_nonneg_left hENR u0R
  have hNuR : 16 * ((N : ℝ) + 1) * u ≤ 1 / 2 := by
    have := (Rat.cast_le (K := ℝ)).2 hsmall
    push_cast at this
    exact this
  have hp1 : Close (8 * (u : ℝ) * E) ((X : ℝ) ^ (E : ℝ)) ((X : ℝ) ^ (e : ℝ)) := Close.exponent hXR hlog hdeR
  have hp2 : Close ((2 * (u : ℝ) + 2 * u) * e) ((X : ℝ) ^ (e : ℝ)) ((x : ℝ) ^ (e : ℝ)) := cx.rpow hXR heR
  have hXE : (0 : ℝ) < (X : ℝ) ^ (E : ℝ) := Real.rpow_pos_of_pos hXR _
  have hxe : (0 : ℝ) < (x : ℝ) ^ (e : ℝ) := Real.rpow_pos_of_pos hxR _
  have hp3 : Close (16 * (u : ℝ) * N) ((X : ℝ) ^ (E : ℝ)) ((x : ℝ) ^ (e : ℝ)) := by
    refine (hp1.trans hp2).mono hXE.le hxe.le ?_
    have h1 : (u : ℝ) * e ≤ u * (2 * E) := mul_le_mul_of_nonneg_left heER u0R
    linarith
  have hNR : (0 : ℝ) ≤ N := Nat.cast_nonneg N
  have huN : 0 ≤ (u : ℝ) * N := mul_nonneg u0R hNR
  -- size of the power
  have h2N : (0 : ℝ) < 2 ^ N := by positivity
  have hlowE : (1 : ℝ) / 2 ^ N ≤ (X : ℝ) ^ (E : ℝ) := by
    calc (1 : ℝ) / 2 ^ N = (1 / 2 : ℝ) ^ (N : ℝ) := by rw [Real.rpow_natCast, div_pow, one_pow]
      _ ≤ (1 / 2 : ℝ) ^ (E : ℝ) := Real.rpow_le_rpow_of_exponent_ge (by norm_num) (by norm_num) hENR
      _ ≤ (X : ℝ) ^ (E : ℝ) := Real.rpow_le_rpow (by norm_num) hX1R hER
  have hupE : (X : ℝ) ^ (E : ℝ) ≤ 2 ^ N := by
    calc (X : ℝ) ^ (E : ℝ) ≤ (2 : ℝ) ^ (E : ℝ) := Real.rpow_le_rpow hXR.le hX2R hER
      _ ≤ (2 : ℝ) ^ (N : ℝ) := Real.rpow_le_rpow_of_exponent_le (by norm_num) hENR
      _ = 2 ^ N := Real.rpow_natCast _ _
  have htR : (tiny : ℝ) * (16 * 2 ^ N) ≤ 1 := by
    have h1 := (Rat.cast_le (K := ℝ)).2 htiny
    rw [pow_add] at h1
    push_cast at h1
    linarith
  have htiny_le : (tiny : ℝ) ≤ 1 / 16 * (1 / 2 ^ N) := by
    rw [one_div_mul_one_div, le_div_iff₀ (by positivity)]
    exact htR
  have hxe_tiny : (tiny : ℝ) ≤ (x : ℝ) ^ (e : ℝ) := by
    have h1 := mul_le_mul (half_le_exp (show 16 * (u : ℝ) * N ≤ 1 / 2 by linarith)) hlowE (by positivity) (Real.exp_pos _).le
    have h2 : (0 : ℝ) < 1 / 2 ^ N := by positivity
    linarith [hp3.1]
  have hpow := Pw.err x e hxQ hxe_tiny
  have hp4 : Close (2 * (4 * (u : ℝ))) ((x : ℝ) ^ (e : ℝ)) (pow x e : ℚ) :=
    Close.of_rel hxe.le (by linarith) (by linarith) hpow
  have hp5 := hp3.trans hp4
  have hpe : (0 : ℝ) < (pow x e : ℚ) := hp5.pos hXE
  have hpeQ : 0 < pow x e := by exact_mod_cast hpe
  have hp6 := hp5.inv hXE
  have hinvlow : (1 : ℝ) / 2 * (1 / 2 ^ N) ≤ ((pow x e : ℚ) : ℝ)⁻¹ := by
    have h1 : (1 : ℝ) / 2 ^ N ≤ ((X : ℝ) ^ (E : ℝ))⁻¹ := by
      rw [← one_div]
      exact one_div_le_one_div_of_le hXE hupE
    have h2 := mul_le_mul (half_le_exp (show 16 * (u : ℝ) * N + 2 * (4 * u) ≤ 1 / 2 by linarith)) h1 (by positivity)
      (Real.exp_pos _).le
    exact h2.trans hp6.1
  have hinvQ : (1 : ℚ) / 2 * (1 / 2 ^ N) ≤ 1 / pow x e := by
    rw [one_div (pow x e)]
    have : (((1 : ℚ) / 2 * (1 / 2 ^ N) : ℚ) : ℝ) ≤ (((pow x e)⁻¹ : ℚ) : ℝ) := by push_cast; exact hinvlow
    exact_mod_cast this
  have hinvtiny : tiny ≤ 1 / pow x e := by
    have : tiny ≤ 1 / 16 * (1 / 2 ^ N) := by
      have h1 : ((tiny : ℚ) : ℝ) ≤ ((1 / 16 * (1 / 2 ^ N) : ℚ) : ℝ) := by push_cast; exact htiny_le
      exact_mod_cast h1
    have h2 : (0 : ℚ) < 1 / 2 ^ N := by positivity
    linarith
  have hnear := R.near (x := 1 / pow x e) (Or.inr hinvtiny)
  have hinv0 : 0 < 1 / pow x e := by positivity
  have hdf0 : 0 ≤ rnd (1 / pow x e) := R.nonneg hinv0.le
  have hp7 := near_close u0 (by linarith) hinv0.le hdf0 hnear
  refine ⟨rnd (1 / pow x e), ?_, ?_, ?_⟩
  · unfold Rounded.fixedRateFactor
    rw [if_neg (by omega)]
    simp only
    rw [if_neg hpeQ.ne']
  · have hbase : (1 + (r : ℝ) / n) = ((X : ℚ) : ℝ) := by rw [hX, hq]; push_cast; ring
    have hexp : (A : ℝ) * n = ((E : ℚ) : ℝ) := by rw [hE]; push_cast; ring
    rw [hbase, hexp, one_div]
    have e1 : ((1 / pow x e : ℚ) : ℝ) = ((pow x e : ℚ) : ℝ)⁻¹ := by push_cast; rw [one_div]
    rw [e1] at hp7
    refine (hp6.trans hp7).mono (inv_pos.2 hXE).le (by exact_mod_cast hdf0) ?_
    push_cast
    linarith
  · have h1 := hnear.1
    have h2 : (1 / 2 : ℚ) * (1 / pow x e) ≤ (1 - u) ^ 1 * (1 / pow x e) := mul_le_mul_of_nonneg_right (by rw [pow_one]; linarith) hinv0.le
    have h3 : (1 : ℚ) / 2 ^ (N + 2) = 1 / 2 * (1 / 2 * (1 / 2 ^ N)) := by rw [pow_add]; ring
    rw [h3]
    linarith

/-- A payment of the bond, exact and rounded: the same dates, an amount up to two roundings, and not minute. -/
def PaymentNear (u floor : ℚ) (p p' : BondPayment) : Prop :=
  p'.unadjusted = p.unadjusted ∧ p'.date = p.date ∧ 0 ≤ p.amount ∧ Near u 2 p.amount p'.amount ∧ (p'.amount = 0 ∨ floor ≤ p'.amount)

theorem rounded_loop (R : Rounding rnd u tiny) (Pw : PowerFn pow u tiny) {b : Bond} {n : Nat} (hn : 0 < n)
    (hfreq : b.terms.frequency.value = n) {τ : PyDate → ℚ} (hτ : timeAxis b.terms.dcc = some τ) {ref s : PyDate}
    (hok : AxisOk b.terms.dcc ref) (hs : addBusinessDays b.terms.calendar ref 1 = .ok s) {r : ℚ} {N : Nat}
    (hr1 : -((n : ℚ) / 2) ≤ r) (hr2 : r ≤ n) (hr0 : r = 0 ∨ tiny * n ≤ |r|)
    (htiny : tiny * 2 ^ (N + 4) ≤ 1) (hsmall : 16 * ((N : ℚ) + 1) * u ≤ 1 / 2) :
    ∀ (l l' : List BondPayment) (j : Nat) (S : ℝ) (acc : ℚ),
      List.Forall₂ (PaymentNear u (tiny * 2 ^ (N + 4))) l l' →
      (∀ p ∈ l, s ≤ p.unadjusted → ref < p.date ∧ (τ p.date - τ ref) * n ≤ N) → 0 ≤ S → (acc = 0 ∨ tiny ≤ acc) →
      Close ((16 * ((N : ℝ) + 1) + 2 * j) * u) S acc →
      ∃ acc', Rounded.discountLoop rnd pow b r ref l' acc = .ok acc' ∧ (acc' = 0 ∨ tiny ≤ acc') ∧
        Close ((16 * ((N : ℝ) + 1) + 2 * (j + l.length : Nat)) * u)
          (S + weightedSum (fun p => s ≤ p.unadjusted) (fun p => 1 / (1 + (r : ℝ) / n) ^
            (((τ p.date - τ ref : ℚ) : ℝ) * n) * (p.amount : ℝ)) l) acc' := by
  intro l l' j S acc hall
  have u0 := R.u_nonneg
  have u1 := R.u_lt
  have us : u ≤ 1 / 1000 := R.u_small.trans (by norm_num)
  have t0 := R.tiny_pos
  have u0R : (0 : ℝ) ≤ u := by exact_mod_cast u0
  induction hall generalizing j S acc with
  | nil =>
    intro _ _ hor hc
    refine ⟨acc, rfl, hor, ?_⟩
    simpa [weightedSum] using hc
  | @cons p p' l l' hp hall ih =>
    intro hd hS hor hc
    obtain ⟨p1, p2, p3, p4, p5⟩ := hp
    have hkeep := isPaymentReceived_some (b := b) hs p'
    have hacc0 : 0 ≤ acc := by rcases hor with h | h <;> linarith
    by_cases hsp : s ≤ p.unadjusted
    · obtain ⟨g1, g2⟩ := hd p (by simp) hsp
      have hgap := axis_gap hτ g1
      obtain ⟨a, ha, hna⟩ := rounded_accrual R hτ g1.le hok
      obtain ⟨df, hdf, cdf, hlow⟩ := rounded_factor R Pw hn hr1 hr2 hr0 (A := τ p.date - τ ref) (by linarith) g2 hna htiny hsmall
      have hdf0 : 0 < df := lt_of_lt_of_le (by positivity) hlow
      have hp'0 : 0 ≤ p'.amount := p4.nonneg u1 p3
      have hprod : df * p'.amount = 0 ∨ tiny ≤ df * p'.amount := by
        rcases p5 with h | h
        · left; rw [h, mul_zero]
        · right
          have h1 := mul_le_mul hlow h (by positivity) hdf0.le
          have h2 : (1 : ℚ) / 2 ^ (N + 2) * (tiny * 2 ^ (N + 4)) = 4 * tiny := by
            rw [show N + 4 = (N + 2) + 2 by ring, pow_add (2 : ℚ) (N + 2) 2]
            have h3 : (2 : ℚ) ^ (N + 2) ≠ 0 := by positivity
            generalize (2 : ℚ) ^ (N + 2) = z at h3
            field_simp
            norm_num
          linarith
      have hbase : (0 : ℝ) < 1 + (r : ℝ) / n := by
        have hnR : (0 : ℝ) < n := by exact_mod_cast hn
        have h1 : -((n : ℝ) / 2) ≤ r := by
          have := (Rat.cast_le (K := ℝ)).2 hr1
          push_cast at this
          exact this
        have : -(1 / 2) ≤ (r : ℝ) / n := by rw [le_div_iff₀ hnR]; linarith
        linarith
      set F := 1 / (1 + (r : ℝ) / n) ^ (((τ p.date - τ ref : ℚ) : ℝ) * n) with hF
      have hF0 : 0 < F := by
        have := Real.rpow_pos_of_pos hbase (((τ p.date - τ ref : ℚ) : ℝ) * n)
        positivity
      have hamt : (0 : ℝ) ≤ p.amount := by exact_mod_cast p3
      have c1 := cdf.mul hF0.le hamt (near_close u0 (by linarith) p3 hp'0 p4)
      have hx0 : 0 ≤ df * p'.amount := mul_nonneg hdf0.le hp'0
      have c2 := near_close u0 (by linarith) hx0 (R.nonneg hx0) (R.near hprod)
      have e1 : ((df * p'.amount : ℚ) : ℝ) = (df : ℝ) * (p'.amount : ℝ) := by push_cast; rfl
      rw [e1] at c2
      have c3 := c1.trans c2
      set x := rnd (df * p'.amount) with hx
      have hxx : 0 ≤ x := R.nonneg hx0
      have hxor : x = 0 ∨ tiny ≤ x := R.keep hprod
      have hterm0 : 0 ≤ F * (p.amount : ℝ) := mul_nonneg hF0.le hamt
      have c4 : Close ((16 * ((N : ℝ) + 1) + 2 * j) * u) (F * (p.amount : ℝ)) x := by
        refine c3.mono hterm0 (by exact_mod_cast hxx) ?_
        have h1 : 0 ≤ (j : ℝ) * u := mul_nonneg (Nat.cast_nonneg j) u0R
        push_cast
        nlinarith
      have c5 := hc.add c4
      have hsum : acc + x = 0 ∨ tiny ≤ acc + x := by
        rcases hor with h | h
        · rw [h, zero_add]; exact hxor
        · right; linarith
      have hsum0 : 0 ≤ acc + x := by linarith
      have c6 := near_close u0 (by linarith) hsum0 (R.nonneg hsum0) (R.near hsum)
      have e2 : ((acc + x : ℚ) : ℝ) = (acc : ℝ) + (x : ℝ) := by push_cast; rfl
      rw [e2] at c6
      have c7 := c5.trans c6
      obtain ⟨acc', i1, i2, i3⟩ := ih (j + 1) (S + F * (p.amount : ℝ)) (rnd (acc + x)) (fun q hq => hd q (by simp [hq]))
        (by linarith) (R.keep hsum) (by
          have e3 : (16 * ((N : ℝ) + 1) + 2 * ((j + 1 : Nat) : ℝ)) * u =
              (16 * ((N : ℝ) + 1) + 2 * j) * u + 2 * ((1 : Nat) : ℝ) * u := by push_cast; ring
          rw [e3]
          exact c7)
      refine ⟨acc', ?_, i2, ?_⟩
      · simp only [Rounded.discountLoop, hkeep, ok_bind, p1, hsp, decide_true, if_true, p2, ha, hfreq, hdf]
        exact i1
      · have e4 : weightedSum (fun p => s ≤ p.unadjusted) (fun p => 1 / (1 + (r : ℝ) / n) ^
            (((τ p.date - τ ref : ℚ) : ℝ) * n) * (p.amount : ℝ)) (p :: l) = F * (p.amount : ℝ) +
            weightedSum (fun p => s ≤ p.unadjusted) (fun p => 1 / (1 + (r : ℝ) / n) ^
            (((τ p.date - τ ref : ℚ) : ℝ) * n) * (p.amount : ℝ)) l := by
          simp only [weightedSum, List.map_cons, List.sum_cons, hsp, if_true]
          rw [hF]
        rw [e4, ← add_assoc, List.length_cons, show j + (l.length + 1) = j + 1 + l.length by omega]
        exact i3
    · obtain ⟨acc', i1, i2, i3⟩ := ih (j + 1) S acc (fun q hq => hd q (by simp [hq])) hS hor (by
        refine hc.mono hS (by exact_mod_cast hacc0) ?_
        refine mul_le_mul_of_nonneg_right ?_ u0R
        push_cast
        linarith)
      refine ⟨acc', ?_, i2, ?_⟩
      · simp only [Rounded.discountLoop, hkeep, ok_bind, p1, hsp, decide_false]
        exact i1
      · have e4 : weightedSum (fun p => s ≤ p.unadjusted) (fun p => 1 / (1 + (r : ℝ) / n) ^
            (((τ p.date - τ ref : ℚ) : ℝ) * n) * (p.amount : ℝ)) (p :: l) =
            weightedSum (fun p => s ≤ p.unadjusted) (fun p => 1 / (1 + (r : ℝ) / n) ^
            (((τ p.date - τ ref : ℚ) : ℝ) * n) * (p.amount : ℝ)) l := by
          simp only [weightedSum, List.map_cons, List.sum_cons, hsp, if_false, zero_add]
        rw [e4, List.length_cons, show j + (l.length + 1) = j + 1 + l.length by omega]
        exact i3

/-- What the rounded constructor stores. -/
theorem createBond_ok {t : BondTerms} {b b' : Bond} (h : Bond.create t = .ok b) (h' : Rounded.createBond rnd t = .ok b') :
    b'.terms = t ∧ b'.principalPayments = b.principalPayments ∧
    b'.coupons = b.coupons.map (fun p => ⟨p.unadjusted, p.date, Rounded.couponPayment rnd t⟩) ∧
    ∃ y, Rounded.accruedInterest rnd t b.datedDate b.coupons b.settlementDate = .ok y ∧
      Rounded.fullPrice rnd t y = .ok b'.fullPrice := by
  unfold Rounded.createBond at h'
  rw [h, ok_bind, bind_ok] at h'
  obtain ⟨y, hy, h'⟩ := h'
  rw [bind_ok] at h'
  obtain ⟨z, hz, h'⟩ := h'
  injection h' with h'
  subst h'
  exact ⟨(create_ok h).1, rfl, rfl, y, hy, hz⟩

/-- The payments of a bond, exact and rounded. -/
theorem rounded_payments (R : Rounding rnd u tiny) {t : BondTerms} {b b' : Bond} {k : Int} (hk : couponMonths t.frequency = some k)
    (h : Bond.create t = .ok b) (h' : Rounded.createBond rnd t = .ok b') (hrate : 0 ≤ t.couponRate) (hP : 1 ≤ t.principal) {N : Nat}
    (hcoupon : t.principal * t.couponRate = 0 ∨ tiny * 2 ^ (N + 20) ≤ t.principal * t.couponRate) (htiny : tiny * 2 ^ (N + 4) ≤ 1) :
    List.Forall₂ (PaymentNear u (tiny * 2 ^ (N + 4))) b.coupons b'.coupons ∧
    List.Forall₂ (PaymentNear u (tiny * 2 ^ (N + 4))) b.principalPayments b'.principalPayments := by
  have u0 := R.u_nonneg
  have u1 := R.u_lt
  have us : u ≤ 1 / 1000 := R.u_small.trans (by norm_num)
  have t0 := R.tiny_pos
  obtain ⟨-, hkpos, hk12⟩ := increment_months hk
  have hfpos : 0 < t.frequency.value := by
    rcases Nat.eq_zero_or_pos t.frequency.value with e | e
    · rw [e] at hk12; simp at hk12
    · exact e
  have hf12 : t.frequency.value ≤ 12 := by cases t.frequency <;> simp [PaymentFrequency.value]
  obtain ⟨-, e2, e3, -⟩ := createBond_ok h h'
  constructor
  · have hcp : t.couponPayment = t.principal * t.couponRate / (100 * t.frequency.value) := by
      unfold BondTerms.couponPayment
      cases hf : t.frequency <;> simp [hf, couponMonths] at hk ⊢
    have hcpr : Rounded.couponPayment rnd t = rnd (rnd (t.principal * t.couponRate) / (100 * t.frequency.value)) := by
      unfold Rounded.couponPayment
      cases hf : t.frequency <;> simp [hf, couponMonths] at hk ⊢
    have hQ : (0 : ℚ) < 100 * t.frequency.value := by
      have : (0 : ℚ) < t.frequency.value := by exact_mod_cast hfpos
      positivity
    have hQ2 : (100 * t.frequency.value : ℚ) ≤ 1200 := by
      have : (t.frequency.value : ℚ) ≤ 12 := by exact_mod_cast hf12
      linarith
    set c := t.principal * t.couponRate with hc
    have hc0 : 0 ≤ c := mul_nonneg (by linarith) hrate
    have h2pow : (2 : ℚ) ^ (N + 20) = 65536 * 2 ^ (N + 4) := by
      rw [show N + 20 = 16 + (N + 4) by ring, pow_add]; norm_num
    have hfl : (1 : ℚ) ≤ 2 ^ (N + 4) := one_le_pow₀ (by norm_num)
    set z := tiny * 2 ^ (N + 4) with hz
    have hz0 : tiny ≤ z := by rw [hz]; exact le_mul_of_one_le_right t0.le hfl
    have hc' : c = 0 ∨ 65536 * z ≤ c := by
      rcases hcoupon with e | e
      · exact Or.inl e
      · right; rw [h2pow] at e; linarith
    have hor1 : c = 0 ∨ tiny ≤ c := by
      rcases hc' with e | e
      · exact Or.inl e
      · right; linarith
    have n1 := R.near hor1
    have hr0 : 0 ≤ rnd c := R.nonneg hc0
    have n2 : Near u 1 (c / (100 * t.frequency.value)) (rnd c / (100 * t.frequency.value)) := by
      constructor
      · rw [← mul_div_assoc]; exact div_le_div_of_nonneg_right n1.1 hQ.le
      · rw [← mul_div_assoc]; exact div_le_div_of_nonneg_right n1.2 hQ.le
    have hdiv : rnd c / (100 * t.frequency.value) = 0 ∨ 2 * z ≤ rnd c / (100 * t.frequency.value) := by
      rcases hc' with e | e
      · left; rw [e, R.zero, zero_div]
      · right
        rw [le_div_iff₀ hQ]
        have g1 : (1 / 2 : ℚ) * c ≤ (1 - u) ^ 1 * c := mul_le_mul_of_nonneg_right (by rw [pow_one]; linarith) hc0
        have g2 := n1.1
        have g3 : 2 * z * (100 * t.frequency.value) ≤ 2 * z * 1200 := mul_le_mul_of_nonneg_left hQ2 (by linarith)
        linarith
    have hdiv' : rnd c / (100 * t.frequency.value) = 0 ∨ tiny ≤ rnd c / (100 * t.frequency.value) := by
      rcases hdiv with e | e
      · exact Or.inl e
      · right; linarith
    have n3 := n2.trans u1 (R.near hdiv')
    have hfin : rnd (rnd c / (100 * t.frequency.value)) = 0 ∨ z ≤ rnd (rnd c / (100 * t.frequency.value)) := by
      rcases hdiv with e | e
      · left; rw [e, R.zero]
      · right
        have g2 := (R.near hdiv').1
        have g3 : 0 ≤ rnd c / (100 * t.frequency.value) := by linarith
        have g1 : (1 / 2 : ℚ) * (rnd c / (100 * t.frequency.value)) ≤ (1 - u) ^ 1 * (rnd c / (100 * t.frequency.value)) :=
          mul_le_mul_of_nonneg_right (by rw [pow_one]; linarith) g3
        linarith
    rw [e3]
    have hamt : ∀ p ∈ b.coupons, p.amount = t.couponPayment := fun p hp => by
      have := ((C33_coupons t b k hk h).2.2.1 p hp).1
      rw [hcp, this]
    clear e3
    generalize b.coupons = l at hamt
    induction l with
    | nil => exact .nil
    | cons p l ih =>
      refine .cons ⟨rfl, rfl, ?_, ?_, ?_⟩ (ih fun q hq => hamt q (by simp [hq]))
      · rw [hamt p (by simp), hcp]; exact div_nonneg hc0 hQ.le
      · rw [hamt p (by simp), hcp]; show Near u 2 _ (Rounded.couponPayment rnd t); rw [hcpr]; exact n3
      · show Rounded.couponPayment rnd t = 0 ∨ z ≤ Rounded.couponPayment rnd t
        rw [hcpr]; exact hfin
  · rw [e2]
    obtain ⟨a, -, hpp⟩ := principalCashflow_ok (create_ok h).2.2.2.1
    rw [hpp]
    have hp0 : 0 ≤ t.principal := by linarith
    refine .cons ⟨rfl, rfl, hp0, ?_, Or.inr (by show _ ≤ t.principal; linarith)⟩ .nil
    have : (1 - u) ^ 2 ≤ 1 := pow_le_one₀ (by linarith) (by linarith)
    exact ⟨by nlinarith, by nlinarith⟩

/-- C131. The value of a bond at a fixed rate in floating point. For rates between `-f/2` and `f` (zero or not minute), payments
within `N` coupon periods and `m` payments in all, `discount_cashflows_by_fixed_rate` of the bond constructed in floating point
differs from the exact value by at most `32 (N + 1) + 4 m` units of rounding of that value. -/
theorem C131_value (R : Rounding rnd u tiny) (Pw : PowerFn pow u tiny) (t : BondTerms) (b b' : Bond) (k : Int)
    (hk : couponMonths t.frequency = some k) (h : Bond.create t = .ok b) (h' : Rounded.createBond rnd t = .ok b')
    (τ : PyDate → ℚ) (hτ : timeAxis t.dcc = some τ) (ref s : PyDate)
    (hok : AxisOk t.dcc ref) (hs : addBusinessDays t.calendar ref 1 = .ok s)
    (hrate : 0 ≤ t.couponRate) (hP : 1 ≤ t.principal) (N : Nat)
    (hN : ∀ p ∈ b.coupons ++ b.principalPayments, (τ p.date - τ ref) * t.frequency.value ≤ N)
    (hcoupon : t.principal * t.couponRate = 0 ∨ tiny * 2 ^ (N + 20) ≤ t.principal * t.couponRate)
    (htiny : tiny * 2 ^ (N + 4) ≤ 1)
    (hsmall : (16 * (N + 1) + 2 * (b.coupons ++ b.principalPayments).length) * u ≤ 1 / 2)
    (r : ℚ) (hr1 : -((t.frequency.value : ℚ) / 2) ≤ r) (hr2 : r ≤ t.frequency.value)
    (hr0 : r = 0 ∨ tiny * t.frequency.value ≤ |r|) :
    ∃ (v : ℝ) (w : ℚ), b.discountByFixedRate r (some ref) = .ok v ∧
      Rounded.discountByFixedRate rnd pow b' r (some ref) = .ok w ∧
      |(w : ℝ) - v| ≤ (32 * (N + 1) + 4 * (b.coupons ++ b.principalPayments).length) * u * v := by
  have u0 := R.u_nonneg
  have u0R : (0 : ℝ) ≤ u := by exact_mod_cast u0
  have hpr : 0 < t.principal := by linarith
  obtain ⟨-, hkpos, hk12⟩ := increment_months hk
  have hfpos : 0 < t.frequency.value := by
    rcases Nat.eq_zero_or_pos t.frequency.value with e | e
    · rw [e] at hk12; simp at hk12
    · exact e
  have hfR : (0 : ℝ) < t.frequency.value := by exact_mod_cast hfpos
  obtain ⟨e1, -, -, -⟩ := createBond_ok h h'
  have hr1R : -((t.frequency.value : ℝ) / 2) ≤ r := by
    have := (Rat.cast_le (K := ℝ)).2 hr1
    push_cast at this
    exact this
  have hrR : -(t.frequency.value : ℝ) < r := by linarith
  have hbase : (0 : ℝ) < 1 + (r : ℝ) / t.frequency.value := by
    have : -1 < (r : ℝ) / t.frequency.value := by rw [lt_div_iff₀ hfR]; linarith
    linarith
  have hfacts := payment_facts hk h hrate hpr
  obtain ⟨r0, hr0', hlt, hbd, -⟩ := nextSettlement_of_add hs
  have hrs : ref < s := lt_of_le_of_lt hr0'.1 hlt
  obtain ⟨f1, f2⟩ := rounded_payments R hk h h' hrate hP hcoupon htiny
  have hdates : ∀ p ∈ b.coupons ++ b.principalPayments, s ≤ p.unadjusted →
      ref < p.date ∧ (τ p.date - τ ref) * t.frequency.value ≤ N := fun p hp hsp =>
    ⟨lt_of_lt_of_le hrs (paidOn_ge hbd hsp (hfacts p hp).2), hN p hp⟩
  have hsmall1 : 16 * ((N : ℚ) + 1) * u ≤ 1 / 2 := by
    refine le_trans ?_ hsmall
    refine mul_le_mul_of_nonneg_right ?_ u0
    have : (0 : ℚ) ≤ 2 * ((b.coupons ++ b.principalPayments).length : ℚ) := by positivity
    linarith
  obtain ⟨acc, a1, a2, a3⟩ := rounded_loop R Pw (b := b') hfpos (by rw [e1]) (by rw [e1]; exact hτ) (ref := ref) (s := s) (by rw [e1]; exact hok)
    (by rw [e1]; exact hs) hr1 hr2 hr0 htiny hsmall1 b.coupons b'.coupons 0 0 0 f1
    (fun p hp => hdates p (List.mem_append_left _ hp)) le_rfl (Or.inl rfl) (by
      simp [Close])
  have hw0 : ∀ l : List BondPayment, (∀ p ∈ l, 0 ≤ p.amount) → 0 ≤ weightedSum (fun p => s ≤ p.unadjusted) (fun p =>
      1 / (1 + (r : ℝ) / t.frequency.value) ^ (((τ p.date - τ ref : ℚ) : ℝ) * t.frequency.value) * (p.amount : ℝ)) l := by
    intro l hl
    refine List.sum_nonneg ?_
    intro x hx
    obtain ⟨p, hp, rfl⟩ := List.mem_map.1 hx
    by_cases hsp : s ≤ p.unadjusted
    · simp only [hsp, if_true]
      have h0 := Real.rpow_pos_of_pos hbase (((τ p.date - τ ref : ℚ) : ℝ) * t.frequency.value)
      have h1 : (0 : ℝ) ≤ (p.amount : ℝ) := by exact_mod_cast hl p hp
      positivity
    · simp only [hsp, if_false]
      exact le_refl _
  obtain ⟨w, b1, b2, b3⟩ := rounded_loop R Pw (b := b') hfpos (by rw [e1]) (by rw [e1]; exact hτ) (ref := ref) (s := s) (by rw [e1]; exact hok)
    (by rw [e1]; exact hs) hr1 hr2 hr0 htiny hsmall1 b.principalPayments b'.principalPayments (0 + b.coupons.length) _ acc f2
    (fun p hp => hdates p (List.mem_append_right _ hp))
    (by rw [zero_add]; exact hw0 _ fun p hp => (hfacts p (List.mem_append_left _ hp)).1) a2 a3
  have hv := discountByFixedRate_eq hk h (measures_axis hτ hok hs) hs hrate hpr hrR
  rw [← weightedSum_discounted] at hv
  refine ⟨_, w, hv, ?_, ?_⟩
  · unfold Rounded.discountByFixedRate
    simp only [Option.getD_some]
    rw [a1, ok_bind]
    exact b1
  · rw [zero_add, zero_add, ← weightedSum_append, ← List.length_append] at b3
    have hv0 := hw0 (b.coupons ++ b.principalPayments) fun p hp => (hfacts p hp).1
    have hm : (((b.coupons ++ b.principalPayments).length : Nat) : ℝ) = ((b.coupons ++ b.principalPayments).length : ℝ) := rfl
    have hsR : (16 * ((N : ℝ) + 1) + 2 * ((b.coupons ++ b.principalPayments).length : ℝ)) * u ≤ 1 / 2 := by
      have := (Rat.cast_le (K := ℝ)).2 hsmall
      generalize (b.coupons ++ b.principalPayments).length = m at this ⊢
      push_cast at this
      exact this
    have hη0 : 0 ≤ (16 * ((N : ℝ) + 1) + 2 * ((b.coupons ++ b.principalPayments).length : ℝ)) * u := by positivity
    have := b3.abs_le hv0 hη0 (by linarith)
    calc _ ≤ _ := this
      _ = _ := by ring

/-- C131. The yield found in floating point. Let `ρ` be the amount by which the floating-point function given to the root finder misses
zero at the rate `r` it returned. Then `ρ` is within rounding of the exact amount `ε`, and `r` is within `|ρ|`, `30 P + (32 (N + 1) + 4 m) v` units of rounding and a minute
amount, divided by the price sensitivity, of the exact yield: `P` is the exact target price and `v` the exact value at `r`. The
hypotheses `hgap` and `hfeb` are those of C111_accrued. -/
theorem C131_yield (R : Rounding rnd u tiny) (Pw : PowerFn pow u tiny) (t : BondTerms) (b b' : Bond) (k : Int)
    (hk : couponMonths t.frequency = some k) (h : Bond.create t = .ok b) (h' : Rounded.createBond rnd t = .ok b')
    (τ : PyDate → ℚ) (hτ : timeAxis t.dcc = some τ) (ref s : PyDate)
    (hok : AxisOk t.dcc ref) (hs : addBusinessDays t.calendar ref 1 = .ok s) (hm : s ≤ t.maturityDate)
    (hrate : 0 ≤ t.couponRate) (hP : 1 ≤ t.principal ∧ t.principal ≤ 2 ^ 40) (hprice : tiny * 2 ^ 20 ≤ t.price) (N : Nat)
    (hN : ∀ p ∈ b.coupons ++ b.principalPayments, (τ p.date - τ ref) * t.frequency.value ≤ N)
    (hcoupon : t.principal * t.couponRate = 0 ∨ tiny * 2 ^ (N + 100) ≤ t.principal * t.couponRate)
    (hgap : ∀ p ∈ b.coupons, (p.date ≤ t.purchaseDate ∧ p.unadjusted ≤ b.settlementDate) ∨
      (t.purchaseDate < p.date ∧ b.settlementDate ≤ p.unadjusted))
    (hfeb : t.dcc = .thirty360 → ¬ (b.settlementDate.month = 2 ∧ 28 ≤ b.settlementDate.day))
    (htiny : tiny * 2 ^ (N + 4) ≤ 1)
    (hsmall : (16 * (N + 1) + 2 * (b.coupons ++ b.principalPayments).length) * u ≤ 1 / 2)
    (r : ℚ) (hr1 : -((t.frequency.value : ℚ) / 2) ≤ r) (hr2 : r ≤ t.frequency.value)
    (hr0 : r = 0 ∨ tiny * t.frequency.value ≤ |r|) (y : ℝ) (hy : IsYield b ref y) :
    ∃ (v ε : ℝ) (ρ : ℚ), b.discountByFixedRate r (some ref) = .ok v ∧ b.diffFromFullPrice (some ref) r = .ok ε ∧
      Rounded.diffFromFullPrice rnd pow b' (some ref) r = .ok ρ ∧
      |(ρ : ℝ) - ε| ≤ (|ε| + 2 * (30 * ((b.fullPrice * t.principal / 100 : ℚ) : ℝ) +
        (32 * (N + 1) + 4 * (b.coupons ++ b.principalPayments).length) * v)) * u + 2 * tiny ∧
      |(r : ℝ) - y| ≤ ((1 + 2 * u) * (|(ρ : ℝ)| + 2 * tiny) + (30 * ((b.fullPrice * t.principal / 100 : ℚ) : ℝ) +
        (32 * (N + 1) + 4 * (b.coupons ++ b.principalPayments).length) * v) * u) /
        sensitivity s ref τ t.frequency.value (b.coupons ++ b.principalPayments) (max (r : ℝ) y) := by
  have u0 := R.u_nonneg
  have u1 := R.u_lt
  have us : u ≤ 1 / 1000 := R.u_small.trans (by norm_num)
  have t0 := R.tiny_pos
  have hpr : 0 < t.principal := by linarith [hP.1]
  obtain ⟨-, hkpos, hk12⟩ := increment_months hk
  have hfpos : 0 < t.frequency.value := by
    rcases Nat.eq_zero_or_pos t.frequency.value with e | e
    · rw [e] at hk12; simp at hk12
    · exact e
  have hfR : (0 : ℝ) < t.frequency.value := by exact_mod_cast hfpos
  have hrR : -(t.frequency.value : ℝ) < r := by
    have := (Rat.cast_le (K := ℝ)).2 hr1
    push_cast at this
    linarith
  have hpow1 : ∀ j : Nat, j ≤ 100 → tiny * 2 ^ (N + j) ≤ tiny * 2 ^ (N + 100) := fun j hj =>
    mul_le_mul_of_nonneg_left (pow_le_pow_right₀ (by norm_num) (by omega)) t0.le
  have hpow2 : tiny * 2 ^ 100 ≤ tiny * 2 ^ (N + 100) :=
    mul_le_mul_of_nonneg_left (pow_le_pow_right₀ (by norm_num) (by omega)) t0.le
  obtain ⟨v, w, hv, hw, hvw⟩ := C131_value R Pw t b b' k hk h h' τ hτ ref s hok hs hrate hP.1 N hN
    (hcoupon.imp_right fun e => (hpow1 20 (by norm_num)).trans e) htiny hsmall r hr1 hr2 hr0
  obtain ⟨e1, -, -, y0, hy0, hfull⟩ := createBond_ok h h'
  obtain ⟨y1, z, g1, g2, -, g4, g5, -, g7⟩ := C111_accrued R t b k hk h hP (hcoupon.imp_right fun e => hpow2.trans e) hgap hfeb
  rw [hy0] at g1
  injection g1 with g1
  subst g1
  rw [hfull] at g5
  injection g5 with g5
  have hprice' : tiny ≤ t.price := by
    have : tiny * 1 ≤ tiny * 2 ^ 20 := mul_le_mul_of_nonneg_left (by norm_num) t0.le
    linarith
  have hnear := g7 hprice'
  rw [← g5] at hnear
  have hacc0 : 0 ≤ b.accruedInterest := by
    have : 0 ≤ (1 - u) ^ 10 * y0 := mul_nonneg (pow_nonneg (by linarith) _) g2
    exact this.trans g4.2
  have hfb : b.fullPrice = t.price + b.accruedInterest / t.principal * 100 := by
    rw [(C36_full_price_partial _ b h).1]; ring
  have hfb1 : tiny * 2 ^ 20 ≤ b.fullPrice := by
    rw [hfb]
    have : 0 ≤ b.accruedInterest / t.principal * 100 := by positivity
    linarith
  have hfb0 : 0 < b.fullPrice := lt_of_lt_of_le (by positivity) hfb1
  have hb'0 : 0 ≤ b'.fullPrice := hnear.nonneg u1 hfb0.le
  have hb'1 : tiny * 2 ^ 19 ≤ b'.fullPrice := by
    have h1 := near_abs u0 u1 (k := 13) (by push_cast; linarith) hfb0.le hnear
    have h2 := (abs_le.1 h1).1
    push_cast at h2
    have h3 : 2 * (13 * u) * b.fullPrice ≤ 1 / 2 * b.fullPrice := mul_le_mul_of_nonneg_right (by linarith) hfb0.le
    linarith
  have hprod : tiny * 2 ^ 19 ≤ b'.fullPrice * t.principal :=
    hb'1.trans (le_mul_of_one_le_right hb'0 hP.1)
  have hprod' : b'.fullPrice * t.principal = 0 ∨ tiny ≤ b'.fullPrice * t.principal := by right; linarith
  have n1 : Near u 13 (b.fullPrice * t.principal) (b'.fullPrice * t.principal) := by
    constructor
    · rw [← mul_assoc]; exact mul_le_mul_of_nonneg_right hnear.1 hpr.le
    · rw [← mul_assoc]; exact mul_le_mul_of_nonneg_right hnear.2 hpr.le
  have n2 := n1.trans u1 (R.near hprod')
  have hdiv : tiny ≤ rnd (b'.fullPrice * t.principal) / 100 := by
    rw [le_div_iff₀ (by norm_num)]
    have g := (R.near hprod').1
    have : (1 / 2 : ℚ) * (b'.fullPrice * t.principal) ≤ (1 - u) ^ 1 * (b'.fullPrice * t.principal) :=
      mul_le_mul_of_nonneg_right (by rw [pow_one]; linarith) (by linarith)
    linarith
  have n3 : Near u 14 (b.fullPrice * t.principal / 100) (rnd (b'.fullPrice * t.principal) / 100) := by
    constructor
    · rw [← mul_div_assoc]; exact div_le_div_of_nonneg_right n2.1 (by norm_num)
    · rw [← mul_div_assoc]; exact div_le_div_of_nonneg_right n2.2 (by norm_num)
  have n4 := n3.trans u1 (R.near (Or.inr hdiv))
  set P := b.fullPrice * t.principal / 100 with hPdef
  have hP0 : 0 < P := by positivity
  set P' := rnd (rnd (b'.fullPrice * t.principal) / 100) with hP'def
  have hPP : |P' - P| ≤ 30 * u * P := by
    have := near_abs u0 u1 (k := 15) (by push_cast; linarith) hP0.le n4
    push_cast at this
    linarith
  obtain ⟨ε, hε, -, -, -, -, hup⟩ := C130_residual t b k hk h τ ref s (measures_axis hτ hok hs) hs hm hrate hpr y r hy hrR
  have hεv : ε = (P : ℝ) - v := by
    have hε' := hε
    unfold Bond.diffFromFullPrice at hε'
    simp only [Option.getD_some] at hε'
    rw [hv, ok_bind, (create_ok h).1] at hε'
    injection hε' with hε'
    rw [← hε']
  refine ⟨v, ε, rnd (P' - w), hv, hε, ?_, ?_, ?_⟩
  · unfold Rounded.diffFromFullPrice
    simp only [Option.getD_some, e1]
    rw [hw, ok_bind]
  · have hPPR : |(P' : ℝ) - P| ≤ 30 * (u : ℝ) * P := by
      have := (Rat.cast_le (K := ℝ)).2 hPP
      push_cast at this
      exact this
    have hρ : |((rnd (P' - w) : ℚ) : ℝ) - ((P' : ℝ) - w)| ≤ (u : ℝ) * |(P' : ℝ) - w| + 2 * tiny := by
      have := (Rat.cast_le (K := ℝ)).2 (R.abs_err (P' - w))
      push_cast at this
      linarith
    have u0R : (0 : ℝ) ≤ u := by exact_mod_cast u0
    have u1R : (u : ℝ) ≤ 1 := by exact_mod_cast (by linarith : u ≤ 1)
    set C : ℝ := 32 * (N + 1) + 4 * (b.coupons ++ b.principalPayments).length with hC
    rw [hεv]
    set T : ℝ := (30 * (P : ℝ) + C * v) * u with hT
    have d1 : |(P' : ℝ) - w - (P - v)| ≤ T := by
      have e : (P' : ℝ) - w - (P - v) = (P' - P) + (v - w) := by ring
      rw [e]
      have g := abs_add_le ((P' : ℝ) - P) (v - w)
      rw [abs_sub_comm v] at g
      calc _ ≤ _ := g
        _ ≤ 30 * (u : ℝ) * P + C * u * v := by linarith
        _ = T := by rw [hT]; ring
    have hT0 : 0 ≤ T := (abs_nonneg _).trans d1
    have d2 : |(P' : ℝ) - w| ≤ |(P : ℝ) - v| + T := by
      have g := abs_add_le ((P : ℝ) - v) ((P' : ℝ) - w - (P - v))
      rw [add_sub_cancel] at g
      linarith
    have d3 := mul_le_mul_of_nonneg_left d2 u0R
    have d4 : (u : ℝ) * T ≤ T := mul_le_of_le_one_left hT0 u1R
    have d5 := abs_add_le (((rnd (P' - w) : ℚ) : ℝ) - ((P' : ℝ) - w)) ((P' : ℝ) - w - (P - v))
    rw [sub_add_sub_cancel] at d5
    calc _ ≤ _ := d5
      _ ≤ |(P : ℝ) - v| * u + 2 * T + 2 * tiny := by linarith
      _ = _ := by rw [hT]; ring
  · obtain ⟨-, -, -, hpos⟩ := value_slope hk h (measures_axis hτ hok hs) hs hm hrate hpr
    have hsp := hpos (max (r : ℝ) y) (lt_max_of_lt_left hrR)
    refine hup.trans (div_le_div_of_nonneg_right ?_ hsp.le)
    have hρ := R.abs_err (P' - w)
    have h1 : |P' - w| ≤ (1 + 2 * u) * (|rnd (P' - w)| + 2 * tiny) := by
      have g1 := abs_sub (rnd (P' - w)) (rnd (P' - w) - (P' - w))
      rw [sub_sub_cancel] at g1
      set d := |P' - w| with hd
      have hd0 : 0 ≤ d := abs_nonneg _
      have g2 : (1 - u) * d ≤ |rnd (P' - w)| + 2 * tiny := by linarith
      have g3 := mul_le_mul_of_nonneg_left g2 (show 0 ≤ 1 + 2 * u by linarith)
      have g4 : d ≤ (1 + 2 * u) * ((1 - u) * d) := by
        have : 1 * d ≤ (1 + 2 * u) * (1 - u) * d := mul_le_mul_of_nonneg_right (by nlinarith) hd0
        linarith [mul_assoc (1 + 2 * u) (1 - u) d]
      linarith
    have h1R : |(P' : ℝ) - w| ≤ (1 + 2 * (u : ℝ)) * (|((rnd (P' - w) : ℚ) : ℝ)| + 2 * tiny) := by
      have := (Rat.cast_le (K := ℝ)).2 h1
      push_cast at this
      exact this
    have hPPR : |(P' : ℝ) - P| ≤ 30 * (u : ℝ) * P := by
      have := (Rat.cast_le (K := ℝ)).2 hPP
      push_cast at this
      exact this
    have g1 := abs_add_le ((P : ℝ) - P') ((P' : ℝ) - w)
    have g2 := abs_add_le ((P : ℝ) - w) ((w : ℝ) - v)
    rw [sub_add_sub_cancel] at g1 g2
    rw [abs_sub_comm (P : ℝ) P'] at g1
    rw [hεv]
    calc |(P : ℝ) - v| ≤ 30 * (u : ℝ) * P + (1 + 2 * (u : ℝ)) * (|((rnd (P' - w) : ℚ) : ℝ)| + 2 * tiny) +
          (32 * (N + 1) + 4 * (b.coupons ++ b.principalPayments).length) * u * v := by linarith
      _ = _ := by ring

/-- C131. Where C111_accrued applies the constructor succeeds in floating point as well. -/
theorem C131_constructs (R : Rounding rnd u tiny) (t : BondTerms) (b : Bond) (k : Int) (hk : couponMonths t.frequency = some k)
    (h : Bond.create t = .ok b) (hP : 1 ≤ t.principal ∧ t.principal ≤ 2 ^ 40)
    (hcoupon : t.principal * t.couponRate = 0 ∨ tiny * 2 ^ 100 ≤ t.principal * t.couponRate)
    (hgap : ∀ p ∈ b.coupons, (p.date ≤ t.purchaseDate ∧ p.unadjusted ≤ b.settlementDate) ∨
      (t.purchaseDate < p.date ∧ b.settlementDate ≤ p.unadjusted))
    (hfeb : t.dcc = .thirty360 → ¬ (b.settlementDate.month = 2 ∧ 28 ≤ b.settlementDate.day)) :
    ∃ b', Rounded.createBond rnd t = .ok b' := by
  obtain ⟨y, z, g1, -, -, -, g5, -⟩ := C111_accrued R t b k hk h hP hcoupon hgap hfeb
  unfold Rounded.createBond
  rw [h, ok_bind, g1, ok_bind, g5, ok_bind]
  exact ⟨_, rfl⟩

/-- Every coupon of a constructed bond pays the coupon payment. -/
theorem coupon_amounts {t : BondTerms} {b : Bond} (h : Bond.create t = .ok b) : ∀ p ∈ b.coupons, p.amount = t.couponPayment := by
  obtain ⟨-, -, f3, -⟩ := create_ok h
  cases hk : couponMonths t.frequency with
  | some k =>
    obtain ⟨-, -, -, -, -, -, hall⟩ := couponCashflow_spec hk f3
    exact fun p hp => (hall p hp).1
  | none =>
    unfold BondTerms.couponCashflow BondTerms.increment at f3
    cases hf : t.frequency <;> simp [hf, couponMonths] at hk f3
    · rw [← f3]
      intro p hp
      rw [(pySorted_perm _ _).mem_iff, (pySorted_perm _ _).mem_iff] at hp
      cases hp

/-- C131. Without rounding, the constructor is that of the exact model; and the value at a fixed rate is that of the exact model
whenever the powers it takes are exact (as they are at rate zero). -/
theorem C131_exact (t : BondTerms) : Rounded.createBond id t = Bond.create t ∧
    ∀ (pow : ℚ → ℚ → ℚ) (b : Bond) (ref : PyDate) (r : ℚ),
      (∀ p ∈ b.coupons ++ b.principalPayments, ∀ a, DayCount.accrual ref p.date b.terms.dcc = .ok a →
        ((pow (1 + r / b.terms.frequency.value) (a * b.terms.frequency.value) : ℚ) : ℝ) =
          (1 + (r : ℝ) / b.terms.frequency.value) ^ ((a : ℝ) * b.terms.frequency.value)) →
      (Rounded.discountByFixedRate id pow b r (some ref)).map (fun x : ℚ => (x : ℝ)) = b.discountByFixedRate r (some ref) := by
  constructor
  · unfold Rounded.createBond
    cases h : Bond.create t with
    | error e => rfl
    | ok b =>
      rw [ok_bind]
      obtain ⟨f1, f2, f3, f4, f5, f6, f7, f8⟩ := create_ok h
      rw [(C111_exact exSwap0 exRate (unitCurve (D 2024 1 15))).2.2.2, f6, ok_bind]
      have hfull : Rounded.fullPrice id t b.accruedInterest = .ok b.fullPrice := by
        unfold Rounded.fullPrice
        rw [Rounded.div_of_ne f7, ok_bind, f8]
        rfl
      have hc : b.coupons.map (fun p => (⟨p.unadjusted, p.date, Rounded.couponPayment id t⟩ : BondPayment)) = b.coupons := by
        have h1 : Rounded.couponPayment id t = t.couponPayment := rfl
        have h2 := coupon_amounts h
        rw [h1]
        conv_rhs => rw [← List.map_id b.coupons]
        refine List.map_congr_left fun p hp => ?_
        rw [← h2 p hp]
        rfl
      rw [hfull, ok_bind, hc]
  · intro pow b ref r hpow
    have hfac : ∀ p ∈ b.coupons ++ b.principalPayments, ∀ a, DayCount.accrual ref p.date b.terms.dcc = .ok a →
        (Rounded.fixedRateFactor id pow b.terms.frequency.value r a).map (fun x : ℚ => (x : ℝ)) =
          Bond.fixedRateFactor b.terms.frequency.value r a := by
      intro p hp a ha
      have e := hpow p hp a ha
      unfold Rounded.fixedRateFactor Bond.fixedRateFactor
      by_cases hn : b.terms.frequency.value = 0
      · rw [if_pos hn, if_pos hn]; rfl
      · rw [if_neg hn, if_neg hn]
        simp only [id_eq]
        rw [← e]
        by_cases hz : pow (1 + r / b.terms.frequency.value) (a * b.terms.frequency.value) = 0
        · rw [if_pos hz, if_pos (by rw [hz]; norm_num)]; rfl
        · rw [if_neg hz, if_neg (by exact_mod_cast hz)]
          show Except.ok _ = _
          push_cast
          rfl
    have hloop : ∀ (l : List BondPayment) (acc : ℚ), (∀ p ∈ l, p ∈ b.coupons ++ b.principalPayments) →
        (Rounded.discountLoop id pow b r ref l acc).map (fun x : ℚ => (x : ℝ)) =
          (do let x ← Bond.sumIf (fun p => b.isPaymentReceived p (some ref)) (fun p => (do
                let a ← DayCount.accrual ref p.date b.terms.dcc
                let df ← Bond.fixedRateFactor b.terms.frequency.value r a
                .ok (df * (p.amount : ℝ)) : Except PyErr ℝ)) l
              .ok ((acc : ℝ) + x)) := by
      intro l
      induction l with
      | nil =>
        intro acc _
        simp only [Rounded.discountLoop, Bond.sumIf, ok_bind, add_zero]
        rfl
      | cons p l ih =>
        intro acc hl
        simp only [Rounded.discountLoop, Bond.sumIf, rounded_accrual_id, id_eq]
        cases hk : b.isPaymentReceived p (some ref) with
        | error e => rfl
        | ok c =>
          simp only [ok_bind]
          cases c with
          | false => exact ih acc fun q hq => hl q (by simp [hq])
          | true =>
            simp only [if_true]
            cases ha : DayCount.accrual ref p.date b.terms.dcc with
            | error e => rfl
            | ok a =>
              have hf := hfac p (hl p (by simp)) a ha
              simp only [ok_bind]
              rw [← hf]
              cases hd : Rounded.fixedRateFactor id pow b.terms.frequency.value r a with
              | error e => rfl
              | ok df =>
                have hi := ih (acc + df * p.amount) fun q hq => hl q (by simp [hq])
                rw [ok_bind, hi]
                simp only [Except.map, ok_bind]
                cases Bond.sumIf (fun p => b.isPaymentReceived p (some ref)) (fun p => (do
                  let a ← DayCount.accrual ref p.date b.terms.dcc
                  let df ← Bond.fixedRateFactor b.terms.frequency.value r a
                  .ok (df * (p.amount : ℝ)) : Except PyErr ℝ)) l with
                | error e => rfl
                | ok x =>
                  simp only [ok_bind]
                  push_cast
                  rw [add_assoc]
    have h1 := hloop b.coupons 0 fun p hp => List.mem_append_left _ hp
    unfold Rounded.discountByFixedRate Bond.discountByFixedRate
    simp only [Option.getD_some]
    cases hc : Rounded.discountLoop id pow b r ref b.coupons 0 with
    | error e =>
      rw [hc] at h1
      cases hs : Bond.sumIf (fun p => b.isPaymentReceived p (some ref)) (fun p => (do
                  let a ← DayCount.accrual ref p.date b.terms.dcc
                  let df ← Bond.fixedRateFactor b.terms.frequency.value r a
                  .ok (df * (p.amount : ℝ)) : Except PyErr ℝ)) b.coupons with
      | error e' =>
        rw [hs] at h1
        exact h1
      | ok x => rw [hs] at h1; cases h1
    | ok c =>
      rw [hc] at h1
      cases hs : Bond.sumIf (fun p => b.isPaymentReceived p (some ref)) (fun p => (do
                  let a ← DayCount.accrual ref p.date b.terms.dcc
                  let df ← Bond.fixedRateFactor b.terms.frequency.value r a
                  .ok (df * (p.amount : ℝ)) : Except PyErr ℝ)) b.coupons with
      | error e' => rw [hs] at h1; cases h1
      | ok x =>
        rw [hs, ok_bind] at h1
        have h2 : (c : ℝ) = x := by
          have : (Except.ok (c : ℝ) : Except PyErr ℝ) = .ok (((0 : ℚ) : ℝ) + x) := h1
          injection this with this
          rw [this]; simp
        rw [ok_bind, ok_bind, hloop b.principalPayments c fun p hp => List.mem_append_right _ hp, h2]

/-- Power functions of the required accuracy exist: near every positive real there is a rational. -/
theorem powerFn_exists {u tiny : ℚ} (hu : 0 < u) : ∃ pow, PowerFn pow u tiny := by
  have key : ∀ x y : ℚ, ∃ q : ℚ, 0 < x → |(q : ℝ) - (x : ℝ) ^ (y : ℝ)| ≤ 4 * (u : ℝ) * (x : ℝ) ^ (y : ℝ) := by
    intro x y
    by_cases hx : 0 < x
    · have hp : (0 : ℝ) < (x : ℝ) ^ (y : ℝ) := Real.rpow_pos_of_pos (by exact_mod_cast hx) _
      have huR : (0 : ℝ) < u := by exact_mod_cast hu
      have hd : 0 < 4 * (u : ℝ) * (x : ℝ) ^ (y : ℝ) := by positivity
      obtain ⟨q, h1, h2⟩ := exists_rat_btwn (show (x : ℝ) ^ (y : ℝ) < (x : ℝ) ^ (y : ℝ) + 4 * (u : ℝ) * (x : ℝ) ^ (y : ℝ) by linarith)
      exact ⟨q, fun _ => by rw [abs_of_pos (by linarith)]; linarith⟩
    · exact ⟨0, fun h => absurd h hx⟩
  choose f hf using key
  exact ⟨f, ⟨fun x y hx _ => hf x y hx⟩⟩

/-- Double precision: the example Treasury note at 6.25 %, four coupons and the principal within four coupon periods: the value is
off by less than `1 / 2 ^ 38`; and every rate that the solver may have returned between -100 % and 200 % is covered by C131_yield. -/
example : ∃ pow b b' y, PowerFn pow (1 / 2 ^ 53) (1 / 2 ^ 1022) ∧ Bond.create exTerms = .ok b ∧
    Rounded.createBond nearest53 exTerms = .ok b' ∧ IsYield b exTerms.purchaseDate y ∧
    (∃ (v : ℝ) (w : ℚ), b.discountByFixedRate (1 / 16 : ℚ) (some exTerms.purchaseDate) = .ok v ∧
      Rounded.discountByFixedRate nearest53 pow b' (1 / 16) (some exTerms.purchaseDate) = .ok w ∧
      |(w : ℝ) - v| ≤ 180 * (1 / 2 ^ 53 : ℚ) * v) ∧
    ∀ r : ℚ, -1 ≤ r → r ≤ 2 → (r = 0 ∨ 1 / 2 ^ 1000 ≤ |r|) → ∃ (v ε : ℝ) (ρ : ℚ),
      b.discountByFixedRate r (some exTerms.purchaseDate) = .ok v ∧ b.diffFromFullPrice (some exTerms.purchaseDate) r = .ok ε ∧
      Rounded.diffFromFullPrice nearest53 pow b' (some exTerms.purchaseDate) r = .ok ρ ∧
      |(r : ℝ) - y| ≤ ((1 + 2 * (1 / 2 ^ 53 : ℚ)) * (|(ρ : ℝ)| + 2 * (1 / 2 ^ 1022 : ℚ)) + (30 * ((100 + 33 / 181 : ℚ) : ℝ) +
        180 * v) * (1 / 2 ^ 53 : ℚ)) /
        sensitivity (D 2023 6 2) exTerms.purchaseDate yearCoord 2 (b.coupons ++ b.principalPayments) (max (r : ℝ) y) := by
  obtain ⟨b, hb, h1, h2, h3, h4, h5⟩ := exTerms_create
  obtain ⟨pow, hpow⟩ := powerFn_exists (u := 1 / 2 ^ 53) (tiny := 1 / 2 ^ 1022) (by positivity)
  have hbig : ∀ j : Nat, j ≤ 104 → (1 : ℚ) / 2 ^ 1022 * 2 ^ j ≤ 1 := by
    intro j hj
    rw [div_mul_eq_mul_div, one_mul, div_le_one (by positivity)]
    exact pow_le_pow_right₀ (by norm_num) (by omega)
  have hP : 1 ≤ exTerms.principal ∧ exTerms.principal ≤ 2 ^ 40 := ⟨by show (1 : ℚ) ≤ 100; norm_num, by show (100 : ℚ) ≤ 2 ^ 40; norm_num⟩
  have hgap : ∀ p ∈ b.coupons, (p.date ≤ exTerms.purchaseDate ∧ p.unadjusted ≤ b.settlementDate) ∨
      (exTerms.purchaseDate < p.date ∧ b.settlementDate ≤ p.unadjusted) := by
    intro p hp
    right
    rw [h3] at hp
    rw [h2]
    simp only [List.mem_cons, List.not_mem_nil, or_false] at hp
    rcases hp with rfl | rfl | rfl | rfl <;> decide +kernel
  have hfeb : exTerms.dcc = .thirty360 → ¬ (b.settlementDate.month = 2 ∧ 28 ≤ b.settlementDate.day) := by
    intro h; exact absurd h (by decide)
  obtain ⟨b', hb'⟩ := C131_constructs rounding_nearest53 exTerms b 6 rfl hb hP
    (Or.inr (by show _ ≤ (100 * 4 : ℚ); have := hbig 100 (by norm_num); linarith)) hgap hfeb
  have hfull : b.fullPrice = 100 + 33 / 181 := by rw [(C36_full_price_partial _ b hb).1, h5]; decide +kernel
  have hPr : b.fullPrice * exTerms.principal / 100 = 100 + 33 / 181 := by rw [hfull]; decide +kernel
  have hs : addBusinessDays exTerms.calendar exTerms.purchaseDate 1 = .ok (D 2023 6 2) := by decide +kernel
  obtain ⟨y, ⟨hy, hytm⟩, -⟩ := C37_ytm_unique exTerms b 6 (by decide +kernel) hb yearCoord exTerms.purchaseDate (D 2023 6 2)
    (measures_axis rfl (by decide +kernel) hs) hs (by decide +kernel) (by decide +kernel) (by decide +kernel) (by rw [hfull]; norm_num)
  have hyield : IsYield b exTerms.purchaseDate y := ⟨by rw [(create_ok hb).1]; exact hy, hytm⟩
  have hN : ∀ p ∈ b.coupons ++ b.principalPayments,
      (yearCoord p.date - yearCoord exTerms.purchaseDate) * exTerms.frequency.value ≤ (4 : Nat) := by
    rw [h3, h4]; decide +kernel
  have hlen : (b.coupons ++ b.principalPayments).length = 5 := by rw [h3, h4]; rfl
  have hsm : (16 * ((4 : Nat) + 1) + 2 * ((b.coupons ++ b.principalPayments).length : ℚ)) * (1 / 2 ^ 53 : ℚ) ≤ 1 / 2 := by
    rw [hlen]; norm_num
  have hf : exTerms.frequency.value = 2 := rfl
  refine ⟨pow, b, b', y, hpow, hb, hb', hyield, ?_, ?_⟩
  · obtain ⟨v, w, a1, a2, a3⟩ := C131_value rounding_nearest53 hpow exTerms b b' 6 rfl hb hb' yearCoord rfl exTerms.purchaseDate (D 2023 6 2)
      (by decide +kernel) hs (by decide +kernel) hP.1 4 hN
      (Or.inr (by show _ ≤ (100 * 4 : ℚ); have := hbig 24 (by norm_num); linarith)) (hbig 8 (by norm_num)) hsm (1 / 16)
      (by rw [hf]; norm_num) (by rw [hf]; norm_num) (Or.inr (by
        rw [hf, abs_of_pos (by norm_num)]
        have := hbig 5 (by norm_num)
        push_cast
        linarith))
    refine ⟨v, w, a1, a2, a3.trans (le_of_eq ?_)⟩
    rw [hlen]; norm_num
  · intro r hr1 hr2 hr0
    obtain ⟨v, ε, ρ, a1, a0, a2, -, a3⟩ := C131_yield rounding_nearest53 hpow exTerms b b' 6 rfl hb hb' yearCoord rfl exTerms.purchaseDate (D 2023 6 2)
      (by decide +kernel) hs (by decide +kernel) (by decide +kernel) hP (by show _ ≤ (99 : ℚ); have := hbig 20 (by norm_num); linarith) 4 hN
      (Or.inr (by show _ ≤ (100 * 4 : ℚ); have := hbig 104 (by norm_num); linarith)) hgap hfeb (hbig 8 (by norm_num)) hsm r
      (by rw [hf]; push_cast; linarith) (by rw [hf]; push_cast; linarith) (hr0.imp_right fun e => by
        refine le_trans ?_ e
        rw [hf]
        have e1 : (1 : ℚ) / 2 ^ 1022 * ((2 : Nat) : ℚ) = 1 / 2 ^ 1021 := by
          rw [show 1022 = 1021 + 1 by norm_num, pow_succ]
          have : (2 : ℚ) ^ 1021 ≠ 0 := by positivity
          generalize (2 : ℚ) ^ 1021 = z at this ⊢
          push_cast
          field_simp
        rw [e1]
        exact one_div_le_one_div_of_le (by positivity) (pow_le_pow_right₀ (by norm_num) (by norm_num))) y hyield
    refine ⟨v, ε, ρ, a1, a0, a2, ?_⟩
    rw [hPr, hlen, hf] at a3
    refine a3.trans (le_of_eq ?_)
    norm_num

end Verif.Props
