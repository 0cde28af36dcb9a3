/- Lemmas about rounding. -/
import Verif.Spec.Rounded
import Mathlib.Algebra.Order.Ring.Pow
import Mathlib.Algebra.Order.Field.Power

namespace Verif.Spec

/-! ## Rounding to 53 bits is a rounding -/

theorem round_mono' {x y : ℚ} (h : x ≤ y) : round x ≤ round y := by
  rw [round_eq, round_eq]; exact Int.floor_mono (by linarith)

/-- The value of `nearest53` at a positive number. -/
noncomputable def near53 (x : ℚ) : ℚ := round (x * 2 ^ (52 - Int.log 2 x)) * (2 : ℚ) ^ (Int.log 2 x - 52)

theorem near53_facts {x : ℚ} (hx : 0 < x) :
    (2 : ℚ) ^ Int.log 2 x ≤ x ∧ x < (2 : ℚ) ^ (Int.log 2 x + 1) ∧ (2 : ℚ) ^ Int.log 2 x ≤ near53 x ∧
      near53 x ≤ (2 : ℚ) ^ (Int.log 2 x + 1) ∧ |near53 x - x| ≤ 1 / 2 ^ 53 * x := by
  have h1 : (2 : ℚ) ^ Int.log 2 x ≤ x := by
    have := Int.zpow_log_le_self (b := 2) (r := x) (by norm_num) hx
    exact_mod_cast this
  have h2 : x < (2 : ℚ) ^ (Int.log 2 x + 1) := by
    have := Int.lt_zpow_succ_log_self (b := 2) (by norm_num) x
    exact_mod_cast this
  generalize he : Int.log 2 x = e at *
  have hp : (0 : ℚ) < 2 ^ (52 - e) := by positivity
  have hq : (0 : ℚ) < 2 ^ (e - 52) := by positivity
  have hpq : (2 : ℚ) ^ (52 - e) * 2 ^ (e - 52) = 1 := by
    rw [← zpow_add₀ (by norm_num)]; simp
  have e1 : (2 : ℚ) ^ e = 2 ^ 52 * 2 ^ (e - 52) := by
    rw [show (2 : ℚ) ^ 52 = 2 ^ (52 : ℤ) by norm_num, ← zpow_add₀ (by norm_num)]; congr 1; ring
  have e2 : (2 : ℚ) ^ (e + 1) = 2 ^ 53 * 2 ^ (e - 52) := by
    rw [show (2 : ℚ) ^ 53 = 2 ^ (53 : ℤ) by norm_num, ← zpow_add₀ (by norm_num)]; congr 1; ring
  have hm1 : (2 : ℚ) ^ 52 ≤ x * 2 ^ (52 - e) := by
    have := mul_le_mul_of_nonneg_right h1 (le_of_lt hp)
    rw [e1, mul_assoc, mul_comm ((2 : ℚ) ^ (e - 52)), hpq, mul_one] at this
    exact this
  have hm2 : x * 2 ^ (52 - e) < (2 : ℚ) ^ 53 := by
    have := mul_lt_mul_of_pos_right h2 hp
    rw [e2, mul_assoc, mul_comm ((2 : ℚ) ^ (e - 52)), hpq, mul_one] at this
    exact this
  have hr1 : (2 : ℤ) ^ 52 ≤ round (x * 2 ^ (52 - e)) := by
    have := round_mono' (show ((2 ^ 52 : ℤ) : ℚ) ≤ x * 2 ^ (52 - e) by exact_mod_cast hm1)
    rwa [round_intCast] at this
  have hr2 : round (x * 2 ^ (52 - e)) ≤ (2 : ℤ) ^ 53 := by
    have := round_mono' (show x * 2 ^ (52 - e) ≤ ((2 ^ 53 : ℤ) : ℚ) by exact_mod_cast le_of_lt hm2)
    rwa [round_intCast] at this
  have hn : near53 x = round (x * 2 ^ (52 - e)) * (2 : ℚ) ^ (e - 52) := by unfold near53; rw [he]
  refine ⟨h1, h2, ?_, ?_, ?_⟩
  · rw [hn, e1]
    exact mul_le_mul_of_nonneg_right (by exact_mod_cast hr1) (le_of_lt hq)
  · rw [hn, e2]
    exact mul_le_mul_of_nonneg_right (by exact_mod_cast hr2) (le_of_lt hq)
  · have hx' : x = x * 2 ^ (52 - e) * 2 ^ (e - 52) := by rw [mul_assoc, hpq, mul_one]
    have : near53 x - x = (round (x * 2 ^ (52 - e)) - x * 2 ^ (52 - e)) * 2 ^ (e - 52) := by
      rw [hn, sub_mul, ← hx']
    rw [this, abs_mul, abs_of_pos hq]
    have habs := abs_sub_round (x * 2 ^ (52 - e))
    rw [abs_sub_comm] at habs
    calc |(round (x * 2 ^ (52 - e)) : ℚ) - x * 2 ^ (52 - e)| * 2 ^ (e - 52) ≤ 1 / 2 * 2 ^ (e - 52) :=
          mul_le_mul_of_nonneg_right habs (le_of_lt hq)
      _ = 1 / 2 ^ 53 * 2 ^ e := by rw [e1]; ring
      _ ≤ 1 / 2 ^ 53 * x := mul_le_mul_of_nonneg_left h1 (by norm_num)

theorem log_eq_of {x : ℚ} {e : ℤ} (h1 : (2 : ℚ) ^ e ≤ x) (h2 : x < (2 : ℚ) ^ (e + 1)) : Int.log 2 x = e := by
  have hx : 0 < x := lt_of_lt_of_le (by positivity) h1
  have a : e ≤ Int.log 2 x := (Int.zpow_le_iff_le_log (by norm_num) hx).1 (by exact_mod_cast h1)
  have b : Int.log 2 x < e + 1 := (Int.lt_zpow_iff_log_lt (by norm_num) hx).1 (by exact_mod_cast h2)
  omega

theorem near53_mono {x y : ℚ} (hx : 0 < x) (hxy : x ≤ y) : near53 x ≤ near53 y := by
  have hy : 0 < y := lt_of_lt_of_le hx hxy
  obtain ⟨x1, x2, x3, x4, -⟩ := near53_facts hx
  obtain ⟨y1, y2, y3, y4, -⟩ := near53_facts hy
  have hle : Int.log 2 x ≤ Int.log 2 y := Int.log_mono_right hx hxy
  rcases lt_or_eq_of_le hle with h | h
  · calc near53 x ≤ 2 ^ (Int.log 2 x + 1) := x4
      _ ≤ 2 ^ Int.log 2 y := zpow_le_zpow_right₀ (by norm_num) (by omega)
      _ ≤ near53 y := y3
  · unfold near53
    rw [h]
    refine mul_le_mul_of_nonneg_right ?_ (by positivity)
    exact_mod_cast round_mono' (mul_le_mul_of_nonneg_right hxy (by positivity))

theorem near53_pos {x : ℚ} (hx : 0 < x) : 0 < near53 x :=
  lt_of_lt_of_le (by positivity) (near53_facts hx).2.2.1

theorem near53_two_zpow (e : ℤ) : near53 ((2 : ℚ) ^ e) = (2 : ℚ) ^ e := by
  have hl : Int.log 2 ((2 : ℚ) ^ e) = e := log_eq_of (le_refl _) (zpow_lt_zpow_right₀ (by norm_num) (by omega))
  unfold near53
  rw [hl]
  have : (2 : ℚ) ^ e * 2 ^ (52 - e) = ((2 ^ 52 : ℤ) : ℚ) := by
    rw [← zpow_add₀ (by norm_num)]
    rw [show e + (52 - e) = 52 by ring]
    norm_num
  rw [this, round_intCast]
  have h52 : ((2 ^ 52 : ℤ) : ℚ) = (2 : ℚ) ^ (52 : ℤ) := by norm_num
  rw [h52, ← zpow_add₀ (by norm_num)]
  congr 1; ring

theorem near53_idem {x : ℚ} (hx : 0 < x) : near53 (near53 x) = near53 x := by
  obtain ⟨x1, x2, x3, x4, -⟩ := near53_facts hx
  rcases lt_or_eq_of_le x4 with h | h
  · have hl := log_eq_of x3 h
    have hpq : (2 : ℚ) ^ (Int.log 2 x - 52) * 2 ^ (52 - Int.log 2 x) = 1 := by
      rw [← zpow_add₀ (by norm_num)]; simp
    show (round (near53 x * 2 ^ (52 - Int.log 2 (near53 x))) : ℚ) * (2 : ℚ) ^ (Int.log 2 (near53 x) - 52) = near53 x
    rw [hl]
    have : near53 x * 2 ^ (52 - Int.log 2 x) = (round (x * 2 ^ (52 - Int.log 2 x)) : ℤ) := by
      unfold near53
      rw [mul_assoc, hpq, mul_one]
    rw [this, round_intCast]
    rfl
  · rw [h, near53_two_zpow]

theorem nearest53_of_pos {x : ℚ} (hx : 0 < x) : nearest53 x = near53 x := by
  unfold nearest53
  rw [if_neg (ne_of_gt hx), if_pos hx]; rfl

theorem nearest53_neg (x : ℚ) : nearest53 (-x) = -nearest53 x := by
  unfold nearest53
  rcases lt_trichotomy x 0 with h | h | h
  · have h1 : 0 < -x := by linarith
    rw [if_neg (ne_of_gt h1), if_pos h1, if_neg (ne_of_lt h), if_neg (not_lt.2 (le_of_lt h)), neg_neg]
  · subst h; simp
  · have h1 : ¬ 0 < -x := by linarith
    have h2 : -x ≠ 0 := by linarith
    rw [if_neg h2, if_neg h1, if_neg (ne_of_gt h), if_pos h, neg_neg]

theorem nearest53_zero : nearest53 0 = 0 := by simp [nearest53]

/-- Rounding to nearest with 53 bits satisfies the specification. -/
theorem rounding_nearest53 : Rounding nearest53 (1 / 2 ^ 53) (1 / 2 ^ 1022) where
  mono := by
    intro x y hxy
    rcases lt_trichotomy x 0 with hx | hx | hx
    · have hx' : 0 < -x := by linarith
      have ex : nearest53 x = -near53 (-x) := by rw [← nearest53_of_pos hx', nearest53_neg, neg_neg]
      rcases lt_trichotomy y 0 with hy | hy | hy
      · have hy' : 0 < -y := by linarith
        have ey : nearest53 y = -near53 (-y) := by rw [← nearest53_of_pos hy', nearest53_neg, neg_neg]
        rw [ex, ey]
        exact neg_le_neg (near53_mono hy' (by linarith))
      · rw [ex, hy, nearest53_zero]
        have := near53_pos hx'
        linarith
      · rw [ex, nearest53_of_pos hy]
        have := near53_pos hx'
        have := near53_pos hy
        linarith
    · rw [hx, nearest53_zero]
      rcases lt_or_eq_of_le (hx ▸ hxy) with hy | hy
      · rw [nearest53_of_pos hy]; exact le_of_lt (near53_pos hy)
      · rw [← hy, nearest53_zero]
    · rw [nearest53_of_pos hx, nearest53_of_pos (lt_of_lt_of_le hx hxy)]
      exact near53_mono hx hxy
  neg := nearest53_neg
  zero := nearest53_zero
  one := by
    rw [nearest53_of_pos one_pos]
    have hl : Int.log 2 (1 : ℚ) = 0 := by simp
    unfold near53
    rw [hl]
    have : (1 : ℚ) * 2 ^ ((52 : ℤ) - 0) = ((2 ^ 52 : ℤ) : ℚ) := by norm_num
    rw [this, round_intCast]
    norm_num
  rep := by
    rw [nearest53_of_pos (by positivity)]
    have : (1 : ℚ) / 2 ^ 1022 = (2 : ℚ) ^ (-1022 : ℤ) := by rw [zpow_neg, one_div]; norm_cast
    rw [this, near53_two_zpow]
  idem := by
    intro x
    rcases lt_trichotomy x 0 with hx | hx | hx
    · have hx' : 0 < -x := by linarith
      have ex : nearest53 x = -near53 (-x) := by rw [← nearest53_of_pos hx', nearest53_neg, neg_neg]
      rw [ex, nearest53_neg, nearest53_of_pos (near53_pos hx'), near53_idem hx']
    · rw [hx, nearest53_zero, nearest53_zero]
    · rw [nearest53_of_pos hx, nearest53_of_pos (near53_pos hx), near53_idem hx]
  err := by
    intro x _
    rcases lt_trichotomy x 0 with hx | hx | hx
    · have hx' : 0 < -x := by linarith
      have ex : nearest53 x = -near53 (-x) := by rw [← nearest53_of_pos hx', nearest53_neg, neg_neg]
      have := (near53_facts hx').2.2.2.2
      rw [ex, abs_of_neg hx, abs_sub_comm]
      rw [show x - -near53 (-x) = near53 (-x) - -x by ring]
      exact this
    · rw [hx, nearest53_zero]; simp
    · rw [nearest53_of_pos hx, abs_of_pos hx]
      exact (near53_facts hx).2.2.2.2
  u_nonneg := by norm_num
  u_small := by norm_num
  tiny_pos := by positivity
  tiny_small := by
    apply one_div_le_one_div_of_le (by positivity)
    exact pow_le_pow_right₀ (by norm_num) (by norm_num)

/-! ## Agreement up to roundings -/

variable {u : ℚ}

theorem Near.refl (x : ℚ) : Near u 0 x x := by simp [Near]

theorem Near.symm {k : Nat} {x y : ℚ} (h : Near u k x y) : Near u k y x := ⟨h.2, h.1⟩

theorem Near.trans (hu : u < 1) {k m : Nat} {x y z : ℚ} (h : Near u k x y) (g : Near u m y z) : Near u (k + m) x z := by
  have hk : 0 ≤ (1 - u) ^ k := pow_nonneg (by linarith) _
  have hm : 0 ≤ (1 - u) ^ m := pow_nonneg (by linarith) _
  constructor
  · calc (1 - u) ^ (k + m) * x = (1 - u) ^ m * ((1 - u) ^ k * x) := by rw [pow_add]; ring
      _ ≤ (1 - u) ^ m * y := mul_le_mul_of_nonneg_left h.1 hm
      _ ≤ z := g.1
  · calc (1 - u) ^ (k + m) * z = (1 - u) ^ k * ((1 - u) ^ m * z) := by rw [pow_add]; ring
      _ ≤ (1 - u) ^ k * y := mul_le_mul_of_nonneg_left g.2 hk
      _ ≤ x := h.2

theorem Near.weaken (hu0 : 0 ≤ u) (hu : u < 1) {k m : Nat} (hkm : k ≤ m) {x y : ℚ} (hx : 0 ≤ x) (hy : 0 ≤ y) (h : Near u k x y) :
    Near u m x y := by
  have : (1 - u) ^ m ≤ (1 - u) ^ k := pow_le_pow_of_le_one (by linarith) (by linarith) hkm
  exact ⟨le_trans (mul_le_mul_of_nonneg_right this hx) h.1, le_trans (mul_le_mul_of_nonneg_right this hy) h.2⟩

theorem Near.add {k : Nat} {x y x' y' : ℚ} (h : Near u k x y) (g : Near u k x' y') : Near u k (x + x') (y + y') :=
  ⟨by rw [mul_add]; exact add_le_add h.1 g.1, by rw [mul_add]; exact add_le_add h.2 g.2⟩

theorem Near.mul (hu : u < 1) {k m : Nat} {x y x' y' : ℚ} (hx : 0 ≤ x) (hy : 0 ≤ y) (hx' : 0 ≤ x') (hy' : 0 ≤ y')
    (h : Near u k x y) (g : Near u m x' y') : Near u (k + m) (x * x') (y * y') := by
  have hm : 0 ≤ (1 - u) ^ m := pow_nonneg (by linarith) _
  constructor
  · calc (1 - u) ^ (k + m) * (x * x') = ((1 - u) ^ k * x) * ((1 - u) ^ m * x') := by rw [pow_add]; ring
      _ ≤ y * y' := mul_le_mul h.1 g.1 (mul_nonneg hm hx') hy
  · calc (1 - u) ^ (k + m) * (y * y') = ((1 - u) ^ k * y) * ((1 - u) ^ m * y') := by rw [pow_add]; ring
      _ ≤ x * x' := mul_le_mul h.2 g.2 (mul_nonneg hm hy') hx

theorem Near.pos (hu : u < 1) {k : Nat} {x y : ℚ} (hx : 0 < x) (h : Near u k x y) : 0 < y :=
  lt_of_lt_of_le (mul_pos (pow_pos (by linarith) _) hx) h.1

theorem Near.nonneg (hu : u < 1) {k : Nat} {x y : ℚ} (hx : 0 ≤ x) (h : Near u k x y) : 0 ≤ y :=
  le_trans (mul_nonneg (pow_nonneg (by linarith) _) hx) h.1

theorem Near.div (hu : u < 1) {k m : Nat} {x y x' y' : ℚ} (hx : 0 ≤ x) (hx' : 0 < x')
    (h : Near u k x y) (g : Near u m x' y') : Near u (k + m) (x / x') (y / y') := by
  have hy := h.nonneg hu hx
  have hy' := g.pos hu hx'
  have hk : 0 ≤ (1 - u) ^ k := pow_nonneg (by linarith) _
  have hm : 0 ≤ (1 - u) ^ m := pow_nonneg (by linarith) _
  constructor
  · rw [← mul_div_assoc, div_le_div_iff₀ hx' hy']
    calc (1 - u) ^ (k + m) * x * y' = ((1 - u) ^ k * x) * ((1 - u) ^ m * y') := by rw [pow_add]; ring
      _ ≤ y * x' := mul_le_mul h.1 g.2 (mul_nonneg hm (le_of_lt hy')) hy
  · rw [← mul_div_assoc, div_le_div_iff₀ hy' hx']
    calc (1 - u) ^ (k + m) * y * x' = ((1 - u) ^ k * y) * ((1 - u) ^ m * x') := by rw [pow_add]; ring
      _ ≤ x * y' := mul_le_mul h.2 g.1 (mul_nonneg hm (le_of_lt hx')) hx

variable {rnd : ℚ → ℚ} {tiny : ℚ}

theorem Rounding.u_lt (R : Rounding rnd u tiny) : u < 1 := lt_of_le_of_lt R.u_small (by norm_num)

theorem Rounding.near (R : Rounding rnd u tiny) {x : ℚ} (hx : x = 0 ∨ tiny ≤ x) : Near u 1 x (rnd x) := by
  rcases hx with rfl | hx
  · rw [R.zero]; simp [Near]
  · have hpos : 0 < x := lt_of_lt_of_le R.tiny_pos hx
    have := R.err x (by rwa [abs_of_pos hpos])
    rw [abs_of_pos hpos, abs_le] at this
    have h0 := R.u_nonneg
    have h1 := R.u_lt
    refine ⟨by rw [pow_one]; linarith, ?_⟩
    rw [pow_one]
    have : rnd x ≤ (1 + u) * x := by linarith
    calc (1 - u) * rnd x ≤ (1 - u) * ((1 + u) * x) := mul_le_mul_of_nonneg_left this (by linarith)
      _ = x - u * u * x := by ring
      _ ≤ x := by
        have := mul_nonneg (mul_nonneg h0 h0) (le_of_lt hpos)
        linarith

theorem Rounding.nonneg (R : Rounding rnd u tiny) {x : ℚ} (hx : 0 ≤ x) : 0 ≤ rnd x := by
  have := R.mono hx
  rwa [R.zero] at this

theorem Rounding.le_one (R : Rounding rnd u tiny) {x : ℚ} (hx : x ≤ 1) : rnd x ≤ 1 := by
  have := R.mono hx
  rwa [R.one] at this

theorem Rounding.tiny_le (R : Rounding rnd u tiny) {x : ℚ} (hx : tiny ≤ x) : tiny ≤ rnd x := by
  have := R.mono hx
  rwa [R.rep] at this

/-- A number that is 0 or not tiny stays so when rounded. -/
theorem Rounding.keep (R : Rounding rnd u tiny) {x : ℚ} (hx : x = 0 ∨ tiny ≤ x) : rnd x = 0 ∨ tiny ≤ rnd x := by
  rcases hx with rfl | hx
  · exact Or.inl R.zero
  · exact Or.inr (R.tiny_le hx)

/-- Powers of `1 - u` for a few dozen roundings are hardly below 1. -/
theorem Rounding.pow_ge (R : Rounding rnd u tiny) (k : Nat) (hk : k ≤ 1024) : 1 - 1 / 2 ^ 30 ≤ (1 - u) ^ k := by
  have h0 := R.u_nonneg
  have h1 := R.u_small
  have := one_add_mul_le_pow (a := -u) (by linarith [R.u_lt]) k
  rw [show (1 : ℚ) - u = 1 + -u by ring]
  refine le_trans ?_ this
  have hk' : (k : ℚ) ≤ 1024 := by exact_mod_cast hk
  have : (k : ℚ) * u ≤ 1024 * (1 / 2 ^ 40) := mul_le_mul hk' h1 h0 (by norm_num)
  have : (1024 : ℚ) * (1 / 2 ^ 40) = 1 / 2 ^ 30 := by norm_num
  linarith

/-! ## Relative errors -/

/-- `b` is `a` up to the relative error `η`. -/
def Rel (η a b : ℚ) : Prop := |b - a| ≤ η * |a|

theorem Rel.abs_le {η a b : ℚ} (h : Rel η a b) : |b| ≤ (1 + η) * |a| := by
  have := abs_sub_abs_le_abs_sub b a
  unfold Rel at h
  linarith

theorem Rel.abs_ge {η a b : ℚ} (h : Rel η a b) : (1 - η) * |a| ≤ |b| := by
  have := abs_sub_abs_le_abs_sub a b
  unfold Rel at h
  rw [abs_sub_comm] at h
  linarith

theorem Rel.mono {η θ a b : ℚ} (h : Rel η a b) (hη : η ≤ θ) : Rel θ a b :=
  le_trans h (mul_le_mul_of_nonneg_right hη (abs_nonneg _))

theorem Rel.trans {η θ a b c : ℚ} (hθ : 0 ≤ θ) (h : Rel η a b) (g : Rel θ b c) : Rel (η + θ + η * θ) a c := by
  have h1 := h.abs_le
  have h2 := abs_sub_le c b a
  unfold Rel at *
  have : θ * |b| ≤ θ * ((1 + η) * |a|) := mul_le_mul_of_nonneg_left h1 hθ
  calc |c - a| ≤ |c - b| + |b - a| := h2
    _ ≤ θ * ((1 + η) * |a|) + η * |a| := by linarith
    _ = (η + θ + η * θ) * |a| := by ring

theorem Rel.mul {η θ a b a' b' : ℚ} (hη : 0 ≤ η) (h : Rel η a b) (g : Rel θ a' b') :
    Rel (η + θ + η * θ) (a * a') (b * b') := by
  have h1 := h.abs_le
  unfold Rel at *
  have e : b * b' - a * a' = (b - a) * a' + b * (b' - a') := by ring
  rw [e]
  calc |(b - a) * a' + b * (b' - a')| ≤ |(b - a) * a'| + |b * (b' - a')| := abs_add_le _ _
    _ = |b - a| * |a'| + |b| * |b' - a'| := by rw [abs_mul, abs_mul]
    _ ≤ (η * |a|) * |a'| + ((1 + η) * |a|) * (θ * |a'|) := by
        refine add_le_add (mul_le_mul_of_nonneg_right h (abs_nonneg _)) (mul_le_mul h1 g (abs_nonneg _) ?_)
        exact mul_nonneg (by linarith) (abs_nonneg _)
    _ = (η + θ + η * θ) * |a * a'| := by rw [abs_mul]; ring

theorem Rel.inv {θ a b : ℚ} (hθ : θ ≤ 1 / 2) (ha : a ≠ 0) (h : Rel θ a b) : Rel (2 * θ) a⁻¹ b⁻¹ := by
  have h1 := h.abs_ge
  have hpos : 0 < |a| := abs_pos.2 ha
  have hb : 1 / 2 * |a| ≤ |b| := le_trans (mul_le_mul_of_nonneg_right (by linarith) (abs_nonneg _)) h1
  have hbpos : 0 < |b| := by linarith
  have hb0 : b ≠ 0 := abs_pos.1 hbpos
  unfold Rel at *
  have e : b⁻¹ - a⁻¹ = -(b - a) * (a⁻¹ * b⁻¹) := by field_simp; ring
  rw [e, abs_mul, abs_neg, abs_mul, abs_inv, abs_inv]
  have h2 : |b|⁻¹ ≤ 2 * |a|⁻¹ := by
    rw [← one_div, ← one_div, ← mul_div_assoc, mul_one, div_le_div_iff₀ hbpos hpos]
    linarith
  have hai : 0 < |a|⁻¹ := inv_pos.2 hpos
  calc |b - a| * (|a|⁻¹ * |b|⁻¹) ≤ (θ * |a|) * (|a|⁻¹ * (2 * |a|⁻¹)) := by
        refine mul_le_mul h (mul_le_mul_of_nonneg_left h2 (le_of_lt hai)) (by positivity) ?_
        exact le_trans (abs_nonneg _) h
    _ = 2 * θ * |a|⁻¹ := by field_simp

theorem Rounding.rel (R : Rounding rnd u tiny) {x : ℚ} (hx : tiny ≤ |x|) : Rel u x (rnd x) := R.err x hx

/-- The error of rounding any number. -/
theorem Rounding.abs_err (R : Rounding rnd u tiny) (x : ℚ) : |rnd x - x| ≤ u * |x| + 2 * tiny := by
  have t0 := R.tiny_pos
  rcases le_or_gt tiny |x| with h | h
  · have := R.err x h; linarith
  · have hx := abs_lt.1 h
    have h1 : rnd x ≤ tiny := by
      have := R.mono (le_of_lt hx.2); rwa [R.rep] at this
    have h2 : -tiny ≤ rnd x := by
      have := R.mono (le_of_lt hx.1); rwa [R.neg, R.rep] at this
    have := mul_nonneg R.u_nonneg (abs_nonneg x)
    have : |rnd x - x| ≤ 2 * tiny := abs_le.2 ⟨by linarith, by linarith⟩
    linarith

theorem Near.abs_err (hu0 : 0 ≤ u) (hu : u ≤ 1 / 2 ^ 40) {X x : ℚ} (hX : 0 ≤ X) (h : Near u 3 X x) : |x - X| ≤ 4 * u * X := by
  have hx : 0 ≤ x := h.nonneg (lt_of_le_of_lt hu (by norm_num)) hX
  have hb : 1 - 3 * u ≤ (1 - u) ^ 3 := by
    have := one_add_mul_le_pow (a := -u) (by linarith) 3
    rw [show (1 : ℚ) - u = 1 + -u by ring]
    push_cast at this
    linarith
  have h1 : (1 - 3 * u) * X ≤ x := le_trans (mul_le_mul_of_nonneg_right hb hX) h.1
  have h2 : (1 - 3 * u) * x ≤ X := le_trans (mul_le_mul_of_nonneg_right hb hx) h.2
  have h3 : x ≤ (1 + 4 * u) * X := by
    have h4 : (1 - 3 * u) * x ≤ (1 - 3 * u) * ((1 + 4 * u) * X) := by
      have : 0 ≤ u * (1 - 12 * u) := mul_nonneg hu0 (by linarith)
      have h5 : X ≤ (1 - 3 * u) * ((1 + 4 * u) * X) := by
        have : (1 - 3 * u) * ((1 + 4 * u) * X) = X + u * (1 - 12 * u) * X := by ring
        rw [this]
        have := mul_nonneg ‹0 ≤ u * (1 - 12 * u)› hX
        linarith
      linarith
    exact le_of_mul_le_mul_left h4 (by linarith)
  have h6 := mul_nonneg hu0 hX
  exact abs_le.2 ⟨by linarith, by linarith⟩

end Verif.Spec
