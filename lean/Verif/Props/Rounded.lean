/- Property C95: what floating-point rounding leaves of the exact results. -/
import Verif.Lemmas.RoundedAxis
import Verif.Props.KeyRate
import Verif.Props.Curve

namespace Verif.Props
open Verif Verif.Spec Verif.DayCount Verif.KeyRateCollection

variable {rnd : ℚ → ℚ} {u tiny : ℚ}

/-! ## Accruals -/

/-- C95. The accrual length computed in floating point agrees with the exact year fraction up to three roundings, is exactly zero
between equal dates, and is strictly larger for a later end date or an earlier start date. -/
theorem C95_accrual (R : Rounding rnd u tiny) (dcc : DayCountConvention) (τ : PyDate → ℚ) (hτ : timeAxis dcc = some τ) (s e : PyDate)
    (hse : s ≤ e) (hs : AxisOk dcc s) :
    ∃ x, Rounded.accrual rnd s e dcc = .ok x ∧ Near u 3 (τ e - τ s) x ∧ (s = e → x = 0) ∧
      (∀ e' x', e < e' → Rounded.accrual rnd s e' dcc = .ok x' → x < x') ∧
      (∀ s' x', s' < s → AxisOk dcc s' → Rounded.accrual rnd s' e dcc = .ok x' → x < x') := by
  obtain ⟨x, hx, hn⟩ := rounded_accrual R hτ hse hs
  have u1 := R.u_lt
  have hk0 : 0 < (1 - u) ^ 3 := pow_pos (by linarith) _
  have m1 := axis_mono hτ hse
  have b1 := axis_bounds hτ s
  have b2 := axis_bounds hτ e
  refine ⟨x, hx, hn, ?_, ?_, ?_⟩
  · rintro rfl
    rw [sub_self] at hn
    have h1 := hn.1
    have h2 := hn.2
    rw [mul_zero] at h1
    exact le_antisymm (by nlinarith) h1
  · intro e' x' he hx'
    obtain ⟨y, hy, hm⟩ := rounded_accrual R hτ (le_of_lt (lt_of_le_of_lt hse he)) hs
    rw [hy] at hx'; injection hx' with hx'; subst hx'
    have g := axis_gap hτ he
    have b3 := axis_bounds hτ e'
    exact near_lt R (by norm_num) (by linarith) (by linarith) (by linarith) hn hm
  · intro s' x' h' hs' hx'
    obtain ⟨y, hy, hm⟩ := rounded_accrual R hτ (le_of_lt (lt_of_lt_of_le h' hse)) hs'
    rw [hy] at hx'; injection hx' with hx'; subst hx'
    have g := axis_gap hτ h'
    have b3 := axis_bounds hτ s'
    exact near_lt R (by norm_num) (by linarith) (by linarith) (by linarith) hn hm

/-- Five years of ACT/ACT in double precision. -/
example : ∃ x, Rounded.accrual nearest53 (D 2023 3 15) (D 2028 6 30) .actAct = .ok x ∧
    Near (1 / 2 ^ 53) 3 (yearCoord (D 2028 6 30) - yearCoord (D 2023 3 15)) x := by
  obtain ⟨x, h1, h2, -⟩ := C95_accrual rounding_nearest53 .actAct yearCoord rfl (D 2023 3 15) (D 2028 6 30)
    (by decide +kernel) (by decide +kernel)
  exact ⟨x, h1, h2⟩

/-! ## Key rates -/

/-- A share of the bump: the quotient of two accruals, times the bump. -/
theorem rounded_share (R : Rounding rnd u tiny) {X T x t b : ℚ} (hX : 1 / 366 ≤ X) (hXT : X ≤ T) (hT : T ≤ 20000)
    (hx : Near u 3 X x) (ht : Near u 3 T t) (hxt : x ≤ t) (hb : tiny * 2 ^ 40 ≤ b) (hrep : rnd b = b) :
    Rounded.div rnd x t = .ok (rnd (x / t)) ∧ Near u 8 (b * (X / T)) (rnd (rnd (x / t) * b)) ∧
      tiny ≤ rnd (rnd (x / t) * b) ∧ rnd (rnd (x / t) * b) ≤ b := by
  have u0 := R.u_nonneg
  have u1 := R.u_lt
  have hX0 : 0 < X := by linarith
  have hT0 : 0 < T := by linarith
  have hx0 := hx.pos u1 hX0
  have ht0 := ht.pos u1 hT0
  have t0 := R.tiny_pos
  have hb0 : 0 < b := lt_of_lt_of_le (by positivity) hb
  have q0 := hx.div u1 (le_of_lt hX0) hT0 ht
  have hq : 1 / 7320000 ≤ X / T := by
    have : (1 : ℚ) / 366 / 20000 ≤ X / T := div_le_div₀ (le_of_lt hX0) hX hT0 hT
    have e : (1 : ℚ) / 366 / 20000 = 1 / 7320000 := by norm_num
    rwa [e] at this
  have hp6 := R.pow_ge 6 (by norm_num)
  have hp7 := R.pow_ge 7 (by norm_num)
  have hq' : 1 / 14640000 ≤ x / t := by
    have h1 := q0.1
    have h2 : (1 - 1 / 2 ^ 30) * (1 / 7320000) ≤ (1 - u) ^ (3 + 3) * (X / T) := mul_le_mul hp6 hq (by norm_num) (pow_nonneg (by linarith) _)
    have h3 : (1 : ℚ) / 14640000 ≤ (1 - 1 / 2 ^ 30) * (1 / 7320000) := by norm_num
    linarith
  have htiny : tiny ≤ x / t := by
    have h3 := R.tiny_small
    have h4 : (1 : ℚ) / 2 ^ 100 ≤ 1 / 14640000 := by norm_num
    linarith
  have q1 := q0.trans u1 (R.near (Or.inr htiny))
  have hqr0 : 0 ≤ rnd (x / t) := R.nonneg (by linarith)
  have hqr : 1 / 20000000 ≤ rnd (x / t) := by
    have h1 := q1.1
    have h2 : (1 - 1 / 2 ^ 30) * (1 / 7320000) ≤ (1 - u) ^ (3 + 3 + 1) * (X / T) := mul_le_mul hp7 hq (by norm_num) (pow_nonneg (by linarith) _)
    have h3 : (1 : ℚ) / 20000000 ≤ (1 - 1 / 2 ^ 30) * (1 / 7320000) := by norm_num
    linarith
  have hqr1 : rnd (x / t) ≤ 1 := R.le_one ((div_le_one ht0).2 hxt)
  have hprod : tiny ≤ rnd (x / t) * b := by
    have h1 : 1 / 20000000 * (tiny * 2 ^ 40) ≤ rnd (x / t) * b := mul_le_mul hqr hb (by positivity) hqr0
    have h2 : tiny ≤ 1 / 20000000 * (tiny * 2 ^ 40) := by
      have : (1 : ℚ) ≤ 1 / 20000000 * 2 ^ 40 := by norm_num
      nlinarith
    linarith
  have p0 := q1.mul u1 (by linarith) hqr0 (le_of_lt hb0) (le_of_lt hb0) (Near.refl b)
  have p1 := p0.trans u1 (R.near (Or.inr hprod))
  refine ⟨Rounded.div_of_ne (ne_of_gt ht0), ?_, R.tiny_le hprod, ?_⟩
  · rw [mul_comm b]; exact p1
  · have : rnd (rnd (x / t) * b) ≤ rnd b := R.mono (by nlinarith)
    rwa [hrep] at this

/-- A key rate whose exact value at `d` is `b * w`. -/
def CallNear (rnd : ℚ → ℚ) (u tiny : ℚ) (k : KeyRate) (d : PyDate) (w : ℚ) : Prop :=
  ∃ y, Rounded.keyRateCall rnd k d = .ok y ∧ Near u 8 (k.bump * w) y ∧ (y = 0 ∨ tiny ≤ y) ∧ 0 ≤ y ∧ y ≤ k.bump

theorem callNear_zero (R : Rounding rnd u tiny) {k : KeyRate} {d : PyDate} (hb : 0 ≤ k.bump)
    (h : Rounded.keyRateCall rnd k d = .ok 0) : CallNear rnd u tiny k d 0 :=
  ⟨0, h, by simp [Near], Or.inl rfl, le_refl _, hb⟩

theorem callNear_one (R : Rounding rnd u tiny) {k : KeyRate} {d : PyDate} (hb : tiny ≤ k.bump)
    (h : Rounded.keyRateCall rnd k d = .ok k.bump) : CallNear rnd u tiny k d 1 := by
  have h0 : 0 ≤ k.bump := le_trans (le_of_lt R.tiny_pos) hb
  refine ⟨_, h, ?_, Or.inr hb, h0, le_refl _⟩
  rw [mul_one]
  exact (Near.refl _).weaken R.u_nonneg R.u_lt (by norm_num) h0 h0

theorem accrual_le (R : Rounding rnd u tiny) {dcc : DayCountConvention} {τ : PyDate → ℚ} (hτ : timeAxis dcc = some τ)
    {s s' e e' : PyDate} (h1 : s' ≤ s) (h2 : s ≤ e) (h3 : e ≤ e') (hs : AxisOk dcc s') {x x' : ℚ}
    (hx : Rounded.accrual rnd s e dcc = .ok x) (hx' : Rounded.accrual rnd s' e' dcc = .ok x') : x ≤ x' := by
  obtain ⟨y, hy, -, -, hl, hr⟩ := C95_accrual R dcc τ hτ s e h2 (AxisOk_mono h1 hs)
  rw [hx] at hy; injection hy with hy; subst hy
  rcases lt_or_eq_of_le h1 with h1 | rfl
  · obtain ⟨z, hz, -, -, hl', -⟩ := C95_accrual R dcc τ hτ s' e (le_of_lt (lt_of_lt_of_le h1 h2)) hs
    have a1 := hr s' z h1 hs hz
    rcases lt_or_eq_of_le h3 with h3 | rfl
    · have := hl' e' x' h3 hx'
      linarith
    · rw [hz] at hx'; injection hx' with hx'; linarith
  · rcases lt_or_eq_of_le h3 with h3 | rfl
    · exact le_of_lt (hl e' x' h3 hx')
    · rw [hx] at hx'; injection hx' with hx'; linarith

theorem keyRate_near (R : Rounding rnd u tiny) (k : KeyRate) (τ : PyDate → ℚ) (hτ : timeAxis k.dcc = some τ)
    (hb : tiny * 2 ^ 40 ≤ k.bump) (hrep : rnd k.bump = k.bump) (hm : AxisOk k.dcc k.keyDate)
    (hp : ∀ p, k.prior = some p → p < k.keyDate ∧ AxisOk k.dcc p) (hn : ∀ n, k.next = some n → k.keyDate < n) (d : PyDate) :
    (∀ p n, k.prior = some p → k.next = some n → CallNear rnd u tiny k d (hat τ p k.keyDate n d)) ∧
    (∀ p, k.prior = some p → k.next = none → CallNear rnd u tiny k d (rampUp τ p k.keyDate d)) ∧
    (∀ n, k.prior = none → k.next = some n → CallNear rnd u tiny k d (rampDown τ k.keyDate n d)) := by
  have t0 := R.tiny_pos
  have hb0 : 0 < k.bump := lt_of_lt_of_le (by positivity) hb
  have hb1 : tiny ≤ k.bump := by
    have : tiny ≤ tiny * 2 ^ 40 := by nlinarith
    linarith
  obtain ⟨dcc, m, prior, next, b⟩ := k
  simp only at hτ hb hrep hm hp hn hb0 hb1 ⊢
  -- the rising share on [p, m]
  have up : ∀ p, p < m → AxisOk dcc p → p < d → d ≤ m → ∃ x t, Rounded.accrual rnd p d dcc = .ok x ∧
      Rounded.accrual rnd p m dcc = .ok t ∧ Rounded.div rnd x t = .ok (rnd (x / t)) ∧
      Near u 8 (b * ((τ d - τ p) / (τ m - τ p))) (rnd (rnd (x / t) * b)) ∧ tiny ≤ rnd (rnd (x / t) * b) ∧
      rnd (rnd (x / t) * b) ≤ b := by
    intro p hpm hpa hpd hdm
    obtain ⟨x, hx, nx⟩ := rounded_accrual R hτ (le_of_lt hpd) hpa
    obtain ⟨t, ht, nt⟩ := rounded_accrual R hτ (le_of_lt hpm) hpa
    have g := axis_gap hτ hpd
    have b1 := axis_bounds hτ p
    have b2 := axis_bounds hτ m
    have mm := axis_mono hτ hdm
    have := rounded_share R (by linarith) (by linarith : τ d - τ p ≤ τ m - τ p) (by linarith) nx nt
      (accrual_le R hτ (le_refl p) (le_of_lt hpd) hdm hpa hx ht) hb hrep
    exact ⟨x, t, hx, ht, this⟩
  have down : ∀ n, m < n → AxisOk dcc m → m ≤ d → d < n → ∃ x t, Rounded.accrual rnd d n dcc = .ok x ∧
      Rounded.accrual rnd m n dcc = .ok t ∧ Rounded.div rnd x t = .ok (rnd (x / t)) ∧
      Near u 8 (b * ((τ n - τ d) / (τ n - τ m))) (rnd (rnd (x / t) * b)) ∧ tiny ≤ rnd (rnd (x / t) * b) ∧
      rnd (rnd (x / t) * b) ≤ b := by
    intro n hmn hma hmd hdn
    obtain ⟨x, hx, nx⟩ := rounded_accrual R hτ (le_of_lt hdn) (AxisOk_mono hmd hma)
    obtain ⟨t, ht, nt⟩ := rounded_accrual R hτ (le_of_lt hmn) hma
    have g := axis_gap hτ hdn
    have b1 := axis_bounds hτ n
    have b2 := axis_bounds hτ m
    have mm := axis_mono hτ hmd
    have := rounded_share R (by linarith) (by linarith : τ n - τ d ≤ τ n - τ m) (by linarith) nx nt
      (accrual_le R hτ hmd (le_of_lt hdn) (le_refl n) hma hx ht) hb hrep
    exact ⟨x, t, hx, ht, this⟩
  refine ⟨?_, ?_, ?_⟩
  · rintro p n rfl rfl
    obtain ⟨hpm, hpa⟩ := hp p rfl
    have hmn := hn n rfl
    by_cases h1 : n ≤ d ∨ d ≤ p
    · have : hat τ p m n d = 0 := by simp only [hat]; rw [if_pos (Or.symm h1)]
      rw [this]
      refine callNear_zero R (le_of_lt hb0) ?_
      simp only [Rounded.keyRateCall]; rw [if_pos h1]
    · push Not at h1
      by_cases h2 : d ≤ m
      · have hw : hat τ p m n d = (τ d - τ p) / (τ m - τ p) := by
          simp only [hat]; rw [if_neg (by push Not; exact ⟨h1.2, h1.1⟩), if_pos h2]
        obtain ⟨x, t, e1, e2, e3, e4, e5, e6⟩ := up p hpm hpa h1.2 h2
        rw [hw]
        refine ⟨_, ?_, e4, Or.inr e5, by linarith, e6⟩
        simp only [Rounded.keyRateCall]
        rw [if_neg (by push Not; exact h1), if_pos h2, e1, ok_bind, e2, ok_bind, e3, ok_bind]
      · have hw : hat τ p m n d = (τ n - τ d) / (τ n - τ m) := by
          simp only [hat]; rw [if_neg (by push Not; exact ⟨h1.2, h1.1⟩), if_neg h2]
        push Not at h2
        obtain ⟨x, t, e1, e2, e3, e4, e5, e6⟩ := down n hmn hm (le_of_lt h2) h1.1
        rw [hw]
        refine ⟨_, ?_, e4, Or.inr e5, by linarith, e6⟩
        simp only [Rounded.keyRateCall]
        rw [if_neg (by push Not; exact h1), if_neg (not_le.2 h2), e1, ok_bind, e2, ok_bind, e3, ok_bind]
  · rintro p rfl rfl
    obtain ⟨hpm, hpa⟩ := hp p rfl
    by_cases h1 : m ≤ d
    · have hw : rampUp τ p m d = 1 := by
        simp only [rampUp]; rw [if_neg (not_le.2 (lt_of_lt_of_le hpm h1)), if_pos h1]
      rw [hw]
      refine callNear_one R hb1 ?_
      simp only [Rounded.keyRateCall]; rw [if_pos h1]
    · by_cases h2 : d ≤ p
      · have hw : rampUp τ p m d = 0 := by simp only [rampUp]; rw [if_pos h2]
        rw [hw]
        refine callNear_zero R (le_of_lt hb0) ?_
        simp only [Rounded.keyRateCall]; rw [if_neg h1, if_pos h2]
      · have hw : rampUp τ p m d = (τ d - τ p) / (τ m - τ p) := by
          simp only [rampUp]; rw [if_neg h2, if_neg h1]
        push Not at h1 h2
        obtain ⟨x, t, e1, e2, e3, e4, e5, e6⟩ := up p hpm hpa h2 (le_of_lt h1)
        rw [hw]
        refine ⟨_, ?_, e4, Or.inr e5, by linarith, e6⟩
        simp only [Rounded.keyRateCall]
        rw [if_neg (not_le.2 h1), if_neg (not_le.2 h2), e1, ok_bind, e2, ok_bind, e3, ok_bind]
  · rintro n rfl rfl
    have hmn := hn n rfl
    by_cases h1 : d ≤ m
    · have hw : rampDown τ m n d = 1 := by simp only [rampDown]; rw [if_pos h1]
      rw [hw]
      refine callNear_one R hb1 ?_
      simp only [Rounded.keyRateCall]; rw [if_pos h1]
    · by_cases h2 : n ≤ d
      · have hw : rampDown τ m n d = 0 := by simp only [rampDown]; rw [if_neg h1, if_pos h2]
        rw [hw]
        refine callNear_zero R (le_of_lt hb0) ?_
        simp only [Rounded.keyRateCall]; rw [if_neg h1, if_pos h2]
      · have hw : rampDown τ m n d = (τ n - τ d) / (τ n - τ m) := by
          simp only [rampDown]; rw [if_neg h1, if_neg h2]
        push Not at h1 h2
        obtain ⟨x, t, e1, e2, e3, e4, e5, e6⟩ := down n hmn hm (le_of_lt h1) h2
        rw [hw]
        refine ⟨rnd (rnd (x / t) * b), ?_, e4, Or.inr e5, by linarith, e6⟩
        simp only [Rounded.keyRateCall]
        rw [if_neg (not_le.2 h1), if_neg (not_le.2 h2), e1, ok_bind, e2, ok_bind, e3, ok_bind, mul_comm]

/-- Weights that differ by more than the roundings can undo. -/
theorem near_weight_lt (R : Rounding rnd u tiny) {b w w' y y' : ℚ} (hb : 0 < b) (hw : 0 ≤ w) (hw' : w' ≤ 1)
    (hgap : w + 1 / 7320000 ≤ w') (h : Near u 8 (b * w) y) (g : Near u 8 (b * w') y') : y < y' := by
  have u1 := R.u_lt
  have hp := R.pow_ge 16 (by norm_num)
  have h0 := R.u_small
  have hp' : 1 - 16 * (1 / 2 ^ 40) ≤ (1 - u) ^ 16 := by
    have := one_add_mul_le_pow (a := -u) (by linarith) 16
    rw [show (1 : ℚ) - u = 1 + -u by ring]
    push_cast at this
    linarith
  have hk0 : 0 < (1 - u) ^ 8 := pow_pos (by linarith) _
  have h1 : (1 - u) ^ 16 * (b * w') ≤ (1 - u) ^ 8 * y' := by
    rw [show (16 : Nat) = 8 + 8 by norm_num, pow_add, mul_assoc]
    exact mul_le_mul_of_nonneg_left g.1 (le_of_lt hk0)
  have h2 : b * w < (1 - u) ^ 16 * (b * w') := by
    have h3 : w < (1 - u) ^ 16 * w' := by
      have : (1 - 16 * (1 / 2 ^ 40)) * w' ≤ (1 - u) ^ 16 * w' := mul_le_mul_of_nonneg_right hp' (by linarith)
      have h4 : (16 : ℚ) * (1 / 2 ^ 40) < 1 / 7320000 := by norm_num
      nlinarith
    calc b * w < b * ((1 - u) ^ 16 * w') := mul_lt_mul_of_pos_left h3 hb
      _ = (1 - u) ^ 16 * (b * w') := by ring
  exact lt_of_mul_lt_mul_left (lt_of_le_of_lt h.2 (lt_of_lt_of_le h2 h1)) (le_of_lt hk0)

/-- C95. The shape of a key rate's bump function survives floating point: it never raises, agrees with bump times triangular weight up
to eight roundings, is exactly zero outside `(p, n)`, exactly the bump at the key date, between 0 and the bump everywhere, strictly
rising on `[p, m]` and strictly falling on `[m, n]`. -/
theorem C95_hat (R : Rounding rnd u tiny) (dcc : DayCountConvention) (τ : PyDate → ℚ) (hτ : timeAxis dcc = some τ) (p m n : PyDate)
    (hpm : p < m) (hmn : m < n) (hp : AxisOk dcc p) (b : ℚ) (hb : tiny * 2 ^ 40 ≤ b) (hrep : rnd b = b) :
    ∃ f : PyDate → ℚ, (∀ d, Rounded.keyRateCall rnd (KeyRate.mk dcc m (some p) (some n) b) d = .ok (f d)) ∧
      (∀ d, Near u 8 (b * hat τ p m n d) (f d)) ∧
      (∀ d, d ≤ p → f d = 0) ∧ (∀ d, n ≤ d → f d = 0) ∧ f m = b ∧ (∀ d, 0 ≤ f d ∧ f d ≤ b) ∧
      (∀ d e, p ≤ d → d < e → e ≤ m → f d < f e) ∧ (∀ d e, m ≤ d → d < e → e ≤ n → f e < f d) := by
  have t0 := R.tiny_pos
  have hb0 : 0 < b := lt_of_lt_of_le (by positivity) hb
  have key : ∀ d, CallNear rnd u tiny (KeyRate.mk dcc m (some p) (some n) b) d (hat τ p m n d) := by
    intro d
    refine (keyRate_near R (KeyRate.mk dcc m (some p) (some n) b) τ hτ hb hrep (AxisOk_mono (le_of_lt hpm) hp) ?_ ?_ d).1 p n rfl rfl
    · intro p' h; simp at h; subst h; exact ⟨hpm, hp⟩
    · intro n' h; simp at h; subst h; exact hmn
  choose f hf hnear hor hnn hle using key
  have t1 := axis_gap hτ hpm
  have t2 := axis_gap hτ hmn
  have bp := axis_bounds hτ p
  have bm := axis_bounds hτ m
  have bn := axis_bounds hτ n
  have gapdiv : ∀ x y T : ℚ, 0 < T → T ≤ 20000 → x + 1 / 366 ≤ y → x / T + 1 / 7320000 ≤ y / T := by
    intro x y T h0 h1 hxy
    have : (1 : ℚ) / 7320000 ≤ (1 / 366) / T := by
      have := one_div_le_one_div_of_le h0 h1
      rw [div_eq_mul_one_div (1 / 366 : ℚ) T]
      calc (1 : ℚ) / 7320000 = 1 / 366 * (1 / 20000) := by norm_num
        _ ≤ 1 / 366 * (1 / T) := mul_le_mul_of_nonneg_left this (by norm_num)
    have h3 : (x + 1 / 366) / T ≤ y / T := div_le_div_of_nonneg_right hxy (le_of_lt h0)
    rw [add_div] at h3
    linarith
  refine ⟨f, hf, hnear, ?_, ?_, ?_, fun d => ⟨hnn d, hle d⟩, ?_, ?_⟩
  · intro d hd
    have h1 := hf d
    simp only [Rounded.keyRateCall] at h1
    rw [if_pos (Or.inr hd)] at h1
    injection h1 with h1; exact h1.symm
  · intro d hd
    have h1 := hf d
    simp only [Rounded.keyRateCall] at h1
    rw [if_pos (Or.inl hd)] at h1
    injection h1 with h1; exact h1.symm
  · have h1 := hf m
    simp only [Rounded.keyRateCall] at h1
    obtain ⟨x, hx, nx⟩ := rounded_accrual R hτ (le_of_lt hpm) hp
    have hx0 := nx.pos R.u_lt (by linarith)
    rw [if_neg (by push Not; exact ⟨hmn, hpm⟩), if_pos (le_refl m), hx, ok_bind, ok_bind, Rounded.div_of_ne (ne_of_gt hx0), ok_bind,
      div_self (ne_of_gt hx0), R.one, one_mul, hrep] at h1
    injection h1 with h1; exact h1.symm
  · intro d e hd hde hem
    have hpe := lt_of_le_of_lt hd hde
    have he : hat τ p m n e = (τ e - τ p) / (τ m - τ p) := by
      simp only [hat]
      rw [if_neg (by push Not; exact ⟨hpe, lt_of_le_of_lt hem hmn⟩), if_pos hem]
    have hdv : hat τ p m n d = (τ d - τ p) / (τ m - τ p) := by
      rcases lt_or_eq_of_le hd with hd | rfl
      · simp only [hat]
        rw [if_neg (by push Not; exact ⟨hd, lt_trans (lt_of_lt_of_le hde hem) hmn⟩),
          if_pos (le_of_lt (lt_of_lt_of_le hde hem))]
      · simp [hat]
    have g := axis_gap hτ hde
    have m1 := axis_mono hτ hd
    have m2 := axis_mono hτ hem
    refine near_weight_lt R hb0 ?_ ?_ ?_ (hnear d) (hnear e)
    · rw [hdv]; exact div_nonneg (by linarith) (by linarith)
    · rw [he]; exact (div_le_one (by linarith)).2 (by linarith)
    · rw [he, hdv]; exact gapdiv _ _ _ (by linarith) (by linarith) (by linarith)
  · intro d e hd hde hen
    have hdv : hat τ p m n d = (τ n - τ d) / (τ n - τ m) := by
      rcases lt_or_eq_of_le hd with hd | rfl
      · simp only [hat]
        rw [if_neg (by push Not; exact ⟨lt_trans hpm hd, lt_of_lt_of_le hde hen⟩), if_neg (not_le.2 hd)]
      · simp only [hat]
        rw [if_neg (by push Not; exact ⟨hpm, hmn⟩), if_pos (le_refl m), div_self (by linarith), div_self (by linarith)]
    have he : hat τ p m n e = (τ n - τ e) / (τ n - τ m) := by
      rcases lt_or_eq_of_le hen with hen | rfl
      · simp only [hat]
        rw [if_neg (by push Not; exact ⟨lt_trans hpm (lt_of_le_of_lt hd hde), hen⟩),
          if_neg (not_le.2 (lt_of_le_of_lt hd hde))]
      · simp [hat]
    have g := axis_gap hτ hde
    have m1 := axis_mono hτ hd
    have m2 := axis_mono hτ hen
    refine near_weight_lt R hb0 ?_ ?_ ?_ (hnear e) (hnear d)
    · rw [he]; exact div_nonneg (by linarith) (by linarith)
    · rw [hdv]; exact (div_le_one (by linarith)).2 (by linarith)
    · rw [he, hdv]; exact gapdiv _ _ _ (by linarith) (by linarith) (by linarith)

/-- A bump of one binary basis point (`2^-13`), which double precision represents. -/
example : (1 : ℚ) / 2 ^ 1022 * 2 ^ 40 ≤ 1 / 2 ^ 13 ∧ nearest53 (1 / 2 ^ 13) = 1 / 2 ^ 13 := by
  constructor
  · rw [div_mul_eq_mul_div, one_mul, div_le_div_iff₀ (by positivity) (by positivity)]
    rw [one_mul, ← pow_add]
    exact pow_le_pow_right₀ (by norm_num) (by norm_num)
  · rw [nearest53_of_pos (by norm_num)]
    have : (1 : ℚ) / 2 ^ 13 = (2 : ℚ) ^ (-13 : ℤ) := by rw [zpow_neg, one_div]; norm_cast
    rw [this, near53_two_zpow]

/-! ## Sums -/

theorem rounded_foldl (R : Rounding rnd u tiny) (k : Nat) : ∀ (ps : List (ℚ × ℚ)) (j : Nat) (acc accR : ℚ), 0 ≤ acc →
    (accR = 0 ∨ tiny ≤ accR) → k ≤ j → Near u j acc accR →
    (∀ p ∈ ps, 0 ≤ p.1 ∧ (p.2 = 0 ∨ tiny ≤ p.2) ∧ Near u k p.1 p.2) →
    Near u (j + ps.length) (acc + (ps.map Prod.fst).sum) ((ps.map Prod.snd).foldl (fun a x => rnd (a + x)) accR)
  | [], j, acc, accR, _, _, _, hn, _ => by simpa using hn
  | p :: ps, j, acc, accR, h0, hor, hkj, hn, hall => by
    have u0 := R.u_nonneg
    have u1 := R.u_lt
    have t0 := R.tiny_pos
    obtain ⟨hp0, hpor, hpn⟩ := hall p (by simp)
    have hp2 : 0 ≤ p.2 := hpn.nonneg u1 hp0
    have ha2 : 0 ≤ accR := hn.nonneg u1 h0
    have hsum : accR + p.2 = 0 ∨ tiny ≤ accR + p.2 := by
      rcases hor with h | h
      · rw [h, zero_add]; exact hpor
      · right; linarith
    have s1 := hn.add (hpn.weaken u0 u1 hkj hp0 hp2)
    have s2 := s1.trans u1 (R.near hsum)
    have ih := rounded_foldl R k ps (j + 1) (acc + p.1) (rnd (accR + p.2)) (by linarith) (R.keep hsum) (by omega) s2
      (fun q hq => hall q (by simp [hq]))
    simp only [List.map_cons, List.sum_cons, List.foldl_cons, List.length_cons]
    rw [← add_assoc acc, show j + (ps.length + 1) = j + 1 + ps.length by omega]
    exact ih

/-- A rounded sum of nonnegative numbers. -/
theorem rounded_sum (R : Rounding rnd u tiny) (k : Nat) (ps : List (ℚ × ℚ))
    (hall : ∀ p ∈ ps, 0 ≤ p.1 ∧ (p.2 = 0 ∨ tiny ≤ p.2) ∧ Near u k p.1 p.2) :
    Near u (k + ps.length) (ps.map Prod.fst).sum (Rounded.sum rnd (ps.map Prod.snd)) := by
  have := rounded_foldl R k ps k 0 0 (le_refl _) (Or.inl rfl) (le_refl _) (by simp [Near]) hall
  rw [zero_add] at this
  exact this

/-- Two functions that succeed with related results on every element of a list. -/
theorem collect_pairs {α : Type} (f g : α → Except PyErr ℚ) (P : ℚ → ℚ → Prop) : ∀ (l : List α),
    (∀ a ∈ l, ∃ x y, f a = .ok x ∧ g a = .ok y ∧ P x y) →
    ∃ ps : List (ℚ × ℚ), collect f l = .ok (ps.map Prod.fst) ∧ collect g l = .ok (ps.map Prod.snd) ∧ ps.length = l.length ∧
      ∀ p ∈ ps, P p.1 p.2
  | [], _ => ⟨[], rfl, rfl, rfl, by simp⟩
  | a :: as, h => by
    obtain ⟨x, y, hx, hy, hP⟩ := h a (by simp)
    obtain ⟨ps, h1, h2, h3, h4⟩ := collect_pairs f g P as (fun b hb => h b (by simp [hb]))
    refine ⟨(x, y) :: ps, ?_, ?_, by simp [h3], ?_⟩
    · simp only [collect, hx, h1, ok_bind, List.map_cons]
    · simp only [collect, hy, h2, ok_bind, List.map_cons]
    · intro p hp
      rcases List.mem_cons.1 hp with rfl | hp
      · exact hP
      · exact h4 p hp

/-- The values of the key rates of a collection at a date, exact and rounded; the exact ones add up to the bump. -/
theorem collection_values (R : Rounding rnd u tiny) (h : KRHeap) (ids : List Nat) (c : KeyRateCollection) (h' : KRHeap)
    (hc : create h ids = (.ok c, h')) (hlen : 2 ≤ ids.length) (dcc : DayCountConvention)
    (hdcc : dcc ≠ .thirty360 ∧ dcc ≠ .unknown) (b : ℚ)
    (hall : ∀ i ∈ ids, (h i).dcc = dcc ∧ (h i).bump = b ∧ AxisOk dcc (h i).keyDate)
    (hb : tiny * 2 ^ 40 ≤ b) (hrep : rnd b = b) (d : PyDate) :
    ∃ ps : List (ℚ × ℚ), collect (fun i => Rounded.keyRateCall rnd (h' i) d) c.keyRates = .ok (ps.map Prod.snd) ∧
      ps.length = ids.length ∧ (ps.map Prod.fst).sum = b ∧
      ∀ p ∈ ps, 0 ≤ p.1 ∧ (p.2 = 0 ∨ tiny ≤ p.2) ∧ Near u 8 p.1 p.2 := by
  have hexact := C24_parallel_shift_partial h ids c h' hc hlen dcc hdcc b hall d
  obtain ⟨hp, hs, hw, hsame, _⟩ := C23_construction h ids c h' hc
  obtain ⟨τ, hτ⟩ : ∃ τ, timeAxis dcc = some τ := by
    cases dcc <;> simp [timeAxis] at hdcc ⊢
  have hb0 : 0 < b := lt_of_lt_of_le (mul_pos R.tiny_pos (by positivity)) hb
  have hlen' : c.keyRates.length = ids.length := hp.length_eq
  have hall' : ∀ i ∈ c.keyRates, (h' i).dcc = dcc ∧ (h' i).bump = b ∧ AxisOk dcc (h' i).keyDate := by
    intro i hi
    have := hall i (hp.mem_iff.1 hi)
    rw [(hsame i).1, (hsame i).2.1, (hsame i).2.2]
    exact this
  have each : ∀ i ∈ c.keyRates, ∃ x y, (h' i).call d = .ok x ∧ Rounded.keyRateCall rnd (h' i) d = .ok y ∧
      (0 ≤ x ∧ (y = 0 ∨ tiny ≤ y) ∧ Near u 8 x y) := by
    intro i hi
    obtain ⟨k, hklt, hk⟩ := List.mem_iff_getElem.1 hi
    have hk' : c.keyRates[k]? = some i := by rw [List.getElem?_eq_getElem hklt, hk]
    obtain ⟨hpr, hnx⟩ := hw k i hk'
    obtain ⟨d1, d2, d3⟩ := hall' i hi
    have hgood := dateSorted_iff.1 (show DateSorted (fun j => (h' j).keyDate) c.keyRates from hs) k hklt
    have hprior : ∀ p, (h' i).prior = some p → p < (h' i).keyDate ∧ AxisOk dcc p := by
      intro p hpe
      rw [hpr] at hpe
      by_cases h0 : k = 0
      · rw [if_pos h0] at hpe; cases hpe
      · rw [if_neg h0] at hpe
        rcases ha : c.keyRates[k - 1]? with _ | a
        · rw [ha] at hpe; cases hpe
        · rw [ha] at hpe
          simp only [Option.map_some, Option.some.injEq] at hpe
          subst hpe
          exact ⟨hgood.2 a i (by omega) ha hk', (hall' a (List.mem_of_getElem? ha)).2.2⟩
    have hnext : ∀ n, (h' i).next = some n → (h' i).keyDate < n := by
      intro n hne
      rw [hnx] at hne
      rcases ha : c.keyRates[k + 1]? with _ | a
      · rw [ha] at hne; cases hne
      · rw [ha] at hne
        simp only [Option.map_some, Option.some.injEq] at hne
        subst hne
        exact hgood.1 i a hk' ha
    obtain ⟨n1, n2, n3⟩ := keyRate_near R (h' i) τ (by rw [d1]; exact hτ) (by rw [d2]; exact hb) (by rw [d2]; exact hrep)
      (by rw [d1]; exact d3) (by rw [d1]; exact hprior) hnext d
    have hrec : h' i = KeyRate.mk dcc (h' i).keyDate (h' i).prior (h' i).next b := by
      cases hri : h' i; simp_all
    have rampnn : ∀ p m : PyDate, p < m → AxisOk dcc p → 0 ≤ rampUp τ p m d := by
      intro p m hpm _
      simp only [rampUp]
      split_ifs with g1 g2
      · exact le_refl _
      · norm_num
      · push Not at g1 g2
        have := axis_mono hτ (le_of_lt g1)
        have := axis_mono hτ (le_of_lt hpm)
        exact div_nonneg (by linarith) (by linarith)
    rcases hpi : (h' i).prior with _ | p <;> rcases hni : (h' i).next with _ | n
    · exfalso
      rw [hnx] at hni
      rw [hpr] at hpi
      by_cases h0 : k = 0
      · subst h0
        obtain ⟨a, ha⟩ : ∃ a, c.keyRates[0 + 1]? = some a := ⟨_, List.getElem?_eq_getElem (by omega)⟩
        rw [ha] at hni; cases hni
      · rw [if_neg h0] at hpi
        obtain ⟨a, ha⟩ : ∃ a, c.keyRates[k - 1]? = some a := ⟨_, List.getElem?_eq_getElem (by omega)⟩
        rw [ha] at hpi; cases hpi
    · obtain ⟨y, y1, y2, y3, -⟩ := n3 n hpi hni
      have hmn := hnext n hni
      refine ⟨b * rampDown τ (h' i).keyDate n d, y, ?_, y1, ?_, y3, by rw [d2] at y2; exact y2⟩
      · rw [hpi, hni] at hrec
        rw [hrec]; exact C22_no_prior dcc τ hτ _ _ hmn d3 b d
      · refine mul_nonneg (le_of_lt hb0) ?_
        simp only [rampDown]
        split_ifs with g1 g2
        · norm_num
        · exact le_refl _
        · push Not at g1 g2
          have := axis_mono hτ (le_of_lt g2)
          have := axis_mono hτ (le_of_lt hmn)
          exact div_nonneg (by linarith) (by linarith)
    · obtain ⟨y, y1, y2, y3, -⟩ := n2 p hpi hni
      have hpm := hprior p hpi
      refine ⟨b * rampUp τ p (h' i).keyDate d, y, ?_, y1, mul_nonneg (le_of_lt hb0) (rampnn _ _ hpm.1 hpm.2), y3,
        by rw [d2] at y2; exact y2⟩
      rw [hpi, hni] at hrec
      rw [hrec]; exact C22_no_next dcc τ hτ _ _ hpm.1 hpm.2 b d
    · obtain ⟨y, y1, y2, y3, -⟩ := n1 p n hpi hni
      have hpm := hprior p hpi
      have hmn := hnext n hni
      refine ⟨b * hat τ p (h' i).keyDate n d, y, ?_, y1, ?_, y3, by rw [d2] at y2; exact y2⟩
      · rw [hpi, hni] at hrec
        rw [hrec]; exact C22_hat dcc τ hτ _ _ _ hpm.1 hmn hpm.2 b d
      · refine mul_nonneg (le_of_lt hb0) ?_
        simp only [hat]
        split_ifs with g1 g2
        · exact le_refl _
        · push Not at g1
          have := axis_mono hτ (le_of_lt g1.1)
          have := axis_mono hτ (le_of_lt hpm.1)
          exact div_nonneg (by linarith) (by linarith)
        · push Not at g1
          have := axis_mono hτ (le_of_lt g1.2)
          have := axis_mono hτ (le_of_lt hmn)
          exact div_nonneg (by linarith) (by linarith)
  obtain ⟨ps, c1, c2, c3, c4⟩ := collect_pairs _ _ _ c.keyRates each
  refine ⟨ps, c2, c3.trans hlen', ?_, c4⟩
  unfold KeyRateCollection.call pySum at hexact
  rw [c1, ok_bind] at hexact
  injection hexact

/-- C95. In floating point the combined adjustment of a collection of `n` key rates is the common bump up to `8 + n` roundings, at every
date: the parallel shift survives. -/
theorem C95_parallel (R : Rounding rnd u tiny) (h : KRHeap) (ids : List Nat) (c : KeyRateCollection) (h' : KRHeap)
    (hc : create h ids = (.ok c, h')) (hlen : 2 ≤ ids.length) (dcc : DayCountConvention)
    (hdcc : dcc ≠ .thirty360 ∧ dcc ≠ .unknown) (b : ℚ)
    (hall : ∀ i ∈ ids, (h i).dcc = dcc ∧ (h i).bump = b ∧ AxisOk dcc (h i).keyDate)
    (hb : tiny * 2 ^ 40 ≤ b) (hrep : rnd b = b) (d : PyDate) :
    ∃ y, Rounded.combined rnd h' c d = .ok y ∧ Near u (8 + ids.length) b y := by
  obtain ⟨ps, c2, c3, hbsum, c4⟩ := collection_values R h ids c h' hc hlen dcc hdcc b hall hb hrep d
  have hsum := rounded_sum R 8 ps c4
  refine ⟨Rounded.sum rnd (ps.map Prod.snd), ?_, ?_⟩
  · unfold Rounded.combined
    rw [c2, ok_bind]
  · rw [hbsum, c3] at hsum
    exact hsum

/-- C95. The present value of nonnegative discounted payments computed in floating point agrees with the exact sum up to one rounding
per payment and one more. -/
theorem C95_present_value (R : Rounding rnd u tiny) (schedule : List Payment) (curve : DiscountFn)
    (hnn : ∀ p ∈ schedule, ∀ a df, p.amount = some a → curve.referenceDate ≤ p.date → curve.call p.date = .ok df →
      df * a = 0 ∨ tiny ≤ df * a) (v : ℚ) (hv : Cashflow.presentValue schedule curve = .ok v) :
    ∃ w, Rounded.presentValue rnd schedule curve = .ok w ∧ Near u (1 + schedule.length) v w := by
  unfold Cashflow.presentValue pySum at hv
  rw [bind_ok] at hv
  obtain ⟨xs, hx, hsum⟩ := hv
  injection hsum with hsum
  unfold Rounded.presentValue
  have hmem : ∀ pa ∈ schedule.filterMap (fun p => match p.amount with
      | some a => if curve.referenceDate ≤ p.date then some (p.date, a) else none
      | none => none), ∃ p ∈ schedule, p.amount = some pa.2 ∧ p.date = pa.1 ∧ curve.referenceDate ≤ p.date := by
    intro pa hpa
    obtain ⟨p, hp, he⟩ := List.mem_filterMap.1 hpa
    refine ⟨p, hp, ?_⟩
    rcases hpa' : p.amount with _ | a
    · rw [hpa'] at he; simp at he
    · rw [hpa'] at he
      simp only at he
      split_ifs at he with hr
      simp only [Option.some.injEq] at he
      subst he
      exact ⟨rfl, rfl, hr⟩
  have hlen : (schedule.filterMap (fun p => match p.amount with
      | some a => if curve.referenceDate ≤ p.date then some (p.date, a) else none
      | none => none)).length ≤ schedule.length := List.length_filterMap_le _ _
  generalize schedule.filterMap (fun p => match p.amount with
      | some a => if curve.referenceDate ≤ p.date then some (p.date, a) else none
      | none => none) = L at *
  have each : ∀ pa ∈ L, ∃ x y, (do
      let df ← curve.call pa.1
      .ok (df * pa.2)) = Except.ok x ∧ (do
      let df ← curve.call pa.1
      .ok (rnd (df * pa.2))) = Except.ok y ∧ (0 ≤ x ∧ (y = 0 ∨ tiny ≤ y) ∧ Near u 1 x y) := by
    have hall : ∀ (L : List (PyDate × ℚ)) xs, collect (fun (pa : PyDate × ℚ) => do
        let df ← curve.call pa.1
        .ok (df * pa.2)) L = .ok xs → ∀ pa ∈ L, ∃ df, curve.call pa.1 = .ok df := by
      intro L
      induction L with
      | nil => intro xs _ pa hpa; simp at hpa
      | cons q L ih =>
        intro xs hxs pa hpa
        simp only [collect] at hxs
        rw [bind_ok] at hxs
        obtain ⟨b, hb, hxs⟩ := hxs
        rw [bind_ok] at hxs
        obtain ⟨bs, hbs, -⟩ := hxs
        rcases List.mem_cons.1 hpa with rfl | hpa
        · rw [bind_ok] at hb
          obtain ⟨df, hdf, -⟩ := hb
          exact ⟨df, hdf⟩
        · exact ih bs hbs pa hpa
    intro pa hpa
    obtain ⟨df, hdf⟩ := hall L xs hx pa hpa
    obtain ⟨p, hp, h1, h2, h3⟩ := hmem pa hpa
    have hor := hnn p hp pa.2 df h1 h3 (by rw [h2]; exact hdf)
    refine ⟨df * pa.2, rnd (df * pa.2), by rw [hdf, ok_bind], by rw [hdf, ok_bind], ?_, R.keep hor, R.near hor⟩
    rcases hor with h | h
    · exact le_of_eq h.symm
    · exact le_trans (le_of_lt R.tiny_pos) h
  obtain ⟨ps, c1, c2, c3, c4⟩ := collect_pairs _ _ _ L each
  have hs := rounded_sum R 1 ps c4
  refine ⟨Rounded.sum rnd (ps.map Prod.snd), by rw [c2, ok_bind], ?_⟩
  have hxs : (ps.map Prod.fst).sum = v := by
    rw [c1] at hx
    injection hx with hx
    rw [hx]; exact hsum
  rw [hxs, c3] at hs
  have hv0 : 0 ≤ v := by
    rw [← hxs]
    refine List.sum_nonneg ?_
    intro x hx
    obtain ⟨p, hp, rfl⟩ := List.mem_map.1 hx
    exact (c4 p hp).1
  exact hs.weaken R.u_nonneg R.u_lt (by omega) hv0 (hs.nonneg R.u_lt hv0)

/-! ## Curves -/

/-- The rounded axis as a strictly increasing function of the date. -/
theorem rounded_axis (R : Rounding rnd u tiny) {dcc : DayCountConvention} {τ : PyDate → ℚ} (hτ : timeAxis dcc = some τ)
    {ref : PyDate} (href : AxisOk dcc ref) : ∃ f : PyDate → ℚ, (∀ d, ref ≤ d → Rounded.accrual rnd ref d dcc = .ok (f d) ∧
      Near u 3 (τ d - τ ref) (f d)) ∧ ∀ {a b : PyDate}, a < b → f a < f b := by
  have h : ∀ d, ∃ y : ℚ, (ref ≤ d → Rounded.accrual rnd ref d dcc = .ok y ∧ Near u 3 (τ d - τ ref) y) ∧
      (¬ ref ≤ d → y = ((d.ord - ref.ord : Int) : ℚ)) := by
    intro d
    by_cases hd : ref ≤ d
    · obtain ⟨x, hx⟩ := rounded_accrual R hτ hd href
      exact ⟨x, fun _ => hx, fun hn => absurd hd hn⟩
    · exact ⟨_, fun hn => absurd hn hd, fun _ => rfl⟩
  choose f hf hg using h
  refine ⟨f, hf, ?_⟩
  intro a b hab
  have neg : ∀ d, ¬ ref ≤ d → f d < 0 := by
    intro d hd
    rw [hg d hd]
    have : d.ord - ref.ord < 0 := by
      have := PyDate.lt_iff.1 (not_le.1 hd); omega
    exact_mod_cast this
  by_cases ha : ref ≤ a
  · obtain ⟨x, hx, -, -, hl, -⟩ := C95_accrual R dcc τ hτ ref a ha href
    have h1 := (hf a ha).1
    rw [hx] at h1; injection h1 with h1
    rw [← h1]
    exact hl b (f b) hab (hf b (le_trans ha (le_of_lt hab))).1
  · by_cases hb : ref ≤ b
    · have h1 := (hf b hb).2.nonneg R.u_lt (by linarith [axis_mono hτ hb])
      exact lt_of_lt_of_le (neg a ha) h1
    · rw [hg a ha, hg b hb]
      have := PyDate.lt_iff.1 hab
      exact_mod_cast (by omega : a.ord - ref.ord < b.ord - ref.ord)

theorem rounded_grid (f : PyDate → ℚ) (rnd : ℚ → ℚ) (ref : PyDate) (dcc : DayCountConvention) : ∀ (knots : List Knot),
    (∀ k ∈ knots, Rounded.accrual rnd ref k.date dcc = .ok (f k.date)) →
    Rounded.makeGrid rnd ref dcc knots = .ok (knots.map (fun k => (f k.date, k.value)))
  | [], _ => rfl
  | k :: ks, h => by
    have ih := rounded_grid f rnd ref dcc ks (fun a ha => h a (by simp [ha]))
    unfold Rounded.makeGrid at ih ⊢
    simp only [collect, h k (by simp), ih, ok_bind, List.map_cons]

theorem rounded_linear_adjacent (f : PyDate → ℚ) (hf : ∀ {a b : PyDate}, a < b → f a < f b) :
    ∀ (l : List Knot), KnotSorted l → ∀ (a b : Knot) (d : PyDate), a ∈ l → b ∈ l → a.date ≤ d → d < b.date →
      (∀ c ∈ l, c.date ≤ a.date ∨ b.date ≤ c.date) →
      Rounded.interpLinear rnd (l.map (fun k => (f k.date, k.value))) (f d) =
        .ok (rnd (rnd (rnd (rnd (b.value - a.value) / rnd (f b.date - f a.date)) * rnd (f d - f a.date)) + a.value))
  | [], _, a, _, _, ha, _, _, _, _ => by simp at ha
  | [x], _, a, b, d, ha, hb, h1, h2, _ => by
    simp at ha hb; subst ha; subst hb
    exact absurd (lt_of_le_of_lt h1 h2) (lt_irrefl _)
  | x :: y :: rest, hs, a, b, d, ha, hb, h1, h2, hadj => by
    have hs' := List.pairwise_cons.1 hs
    have hxy : x.date < y.date := hs'.1 y (by simp)
    have hab : a.date < b.date := lt_of_le_of_lt h1 h2
    have hxd : x.date ≤ d := by
      rcases hadj x (by simp) with h | h
      · exact le_trans h h1
      · rcases List.mem_cons.1 ha with rfl | ha
        · exact h1
        · exact absurd (lt_of_lt_of_le (hs'.1 a ha) (le_of_lt (lt_of_lt_of_le hab h))) (lt_irrefl _)
    have hfx : ¬ f d < f x.date := by
      rcases lt_or_eq_of_le hxd with h | h
      · exact not_lt.2 (le_of_lt (hf h))
      · rw [h]; exact lt_irrefl _
    simp only [List.map_cons, Rounded.interpLinear]
    rw [if_neg hfx]
    rcases List.mem_cons.1 ha with rfl | ha
    · have hby : b = y := by
        rcases List.mem_cons.1 hb with rfl | hb
        · exact absurd hab (lt_irrefl _)
        · rcases List.mem_cons.1 hb with rfl | hb
          · rfl
          · rcases hadj y (by simp) with h | h
            · exact absurd (lt_of_lt_of_le hxy h) (lt_irrefl _)
            · exact absurd (lt_of_lt_of_le ((List.pairwise_cons.1 hs'.2).1 b hb) h) (lt_irrefl _)
      subst hby
      rw [if_pos (hf h2)]
    · have hya : y.date ≤ a.date := by
        rcases List.mem_cons.1 ha with rfl | ha
        · exact le_refl _
        · exact le_of_lt ((List.pairwise_cons.1 hs'.2).1 a ha)
      have hyd : ¬ f d < f y.date := by
        rcases lt_or_eq_of_le (le_trans hya h1) with h | h
        · exact not_lt.2 (le_of_lt (hf h))
        · rw [h]; exact lt_irrefl _
      rw [if_neg hyd]
      have hb' : b ∈ y :: rest := by
        rcases List.mem_cons.1 hb with rfl | hb
        · exact absurd (lt_of_lt_of_le (lt_of_lt_of_le hxy hya) (le_of_lt hab)) (lt_irrefl _)
        · exact hb
      have := rounded_linear_adjacent f hf (y :: rest) hs'.2 a b d ha hb' h1 h2 (fun c hc => hadj c (by simp [hc]))
      simpa using this

theorem rounded_linear_knot (R : Rounding rnd u tiny) (f : PyDate → ℚ) (hf : ∀ {a b : PyDate}, a < b → f a < f b) :
    ∀ (l : List Knot), KnotSorted l → ∀ a ∈ l, rnd a.value = a.value →
      Rounded.interpLinear rnd (l.map (fun k => (f k.date, k.value))) (f a.date) = .ok a.value
  | [], _, a, ha, _ => by simp at ha
  | [x], _, a, ha, _ => by simp at ha; subst ha; simp [Rounded.interpLinear]
  | x :: y :: rest, hs, a, ha, hrep => by
    have hs' := List.pairwise_cons.1 hs
    have hxy : x.date < y.date := hs'.1 y (by simp)
    simp only [List.map_cons, Rounded.interpLinear]
    rcases List.mem_cons.1 ha with rfl | ha
    · rw [if_neg (lt_irrefl _), if_pos (hf hxy), sub_self, R.zero, mul_zero, R.zero, zero_add, hrep]
    · have hxa : x.date < a.date := hs'.1 a ha
      have hya : y.date ≤ a.date := by
        rcases List.mem_cons.1 ha with rfl | ha
        · exact le_refl _
        · exact le_of_lt ((List.pairwise_cons.1 hs'.2).1 a ha)
      have hyd : ¬ f a.date < f y.date := by
        rcases lt_or_eq_of_le hya with h | h
        · exact not_lt.2 (le_of_lt (hf h))
        · rw [h]; exact lt_irrefl _
      rw [if_neg (not_lt.2 (le_of_lt (hf hxa))), if_neg hyd]
      have := rounded_linear_knot R f hf (y :: rest) hs'.2 a ha hrep
      simpa using this

/-- C95. In floating point a linear or piecewise-constant curve still returns each knot's value exactly. -/
theorem C95_knots (R : Rounding rnd u tiny) (values : List Knot) (dcc : DayCountConvention) (ref : PyDate)
    (h : CurveInput values dcc ref) (linear : Bool) (k : Knot) (hk : k ∈ values) (hrep : rnd k.value = k.value) :
    Rounded.curveValue rnd values dcc ref linear k.date = .ok k.value := by
  obtain ⟨τ, hτ⟩ := h.axis
  obtain ⟨f, hf, hmono⟩ := rounded_axis R hτ h.refOk
  have hp := pySorted_perm Knot.date values
  have hk' := hp.mem_iff.2 hk
  have hs := knotSorted_pySorted h.distinct
  unfold Rounded.curveValue
  rw [rounded_grid f rnd ref dcc _ (fun a ha => (hf a.date (h.notBefore a (hp.mem_iff.1 ha))).1), ok_bind,
    (hf k.date (h.notBefore k hk)).1, ok_bind]
  cases linear
  · simp only [Bool.false_eq_true, if_false]
    rw [interpPrevious_knot f hmono _ hs k hk', ok_bind, add_zero, hrep]
  · simp only [if_true]
    rw [rounded_linear_knot R f hmono _ hs k hk' hrep, ok_bind, add_zero, hrep]

/-- C95. In floating point a piecewise-constant curve returns the preceding knot's value exactly at every date between two knots. -/
theorem C95_step (R : Rounding rnd u tiny) (values : List Knot) (dcc : DayCountConvention) (ref : PyDate)
    (h : CurveInput values dcc ref) (a b : Knot) (hab : Adjacent values a b) (hrep : rnd a.value = a.value) (d : PyDate)
    (h1 : a.date ≤ d) (h2 : d < b.date) : Rounded.curveValue rnd values dcc ref false d = .ok a.value := by
  obtain ⟨ha, hb, hlt, hadj⟩ := hab
  obtain ⟨τ, hτ⟩ := h.axis
  obtain ⟨f, hf, hmono⟩ := rounded_axis R hτ h.refOk
  have hp := pySorted_perm Knot.date values
  have hs := knotSorted_pySorted h.distinct
  unfold Rounded.curveValue
  rw [rounded_grid f rnd ref dcc _ (fun a ha => (hf a.date (h.notBefore a (hp.mem_iff.1 ha))).1), ok_bind,
    (hf d (le_trans (h.notBefore a ha) h1)).1, ok_bind]
  simp only [Bool.false_eq_true, if_false]
  rw [interpPrevious_adjacent f hmono _ hs a b d (hp.mem_iff.2 ha) (hp.mem_iff.2 hb) h1 h2 (fun c hc => hadj c (hp.mem_iff.1 hc)),
    ok_bind, add_zero, hrep]

/-- A rounded difference of two rounded positions on the axis. -/
theorem rounded_difference (R : Rounding rnd u tiny) {T X0 X x0 x : ℚ} (hT1 : 1 ≤ T) (hT2 : T ≤ 20000) (h0 : 0 ≤ X0)
    (hgap : X0 + 1 / 366 ≤ X) (hX : X ≤ T) (n0 : Near u 3 X0 x0) (n : Near u 3 X x) :
    Rel (2930 * T * u) (X - X0) (rnd (x - x0)) := by
  have u0 := R.u_nonneg
  have us := R.u_small
  have a0 := n0.abs_err u0 us h0
  have a1 := n.abs_err u0 us (by linarith)
  have hTu : T * u ≤ 20000 * (1 / 2 ^ 40) := mul_le_mul hT2 us u0 (by norm_num)
  have hTu0 : 0 ≤ T * u := mul_nonneg (by linarith) u0
  have huX : u * X ≤ T * u := by nlinarith
  have huX0 : u * X0 ≤ T * u := by nlinarith
  have hpos : 0 < X - X0 := by linarith
  have r1 : Rel (2928 * T * u) (X - X0) (x - x0) := by
    unfold Spec.Rel
    rw [abs_of_pos hpos]
    have e : x - x0 - (X - X0) = (x - X) - (x0 - X0) := by ring
    rw [e]
    have h3 : |x - X - (x0 - X0)| ≤ |x - X| + |x0 - X0| := abs_sub _ _
    have h4 : T * u * (1 / 366) ≤ T * u * (X - X0) := mul_le_mul_of_nonneg_left (by linarith) hTu0
    linarith
  have hge := r1.abs_ge
  rw [abs_of_pos hpos] at hge
  have htiny : tiny ≤ |x - x0| := by
    have h3 := R.tiny_small
    have h4 : (1 : ℚ) / 2 * (1 / 366) ≤ (1 - 2928 * T * u) * (X - X0) := by
      refine mul_le_mul ?_ (by linarith) (by norm_num) ?_ <;> linarith
    have h5 : (1 : ℚ) / 2 ^ 100 ≤ 1 / 2 * (1 / 366) := by norm_num
    linarith
  refine (r1.trans u0 (R.rel htiny)).mono ?_
  have h6 : 2928 * T * u * u ≤ 1 * u := mul_le_mul_of_nonneg_right (by linarith) u0
  have h7 : u ≤ T * u := by nlinarith
  linarith

/-- Interpolation between values that hardly differ. -/
theorem rounded_linear_flat (R : Rounding rnd u tiny) {T X0 X X1 x0 x x1 y0 y1 M : ℚ} (hT1 : 1 ≤ T) (hT2 : T ≤ 20000)
    (h0 : 0 ≤ X0) (hgap : X0 + 1 / 366 ≤ X) (hgap1 : X ≤ X1) (hX1 : X1 ≤ T) (n0 : Near u 3 X0 x0)
    (n : Near u 3 X x) (n1 : Near u 3 X1 x1) (hY : |y1 - y0| < tiny * 2 ^ 60) (hM0 : |y0| ≤ M) :
    |rnd (rnd (rnd (rnd (y1 - y0) / rnd (x1 - x0)) * rnd (x - x0)) + y0) -
      (y0 + (X - X0) * ((y1 - y0) / (X1 - X0)))| ≤ 40000 * T * u * M + 2 ^ 64 * tiny := by
  have u0 := R.u_nonneg
  have us := R.u_small
  have t0 := R.tiny_pos
  have hTu : T * u ≤ 20000 * (1 / 2 ^ 40) := mul_le_mul hT2 us u0 (by norm_num)
  have hTu0 : 0 ≤ T * u := mul_nonneg (by linarith) u0
  have hM : 0 ≤ M := le_trans (abs_nonneg _) hM0
  have huM0 := mul_nonneg u0 hM
  have huM : u * M ≤ T * u * M := by nlinarith
  have hdpos : 0 < X - X0 := by linarith
  have hDpos : 0 < X1 - X0 := by linarith
  have rd := rounded_difference R hT1 hT2 h0 hgap (by linarith) n0 n
  have rD := rounded_difference R hT1 hT2 h0 (by linarith : X0 + 1 / 366 ≤ X1) hX1 n0 n1
  have hη : 2930 * T * u ≤ 1 / 10000 := by
    have : (2930 : ℚ) * (20000 * (1 / 2 ^ 40)) ≤ 1 / 10000 := by norm_num
    linarith
  have hη0 : 0 ≤ 2930 * T * u := by linarith
  generalize 2930 * T * u = η at *
  have rd' : |rnd (x - x0) - (X - X0)| ≤ η * |X - X0| := rd
  have rD' : |rnd (x1 - x0) - (X1 - X0)| ≤ η * |X1 - X0| := rD
  rw [abs_of_pos hdpos] at rd'
  rw [abs_of_pos hDpos] at rD'
  obtain ⟨d1, d2⟩ := abs_le.1 rd'
  obtain ⟨D1, D2⟩ := abs_le.1 rD'
  have m1 : η * (X - X0) ≤ 1 / 10000 * (X - X0) := mul_le_mul_of_nonneg_right hη hdpos.le
  have m2 : η * (X1 - X0) ≤ 1 / 10000 * (X1 - X0) := mul_le_mul_of_nonneg_right hη hDpos.le
  generalize hdx : rnd (x - x0) = dx at *
  generalize hDx : rnd (x1 - x0) = Dx at *
  have hdx0 : 0 < dx := by linarith
  have hDx0 : 0 < Dx := by linarith
  have hrat : dx ≤ 2 * Dx := by linarith
  have hdxT : dx ≤ 40000 := by linarith
  have ey := R.abs_err (y1 - y0)
  have us1 : u ≤ 1 / 2 := le_trans us (by norm_num)
  have eu : u * |y1 - y0| ≤ 1 / 2 * |y1 - y0| := mul_le_mul_of_nonneg_right us1 (abs_nonneg _)
  have hy2 : |rnd (y1 - y0)| ≤ tiny * 2 ^ 61 := by
    have := abs_sub_abs_le_abs_sub (rnd (y1 - y0)) (y1 - y0)
    linarith
  generalize rnd (y1 - y0) = dy at *
  have es := R.abs_err (dy / Dx)
  have eu2 : u * |dy / Dx| ≤ 1 / 2 * |dy / Dx| := mul_le_mul_of_nonneg_right us1 (abs_nonneg _)
  have hs2 : |rnd (dy / Dx)| ≤ 3 / 2 * |dy / Dx| + 2 * tiny := by
    have := abs_sub_abs_le_abs_sub (rnd (dy / Dx)) (dy / Dx)
    linarith
  generalize rnd (dy / Dx) = sl at *
  have hq : |dy / Dx| * dx ≤ 2 * |dy| := by
    rw [abs_div, abs_of_pos hDx0, div_mul_eq_mul_div, div_le_iff₀ hDx0]
    have := mul_le_mul_of_nonneg_left hrat (abs_nonneg dy)
    linarith
  have hp1 : |sl * dx| ≤ tiny * 2 ^ 63 := by
    rw [abs_mul, abs_of_pos hdx0]
    have := mul_le_mul_of_nonneg_right hs2 hdx0.le
    have h2 : tiny * dx ≤ tiny * 40000 := mul_le_mul_of_nonneg_left hdxT t0.le
    linarith [show (3 / 2 * |dy / Dx| + 2 * tiny) * dx = 3 / 2 * (|dy / Dx| * dx) + 2 * (tiny * dx) by ring]
  have ep := R.abs_err (sl * dx)
  have us2 : u ≤ 1 / 100 := le_trans us (by norm_num)
  have eu3 : u * |sl * dx| ≤ 1 / 100 * |sl * dx| := mul_le_mul_of_nonneg_right us2 (abs_nonneg _)
  have hp2 : |rnd (sl * dx)| ≤ tiny * (2 ^ 63 + 2 ^ 57) := by
    have := abs_sub_abs_le_abs_sub (rnd (sl * dx)) (sl * dx)
    linarith
  generalize rnd (sl * dx) = pr at *
  have er := R.abs_err (pr + y0)
  have eu4 : u * |pr + y0| ≤ 1 / 100 * |pr| + u * M := by
    have h1 := mul_le_mul_of_nonneg_left (abs_add_le pr y0) u0
    have h2 := mul_le_mul_of_nonneg_right us2 (abs_nonneg pr)
    have h3 := mul_le_mul_of_nonneg_left hM0 u0
    linarith [show u * (|pr| + |y0|) = u * |pr| + u * |y0| by ring]
  have hw : |(X - X0) * ((y1 - y0) / (X1 - X0))| ≤ |y1 - y0| := by
    rw [abs_mul, abs_div, abs_of_pos hdpos, abs_of_pos hDpos, mul_div_assoc', div_le_iff₀ hDpos]
    have := mul_le_mul_of_nonneg_right (show X - X0 ≤ X1 - X0 by linarith) (abs_nonneg (y1 - y0))
    linarith
  generalize (X - X0) * ((y1 - y0) / (X1 - X0)) = w at *
  have e4 : rnd (pr + y0) - (y0 + w) = (rnd (pr + y0) - (pr + y0)) + (pr + -w) := by ring
  rw [e4]
  have e5 := abs_add_le (rnd (pr + y0) - (pr + y0)) (pr + -w)
  have e6 := abs_add_le pr (-w)
  rw [abs_neg] at e6
  have e7 : u * M ≤ 40000 * T * u * M := by linarith
  linarith

/-- The error of one rounded linear interpolation. -/
theorem rounded_linear_error (R : Rounding rnd u tiny) {T X0 X X1 x0 x x1 y0 y1 M : ℚ} (hT1 : 1 ≤ T) (hT2 : T ≤ 20000)
    (h0 : 0 ≤ X0) (hgap : X0 + 1 / 366 ≤ X) (hgap1 : X ≤ X1) (hX1 : X1 ≤ T) (n0 : Near u 3 X0 x0)
    (n : Near u 3 X x) (n1 : Near u 3 X1 x1) (hM0 : |y0| ≤ M) (hM1 : |y1| ≤ M) :
    |rnd (rnd (rnd (rnd (y1 - y0) / rnd (x1 - x0)) * rnd (x - x0)) + y0) -
      (y0 + (X - X0) * ((y1 - y0) / (X1 - X0)))| ≤ 40000 * T * u * M + 2 ^ 64 * tiny := by
  have u0 := R.u_nonneg
  have us := R.u_small
  have t0 := R.tiny_pos
  have hTu : T * u ≤ 20000 * (1 / 2 ^ 40) := mul_le_mul hT2 us u0 (by norm_num)
  have hTu0 : 0 ≤ T * u := mul_nonneg (by linarith) u0
  have hM : 0 ≤ M := le_trans (abs_nonneg _) hM0
  have hTuM : 0 ≤ T * u * M := mul_nonneg hTu0 hM
  have huM : u * M ≤ T * u * M := by
    have := mul_nonneg u0 hM
    nlinarith
  rcases lt_or_ge |y1 - y0| (tiny * 2 ^ 60) with hY | hY
  · exact rounded_linear_flat R hT1 hT2 h0 hgap hgap1 hX1 n0 n n1 hY hM0
  · have hYne : y1 - y0 ≠ 0 := by
      rintro h
      rw [h, abs_zero] at hY
      have : 0 < tiny * 2 ^ 60 := by positivity
      linarith
    have hη0 : 0 ≤ 2930 * T * u := by linarith
    have rd := rounded_difference R hT1 hT2 h0 hgap (by linarith) n0 n
    have rD := rounded_difference R hT1 hT2 h0 (by linarith : X0 + 1 / 366 ≤ X1) hX1 n0 n1
    have hdpos : 0 < X - X0 := by linarith
    have hDpos : 0 < X1 - X0 := by linarith
    generalize hη : 2930 * T * u = η at *
    have hηs : η ≤ 1 / 10000 := by
      rw [← hη]
      have : (2930 : ℚ) * (20000 * (1 / 2 ^ 40)) ≤ 1 / 10000 := by norm_num
      linarith
    have huη : u ≤ η / 2930 := by rw [← hη]; nlinarith
    have hηη : η * η ≤ η / 10000 := by nlinarith
    have ry : Rel u (y1 - y0) (rnd (y1 - y0)) := R.rel (le_trans (by nlinarith) hY)
    have ri := rD.inv (by linarith) (ne_of_gt hDpos)
    have rq := ry.mul u0 ri
    have rq' : Rel (5 / 2 * η) ((y1 - y0) * (X1 - X0)⁻¹) (rnd (y1 - y0) * (rnd (x1 - x0))⁻¹) := by
      refine rq.mono ?_
      have : u * (2 * η) ≤ η / 2930 * (2 * η) := mul_le_mul_of_nonneg_right huη (by linarith)
      nlinarith
    have hqge := rq'.abs_ge
    have hinv : (1 : ℚ) / 20000 ≤ (X1 - X0)⁻¹ := by
      rw [← one_div]; exact one_div_le_one_div_of_le hDpos (by linarith)
    have hq0 : tiny * 2 ^ 45 ≤ |(y1 - y0) * (X1 - X0)⁻¹| := by
      rw [abs_mul, abs_of_pos (inv_pos.2 hDpos)]
      calc tiny * 2 ^ 45 ≤ tiny * 2 ^ 60 * (1 / 20000) := by
            have : (2 : ℚ) ^ 45 ≤ 2 ^ 60 * (1 / 20000) := by norm_num
            rw [mul_assoc]
            exact mul_le_mul_of_nonneg_left this (le_of_lt t0)
        _ ≤ |y1 - y0| * (X1 - X0)⁻¹ := mul_le_mul hY hinv (by norm_num) (abs_nonneg _)
    have hqt : tiny ≤ |rnd (y1 - y0) * (rnd (x1 - x0))⁻¹| := by
      have : 1 / 2 * (tiny * 2 ^ 45) ≤ (1 - 5 / 2 * η) * |(y1 - y0) * (X1 - X0)⁻¹| :=
        mul_le_mul (by linarith) hq0 (by positivity) (by linarith)
      have h5 : tiny ≤ 1 / 2 * (tiny * 2 ^ 45) := by linarith
      linarith
    have rs := rq'.trans u0 (R.rel hqt)
    have rs' : Rel (3 * η) ((y1 - y0) * (X1 - X0)⁻¹) (rnd (rnd (y1 - y0) * (rnd (x1 - x0))⁻¹)) := by
      refine rs.mono ?_
      have : 5 / 2 * η * u ≤ 5 / 2 * η * (η / 2930) := mul_le_mul_of_nonneg_left huη (by linarith)
      nlinarith
    have rp := rs'.mul (by linarith) rd
    have rp' : Rel (5 * η) ((y1 - y0) * (X1 - X0)⁻¹ * (X - X0)) (rnd (rnd (y1 - y0) * (rnd (x1 - x0))⁻¹) * rnd (x - x0)) :=
      rp.mono (by nlinarith)
    have hpge := rp'.abs_ge
    have hp0 : tiny * 2 ^ 30 ≤ |(y1 - y0) * (X1 - X0)⁻¹ * (X - X0)| := by
      rw [abs_mul, abs_of_pos hdpos]
      calc tiny * 2 ^ 30 ≤ tiny * 2 ^ 45 * (1 / 366) := by
            have : (2 : ℚ) ^ 30 ≤ 2 ^ 45 * (1 / 366) := by norm_num
            rw [mul_assoc]
            exact mul_le_mul_of_nonneg_left this (le_of_lt t0)
        _ ≤ |(y1 - y0) * (X1 - X0)⁻¹| * (X - X0) := mul_le_mul hq0 (by linarith) (by norm_num) (abs_nonneg _)
    have hpt : tiny ≤ |rnd (rnd (y1 - y0) * (rnd (x1 - x0))⁻¹) * rnd (x - x0)| := by
      have : 1 / 2 * (tiny * 2 ^ 30) ≤ (1 - 5 * η) * |(y1 - y0) * (X1 - X0)⁻¹ * (X - X0)| :=
        mul_le_mul (by linarith) hp0 (by positivity) (by linarith)
      have h5 : tiny ≤ 1 / 2 * (tiny * 2 ^ 30) := by linarith
      linarith
    have rt := rp'.trans u0 (R.rel hpt)
    have rt' : Rel (6 * η) ((y1 - y0) * (X1 - X0)⁻¹ * (X - X0))
        (rnd (rnd (rnd (y1 - y0) * (rnd (x1 - x0))⁻¹) * rnd (x - x0))) := by
      refine rt.mono ?_
      have : 5 * η * u ≤ 5 * η * (η / 2930) := mul_le_mul_of_nonneg_left huη (by linarith)
      nlinarith
    rw [div_eq_mul_inv, div_eq_mul_inv]
    generalize hp : rnd (rnd (rnd (y1 - y0) * (rnd (x1 - x0))⁻¹) * rnd (x - x0)) = p at *
    have hcomm : (X - X0) * ((y1 - y0) * (X1 - X0)⁻¹) = (y1 - y0) * (X1 - X0)⁻¹ * (X - X0) := by ring
    rw [hcomm]
    have hPle : |(y1 - y0) * (X1 - X0)⁻¹ * (X - X0)| ≤ 2 * M := by
      have hw : (X1 - X0)⁻¹ * (X - X0) ≤ 1 := by
        rw [inv_mul_le_one₀ hDpos]; linarith
      have hw0 : 0 ≤ (X1 - X0)⁻¹ * (X - X0) := mul_nonneg (le_of_lt (inv_pos.2 hDpos)) (le_of_lt hdpos)
      rw [mul_assoc, abs_mul, abs_of_nonneg hw0]
      have hYM : |y1 - y0| ≤ 2 * M := by
        have := abs_sub y1 y0
        linarith
      calc |y1 - y0| * ((X1 - X0)⁻¹ * (X - X0)) ≤ (2 * M) * 1 := mul_le_mul hYM hw hw0 (by linarith)
        _ = 2 * M := by ring
    generalize (y1 - y0) * (X1 - X0)⁻¹ * (X - X0) = P at *
    have e1 : |p - P| ≤ 6 * η * (2 * M) := le_trans rt' (mul_le_mul_of_nonneg_left hPle (by linarith))
    have e2 := R.abs_err (p + y0)
    have hpl : |p| ≤ 3 * M := by
      have := rt'.abs_le
      have h7 : (1 + 6 * η) * |P| ≤ (3 / 2) * (2 * M) := mul_le_mul (by linarith) hPle (abs_nonneg _) (by norm_num)
      linarith
    have e3 : u * |p + y0| ≤ u * (4 * M) := by
      refine mul_le_mul_of_nonneg_left ?_ u0
      have := abs_add_le p y0
      linarith
    have e4 : rnd (p + y0) - (y0 + P) = (rnd (p + y0) - (p + y0)) + (p - P) := by ring
    rw [e4]
    have e5 := abs_add_le (rnd (p + y0) - (p + y0)) (p - P)
    have e6 : 6 * η * (2 * M) = 35160 * (T * u * M) := by rw [← hη]; ring
    linarith

/-- C95. In floating point a linear curve whose knots lie within `T` years of the reference date differs from the exact interpolation by
at most `40000 T` units of rounding relative to the larger of the two neighbouring values (plus a multiple of the smallest normal number). -/
theorem C95_linear (R : Rounding rnd u tiny) (values : List Knot) (dcc : DayCountConvention) (ref : PyDate)
    (h : CurveInput values dcc ref) (τ : PyDate → ℚ) (hτ : timeAxis dcc = some τ) (a b : Knot) (hab : Adjacent values a b)
    (T M : ℚ) (hT1 : 1 ≤ T) (hT2 : T ≤ 20000) (hT : τ b.date - τ ref ≤ T)
    (hM0 : |a.value| ≤ M) (hM1 : |b.value| ≤ M)
    (hrep : rnd a.value = a.value) (d : PyDate) (h1 : a.date ≤ d) (h2 : d < b.date) (c : Curve) (l r : EndBehavior)
    (hc : Curve.create values .linear dcc (some ref) l r = .ok c) :
    ∃ y y', c.call d = .ok y ∧ Rounded.curveValue rnd values dcc ref true d = .ok y' ∧ |y' - y| ≤ 40000 * T * u * M + 2 ^ 64 * tiny := by
  obtain ⟨w, hw, -, -, hy⟩ := (C27_between values dcc ref l r h τ hτ a b hab d h1 h2).1 c hc
  have hM : 0 ≤ M := le_trans (abs_nonneg _) hM0
  have hbound : 0 ≤ 40000 * T * u * M + 2 ^ 64 * tiny := by
    have := R.u_nonneg
    have := R.tiny_pos
    positivity
  rcases lt_or_eq_of_le h1 with h1' | h1'
  · obtain ⟨ha, hb, hlt, hadj⟩ := hab
    obtain ⟨f, hf, hmono⟩ := rounded_axis R hτ h.refOk
    have hp := pySorted_perm Knot.date values
    have hs := knotSorted_pySorted h.distinct
    have ra := h.notBefore a ha
    have rd := le_trans ra h1
    have rb := le_trans rd (le_of_lt h2)
    refine ⟨_, rnd (rnd (rnd (rnd (b.value - a.value) / rnd (f b.date - f a.date)) * rnd (f d - f a.date)) + a.value), hy, ?_, ?_⟩
    · unfold Rounded.curveValue
      rw [rounded_grid f rnd ref dcc _ (fun a ha => (hf a.date (h.notBefore a (hp.mem_iff.1 ha))).1), ok_bind, (hf d rd).1, ok_bind]
      simp only [if_true]
      rw [rounded_linear_adjacent f hmono _ hs a b d (hp.mem_iff.2 ha) (hp.mem_iff.2 hb) h1 h2
        (fun c hc => hadj c (hp.mem_iff.1 hc)), ok_bind, add_zero, R.idem]
    · have g := axis_gap hτ h1'
      have m0 := axis_mono hτ ra
      have m1 := axis_mono hτ (le_of_lt h2)
      have := rounded_linear_error R (X0 := τ a.date - τ ref) (X := τ d - τ ref) (X1 := τ b.date - τ ref) hT1 hT2 (by linarith)
        (by linarith) (by linarith) hT (hf a.date ra).2 (hf d rd).2 (hf b.date rb).2 hM0 hM1
      have e : (1 - w) * a.value + w * b.value = a.value + (τ d - τ ref - (τ a.date - τ ref)) *
          ((b.value - a.value) / (τ b.date - τ ref - (τ a.date - τ ref))) := by
        rw [hw, show τ b.date - τ ref - (τ a.date - τ ref) = τ b.date - τ a.date by ring,
          show τ d - τ ref - (τ a.date - τ ref) = τ d - τ a.date by ring]
        ring
      rw [e]; exact this
  · have hk := C95_knots R values dcc ref h true a hab.1 hrep
    rw [h1'] at hk
    refine ⟨_, _, hy, hk, ?_⟩
    have hw0 : w = 0 := by rw [hw, h1', sub_self, zero_div]
    rw [hw0]
    simpa using hbound

/-! ## Exact arithmetic -/

theorem rounded_linear_id : ∀ (g : List (ℚ × ℚ)) (x : ℚ), Rounded.interpLinear id g x = interpLinear g x
  | [], _ => rfl
  | [(_, _)], _ => rfl
  | (x0, y0) :: (x1, y1) :: rest, x => by
    simp only [Rounded.interpLinear, interpLinear, id]
    rw [rounded_linear_id ((x1, y1) :: rest) x]
    congr 2
    rw [add_comm, mul_comm]

/-- C95. With exact arithmetic the rounded functions are the exact ones all other properties are about. -/
theorem C95_exact : (∀ s e dcc, Rounded.accrual id s e dcc = DayCount.accrual s e dcc) ∧
    (∀ k d, Rounded.keyRateCall id k d = KeyRate.call k d) ∧
    (∀ h c d, Rounded.combined id h c d = KeyRateCollection.call h c d) ∧
    (∀ schedule curve, Rounded.presentValue id schedule curve = Cashflow.presentValue schedule curve) ∧
    (∀ values dcc ref (linear : Bool) l r c d, CurveInput values dcc ref →
      Curve.create values (if linear then .linear else .previous) dcc (some ref) l r = .ok c → (∃ k ∈ values, k.date ≤ d) →
      (∃ k ∈ values, d ≤ k.date) → Rounded.curveValue id values dcc ref linear d = c.call d) := by
  have hcall : ∀ k d, Rounded.keyRateCall id k d = KeyRate.call k d := by
    intro k d
    unfold Rounded.keyRateCall KeyRate.call
    simp only [rounded_accrual_id]
    rfl
  have hsum : ∀ (l : List ℚ) (a : ℚ), l.foldl (fun acc x => id (acc + x)) a = a + l.sum := by
    intro l
    induction l with
    | nil => intro a; simp
    | cons x l ih => intro a; rw [List.foldl_cons, ih, List.sum_cons]; simp only [id]; ring
  have hsum0 : ∀ l, Rounded.sum id l = l.sum := fun l => by unfold Rounded.sum; rw [hsum, zero_add]
  refine ⟨rounded_accrual_id, hcall, ?_, ?_, ?_⟩
  · intro h c d
    unfold Rounded.combined KeyRateCollection.call pySum
    simp only [hcall, hsum0]
  · intro schedule curve
    unfold Rounded.presentValue Cashflow.presentValue pySum
    simp only [hsum0, id]
    rfl
  · intro values dcc ref linear l r c d h hc h1 h2
    obtain ⟨τ, hτ⟩ := h.axis
    unfold Curve.call
    rw [call_inside h hτ hc h1 h2]
    rw [create_curve hτ h.refOk h.notBefore] at hc
    injection hc with hc
    subst hc
    have href : ref ≤ d := by
      obtain ⟨k, hk, hkd⟩ := h1
      exact le_trans (h.notBefore k hk) hkd
    have hgrid : Rounded.makeGrid id ref dcc (pySorted Knot.date values) = Curve.makeGrid ref dcc (pySorted Knot.date values) := by
      unfold Rounded.makeGrid Curve.makeGrid Curve.axis
      simp only [rounded_accrual_id]
    unfold Rounded.curveValue
    rw [hgrid, makeGrid_axis hτ h.refOk (fun k hk => h.notBefore k ((pySorted_perm Knot.date values).mem_iff.1 hk)), ok_bind,
      rounded_accrual_id, accrual_axis hτ href h.refOk, ok_bind]
    cases linear
    · simp only [Bool.false_eq_true, if_false, Curve.interpolator, noAdjustment, ok_bind, id]
    · simp only [if_true, rounded_linear_id, Curve.interpolator, noAdjustment, ok_bind, id]

/-! ## The hypotheses hold in double precision -/

theorem nearest53_int (n : ℤ) (h0 : 0 < n) (h1 : n < 2 ^ 53) : nearest53 n = n := by
  have hq : (0 : ℚ) < n := by exact_mod_cast h0
  rw [nearest53_of_pos hq]
  have hlog : Int.log 2 (n : ℚ) ≤ 52 := by
    have : Int.log 2 (n : ℚ) < 53 := by
      refine (Int.lt_zpow_iff_log_lt (by norm_num) hq).1 ?_
      have : (n : ℚ) < 2 ^ 53 := by exact_mod_cast h1
      calc (n : ℚ) < 2 ^ 53 := this
        _ = ((2 : ℕ) : ℚ) ^ (53 : ℤ) := by norm_num
    omega
  unfold near53
  obtain ⟨m, hm⟩ : ∃ m : ℕ, 52 - Int.log 2 (n : ℚ) = m := ⟨(52 - Int.log 2 (n : ℚ)).toNat, by omega⟩
  have e : (n : ℚ) * 2 ^ (52 - Int.log 2 (n : ℚ)) = ((n * 2 ^ m : ℤ) : ℚ) := by rw [hm]; push_cast; rfl
  rw [e, round_intCast]
  push_cast
  rw [show Int.log 2 (n : ℚ) - 52 = -(m : ℤ) by omega, zpow_neg, mul_assoc]
  have : (2 : ℚ) ^ m * ((2 : ℚ) ^ (m : ℤ))⁻¹ = 1 := by
    rw [zpow_natCast]; exact mul_inv_cancel₀ (by positivity)
  rw [this, mul_one]

/-- The knots of `exampleKnots` in double precision. -/
example (k : Knot) (hk : k ∈ exampleKnots) : Rounded.curveValue nearest53 exampleKnots .act360 (D 2023 6 1) true k.date = .ok k.value := by
  refine C95_knots rounding_nearest53 _ _ _ ⟨by decide, by decide +kernel, by decide +kernel, by decide +kernel, by decide +kernel⟩
    true k hk ?_
  simp only [exampleKnots, List.mem_cons, List.not_mem_nil, or_false] at hk
  rcases hk with rfl | rfl | rfl
  · exact_mod_cast nearest53_int 3 (by norm_num) (by norm_num)
  · exact_mod_cast nearest53_int 1 (by norm_num) (by norm_num)
  · exact_mod_cast nearest53_int 2 (by norm_num) (by norm_num)

/-- The parallel shift by one unit of three key rates in double precision. -/
example : ∃ c h', create (fun i => { exampleHeap i with bump := 1 }) [0, 1, 2] = (.ok c, h') ∧ ∀ d, ∃ y,
    Rounded.combined nearest53 h' c d = .ok y ∧ Near (1 / 2 ^ 53) 11 1 y := by
  obtain ⟨c, hc⟩ := (C23_raises_iff (fun i => { exampleHeap i with bump := 1 }) [0, 1, 2]).2.2 (by decide +kernel)
  refine ⟨c, _, Prod.ext hc rfl, fun d => ?_⟩
  refine C95_parallel rounding_nearest53 _ _ _ _ (Prod.ext hc rfl) (by norm_num) .act360 (by decide) 1 (by decide +kernel) ?_
    rounding_nearest53.one d
  rw [div_mul_eq_mul_div, one_mul, div_le_one (by positivity)]
  exact pow_le_pow_right₀ (by norm_num) (by norm_num)

/-- Two discounted payments in double precision. -/
example : ∃ w, Rounded.presentValue nearest53 [⟨D 2025 1 1, some 100⟩, ⟨D 2026 1 1, some 3⟩] ⟨D 2023 1 1, fun _ => .ok (9 / 10)⟩ = .ok w ∧
    Near (1 / 2 ^ 53) 3 (927 / 10) w := by
  refine C95_present_value rounding_nearest53 [⟨D 2025 1 1, some 100⟩, ⟨D 2026 1 1, some 3⟩] ⟨D 2023 1 1, fun _ => .ok (9 / 10)⟩ ?_
    (927 / 10) ?_
  · intro p hp a df ha _ hdf
    right
    injection hdf with hdf
    subst hdf
    have ht := rounding_nearest53.tiny_small
    have h1 : (1 : ℚ) / 2 ^ 100 ≤ 1 := by norm_num
    simp only [List.mem_cons, List.not_mem_nil, or_false] at hp
    rcases hp with rfl | rfl <;> (simp only [Option.some.injEq] at ha; subst ha; linarith)
  · unfold Cashflow.presentValue
    simp only [List.filterMap_cons, List.filterMap_nil, show (D 2023 1 1 ≤ D 2025 1 1) = True from eq_true (by decide +kernel),
      show (D 2023 1 1 ≤ D 2026 1 1) = True from eq_true (by decide +kernel), if_true, pySum, collect, ok_bind, List.sum_cons, List.sum_nil]
    congr 1
    norm_num

end Verif.Props
