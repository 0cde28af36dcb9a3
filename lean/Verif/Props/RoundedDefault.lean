/- Simulated default times in floating point: C136. -/
import Verif.Model.RoundedDefault
import Verif.Spec.Rounded
import Verif.Lemmas.Rounded
import Verif.Props.Default

namespace Verif.Props
open Verif Verif.Spec Verif.DefaultModels

variable {rnd : ℚ → ℚ} {u tiny : ℚ}

/-- The times at which a path is tested in floating point: `dt`, and then each time the previous one plus `dt`, rounded. -/
def floatTimes (rnd : ℚ → ℚ) (dt : ℚ) : Nat → ℚ
  | 0 => dt
  | n + 1 => rnd (floatTimes rnd dt n + dt)

theorem one_add_pow_le {u : ℚ} (hu : 0 ≤ u) : ∀ k : Nat, (k : ℚ) * u ≤ 1 / 2 → (1 + u) ^ k ≤ 1 + 2 * k * u := by
  intro k
  induction k with
  | zero => intro _; simp
  | succ k ih =>
    intro hk
    push_cast at hk ⊢
    have hk' : (k : ℚ) * u ≤ 1 / 2 := by nlinarith
    rw [pow_succ]
    have := mul_le_mul_of_nonneg_right (ih hk') (by linarith : (0 : ℚ) ≤ 1 + u)
    nlinarith [mul_le_mul_of_nonneg_right hk' hu]

/-- C136. The float times: the `k`-th (counted from 0) is `(k + 1) dt` up to `2 k (k + 1)` units of rounding of the step. -/
theorem C136_times (R : Rounding rnd u tiny) (dt : ℚ) (hdt : tiny ≤ dt) (k : Nat) (hk : (k : ℚ) * u ≤ 1 / 2) :
    |floatTimes rnd dt k - (k + 1) * dt| ≤ 2 * k * u * ((k + 1) * dt) := by
  have hdt0 : 0 < dt := lt_of_lt_of_le R.tiny_pos hdt
  have hu := R.u_nonneg
  have key : ∀ k : Nat, tiny ≤ floatTimes rnd dt k ∧ |floatTimes rnd dt k - (k + 1) * dt| ≤ ((1 + u) ^ k - 1) * ((k + 1) * dt) := by
    intro k
    induction k with
    | zero => simp [floatTimes, hdt]
    | succ k ih =>
      obtain ⟨h1, h2⟩ := ih
      have hsum : tiny ≤ floatTimes rnd dt k + dt := by linarith
      have hpos : 0 < floatTimes rnd dt k + dt := lt_of_lt_of_le R.tiny_pos hsum
      refine ⟨R.tiny_le hsum, ?_⟩
      have herr := R.err (floatTimes rnd dt k + dt) (by rw [abs_of_pos hpos]; exact hsum)
      rw [abs_of_pos hpos] at herr
      show |rnd (floatTimes rnd dt k + dt) - (((k + 1 : Nat) : ℚ) + 1) * dt| ≤ _
      have e : rnd (floatTimes rnd dt k + dt) - (((k + 1 : Nat) : ℚ) + 1) * dt =
          (rnd (floatTimes rnd dt k + dt) - (floatTimes rnd dt k + dt)) + (floatTimes rnd dt k - (k + 1) * dt) := by push_cast; ring
      rw [e]
      refine (abs_add_le _ _).trans ?_
      have hup : floatTimes rnd dt k ≤ (1 + u) ^ k * ((k + 1) * dt) := by
        have := (abs_le.1 h2).2
        linarith
      have hp1 : 1 ≤ (1 + u) ^ k := one_le_pow₀ (by linarith)
      have hkd : 0 ≤ ((k : ℚ) + 1) * dt := by positivity
      have a1 : u * (floatTimes rnd dt k + dt) ≤ u * ((1 + u) ^ k * ((k + 1) * dt) + dt) := mul_le_mul_of_nonneg_left (by linarith) hu
      have a2 : (1 + u) ^ (k + 1) = (1 + u) ^ k + u * (1 + u) ^ k := by ring
      rw [a2]
      push_cast
      have a3 : 0 ≤ ((1 + u) ^ k - 1) * dt := mul_nonneg (by linarith) hdt0.le
      have a4 : 0 ≤ u * ((1 + u) ^ k - 1) * dt := mul_nonneg (mul_nonneg hu (by linarith)) hdt0.le
      nlinarith [herr, h2, a1, a3, a4]
  refine (key k).2.trans ?_
  have : (1 + u) ^ k - 1 ≤ 2 * k * u := by linarith [one_add_pow_le hu k hk]
  exact mul_le_mul_of_nonneg_right this (by positivity)

/-- The number of grid times `dt, 2 dt, …` before maturity, for exact numbers. -/
def exactSteps (maturity dt : ℚ) : Nat := ⌈maturity / dt⌉₊ - 1

theorem lt_exactSteps {maturity dt : ℚ} (hdt : 0 < dt) (i : Nat) : i < exactSteps maturity dt ↔ ((i : ℚ) + 1) * dt < maturity := by
  unfold exactSteps
  have h1 : i < ⌈maturity / dt⌉₊ - 1 ↔ i + 1 < ⌈maturity / dt⌉₊ := by omega
  rw [h1, Nat.lt_ceil, lt_div_iff₀ hdt]
  push_cast
  rfl

/-- The float times do not decrease. -/
theorem floatTimes_mono (R : Rounding rnd u tiny) {dt : ℚ} (hrep : rnd dt = dt) (hdt : 0 ≤ dt) (n : Nat) :
    floatTimes rnd dt n ≤ floatTimes rnd dt (n + 1) := by
  have hrep' : ∀ n, rnd (floatTimes rnd dt n) = floatTimes rnd dt n := by
    intro n
    cases n with
    | zero => exact hrep
    | succ n => exact R.idem _
  show _ ≤ rnd _
  calc floatTimes rnd dt n = rnd (floatTimes rnd dt n) := (hrep' n).symm
    _ ≤ rnd (floatTimes rnd dt n + dt) := R.mono (by linarith)

/-- C136. The number of float times before maturity is that of exact arithmetic, or one more or one less; the times tested are the first ones. -/
theorem C136_count (R : Rounding rnd u tiny) (maturity dt : ℚ) (hdt : tiny ≤ dt) (hrep : rnd dt = dt)
    (hsmall : 2 * ((exactSteps maturity dt : ℚ) + 2) ^ 2 * u ≤ 1 / 2) :
    ∃ N : Nat, exactSteps maturity dt ≤ N + 1 ∧ N ≤ exactSteps maturity dt + 1 ∧
      (∀ k, floatTimes rnd dt k < maturity ↔ k < N) ∧
      ∀ k, k ≤ N → |floatTimes rnd dt k - (k + 1) * dt| ≤ 2 * k * u * ((k + 1) * dt) := by
  classical
  have hdt0 : 0 < dt := lt_of_lt_of_le R.tiny_pos hdt
  have hu := R.u_nonneg
  set M := exactSteps maturity dt with hM
  have hku : ∀ k : Nat, k ≤ M + 1 → (k : ℚ) * u ≤ 1 / 2 := by
    intro k hk
    have h1 : (k : ℚ) ≤ M + 1 := by exact_mod_cast hk
    have h2 : (k : ℚ) ≤ 2 * ((M : ℚ) + 2) ^ 2 := by nlinarith [(Nat.cast_nonneg M : (0 : ℚ) ≤ M)]
    exact (mul_le_mul_of_nonneg_right h2 hu).trans hsmall
  have hbound : ∀ k : Nat, k ≤ M + 1 → |floatTimes rnd dt k - (k + 1) * dt| < dt := by
    intro k hk
    refine lt_of_le_of_lt (C136_times R dt hdt k (hku k hk)) ?_
    have h1 : (k : ℚ) ≤ M + 1 := by exact_mod_cast hk
    have hk0 : (0 : ℚ) ≤ k := Nat.cast_nonneg k
    have h2 : (k : ℚ) * (k + 1) ≤ ((M : ℚ) + 2) ^ 2 := by nlinarith
    have h3 : 2 * ((k : ℚ) * (k + 1)) * u ≤ 2 * ((M : ℚ) + 2) ^ 2 * u := mul_le_mul_of_nonneg_right (by linarith) hu
    calc 2 * (k : ℚ) * u * ((k + 1) * dt) = 2 * ((k : ℚ) * (k + 1)) * u * dt := by ring
      _ ≤ 1 / 2 * dt := mul_le_mul_of_nonneg_right (h3.trans hsmall) hdt0.le
      _ < dt := by linarith
  have htop : ¬ floatTimes rnd dt (M + 1) < maturity := by
    have h1 := (abs_lt.1 (hbound (M + 1) le_rfl)).1
    have h2 := (lt_exactSteps (maturity := maturity) hdt0 M).not.1 (by rw [← hM]; exact lt_irrefl _)
    push_cast at h1
    push Not at h2 ⊢
    linarith
  have hex : ∃ n, ¬ floatTimes rnd dt n < maturity := ⟨M + 1, htop⟩
  have hmono : Monotone (floatTimes rnd dt) := monotone_nat_of_le_succ (floatTimes_mono R hrep hdt0.le)
  obtain ⟨N, hN1, hN2⟩ : ∃ N, ¬ floatTimes rnd dt N < maturity ∧ ∀ k < N, floatTimes rnd dt k < maturity :=
    ⟨Nat.find hex, Nat.find_spec hex, fun k hk => not_not.1 (Nat.find_min hex hk)⟩
  have hNM : N ≤ M + 1 := by
    by_contra hlt
    exact htop (hN2 _ (by omega))
  refine ⟨N, ?_, hNM, ?_, ?_⟩
  · by_contra hlt
    have h1 := (abs_lt.1 (hbound N hNM)).2
    have h2 := (lt_exactSteps (maturity := maturity) hdt0 (N + 1)).1 (by rw [← hM]; omega)
    push_cast at h2
    exact hN1 (by linarith)
  · intro k
    constructor
    · intro h
      by_contra hge
      exact hN1 (lt_of_le_of_lt (hmono (by omega)) h)
    · exact hN2 k
  · intro k hk
    exact C136_times R dt hdt k (hku k (hk.trans hNM))

theorem defaultLoop_spec (hazard : ℚ → ℚ) (maturity dt : ℚ) (draw : Nat → ℚ) (pos N : Nat)
    (hN : ∀ k, floatTimes rnd dt k < maturity ↔ k < N) : ∀ (n k : Nat), N < k + n → k ≤ N →
    (∀ m, m < k → rnd (hazard (floatTimes rnd dt m) * dt) < draw (pos + m)) →
    (∃ j, j < N ∧ draw (pos + j) ≤ rnd (hazard (floatTimes rnd dt j) * dt) ∧
      (∀ m, m < j → rnd (hazard (floatTimes rnd dt m) * dt) < draw (pos + m)) ∧
      Rounded.defaultLoop rnd hazard maturity dt draw n (floatTimes rnd dt k) (pos + k) = .ok (some (floatTimes rnd dt j), pos + (j + 1))) ∨
    ((∀ m, m < N → rnd (hazard (floatTimes rnd dt m) * dt) < draw (pos + m)) ∧
      Rounded.defaultLoop rnd hazard maturity dt draw n (floatTimes rnd dt k) (pos + k) = .ok (none, pos + N)) := by
  intro n
  induction n with
  | zero => intro k hk hkN; omega
  | succ n ih =>
    intro k hk hkN hprev
    by_cases ht : floatTimes rnd dt k < maturity
    · have hkN' := (hN k).1 ht
      by_cases hu : draw (pos + k) ≤ rnd (hazard (floatTimes rnd dt k) * dt)
      · left
        refine ⟨k, hkN', hu, hprev, ?_⟩
        simp only [Rounded.defaultLoop, if_pos ht, if_pos hu]
        rfl
      · have := ih (k + 1) (by omega) hkN' (by
          intro m hm
          rcases Nat.lt_succ_iff_lt_or_eq.1 hm with h | rfl
          · exact hprev m h
          · exact not_le.1 hu)
        have he : Rounded.defaultLoop rnd hazard maturity dt draw (n + 1) (floatTimes rnd dt k) (pos + k) =
            Rounded.defaultLoop rnd hazard maturity dt draw n (floatTimes rnd dt (k + 1)) (pos + (k + 1)) := by
          simp only [Rounded.defaultLoop, if_pos ht, if_neg hu]
          rfl
        rw [he]
        exact this
    · right
      have hkN' : k = N := by
        have := (hN k).not.1 ht
        omega
      subst hkN'
      refine ⟨hprev, ?_⟩
      simp only [Rounded.defaultLoop, if_neg ht]

/-- C136. Simulated default times in floating point: every path is tested at the first `N` float times, `N` being the number of grid times of exact
arithmetic or one more or less; the `j`-th float time differs from `(j + 1) dt` by at most `2 j (j + 1)` units of rounding of the step. Each
entry is the first float time whose draw is at most the rounded product of hazard and step, or NaN if there is none. -/
theorem C136_paths (R : Rounding rnd u tiny) (hazard : ℚ → ℚ) (maturity dt : ℚ) (hdt : tiny ≤ dt) (hrep : rnd dt = dt)
    (hsmall : 2 * ((exactSteps maturity dt : ℚ) + 2) ^ 2 * u ≤ 1 / 2) (numPaths : Nat) (draw : Nat → ℚ) (fuel : Nat)
    (hfuel : exactSteps maturity dt + 1 < fuel) :
    ∃ (N : Nat) (t : Nat → ℚ), exactSteps maturity dt ≤ N + 1 ∧ N ≤ exactSteps maturity dt + 1 ∧
      (∀ j : Nat, j < N → t j < maturity ∧ |t j - (j + 1) * dt| ≤ 2 * j * u * ((j + 1) * dt)) ∧
      ∃ ts, Rounded.defaultPaths rnd hazard maturity dt draw fuel numPaths 0 = .ok ts ∧ ts.length = numPaths ∧
        ∃ first : Nat → Nat, first 0 = 0 ∧ ∀ i (hi : i < ts.length),
          (∃ j, j < N ∧ draw (first i + j) ≤ rnd (hazard (t j) * dt) ∧ (∀ m, m < j → rnd (hazard (t m) * dt) < draw (first i + m)) ∧
            ts[i] = some (t j) ∧ first (i + 1) = first i + (j + 1)) ∨
          ((∀ m, m < N → rnd (hazard (t m) * dt) < draw (first i + m)) ∧ ts[i] = none ∧ first (i + 1) = first i + N) := by
  obtain ⟨N, h1, h2, h3, h4⟩ := C136_count R maturity dt hdt hrep hsmall
  refine ⟨N, floatTimes rnd dt, h1, h2, fun j hj => ⟨(h3 j).2 hj, h4 j hj.le⟩, ?_⟩
  suffices H : ∀ n pos, ∃ ts, Rounded.defaultPaths rnd hazard maturity dt draw fuel n pos = .ok ts ∧ ts.length = n ∧
      ∃ first : Nat → Nat, first 0 = pos ∧ ∀ i (hi : i < ts.length),
        (∃ j, j < N ∧ draw (first i + j) ≤ rnd (hazard (floatTimes rnd dt j) * dt) ∧
          (∀ m, m < j → rnd (hazard (floatTimes rnd dt m) * dt) < draw (first i + m)) ∧
          ts[i] = some (floatTimes rnd dt j) ∧ first (i + 1) = first i + (j + 1)) ∨
        ((∀ m, m < N → rnd (hazard (floatTimes rnd dt m) * dt) < draw (first i + m)) ∧ ts[i] = none ∧ first (i + 1) = first i + N)
    from H numPaths 0
  intro n
  induction n with
  | zero => intro pos; exact ⟨[], rfl, rfl, fun _ => pos, rfl, fun i hi => absurd hi (by simp)⟩
  | succ n ih =>
    intro pos
    have hsp := defaultLoop_spec (rnd := rnd) hazard maturity dt draw pos N h3 fuel 0 (by omega) (Nat.zero_le _) (fun m hm => absurd hm (by omega))
    simp only [Nat.add_zero] at hsp
    have fin : ∀ (t : Option ℚ) (pos' : Nat),
        Rounded.defaultLoop rnd hazard maturity dt draw fuel dt pos = .ok (t, pos') →
        ((∃ j, j < N ∧ draw (pos + j) ≤ rnd (hazard (floatTimes rnd dt j) * dt) ∧
          (∀ m, m < j → rnd (hazard (floatTimes rnd dt m) * dt) < draw (pos + m)) ∧ t = some (floatTimes rnd dt j) ∧ pos' = pos + (j + 1)) ∨
        ((∀ m, m < N → rnd (hazard (floatTimes rnd dt m) * dt) < draw (pos + m)) ∧ t = none ∧ pos' = pos + N)) →
        ∃ ts, Rounded.defaultPaths rnd hazard maturity dt draw fuel (n + 1) pos = .ok ts ∧ ts.length = n + 1 ∧
          ∃ first : Nat → Nat, first 0 = pos ∧ ∀ i (hi : i < ts.length),
            (∃ j, j < N ∧ draw (first i + j) ≤ rnd (hazard (floatTimes rnd dt j) * dt) ∧
              (∀ m, m < j → rnd (hazard (floatTimes rnd dt m) * dt) < draw (first i + m)) ∧
              ts[i] = some (floatTimes rnd dt j) ∧ first (i + 1) = first i + (j + 1)) ∨
            ((∀ m, m < N → rnd (hazard (floatTimes rnd dt m) * dt) < draw (first i + m)) ∧ ts[i] = none ∧
              first (i + 1) = first i + N) := by
      intro t pos' hl hcase
      obtain ⟨ts, hts, hlen, first, hf0, hall⟩ := ih pos'
      refine ⟨t :: ts, ?_, by simp [hlen], fun i => if i = 0 then pos else first (i - 1), by simp, ?_⟩
      · simp only [Rounded.defaultPaths, hl, ok_bind, hts]
      · intro i hi
        rcases i with _ | i
        · simpa [hf0] using hcase
        · have := hall i (by simpa using hi)
          simpa using this
    rcases hsp with ⟨j, hj, hd, hp, hl⟩ | ⟨hs, hl⟩
    · exact fin _ _ hl (Or.inl ⟨j, hj, hd, hp, rfl, rfl⟩)
    · exact fin _ _ hl (Or.inr ⟨hs, rfl, rfl⟩)

/-- C136. With exact arithmetic the float loop is the one of C76. -/
theorem C136_exact (hazard : ℚ → ℚ) (hazard' : ℝ → ℝ) (hh : ∀ t : ℚ, hazard' t = hazard t) (maturity dt : ℚ) (draw : Nat → ℚ) :
    ∀ (n : Nat) (time : ℚ) (pos : Nat), pathLoop hazard' maturity dt (fun k => (draw k : ℝ)) n time pos =
      (Rounded.defaultLoop id hazard maturity dt draw n time pos).map (fun r => (r.1.map (fun t : ℚ => (t : ℝ)), r.2)) := by
  intro n
  induction n with
  | zero => intro time pos; rfl
  | succ n ih =>
    intro time pos
    simp only [pathLoop, Rounded.defaultLoop, hh, id]
    by_cases ht : time < maturity
    · rw [if_pos (by exact_mod_cast ht), if_pos ht]
      by_cases hu : draw pos ≤ hazard time * dt
      · rw [if_pos (by exact_mod_cast hu), if_pos hu]; rfl
      · rw [if_neg (by exact_mod_cast hu), if_neg hu]
        have := ih (time + dt) (pos + 1)
        push_cast at this
        exact this
    · rw [if_neg (by exact_mod_cast ht), if_neg ht]; rfl

/-! ### Double precision -/

theorem nearest53_eval {x : ℚ} (e m : ℤ) (h1 : (2 : ℚ) ^ e ≤ x) (h2 : x < (2 : ℚ) ^ (e + 1)) (h3 : (m : ℚ) ≤ x * 2 ^ (52 - e) + 1 / 2)
    (h4 : x * 2 ^ (52 - e) + 1 / 2 < m + 1) : nearest53 x = m * (2 : ℚ) ^ (e - 52) := by
  have hx : 0 < x := lt_of_lt_of_le (by positivity) h1
  rw [nearest53_of_pos hx]
  unfold near53
  rw [log_eq_of h1 h2]
  congr 2
  rw [round_eq, Int.floor_eq_iff]
  exact ⟨h3, h4⟩

theorem floatTimes_below {dt maturity : ℚ} {n : Nat} (hdt : 0 ≤ dt) (hrep : nearest53 dt = dt)
    (h1 : floatTimes nearest53 dt n < maturity) (h2 : maturity ≤ floatTimes nearest53 dt (n + 1)) (k : Nat) :
    floatTimes nearest53 dt k < maturity ↔ k < n + 1 := by
  have hmono : Monotone (floatTimes nearest53 dt) := monotone_nat_of_le_succ (floatTimes_mono rounding_nearest53 hrep hdt)
  constructor
  · intro h
    by_contra hge
    exact absurd (lt_of_lt_of_le h (h2.trans (hmono (by omega)))) (lt_irrefl _)
  · intro h
    exact lt_of_le_of_lt (hmono (by omega)) h1

/-- C136. In double precision the number of tests does change: with the step 1.7 and maturity 13.6, exact arithmetic (on these doubles) tests 7
times, the code 8, the last one at a float time just below maturity. -/
theorem C136_extra_test : ∃ dt maturity : ℚ, dt = nearest53 (17 / 10) ∧ maturity = nearest53 (136 / 10) ∧ exactSteps maturity dt = 7 ∧
    ∀ k, floatTimes nearest53 dt k < maturity ↔ k < 8 := by
  have d : nearest53 (17 / 10) = 7656119366529843 / 4503599627370496 := by
    rw [nearest53_eval (0) 7656119366529843 (by norm_num) (by norm_num) (by norm_num) (by norm_num)]; norm_num
  have mat : nearest53 (136 / 10) = 7656119366529843 / 562949953421312 := by
    rw [nearest53_eval (3) 7656119366529843 (by norm_num) (by norm_num) (by norm_num) (by norm_num)]; norm_num
  have t1 : floatTimes nearest53 (7656119366529843 / 4503599627370496) 1 = 7656119366529843 / 2251799813685248 := by
    show nearest53 (floatTimes nearest53 (7656119366529843 / 4503599627370496) 0 + (7656119366529843 / 4503599627370496)) = _
    rw [show floatTimes nearest53 (7656119366529843 / 4503599627370496) 0 = (7656119366529843 / 4503599627370496) from rfl,
      nearest53_eval (1) 7656119366529843 (by norm_num) (by norm_num) (by norm_num) (by norm_num)]; norm_num
  have t2 : floatTimes nearest53 (7656119366529843 / 4503599627370496) 2 = 2871044762448691 / 562949953421312 := by
    show nearest53 (floatTimes nearest53 (7656119366529843 / 4503599627370496) 1 + (7656119366529843 / 4503599627370496)) = _
    rw [show floatTimes nearest53 (7656119366529843 / 4503599627370496) 1 = 7656119366529843 / 2251799813685248 from t1,
      nearest53_eval (2) 5742089524897382 (by norm_num) (by norm_num) (by norm_num) (by norm_num)]; norm_num
  have t3 : floatTimes nearest53 (7656119366529843 / 4503599627370496) 3 = 7656119366529843 / 1125899906842624 := by
    show nearest53 (floatTimes nearest53 (7656119366529843 / 4503599627370496) 2 + (7656119366529843 / 4503599627370496)) = _
    rw [show floatTimes nearest53 (7656119366529843 / 4503599627370496) 2 = 2871044762448691 / 562949953421312 from t2,
      nearest53_eval (2) 7656119366529843 (by norm_num) (by norm_num) (by norm_num) (by norm_num)]; norm_num
  have t4 : floatTimes nearest53 (7656119366529843 / 4503599627370496) 4 = 17 / 2 := by
    show nearest53 (floatTimes nearest53 (7656119366529843 / 4503599627370496) 3 + (7656119366529843 / 4503599627370496)) = _
    rw [show floatTimes nearest53 (7656119366529843 / 4503599627370496) 3 = 7656119366529843 / 1125899906842624 from t3,
      nearest53_eval (3) 4785074604081152 (by norm_num) (by norm_num) (by norm_num) (by norm_num)]; norm_num
  have t5 : floatTimes nearest53 (7656119366529843 / 4503599627370496) 5 = 2871044762448691 / 281474976710656 := by
    show nearest53 (floatTimes nearest53 (7656119366529843 / 4503599627370496) 4 + (7656119366529843 / 4503599627370496)) = _
    rw [show floatTimes nearest53 (7656119366529843 / 4503599627370496) 4 = 17 / 2 from t4,
      nearest53_eval (3) 5742089524897382 (by norm_num) (by norm_num) (by norm_num) (by norm_num)]; norm_num
  have t6 : floatTimes nearest53 (7656119366529843 / 4503599627370496) 6 = 1674776111428403 / 140737488355328 := by
    show nearest53 (floatTimes nearest53 (7656119366529843 / 4503599627370496) 5 + (7656119366529843 / 4503599627370496)) = _
    rw [show floatTimes nearest53 (7656119366529843 / 4503599627370496) 5 = 2871044762448691 / 281474976710656 from t5,
      nearest53_eval (3) 6699104445713612 (by norm_num) (by norm_num) (by norm_num) (by norm_num)]; norm_num
  have t7 : floatTimes nearest53 (7656119366529843 / 4503599627370496) 7 = 3828059683264921 / 281474976710656 := by
    show nearest53 (floatTimes nearest53 (7656119366529843 / 4503599627370496) 6 + (7656119366529843 / 4503599627370496)) = _
    rw [show floatTimes nearest53 (7656119366529843 / 4503599627370496) 6 = 1674776111428403 / 140737488355328 from t6,
      nearest53_eval (3) 7656119366529842 (by norm_num) (by norm_num) (by norm_num) (by norm_num)]; norm_num
  have t8 : floatTimes nearest53 (7656119366529843 / 4503599627370496) 8 = 1076641785918259 / 70368744177664 := by
    show nearest53 (floatTimes nearest53 (7656119366529843 / 4503599627370496) 7 + (7656119366529843 / 4503599627370496)) = _
    rw [show floatTimes nearest53 (7656119366529843 / 4503599627370496) 7 = 3828059683264921 / 281474976710656 from t7,
      nearest53_eval (3) 8613134287346072 (by norm_num) (by norm_num) (by norm_num) (by norm_num)]; norm_num
  refine ⟨_, _, rfl, rfl, ?_, ?_⟩
  · rw [d, mat]; unfold exactSteps
    norm_num
  · rw [mat]
    have hrep : nearest53 (nearest53 (17 / 10)) = nearest53 (17 / 10) := rounding_nearest53.idem _
    rw [d] at hrep ⊢
    exact floatTimes_below (n := 7) (by norm_num) hrep (by rw [t7]; norm_num) (by rw [t8]; norm_num)

/-- C136. And the other way round: with the step 0.9 and maturity 2.7, exact arithmetic tests 3 times, the code twice. -/
theorem C136_missing_test : ∃ dt maturity : ℚ, dt = nearest53 (9 / 10) ∧ maturity = nearest53 (27 / 10) ∧ exactSteps maturity dt = 3 ∧
    ∀ k, floatTimes nearest53 dt k < maturity ↔ k < 2 := by
  have d : nearest53 (9 / 10) = 8106479329266893 / 9007199254740992 := by
    rw [nearest53_eval (-1) 8106479329266893 (by norm_num) (by norm_num) (by norm_num) (by norm_num)]; norm_num
  have mat : nearest53 (27 / 10) = 3039929748475085 / 1125899906842624 := by
    rw [nearest53_eval (1) 6079859496950170 (by norm_num) (by norm_num) (by norm_num) (by norm_num)]; norm_num
  have t1 : floatTimes nearest53 (8106479329266893 / 9007199254740992) 1 = 8106479329266893 / 4503599627370496 := by
    show nearest53 (floatTimes nearest53 (8106479329266893 / 9007199254740992) 0 + (8106479329266893 / 9007199254740992)) = _
    rw [show floatTimes nearest53 (8106479329266893 / 9007199254740992) 0 = (8106479329266893 / 9007199254740992) from rfl,
      nearest53_eval (0) 8106479329266893 (by norm_num) (by norm_num) (by norm_num) (by norm_num)]; norm_num
  have t2 : floatTimes nearest53 (8106479329266893 / 9007199254740992) 2 = 3039929748475085 / 1125899906842624 := by
    show nearest53 (floatTimes nearest53 (8106479329266893 / 9007199254740992) 1 + (8106479329266893 / 9007199254740992)) = _
    rw [show floatTimes nearest53 (8106479329266893 / 9007199254740992) 1 = 8106479329266893 / 4503599627370496 from t1,
      nearest53_eval (1) 6079859496950170 (by norm_num) (by norm_num) (by norm_num) (by norm_num)]; norm_num
  refine ⟨_, _, rfl, rfl, ?_, ?_⟩
  · rw [d, mat]; unfold exactSteps
    have : ⌈(3039929748475085 / 1125899906842624 : ℚ) / (8106479329266893 / 9007199254740992)⌉₊ = 4 := by
      rw [Nat.ceil_eq_iff (by norm_num)]
      norm_num
    rw [this]
  · rw [mat]
    have hrep : nearest53 (nearest53 (9 / 10)) = nearest53 (9 / 10) := rounding_nearest53.idem _
    rw [d] at hrep ⊢
    exact floatTimes_below (n := 1) (by norm_num) hrep (by rw [t1]; norm_num) (by rw [t2])

theorem nearest53_two_pow_add {e : ℤ} {d : ℚ} (h0 : 0 ≤ d) (h1 : d < (2 : ℚ) ^ (e - 53)) : nearest53 ((2 : ℚ) ^ e + d) = (2 : ℚ) ^ e := by
  have hp : (0 : ℚ) < (2 : ℚ) ^ e := by positivity
  have hs : (2 : ℚ) ^ (e - 53) * (2 : ℚ) ^ (52 - e) = 1 / 2 := by
    rw [← zpow_add₀ (by norm_num), show e - 53 + (52 - e) = -1 by ring]; norm_num
  have hq : (2 : ℚ) ^ e * (2 : ℚ) ^ (52 - e) = 2 ^ 52 := by
    rw [← zpow_add₀ (by norm_num), show e + (52 - e) = 52 by ring]; norm_num
  have hr : (0 : ℚ) < (2 : ℚ) ^ (52 - e) := by positivity
  have hle : (2 : ℚ) ^ (e - 53) ≤ (2 : ℚ) ^ e := zpow_le_zpow_right₀ (by norm_num) (by omega)
  have hdr : d * (2 : ℚ) ^ (52 - e) < 1 / 2 := by
    rw [← hs]; exact mul_lt_mul_of_pos_right h1 hr
  have hd0 : 0 ≤ d * (2 : ℚ) ^ (52 - e) := by positivity
  rw [nearest53_eval e (2 ^ 52) (by linarith) (by rw [zpow_add_one₀ (by norm_num)]; linarith) (by push_cast; rw [add_mul, hq]; linarith)
    (by push_cast; rw [add_mul, hq]; linarith)]
  rw [show ((2 ^ 52 : ℤ) : ℚ) = (2 : ℚ) ^ (52 : ℤ) by norm_num, ← zpow_add₀ (by norm_num)]
  congr 1
  ring

/-- C136. The bound on the number of steps is needed: in double precision the running time never passes `2 ^ 54` times the leading power of two of the step, so beyond such a
maturity a path without a default runs for ever, whatever the number of iterations allowed. -/
theorem C136_stalls (hazard : ℚ → ℚ) (maturity dt : ℚ) (e : ℤ) (h1 : (2 : ℚ) ^ e ≤ dt) (h2 : dt < (2 : ℚ) ^ (e + 1))
    (hmat : (2 : ℚ) ^ (e + 54) < maturity) (draw : Nat → ℚ) (pos : Nat)
    (hno : ∀ k t, nearest53 (hazard t * dt) < draw k) (fuel : Nat) :
    Rounded.defaultLoop nearest53 hazard maturity dt draw fuel dt pos = .error .fuel := by
  have hdt : 0 < dt := lt_of_lt_of_le (by positivity) h1
  have hstep : ∀ t : ℚ, t ≤ (2 : ℚ) ^ (e + 54) → nearest53 (t + dt) ≤ (2 : ℚ) ^ (e + 54) := by
    intro t ht
    have := rounding_nearest53.mono (show t + dt ≤ (2 : ℚ) ^ (e + 54) + dt by linarith)
    rwa [nearest53_two_pow_add hdt.le (by rw [show e + 54 - 53 = e + 1 by ring]; exact h2)] at this
  have key : ∀ (fuel : Nat) (t : ℚ) (pos : Nat), t ≤ (2 : ℚ) ^ (e + 54) →
      Rounded.defaultLoop nearest53 hazard maturity dt draw fuel t pos = .error .fuel := by
    intro fuel
    induction fuel with
    | zero => intro t pos _; rfl
    | succ n ih =>
      intro t pos ht
      simp only [Rounded.defaultLoop, if_pos (lt_of_le_of_lt ht hmat), if_neg (not_le.2 (hno pos t))]
      exact ih _ _ (hstep t ht)
  exact key fuel dt pos (h2.le.trans (zpow_le_zpow_right₀ (by norm_num) (by omega)))

/-- Non-vacuity of C136_paths: double precision, step 1/4, maturity 2, hazard 1/10 and the draws 1/2, 1/2, 1/100, 1/2, …: the first path defaults
at its third float time, the second never. -/
example : ∃ N : Nat, 6 ≤ N ∧ N ≤ 8 ∧ ∃ t : Nat → ℚ, ∃ ts, ts.length = 2 ∧
    Rounded.defaultPaths nearest53 (fun _ => 1 / 10) 2 (1 / 4) (fun k => if k = 2 then 1 / 100 else 1 / 2) 100 2 0 = .ok ts ∧
    ∀ j : Nat, j < N → |t j - (j + 1) * (1 / 4)| ≤ 1 / 2 ^ 40 := by
  have hM : exactSteps 2 (1 / 4) = 7 := by unfold exactSteps; norm_num
  have hrep : nearest53 (1 / 4) = 1 / 4 := by
    rw [nearest53_eval (-2) 4503599627370496 (by norm_num) (by norm_num) (by norm_num) (by norm_num)]; norm_num
  obtain ⟨N, t, h1, h2, h3, ts, h4, h5, -⟩ := C136_paths rounding_nearest53 (fun _ => 1 / 10) 2 (1 / 4)
    (one_div_le_one_div_of_le (by norm_num) (by rw [show (4 : ℚ) = 2 ^ 2 by norm_num]; exact pow_le_pow_right₀ (by norm_num) (by norm_num))) hrep
    (by rw [hM]; norm_num) 2 (fun k => if k = 2 then 1 / 100 else 1 / 2) 100 (by rw [hM]; norm_num)
  rw [hM] at h1 h2
  refine ⟨N, by omega, h2, t, ts, h5, h4, fun j hj => (h3 j hj).2.trans ?_⟩
  have hj8 : (j : ℚ) ≤ 7 := by exact_mod_cast (show j ≤ 7 by omega)
  have hj0 : (0 : ℚ) ≤ j := Nat.cast_nonneg j
  have : (j : ℚ) * (j + 1) ≤ 56 := by nlinarith
  have e : 2 * (j : ℚ) * (1 / 2 ^ 53) * (((j : ℚ) + 1) * (1 / 4)) = (j * (j + 1)) * (1 / 2 ^ 54) := by ring
  rw [e]
  calc ((j : ℚ) * (j + 1)) * (1 / 2 ^ 54) ≤ 56 * (1 / 2 ^ 54) := mul_le_mul_of_nonneg_right this (by norm_num)
    _ ≤ 1 / 2 ^ 40 := by norm_num

/-- Non-vacuity of C136_stalls: step 1, maturity 2^55, hazard 0 and draws 1/2. -/
example (fuel : Nat) : Rounded.defaultLoop nearest53 (fun _ => 0) (2 ^ 55) 1 (fun _ => 1 / 2) fuel 1 0 = .error .fuel :=
  C136_stalls _ _ _ 0 (by norm_num) (by norm_num) (by norm_num) _ _ (fun _ _ => by
    simp only [zero_mul, rounding_nearest53.zero]; norm_num) fuel

end Verif.Props
