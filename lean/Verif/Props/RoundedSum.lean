/- Property C95: key-rate collections on Python versions whose `sum` compensates. -/
import Verif.Model.RoundedSum
import Verif.Props.Rounded
import Verif.Lemmas.RoundedValuation

namespace Verif.Props
open Verif Verif.Spec Verif.DayCount Verif.KeyRateCollection

variable {rnd : ℚ → ℚ} {u tiny : ℚ}

/-- One step: with `A` a bound on all sums of absolute values, `k` steps so far and `T = 2 * tiny`. -/
theorem compensatedStep_err (R : Rounding rnd u tiny) {A T S f c x : ℚ} {k : Nat} (hA : 0 ≤ A) (hT : T = 2 * tiny)
    (hku : (k : ℚ) * u ≤ 1 / 8) (hS : |S| ≤ A) (hx : |x| ≤ A) (hf : |f - S| ≤ k * (3 * (u * A) + 2 * T))
    (hc : |c| ≤ k * (8 * (u * A + T))) :
    |(Rounded.compensatedStep rnd (f, c) x).1 - (S + x)| ≤ (k + 1) * (3 * (u * A) + 2 * T) ∧
    |(Rounded.compensatedStep rnd (f, c) x).2| ≤ (k + 1) * (8 * (u * A + T)) := by
  have u0 := R.u_nonneg
  have us : u ≤ 1 / 1000 := R.u_small.trans (by norm_num)
  have hT0 : 0 < T := by rw [hT]; linarith [R.tiny_pos]
  have huA : 0 ≤ u * A := mul_nonneg u0 hA
  have hk0 : (0 : ℚ) ≤ k := Nat.cast_nonneg k
  have err : ∀ z, |rnd z - z| ≤ u * |z| + T := fun z => by rw [hT]; exact R.abs_err z
  have small : ∀ z, |rnd z| ≤ |z| + u * |z| + T := fun z => by
    have h1 := err z
    have h2 := abs_add_le (rnd z - z) z
    rw [sub_add_cancel] at h2
    linarith
  -- bounds on k * u * (...)
  have e1 : (k : ℚ) * (3 * (u * A) + 2 * T) ≤ 3 / 8 * A + 2 * (k * T) := by
    have := mul_le_mul_of_nonneg_right hku hA
    linarith [mul_comm (k : ℚ) T]
  have hfA : |f| ≤ 11 / 8 * A + 2 * (k * T) := by
    have h2 := abs_add_le (f - S) S
    rw [sub_add_cancel] at h2
    linarith
  have hfx : |f + x| ≤ 19 / 8 * A + 2 * (k * T) := (abs_add_le f x).trans (by linarith)
  have ukT : u * (k * T) ≤ T / 8 := by
    have := mul_le_mul_of_nonneg_right hku hT0.le
    linarith [show u * (k * T) = k * u * T by ring]
  set t := rnd (f + x) with ht
  have hδ : |t - (f + x)| ≤ 19 / 8 * (u * A) + 5 / 4 * T := by
    have h1 := err (f + x)
    have h2 := mul_le_mul_of_nonneg_left hfx u0
    have h3 : u * (19 / 8 * A + 2 * (k * T)) = 19 / 8 * (u * A) + 2 * (u * (k * T)) := by ring
    linarith
  have hlow : ∀ p q : ℚ, p + q = f + x → |q| ≤ A → |rnd (rnd (p - t) + q)| ≤ 4 * (u * A) + 4 * T := by
    intro p q hpq hq
    have hpt : |p - t| ≤ A + (19 / 8 * (u * A) + 5 / 4 * T) := by
      have h1 := abs_sub (-(t - (f + x))) q
      have h2 : -(t - (f + x)) - q = p - t := by linarith
      rw [h2, abs_neg] at h1
      linarith
    have h3 := err (p - t)
    have h4 : u * |p - t| ≤ 9 / 8 * (u * A) + 1 / 8 * T := by
      have := mul_le_mul_of_nonneg_left hpt u0
      have a1 : u * (u * A) ≤ 1 / 1000 * (u * A) := mul_le_mul_of_nonneg_right us huA
      have a2 : u * T ≤ 1 / 1000 * T := mul_le_mul_of_nonneg_right us hT0.le
      linarith [show u * (A + (19 / 8 * (u * A) + 5 / 4 * T)) = u * A + 19 / 8 * (u * (u * A)) + 5 / 4 * (u * T) by ring]
    have h5 : |rnd (p - t) + q| ≤ 28 / 8 * (u * A) + 19 / 8 * T := by
      have h6 := abs_sub (rnd (p - t) - (p - t)) (t - (f + x))
      have h7 : rnd (p - t) - (p - t) - (t - (f + x)) = rnd (p - t) + q := by linarith
      rw [h7] at h6
      linarith
    have h8 := small (rnd (p - t) + q)
    have h9 : u * |rnd (p - t) + q| ≤ 1 / 1000 * (28 / 8 * (u * A) + 19 / 8 * T) :=
      mul_le_mul us h5 (abs_nonneg _) (by norm_num)
    linarith
  have hcc : ∀ g, |g| ≤ 4 * (u * A) + 4 * T → |rnd (c + g)| ≤ (k + 1) * (8 * (u * A + T)) := by
    intro g hg
    have h1 := small (c + g)
    have h2 := abs_add_le c g
    have h3 : u * |c + g| ≤ (u * A + T) + 1 / 100 * (u * A + T) := by
      have h4 : u * |c + g| ≤ u * (k * (8 * (u * A + T)) + (4 * (u * A) + 4 * T)) :=
        mul_le_mul_of_nonneg_left (by linarith) u0
      have h5 : u * (k * (8 * (u * A + T))) ≤ u * A + T := by
        have := mul_le_mul_of_nonneg_right hku (show 0 ≤ 8 * (u * A + T) by linarith)
        linarith [show u * (k * (8 * (u * A + T))) = k * u * (8 * (u * A + T)) by ring]
      have h6 : u * (4 * (u * A) + 4 * T) ≤ 1 / 1000 * (4 * (u * A) + 4 * T) :=
        mul_le_mul_of_nonneg_right us (by linarith)
      linarith [mul_add u (k * (8 * (u * A + T))) (4 * (u * A) + 4 * T)]
    linarith [show ((k : ℚ) + 1) * (8 * (u * A + T)) = k * (8 * (u * A + T)) + 8 * (u * A + T) by ring]
  have hfirst : |t - (S + x)| ≤ (k + 1) * (3 * (u * A) + 2 * T) := by
    have h1 := abs_add_le (t - (f + x)) (f - S)
    have h2 : t - (f + x) + (f - S) = t - (S + x) := by ring
    rw [h2] at h1
    linarith [show ((k : ℚ) + 1) * (3 * (u * A) + 2 * T) = k * (3 * (u * A) + 2 * T) + (3 * (u * A) + 2 * T) by ring]
  unfold Rounded.compensatedStep
  by_cases hle : |x| ≤ |f|
  · simp only [hle, if_true]
    exact ⟨hfirst, hcc _ (hlow f x rfl hx)⟩
  · simp only [hle, if_false]
    refine ⟨hfirst, hcc _ (hlow x f (by ring) ?_)⟩
    exact (lt_of_not_ge hle).le.trans hx

theorem compensated_foldl (R : Rounding rnd u tiny) {A T : ℚ} (hA : 0 ≤ A) (hT : T = 2 * tiny) : ∀ (l : List ℚ) (k : Nat) (S B f c : ℚ),
    ((k + l.length : Nat) : ℚ) * u ≤ 1 / 8 → |S| ≤ B → B + (l.map abs).sum ≤ A → |f - S| ≤ k * (3 * (u * A) + 2 * T) →
    |c| ≤ k * (8 * (u * A + T)) →
    |(l.foldl (Rounded.compensatedStep rnd) (f, c)).1 - (S + l.sum)| ≤ (k + l.length : Nat) * (3 * (u * A) + 2 * T) ∧
    |(l.foldl (Rounded.compensatedStep rnd) (f, c)).2| ≤ (k + l.length : Nat) * (8 * (u * A + T))
  | [], k, S, B, f, c, _, _, _, hf, hc => by simpa using ⟨hf, hc⟩
  | x :: l, k, S, B, f, c, hn, hS, hB, hf, hc => by
    have hl : 0 ≤ (l.map abs).sum := List.sum_nonneg (by intro y hy; obtain ⟨z, -, rfl⟩ := List.mem_map.1 hy; exact abs_nonneg z)
    simp only [List.map_cons, List.sum_cons] at hB
    have hB0 : 0 ≤ B := (abs_nonneg S).trans hS
    have hku : (k : ℚ) * u ≤ 1 / 8 := by
      refine le_trans (mul_le_mul_of_nonneg_right ?_ R.u_nonneg) hn
      exact_mod_cast Nat.le_add_right _ _
    obtain ⟨h1, h2⟩ := compensatedStep_err R hA hT hku (x := x) (hS.trans (by linarith [abs_nonneg x]))
      (by linarith [abs_nonneg x]) hf hc
    have ih := compensated_foldl R hA hT l (k + 1) (S + x) (B + |x|) (Rounded.compensatedStep rnd (f, c) x).1
      (Rounded.compensatedStep rnd (f, c) x).2 (by rw [List.length_cons] at hn; rw [show k + 1 + l.length = k + (l.length + 1) by omega]; exact hn)
      ((abs_add_le S x).trans (by linarith)) (by linarith) (by push_cast; exact h1) (by push_cast; exact h2)
    rw [List.foldl_cons, List.sum_cons, ← add_assoc, List.length_cons, show k + (l.length + 1) = k + 1 + l.length by omega]
    exact ih

/-- C95. Python's compensated `sum` of `n` floats differs from the exact sum by at most `11 n + 4` times the unit of rounding times the
sum of the absolute values (and as many multiples of the smallest normal number). -/
theorem C95_compensated_sum (R : Rounding rnd u tiny) (l : List ℚ) (hn : (l.length : ℚ) * u ≤ 1 / 8) :
    |Rounded.sumCompensated rnd l - l.sum| ≤ (11 * l.length + 4) * (u * (l.map abs).sum + 2 * tiny) := by
  have ht := R.tiny_pos
  have u0 := R.u_nonneg
  have us : u ≤ 1 / 1000 := R.u_small.trans (by norm_num)
  cases l with
  | nil =>
    simp only [Rounded.sumCompensated, List.sum_nil, List.map_nil, List.length_nil]
    norm_num
    exact ht.le
  | cons x l =>
    have hl : 0 ≤ (l.map abs).sum := List.sum_nonneg (by intro y hy; obtain ⟨z, -, rfl⟩ := List.mem_map.1 hy; exact abs_nonneg z)
    have hsum : ((x :: l).map abs).sum = |x| + (l.map abs).sum := by simp
    set A := ((x :: l).map abs).sum with hA
    have hA0 : 0 ≤ A := by rw [hsum]; linarith [abs_nonneg x]
    have huA : 0 ≤ u * A := mul_nonneg u0 hA0
    have hx1 : |rnd (0 + x) - x| ≤ (1 : Nat) * (3 * (u * A) + 2 * (2 * tiny)) := by
      rw [zero_add]
      have h1 := R.abs_err x
      have h2 : u * |x| ≤ u * A := mul_le_mul_of_nonneg_left (by rw [hsum]; linarith) u0
      push_cast
      linarith
    have hn' : ((1 + l.length : Nat) : ℚ) * u ≤ 1 / 8 := by rw [List.length_cons] at hn; rw [add_comm]; exact hn
    obtain ⟨h1, h2⟩ := compensated_foldl R hA0 rfl l 1 x |x| (rnd (0 + x)) 0 hn' (le_refl _) (le_of_eq hsum.symm) hx1
      (by rw [abs_zero]; positivity)
    simp only [Rounded.sumCompensated, List.sum_cons, List.length_cons]
    set fc := l.foldl (Rounded.compensatedStep rnd) (rnd (0 + x), 0) with hfc
    rw [add_comm 1 l.length] at h1 h2 hn'
    generalize ((l.length + 1 : Nat) : ℚ) = n at h1 h2 hn' ⊢
    have hn0 : 0 ≤ n * u := by
      by_contra hneg
      have h3 := (abs_nonneg fc.2).trans h2
      have h4 : 0 < 8 * (u * A + 2 * tiny) := by linarith
      have h5 : 0 ≤ n := by
        by_contra h6
        have := mul_neg_of_neg_of_pos (lt_of_not_ge h6) h4
        linarith
      exact hneg (mul_nonneg h5 u0)
    have hnonneg : 0 ≤ n * (u * A + 2 * tiny) := by
      have := (abs_nonneg fc.2).trans h2
      linarith [show n * (8 * (u * A + 2 * tiny)) = 8 * (n * (u * A + 2 * tiny)) by ring]
    have e1 : n * (3 * (u * A) + 2 * (2 * tiny)) ≤ 3 * (n * (u * A + 2 * tiny)) := by
      have : 0 ≤ n := by
        by_contra h6
        have := mul_neg_of_neg_of_pos (lt_of_not_ge h6) (show 0 < u * A + 2 * tiny by linarith)
        linarith
      have := mul_nonneg this ht.le
      linarith [show n * (3 * (u * A) + 2 * (2 * tiny)) = 3 * (n * (u * A)) + 4 * (n * tiny) by ring,
        show 3 * (n * (u * A + 2 * tiny)) = 3 * (n * (u * A)) + 6 * (n * tiny) by ring]
    have e2 : n * (8 * (u * A + 2 * tiny)) = 8 * (n * (u * A + 2 * tiny)) := by ring
    have e3 : (11 * n + 4) * (u * A + 2 * tiny) = 11 * (n * (u * A + 2 * tiny)) + 4 * (u * A + 2 * tiny) := by ring
    rw [e3]
    by_cases h0 : fc.2 = 0
    · rw [if_pos h0]
      linarith
    · rw [if_neg h0]
      have h3 := R.abs_err (fc.1 + fc.2)
      have hS : |x + l.sum| ≤ A := by
        rw [hsum]
        refine (abs_add_le _ _).trans (add_le_add le_rfl ?_)
        clear * -
        induction l with
        | nil => simp
        | cons y l ih => simp only [List.sum_cons, List.map_cons]; exact (abs_add_le _ _).trans (by linarith)
      have h4 : |fc.1 + fc.2 - (x + l.sum)| ≤ 11 * (n * (u * A + 2 * tiny)) := by
        have := abs_add_le (fc.1 - (x + l.sum)) fc.2
        rw [show fc.1 - (x + l.sum) + fc.2 = fc.1 + fc.2 - (x + l.sum) by ring] at this
        linarith
      have h5 : |fc.1 + fc.2| ≤ A + 11 * (n * (u * A + 2 * tiny)) := by
        have := abs_add_le (fc.1 + fc.2 - (x + l.sum)) (x + l.sum)
        rw [sub_add_cancel] at this
        linarith
      have h6 : u * |fc.1 + fc.2| ≤ u * A + 11 / 8 * (u * A + 2 * tiny) := by
        have g1 := mul_le_mul_of_nonneg_left h5 u0
        have g2 := mul_le_mul_of_nonneg_right hn' (show 0 ≤ u * A + 2 * tiny by linarith)
        linarith [show u * (A + 11 * (n * (u * A + 2 * tiny))) = u * A + 11 * (n * u * (u * A + 2 * tiny)) by ring]
      have h7 := abs_add_le (rnd (fc.1 + fc.2) - (fc.1 + fc.2)) (fc.1 + fc.2 - (x + l.sum))
      rw [sub_add_sub_cancel] at h7
      linarith

/-- C95. With CPython 3.12 or later: the combined adjustment of a collection of `n` key rates is the common bump at every date, up to
`12 n + 24` units of rounding. -/
theorem C95_parallel_compensated (R : Rounding rnd u tiny) (h : KRHeap) (ids : List Nat) (c : KeyRateCollection) (h' : KRHeap)
    (hc : create h ids = (.ok c, h')) (hlen : 2 ≤ ids.length) (dcc : DayCountConvention)
    (hdcc : dcc ≠ .thirty360 ∧ dcc ≠ .unknown) (b : ℚ)
    (hall : ∀ i ∈ ids, (h i).dcc = dcc ∧ (h i).bump = b ∧ AxisOk dcc (h i).keyDate)
    (hb : tiny * 2 ^ 40 ≤ b) (hrep : rnd b = b) (hn : (ids.length : ℚ) * u ≤ 1 / 8) (d : PyDate) :
    ∃ y, Rounded.combinedCompensated rnd h' c d = .ok y ∧
      |y - b| ≤ (12 * ids.length + 24) * (u * b + 2 * tiny) := by
  obtain ⟨ps, c2, c3, hbsum, c4⟩ := collection_values R h ids c h' hc hlen dcc hdcc b hall hb hrep d
  have u0 := R.u_nonneg
  have u1 := R.u_lt
  have ht := R.tiny_pos
  have us : u ≤ 1 / 1000 := R.u_small.trans (by norm_num)
  have hb0 : 0 < b := lt_of_lt_of_le (mul_pos R.tiny_pos (by positivity)) hb
  refine ⟨Rounded.sumCompensated rnd (ps.map Prod.snd), by unfold Rounded.combinedCompensated; rw [c2, ok_bind], ?_⟩
  have hA : ((ps.map Prod.snd).map abs).sum = (ps.map Prod.snd).sum := by
    congr 1
    conv_rhs => rw [← List.map_id (ps.map Prod.snd)]
    refine List.map_congr_left fun x hx => ?_
    obtain ⟨p, hp, rfl⟩ := List.mem_map.1 hx
    obtain ⟨g1, -, g3⟩ := c4 p hp
    exact abs_of_nonneg (g3.nonneg u1 g1)
  have hnear : Near u 8 b (ps.map Prod.snd).sum := by
    rw [← hbsum]
    clear hbsum c3 c2 hA
    induction ps with
    | nil => simp [Near]
    | cons p ps ih =>
      simp only [List.map_cons, List.sum_cons]
      exact (c4 p (by simp)).2.2.add (ih fun q hq => c4 q (by simp [hq]))
  have habs := near_abs u0 u1 (k := 8) (by push_cast; linarith) hb0.le hnear
  have hs := C95_compensated_sum R (ps.map Prod.snd) (by rw [List.length_map, c3]; exact hn)
  rw [hA, List.length_map, c3] at hs
  generalize (ps.map Prod.snd).sum = S at hs habs
  generalize Rounded.sumCompensated rnd (ps.map Prod.snd) = y at hs ⊢
  have hn2 : (2 : ℚ) ≤ ids.length := by exact_mod_cast hlen
  generalize (ids.length : ℚ) = n at hs hn hn2 ⊢
  push_cast at habs
  have hub : 0 ≤ u * b := mul_nonneg u0 hb0.le
  have h1 := abs_sub_abs_le_abs_sub (y - b) (y - S)
  rw [sub_sub_sub_cancel_left] at h1
  have hSb : u * S ≤ u * b * (1 + 16 / 1000) := by
    have h2 := le_abs_self (S - b)
    have h3 : S ≤ b + 16 / 1000 * b := by
      have : 8 * u * b ≤ 8 / 1000 * b := mul_le_mul_of_nonneg_right (by linarith) hb0.le
      linarith
    calc u * S ≤ u * (b + 16 / 1000 * b) := mul_le_mul_of_nonneg_left h3 u0
      _ = u * b * (1 + 16 / 1000) := by ring
  have h4 : (11 * n + 4) * (u * S + 2 * tiny) ≤ (11 * n + 4) * (u * b * (1 + 16 / 1000) + 2 * tiny) :=
    mul_le_mul_of_nonneg_left (by linarith) (by linarith)
  have hnub := mul_nonneg (show 0 ≤ n by linarith) hub
  have hnt := mul_nonneg (show 0 ≤ n by linarith) ht.le
  have e4 : (11 * n + 4) * (u * b * (1 + 16 / 1000) + 2 * tiny) =
      (11 * (n * (u * b)) + 4 * (u * b)) * (1 + 16 / 1000) + 22 * (n * tiny) + 8 * tiny := by ring
  have e5 : (12 * n + 24) * (u * b + 2 * tiny) = 12 * (n * (u * b)) + 24 * (u * b) + 24 * (n * tiny) + 48 * tiny := by ring
  have e6 : 2 * (8 * u) * b = 16 * (u * b) := by ring
  rw [abs_sub_comm S b] at h1
  rw [abs_sub_comm S b] at habs
  linarith

/-- C95. With exact arithmetic the compensation stays zero and `sum` is the sum. -/
theorem C95_compensated_exact (l : List ℚ) : Rounded.sumCompensated id l = l.sum := by
  cases l with
  | nil => rfl
  | cons x l =>
    have : ∀ (l : List ℚ) (f : ℚ), l.foldl (Rounded.compensatedStep id) (f, 0) = (f + l.sum, 0) := by
      intro l
      induction l with
      | nil => intro f; simp
      | cons y l ih =>
        intro f
        have hstep : Rounded.compensatedStep id (f, 0) y = (f + y, 0) := by
          unfold Rounded.compensatedStep
          simp
        rw [List.foldl_cons, hstep, ih, List.sum_cons, add_assoc]
    simp [Rounded.sumCompensated, this]

/-- The parallel shift by one unit of three key rates in double precision, summed with compensation. -/
example : ∃ c h', create (fun i => { exampleHeap i with bump := 1 }) [0, 1, 2] = (.ok c, h') ∧ ∀ d, ∃ y,
    Rounded.combinedCompensated nearest53 h' c d = .ok y ∧ |y - 1| ≤ 60 * (1 / 2 ^ 53 * 1 + 2 * (1 / 2 ^ 1022)) := by
  obtain ⟨c, hc⟩ := (C23_raises_iff (fun i => { exampleHeap i with bump := 1 }) [0, 1, 2]).2.2 (by decide +kernel)
  refine ⟨c, _, Prod.ext hc rfl, fun d => ?_⟩
  obtain ⟨y, h1, h2⟩ := C95_parallel_compensated rounding_nearest53 (fun i => { exampleHeap i with bump := 1 }) [0, 1, 2] c _
    (Prod.ext hc rfl) (by norm_num) .act360 (by decide) 1 (by decide +kernel) (by
      rw [div_mul_eq_mul_div, one_mul, div_le_one (by positivity)]
      exact pow_le_pow_right₀ (by norm_num) (by norm_num)) rounding_nearest53.one (by norm_num) d
  refine ⟨y, h1, h2.trans (le_of_eq ?_)⟩
  congr 1
  norm_num

end Verif.Props
