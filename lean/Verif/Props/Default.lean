/- Properties of simulated default times: C76. -/
import Verif.Model.Default
import Verif.Lemmas.Except
import Mathlib.Probability.Independence.Basic
import Mathlib.Probability.Independence.InfinitePi
import Mathlib.MeasureTheory.Measure.Lebesgue.Basic
import Mathlib.Analysis.SpecialFunctions.Complex.LogBounds

namespace Verif.Props
open Verif Verif.DefaultModels MeasureTheory ProbabilityTheory Filter Topology

/-- The path defaults at the grid time number `j` (counted from 0, that is at time `(j + 1) dt`): this is before maturity, its draw is
at most the default probability, and no earlier draw is. -/
def DefaultsAt (hazard : ℝ → ℝ) (maturity dt : ℝ) (draw : Nat → ℝ) (j : Nat) : Prop :=
  ((j : ℝ) + 1) * dt < maturity ∧ draw j ≤ hazard (((j : ℝ) + 1) * dt) * dt ∧
    ∀ i, i < j → hazard (((i : ℝ) + 1) * dt) * dt < draw i

/-- The path survives: every draw at a grid time before maturity exceeds the default probability. -/
def Survives (hazard : ℝ → ℝ) (maturity dt : ℝ) (draw : Nat → ℝ) : Prop :=
  ∀ i : Nat, ((i : ℝ) + 1) * dt < maturity → hazard (((i : ℝ) + 1) * dt) * dt < draw i

/-- The number of grid times `dt, 2 dt, …` before maturity. -/
noncomputable def stepsBefore (maturity dt : ℝ) : Nat := ⌈maturity / dt⌉₊ - 1

theorem lt_stepsBefore {maturity dt : ℝ} (hdt : 0 < dt) (i : Nat) :
    i < stepsBefore maturity dt ↔ ((i : ℝ) + 1) * dt < maturity := by
  unfold stepsBefore
  have h1 : i < ⌈maturity / dt⌉₊ - 1 ↔ i + 1 < ⌈maturity / dt⌉₊ := by omega
  rw [h1, Nat.lt_ceil, lt_div_iff₀ hdt]
  push_cast
  rfl

theorem pathLoop_spec (hazard : ℝ → ℝ) (maturity dt : ℝ) (hdt : 0 < dt) (draw : Nat → ℝ) (pos : Nat) :
    ∀ (n k : Nat), stepsBefore maturity dt < k + n →
    (∀ i, i < k → ((i : ℝ) + 1) * dt < maturity ∧ hazard (((i : ℝ) + 1) * dt) * dt < draw (pos + i)) →
    (∃ j, DefaultsAt hazard maturity dt (fun m => draw (pos + m)) j ∧
      pathLoop hazard maturity dt draw n (((k : ℝ) + 1) * dt) (pos + k) = .ok (some (((j : ℝ) + 1) * dt), pos + (j + 1))) ∨
    (Survives hazard maturity dt (fun m => draw (pos + m)) ∧
      pathLoop hazard maturity dt draw n (((k : ℝ) + 1) * dt) (pos + k) = .ok (none, pos + stepsBefore maturity dt)) := by
  intro n
  induction n with
  | zero =>
    intro k hk hprev
    exfalso
    have := (lt_stepsBefore hdt (stepsBefore maturity dt)).2 (hprev _ (by omega)).1
    omega
  | succ n ih =>
    intro k hk hprev
    by_cases ht : ((k : ℝ) + 1) * dt < maturity
    · by_cases hu : draw (pos + k) ≤ hazard (((k : ℝ) + 1) * dt) * dt
      · left
        refine ⟨k, ⟨ht, hu, fun i hi => (hprev i hi).2⟩, ?_⟩
        simp only [pathLoop, if_pos ht, if_pos hu]
        rfl
      · have hstep : ∀ i, i < k + 1 → ((i : ℝ) + 1) * dt < maturity ∧ hazard (((i : ℝ) + 1) * dt) * dt < draw (pos + i) := by
          intro i hi
          rcases Nat.lt_succ_iff_lt_or_eq.1 hi with h | rfl
          · exact hprev i h
          · exact ⟨ht, not_le.1 hu⟩
        have := ih (k + 1) (by omega) hstep
        have he : pathLoop hazard maturity dt draw (n + 1) (((k : ℝ) + 1) * dt) (pos + k) =
            pathLoop hazard maturity dt draw n ((((k + 1 : Nat) : ℝ) + 1) * dt) (pos + (k + 1)) := by
          simp only [pathLoop, if_pos ht, if_neg hu]
          congr 1
          push_cast
          ring
        rw [he]
        exact this
    · right
      have hks : k = stepsBefore maturity dt := by
        have h1 : ¬ k < stepsBefore maturity dt := fun h => ht ((lt_stepsBefore hdt k).1 h)
        have h2 : ¬ stepsBefore maturity dt < k := by
          intro h
          have := (lt_stepsBefore hdt (stepsBefore maturity dt)).2 (hprev _ h).1
          omega
        omega
      constructor
      · intro i hi
        exact (hprev i (by rw [hks]; exact (lt_stepsBefore hdt i).2 hi)).2
      · simp only [pathLoop, if_neg ht]
        rw [hks]

/-- C76. Every simulated path, for a positive step: its entry is NaN if it survives every grid time before maturity, and otherwise
the first grid time whose draw is at most hazard times step.  The paths use consecutive draws: one per grid time up to the default or
maturity. -/
theorem C76_default_times (hazard : ℝ → ℝ) (maturity dt : ℝ) (hdt : 0 < dt) (numPaths : Nat) (draw : Nat → ℝ) :
    ∃ ts, defaultBernoulliPaths hazard maturity dt numPaths draw = .ok ts ∧ ts.length = numPaths ∧
      ∃ first : Nat → Nat, first 0 = 0 ∧ ∀ i (hi : i < ts.length),
        (∃ j, DefaultsAt hazard maturity dt (fun m => draw (first i + m)) j ∧ ts[i] = some (((j : ℝ) + 1) * dt) ∧
          first (i + 1) = first i + (j + 1)) ∨
        (Survives hazard maturity dt (fun m => draw (first i + m)) ∧ ts[i] = none ∧
          first (i + 1) = first i + stepsBefore maturity dt) := by
  unfold defaultBernoulliPaths
  suffices H : ∀ n pos, ∃ ts, pathsFrom hazard maturity dt draw (⌈maturity / dt⌉₊ + 1) n pos = .ok ts ∧ ts.length = n ∧
      ∃ first : Nat → Nat, first 0 = pos ∧ ∀ i (hi : i < ts.length),
        (∃ j, DefaultsAt hazard maturity dt (fun m => draw (first i + m)) j ∧ ts[i] = some (((j : ℝ) + 1) * dt) ∧
          first (i + 1) = first i + (j + 1)) ∨
        (Survives hazard maturity dt (fun m => draw (first i + m)) ∧ ts[i] = none ∧
          first (i + 1) = first i + stepsBefore maturity dt) from H numPaths 0
  intro n
  induction n with
  | zero => intro pos; exact ⟨[], rfl, rfl, fun _ => pos, rfl, fun i hi => absurd hi (by simp)⟩
  | succ n ih =>
    intro pos
    have hsp := pathLoop_spec hazard maturity dt hdt draw pos (⌈maturity / dt⌉₊ + 1) 0
      (by unfold stepsBefore; omega) (fun i hi => absurd hi (by omega))
    simp only [Nat.cast_zero, zero_add, one_mul, Nat.add_zero] at hsp
    have fin : ∀ (t : Option ℝ) (pos' : Nat),
        pathLoop hazard maturity dt draw (⌈maturity / dt⌉₊ + 1) dt pos = .ok (t, pos') →
        ((∃ j, DefaultsAt hazard maturity dt (fun m => draw (pos + m)) j ∧ t = some (((j : ℝ) + 1) * dt) ∧ pos' = pos + (j + 1)) ∨
        (Survives hazard maturity dt (fun m => draw (pos + m)) ∧ t = none ∧ pos' = pos + stepsBefore maturity dt)) →
        ∃ ts, pathsFrom hazard maturity dt draw (⌈maturity / dt⌉₊ + 1) (n + 1) pos = .ok ts ∧ ts.length = n + 1 ∧
          ∃ first : Nat → Nat, first 0 = pos ∧ ∀ i (hi : i < ts.length),
            (∃ j, DefaultsAt hazard maturity dt (fun m => draw (first i + m)) j ∧ ts[i] = some (((j : ℝ) + 1) * dt) ∧
              first (i + 1) = first i + (j + 1)) ∨
            (Survives hazard maturity dt (fun m => draw (first i + m)) ∧ ts[i] = none ∧
              first (i + 1) = first i + stepsBefore maturity dt) := by
      intro t pos' hl hcase
      obtain ⟨ts, hts, hlen, first, hf0, hall⟩ := ih pos'
      refine ⟨t :: ts, ?_, by simp [hlen], fun i => if i = 0 then pos else first (i - 1), by simp, ?_⟩
      · simp only [pathsFrom, hl, ok_bind, hts]
      · intro i hi
        rcases i with _ | i
        · simpa [hf0] using hcase
        · have := hall i (by simpa using hi)
          simpa using this
    rcases hsp with ⟨j, hj, hl⟩ | ⟨hs, hl⟩
    · exact fin _ _ hl (Or.inl ⟨j, hj, rfl, rfl⟩)
    · exact fin _ _ hl (Or.inr ⟨hs, rfl, rfl⟩)

/-- C76. So a simulated default is at a positive multiple of the step strictly before maturity: the interval from the last grid time to
maturity is never tested. -/
theorem C76_before_maturity (hazard : ℝ → ℝ) (maturity dt : ℝ) (hdt : 0 < dt) (numPaths : Nat) (draw : Nat → ℝ) (ts : List (Option ℝ))
    (h : defaultBernoulliPaths hazard maturity dt numPaths draw = .ok ts) (t : ℝ) (ht : some t ∈ ts) :
    0 < t ∧ t < maturity ∧ ∃ j : Nat, 0 < j ∧ t = j * dt := by
  obtain ⟨ts', h', -, first, -, hall⟩ := C76_default_times hazard maturity dt hdt numPaths draw
  rw [h] at h'
  injection h' with h'
  subst h'
  obtain ⟨i, hi, he⟩ := List.getElem_of_mem ht
  rcases hall i hi with ⟨j, hj, e, -⟩ | ⟨-, e, -⟩
  · rw [he] at e
    injection e with e
    subst e
    exact ⟨by positivity, hj.1, j + 1, by omega, by push_cast; ring⟩
  · rw [he] at e; cases e

/-- C76 (failure). With a step of zero or less, below maturity, a path whose draws all exceed the default probabilities never ends:
no number of iterations is enough. -/
theorem C76_diverges (hazard : ℝ → ℝ) (maturity dt : ℝ) (hdt : dt ≤ 0) (hm : dt < maturity) (draw : Nat → ℝ)
    (hd : ∀ i : Nat, hazard (((i : ℝ) + 1) * dt) * dt < draw i) (n : Nat) :
    pathLoop hazard maturity dt draw n dt 0 = .error .fuel := by
  suffices H : ∀ n k : Nat, pathLoop hazard maturity dt draw n (((k : ℝ) + 1) * dt) k = .error .fuel by
    have := H n 0
    simpa using this
  intro n
  induction n with
  | zero => intro k; rfl
  | succ n ih =>
    intro k
    have h1 : ((k : ℝ) + 1) * dt < maturity := by
      have : (k : ℝ) * dt ≤ 0 := mul_nonpos_of_nonneg_of_nonpos (by positivity) hdt
      linarith
    simp only [pathLoop, if_pos h1, if_neg (not_le.2 (hd k))]
    have e : ((k : ℝ) + 1) * dt + dt = (((k + 1 : Nat) : ℝ) + 1) * dt := by push_cast; ring
    rw [e]
    exact ih (k + 1)

/-- Independent draws, uniform on [0, 1]: what numpy's generator is assumed to produce. -/
structure UniformDraws {Ω : Type} [MeasurableSpace Ω] (μ : Measure Ω) (U : Nat → Ω → ℝ) : Prop where
  measurable : ∀ k, Measurable (U k)
  law : ∀ k, μ.map (U k) = volume.restrict (Set.Icc 0 1)
  independent : iIndepFun U μ

/-- A number as a probability: at least 0 and at most 1. -/
noncomputable def clampProb (x : ℝ) : ℝ := max 0 (min 1 x)

theorem UniformDraws.above {Ω : Type} [MeasurableSpace Ω] {μ : Measure Ω} {U : Nat → Ω → ℝ} (h : UniformDraws μ U) (k : Nat) (p : ℝ) :
    μ (U k ⁻¹' Set.Ioi p) = ENNReal.ofReal (1 - clampProb p) := by
  rw [← Measure.map_apply (h.measurable k) measurableSet_Ioi, h.law k, Measure.restrict_apply measurableSet_Ioi]
  unfold clampProb
  rcases lt_trichotomy p 0 with hp | hp | hp
  · have e : Set.Ioi p ∩ Set.Icc (0 : ℝ) 1 = Set.Icc 0 1 := by
      ext x; simp only [Set.mem_inter_iff, Set.mem_Ioi, Set.mem_Icc]; constructor
      · exact fun h => h.2
      · exact fun h => ⟨by linarith [h.1], h⟩
    rw [e, Real.volume_Icc, min_eq_right (by linarith), max_eq_left (by linarith)]
  · subst hp
    have e : Set.Ioi (0 : ℝ) ∩ Set.Icc (0 : ℝ) 1 = Set.Ioc 0 1 := by
      ext x; simp only [Set.mem_inter_iff, Set.mem_Ioi, Set.mem_Icc, Set.mem_Ioc]; constructor
      · exact fun h => ⟨h.1, h.2.2⟩
      · exact fun h => ⟨h.1, h.1.le, h.2⟩
    rw [e, Real.volume_Ioc, min_eq_right (by linarith), max_eq_left le_rfl]
  · have e : Set.Ioi p ∩ Set.Icc (0 : ℝ) 1 = Set.Ioc p 1 := by
      ext x; simp only [Set.mem_inter_iff, Set.mem_Ioi, Set.mem_Icc, Set.mem_Ioc]; constructor
      · exact fun h => ⟨h.1, h.2.2⟩
      · exact fun h => ⟨h.1, by linarith [h.1], h.2⟩
    rw [e, Real.volume_Ioc, max_eq_right (le_min zero_le_one hp.le)]
    rcases le_total 1 p with h1 | h1
    · rw [min_eq_left h1, ENNReal.ofReal_of_nonpos (by linarith), sub_self, ENNReal.ofReal_zero]
    · rw [min_eq_right h1]

theorem UniformDraws.atMost {Ω : Type} [MeasurableSpace Ω] {μ : Measure Ω} [IsProbabilityMeasure μ] {U : Nat → Ω → ℝ}
    (h : UniformDraws μ U) (k : Nat) (p : ℝ) : μ (U k ⁻¹' Set.Iic p) = ENNReal.ofReal (clampProb p) := by
  have hc : U k ⁻¹' Set.Iic p = (U k ⁻¹' Set.Ioi p)ᶜ := by ext ω; simp
  have h0 : 0 ≤ clampProb p := le_max_left _ _
  have h1 : clampProb p ≤ 1 := max_le zero_le_one (min_le_left _ _)
  rw [hc, prob_compl_eq_one_sub (h.measurable k measurableSet_Ioi), h.above k p, ← ENNReal.ofReal_one,
    ← ENNReal.ofReal_sub _ (by linarith)]
  congr 1
  ring

/-- The chance of surviving the first `n` grid times. -/
theorem survive_first {Ω : Type} [MeasurableSpace Ω] {μ : Measure Ω} [IsProbabilityMeasure μ] {U : Nat → Ω → ℝ}
    (h : UniformDraws μ U) (p : Nat → ℝ) (pos n : Nat) (S : Set ℝ) (hS : MeasurableSet S) :
    μ {ω | (∀ i < n, p i < U (pos + i) ω) ∧ U (pos + n) ω ∈ S} =
      (∏ i ∈ Finset.range n, ENNReal.ofReal (1 - clampProb (p i))) * μ (U (pos + n) ⁻¹' S) := by
  have hind := h.independent.measure_inter_preimage_eq_mul (S := (Finset.range (n + 1)).map (addLeftEmbedding pos))
    (sets := fun k => if k = pos + n then S else Set.Ioi (p (k - pos)))
    (fun i _ => by split_ifs; exacts [hS, measurableSet_Ioi])
  have hset : {ω | (∀ i < n, p i < U (pos + i) ω) ∧ U (pos + n) ω ∈ S} =
      ⋂ i ∈ (Finset.range (n + 1)).map (addLeftEmbedding pos), U i ⁻¹' (if i = pos + n then S else Set.Ioi (p (i - pos))) := by
    ext ω
    simp only [Set.mem_setOf_eq, Finset.mem_map, Finset.mem_range, Set.mem_iInter, Set.mem_preimage]
    constructor
    · rintro ⟨h1, h2⟩ k ⟨i, hi, rfl⟩
      simp only [addLeftEmbedding_apply]
      by_cases e : i = n
      · subst e; simpa using h2
      · rw [if_neg (by omega), Nat.add_sub_cancel_left]
        exact h1 i (by omega)
    · intro H
      constructor
      · intro i hi
        have := H (pos + i) ⟨i, by omega, rfl⟩
        rw [if_neg (by omega), Nat.add_sub_cancel_left] at this
        exact this
      · have := H (pos + n) ⟨n, by omega, rfl⟩
        simpa using this
  rw [hset, hind, Finset.prod_map, Finset.prod_range_succ]
  simp only [addLeftEmbedding_apply]
  congr 1
  · refine Finset.prod_congr rfl fun i hi => ?_
    have hi := Finset.mem_range.1 hi
    rw [if_neg (by omega), Nat.add_sub_cancel_left]
    exact h.above _ _

/-- C76. With independent uniform draws, the path that starts at draw number `pos` survives with probability equal to the product over
the grid times before maturity of one minus the default probability of the step (hazard times step, brought into [0, 1]). -/
theorem C76_survival_probability {Ω : Type} [MeasurableSpace Ω] {μ : Measure Ω} [IsProbabilityMeasure μ] {U : Nat → Ω → ℝ}
    (h : UniformDraws μ U) (hazard : ℝ → ℝ) (maturity dt : ℝ) (hdt : 0 < dt) (pos : Nat) :
    μ {ω | ∃ q, pathLoop hazard maturity dt (fun k => U k ω) (⌈maturity / dt⌉₊ + 1) dt pos = .ok (none, q)} =
      ENNReal.ofReal (∏ i ∈ Finset.range (stepsBefore maturity dt), (1 - clampProb (hazard (((i : ℝ) + 1) * dt) * dt))) := by
  have hset : {ω | ∃ q, pathLoop hazard maturity dt (fun k => U k ω) (⌈maturity / dt⌉₊ + 1) dt pos = .ok (none, q)} =
      {ω | (∀ i < stepsBefore maturity dt, hazard (((i : ℝ) + 1) * dt) * dt < U (pos + i) ω) ∧
        U (pos + stepsBefore maturity dt) ω ∈ Set.univ} := by
    ext ω
    simp only [Set.mem_setOf_eq, Set.mem_univ, and_true]
    have hsp := pathLoop_spec hazard maturity dt hdt (fun k => U k ω) pos (⌈maturity / dt⌉₊ + 1) 0
      (by unfold stepsBefore; omega) (fun i hi => absurd hi (by omega))
    simp only [Nat.cast_zero, zero_add, one_mul, Nat.add_zero] at hsp
    rcases hsp with ⟨j, hj, hl⟩ | ⟨hs, hl⟩
    · rw [hl]
      constructor
      · rintro ⟨q, e⟩; injection e with e; injection e with e; cases e
      · intro H
        exact absurd hj.2.1 (not_le.2 (H j ((lt_stepsBefore hdt j).2 hj.1)))
    · exact ⟨fun _ i hi => hs i ((lt_stepsBefore hdt i).1 hi), fun _ => ⟨_, hl⟩⟩
  rw [hset, survive_first h (fun i => hazard (((i : ℝ) + 1) * dt) * dt) pos _ Set.univ MeasurableSet.univ]
  rw [Set.preimage_univ, measure_univ, mul_one, ENNReal.ofReal_prod_of_nonneg]
  intro i _
  have : clampProb (hazard (((i : ℝ) + 1) * dt) * dt) ≤ 1 := max_le zero_le_one (min_le_left _ _)
  linarith

/-- C76. The default time has the distribution of the first success: it is the grid time number `j` before maturity with the
probability of surviving the earlier ones times the default probability of this one. -/
theorem C76_default_probability {Ω : Type} [MeasurableSpace Ω] {μ : Measure Ω} [IsProbabilityMeasure μ] {U : Nat → Ω → ℝ}
    (h : UniformDraws μ U) (hazard : ℝ → ℝ) (maturity dt : ℝ) (hdt : 0 < dt) (pos j : Nat) (hj : ((j : ℝ) + 1) * dt < maturity) :
    μ {ω | ∃ q, pathLoop hazard maturity dt (fun k => U k ω) (⌈maturity / dt⌉₊ + 1) dt pos = .ok (some (((j : ℝ) + 1) * dt), q)} =
      ENNReal.ofReal ((∏ i ∈ Finset.range j, (1 - clampProb (hazard (((i : ℝ) + 1) * dt) * dt))) *
        clampProb (hazard (((j : ℝ) + 1) * dt) * dt)) := by
  have hset : {ω | ∃ q, pathLoop hazard maturity dt (fun k => U k ω) (⌈maturity / dt⌉₊ + 1) dt pos =
        .ok (some (((j : ℝ) + 1) * dt), q)} =
      {ω | (∀ i < j, hazard (((i : ℝ) + 1) * dt) * dt < U (pos + i) ω) ∧
        U (pos + j) ω ∈ Set.Iic (hazard (((j : ℝ) + 1) * dt) * dt)} := by
    ext ω
    simp only [Set.mem_setOf_eq, Set.mem_Iic]
    have hsp := pathLoop_spec hazard maturity dt hdt (fun k => U k ω) pos (⌈maturity / dt⌉₊ + 1) 0
      (by unfold stepsBefore; omega) (fun i hi => absurd hi (by omega))
    simp only [Nat.cast_zero, zero_add, one_mul, Nat.add_zero] at hsp
    rcases hsp with ⟨k, hk, hl⟩ | ⟨hs, hl⟩
    · rw [hl]
      constructor
      · rintro ⟨q, e⟩
        injection e with e; injection e with e _; injection e with e
        have hkj : k = j := by
          have := mul_right_cancel₀ hdt.ne' e
          exact_mod_cast (add_right_cancel this)
        subst hkj
        exact ⟨hk.2.2, hk.2.1⟩
      · rintro ⟨h1, h2⟩
        have hkj : k = j := by
          rcases lt_trichotomy k j with hlt | he | hgt
          · exact absurd hk.2.1 (not_le.2 (h1 k hlt))
          · exact he
          · exact absurd h2 (not_le.2 (hk.2.2 j hgt))
        subst hkj
        exact ⟨_, rfl⟩
    · rw [hl]
      constructor
      · rintro ⟨q, e⟩; injection e with e; injection e with e; cases e
      · rintro ⟨-, h2⟩
        exact absurd h2 (not_le.2 (hs j hj))
  rw [hset, survive_first h (fun i => hazard (((i : ℝ) + 1) * dt) * dt) pos j _ measurableSet_Iic, h.atMost]
  have hnn : ∀ x, 0 ≤ 1 - clampProb x := fun x => by
    have : clampProb x ≤ 1 := max_le zero_le_one (min_le_left _ _)
    linarith
  rw [ENNReal.ofReal_mul (Finset.prod_nonneg fun i _ => hnn _), ENNReal.ofReal_prod_of_nonneg fun i _ => hnn _]

/-- C76. For a constant hazard rate the survival probability tends to `exp (- rate * maturity)` as the step is refined. -/
theorem C76_constant_hazard {Ω : Type} [MeasurableSpace Ω] {μ : Measure Ω} [IsProbabilityMeasure μ] {U : Nat → Ω → ℝ}
    (h : UniformDraws μ U) (rate maturity : ℝ) (hr : 0 ≤ rate) (hm : 0 < maturity) (pos : Nat) :
    Tendsto (fun n : Nat => μ {ω | ∃ q, pathLoop (fun _ => rate) maturity (maturity / (n + 1 : Nat)) (fun k => U k ω)
        (⌈maturity / (maturity / (n + 1 : Nat))⌉₊ + 1) (maturity / (n + 1 : Nat)) pos = .ok (none, q)})
      atTop (𝓝 (ENNReal.ofReal (Real.exp (-(rate * maturity))))) := by
  have hstep : ∀ n : Nat, 0 < maturity / ((n + 1 : Nat) : ℝ) := fun n => by positivity
  have hcount : ∀ n : Nat, stepsBefore maturity (maturity / ((n + 1 : Nat) : ℝ)) = n := by
    intro n
    unfold stepsBefore
    rw [div_div_cancel₀ hm.ne', Nat.ceil_natCast, Nat.add_sub_cancel]
  have heq : ∀ n : Nat, μ {ω | ∃ q, pathLoop (fun _ => rate) maturity (maturity / (n + 1 : Nat)) (fun k => U k ω)
      (⌈maturity / (maturity / (n + 1 : Nat))⌉₊ + 1) (maturity / (n + 1 : Nat)) pos = .ok (none, q)} =
      ENNReal.ofReal ((1 - clampProb (rate * (maturity / ((n + 1 : Nat) : ℝ)))) ^ n) := by
    intro n
    rw [C76_survival_probability h (fun _ => rate) maturity _ (hstep n) pos, hcount n, Finset.prod_const, Finset.card_range]
  simp only [heq]
  refine ENNReal.tendsto_ofReal ?_
  have hlim : Tendsto (fun n : Nat => (1 + -(rate * maturity) / ((n + 1 : Nat) : ℝ)) ^ (n + 1)) atTop (𝓝 (Real.exp (-(rate * maturity)))) :=
    (Real.tendsto_one_add_div_pow_exp (-(rate * maturity))).comp (tendsto_add_atTop_nat 1)
  have hbase : Tendsto (fun n : Nat => 1 + -(rate * maturity) / ((n + 1 : Nat) : ℝ)) atTop (𝓝 1) := by
    have : Tendsto (fun n : Nat => -(rate * maturity) / ((n + 1 : Nat) : ℝ)) atTop (𝓝 0) :=
      (tendsto_const_div_atTop_nhds_zero_nat (-(rate * maturity))).comp (tendsto_add_atTop_nat 1)
    simpa using this.const_add 1
  have hdiv := hlim.div hbase one_ne_zero
  rw [div_one] at hdiv
  refine hdiv.congr' ?_
  filter_upwards [eventually_gt_atTop ⌈rate * maturity⌉₊] with n hn
  have hlt : rate * maturity < ((n + 1 : Nat) : ℝ) := by
    have h1 := Nat.le_ceil (rate * maturity)
    have h2 : ((⌈rate * maturity⌉₊ : Nat) : ℝ) < n := by exact_mod_cast hn
    push_cast
    linarith
  have hpos : (0 : ℝ) < ((n + 1 : Nat) : ℝ) := by positivity
  have hx : clampProb (rate * (maturity / ((n + 1 : Nat) : ℝ))) = rate * maturity / ((n + 1 : Nat) : ℝ) := by
    unfold clampProb
    rw [← mul_div_assoc, min_eq_right (by rw [div_le_one hpos]; exact hlt.le), max_eq_right (by positivity)]
  have hb : (1 + -(rate * maturity) / ((n + 1 : Nat) : ℝ)) = 1 - rate * maturity / ((n + 1 : Nat) : ℝ) := by ring
  have hb0 : (0 : ℝ) < 1 - rate * maturity / ((n + 1 : Nat) : ℝ) := by
    rw [sub_pos, div_lt_one hpos]; exact hlt
  simp only [Pi.div_apply]
  rw [hx, hb, pow_succ, mul_div_assoc, div_self hb0.ne', mul_one]

/-- Concrete case for C76: hazard 1, maturity 1, step 1/4; the draws 0.9, 0.1 give a default at the second grid time. -/
example : DefaultsAt (fun _ => 1) 1 (1 / 4) (fun k => if k = 0 then 9 / 10 else 1 / 10) 1 := by
  refine ⟨by norm_num, by norm_num, ?_⟩
  intro i hi
  have : i = 0 := by omega
  subst this
  norm_num

/-- Concrete case for C76: independent uniform draws exist. -/
example : ∃ (Ω : Type) (_ : MeasurableSpace Ω) (μ : Measure Ω) (_ : IsProbabilityMeasure μ) (U : Nat → Ω → ℝ), UniformDraws μ U := by
  have hp : IsProbabilityMeasure (volume.restrict (Set.Icc (0 : ℝ) 1)) := ⟨by simp⟩
  refine ⟨Nat → ℝ, inferInstance, Measure.infinitePi fun _ => volume.restrict (Set.Icc (0 : ℝ) 1), inferInstance, fun k ω => ω k,
    fun k => measurable_pi_apply k, fun k => ?_, ?_⟩
  · exact Measure.infinitePi_map_eval _ k
  · exact iIndepFun_infinitePi (X := fun _ x => x) (fun _ => measurable_id)

end Verif.Props
