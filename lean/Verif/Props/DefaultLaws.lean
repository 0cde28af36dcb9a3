/- The laws of simulated default times: C135. -/
import Verif.Props.Default
import Mathlib.Data.List.GetD
import Mathlib.Probability.StrongLaw
import Mathlib.Probability.Moments.Variance
import Mathlib.MeasureTheory.Integral.IntervalIntegral.Basic

namespace Verif.Props
open Verif Verif.DefaultModels MeasureTheory ProbabilityTheory Filter Topology

variable {Ω : Type} [MeasurableSpace Ω] {μ : Measure Ω} {U : Nat → Ω → ℝ}

/-- Consecutive draws, from number `pos` on, lie in the given sets. -/
def DrawsIn (U : Nat → Ω → ℝ) (pos : Nat) : List (Set ℝ) → Set Ω
  | [] => Set.univ
  | S :: L => U pos ⁻¹' S ∩ DrawsIn U (pos + 1) L

theorem mem_drawsIn {U : Nat → Ω → ℝ} {ω : Ω} : ∀ {L : List (Set ℝ)} {pos : Nat},
    ω ∈ DrawsIn U pos L ↔ ∀ i (h : i < L.length), U (pos + i) ω ∈ L[i] := by
  intro L
  induction L with
  | nil => intro pos; simp [DrawsIn]
  | cons S L ih =>
    intro pos
    simp only [DrawsIn, Set.mem_inter_iff, Set.mem_preimage, ih]
    constructor
    · rintro ⟨h0, h1⟩ i hi
      rcases i with _ | i
      · simpa using h0
      · have := h1 i (by simpa using hi)
        rw [show pos + (i + 1) = pos + 1 + i by omega]
        simpa using this
    · intro H
      refine ⟨H 0 (Nat.succ_pos _), fun i hi => ?_⟩
      have := H (i + 1) (by simpa using hi)
      rw [show pos + (i + 1) = pos + 1 + i by omega] at this
      simpa using this

theorem drawsIn_append {U : Nat → Ω → ℝ} : ∀ (L M : List (Set ℝ)) (pos : Nat),
    DrawsIn U pos (L ++ M) = DrawsIn U pos L ∩ DrawsIn U (pos + L.length) M := by
  intro L
  induction L with
  | nil => intro M pos; simp [DrawsIn]
  | cons S L ih =>
    intro M pos
    simp only [List.cons_append, DrawsIn, ih, List.length_cons]
    rw [show pos + (L.length + 1) = pos + 1 + L.length by omega, Set.inter_assoc]

theorem UniformDraws.measurable_drawsIn (h : UniformDraws μ U) : ∀ (L : List (Set ℝ)) (pos : Nat), (∀ S ∈ L, MeasurableSet S) →
    MeasurableSet (DrawsIn U pos L) := by
  intro L
  induction L with
  | nil => intro pos _; exact MeasurableSet.univ
  | cons S L ih =>
    intro pos hL
    exact (h.measurable pos (hL S (by simp))).inter (ih _ fun S' hS' => hL S' (by simp [hS']))

/-- The probability that one draw lies in a set. -/
noncomputable def drawProb (S : Set ℝ) : ENNReal := volume.restrict (Set.Icc (0 : ℝ) 1) S

theorem UniformDraws.drawsIn_prob [IsProbabilityMeasure μ] (h : UniformDraws μ U) (L : List (Set ℝ)) (pos : Nat)
    (hL : ∀ S ∈ L, MeasurableSet S) : μ (DrawsIn U pos L) = (L.map drawProb).prod := by
  have hind := h.independent.measure_inter_preimage_eq_mul (S := (Finset.range L.length).map (addLeftEmbedding pos))
    (sets := fun k => L.getD (k - pos) Set.univ) (fun k hk => by
      obtain ⟨i, hi, rfl⟩ := Finset.mem_map.1 hk
      simp only [addLeftEmbedding_apply, Nat.add_sub_cancel_left]
      have hi := Finset.mem_range.1 hi
      rw [List.getD_eq_getElem _ _ hi]
      exact hL _ (List.getElem_mem hi))
  have hset : DrawsIn U pos L = ⋂ k ∈ (Finset.range L.length).map (addLeftEmbedding pos), U k ⁻¹' (L.getD (k - pos) Set.univ) := by
    ext ω
    simp only [mem_drawsIn, Finset.mem_map, Finset.mem_range, Set.mem_iInter, Set.mem_preimage]
    constructor
    · rintro H k ⟨i, hi, rfl⟩
      simp only [addLeftEmbedding_apply, Nat.add_sub_cancel_left]
      rw [List.getD_eq_getElem _ _ hi]
      exact H i hi
    · intro H i hi
      have := H (pos + i) ⟨i, hi, rfl⟩
      rw [Nat.add_sub_cancel_left, List.getD_eq_getElem _ _ hi] at this
      exact this
  rw [hset, hind, Finset.prod_map]
  have : ∀ i ∈ Finset.range L.length, μ (U (addLeftEmbedding pos i) ⁻¹' (L.getD (addLeftEmbedding pos i - pos) Set.univ)) =
      (L.map drawProb).getD i 1 := by
    intro i hi
    have hi := Finset.mem_range.1 hi
    simp only [addLeftEmbedding_apply, Nat.add_sub_cancel_left]
    rw [List.getD_eq_getElem _ _ hi, List.getD_eq_getElem _ _ (by simpa using hi), List.getElem_map, drawProb,
      ← Measure.map_apply (h.measurable _) (hL _ (List.getElem_mem hi)), h.law]
  rw [Finset.prod_congr rfl this]
  clear this hset hind
  induction L with
  | nil => simp
  | cons S L ih =>
    rw [List.length_cons, Finset.prod_range_succ']
    simp only [List.map_cons, List.getD_cons_succ, List.getD_cons_zero, List.prod_cons]
    rw [ih fun S' hS' => hL S' (by simp [hS']), mul_comm]

/-! ### One path -/

/-- The entry of a path: number `j` below the number of grid times before maturity stands for a default at grid time `(j + 1) dt`, that number itself
for survival. -/
noncomputable def defaultOutcome (maturity dt : ℝ) (j : Nat) : Option ℝ :=
  if j < stepsBefore maturity dt then some (((j : ℝ) + 1) * dt) else none

/-- The sets in which the draws of a path with that entry lie. -/
noncomputable def outcomeDraws (hazard : ℝ → ℝ) (maturity dt : ℝ) (j : Nat) : List (Set ℝ) :=
  (List.range j).map (fun i : Nat => Set.Ioi (hazard (((i : ℝ) + 1) * dt) * dt)) ++
    if j < stepsBefore maturity dt then [Set.Iic (hazard (((j : ℝ) + 1) * dt) * dt)] else []

/-- The probability of surviving the first `j` grid times. -/
noncomputable def survivalTo (hazard : ℝ → ℝ) (dt : ℝ) (j : Nat) : ℝ :=
  ∏ i ∈ Finset.range j, (1 - clampProb (hazard (((i : ℝ) + 1) * dt) * dt))

/-- The probability of an entry. -/
noncomputable def outcomeProb (hazard : ℝ → ℝ) (maturity dt : ℝ) (j : Nat) : ℝ :=
  if j < stepsBefore maturity dt then survivalTo hazard dt j * clampProb (hazard (((j : ℝ) + 1) * dt) * dt)
  else survivalTo hazard dt j

theorem clampProb_nonneg (x : ℝ) : 0 ≤ clampProb x := le_max_left _ _
theorem clampProb_le_one (x : ℝ) : clampProb x ≤ 1 := max_le zero_le_one (min_le_left _ _)

theorem survivalTo_nonneg (hazard : ℝ → ℝ) (dt : ℝ) (j : Nat) : 0 ≤ survivalTo hazard dt j :=
  Finset.prod_nonneg fun i _ => by linarith [clampProb_le_one (hazard (((i : ℝ) + 1) * dt) * dt)]

theorem outcomeProb_nonneg (hazard : ℝ → ℝ) (maturity dt : ℝ) (j : Nat) : 0 ≤ outcomeProb hazard maturity dt j := by
  unfold outcomeProb
  split_ifs
  · exact mul_nonneg (survivalTo_nonneg _ _ _) (clampProb_nonneg _)
  · exact survivalTo_nonneg _ _ _

theorem defaultOutcome_injective {maturity dt : ℝ} (hdt : 0 < dt) {i j : Nat} (hi : i ≤ stepsBefore maturity dt) (hj : j ≤ stepsBefore maturity dt)
    (h : defaultOutcome maturity dt i = defaultOutcome maturity dt j) : i = j := by
  unfold defaultOutcome at h
  split_ifs at h with h1 h2 h2
  · injection h with h
    have := mul_right_cancel₀ hdt.ne' h
    exact_mod_cast (add_right_cancel this)
  · omega

theorem measurable_outcomeDraws (hazard : ℝ → ℝ) (maturity dt : ℝ) (j : Nat) : ∀ S ∈ outcomeDraws hazard maturity dt j, MeasurableSet S := by
  intro S hS
  unfold outcomeDraws at hS
  rcases List.mem_append.1 hS with h | h
  · obtain ⟨i, -, rfl⟩ := List.mem_map.1 h
    exact measurableSet_Ioi
  · split_ifs at h
    · rw [List.mem_singleton.1 h]; exact measurableSet_Iic
    · simp at h

theorem UniformDraws.outcomeDraws_prob [IsProbabilityMeasure μ] (h : UniformDraws μ U) (hazard : ℝ → ℝ) (maturity dt : ℝ) (j : Nat) :
    ((outcomeDraws hazard maturity dt j).map drawProb).prod = ENNReal.ofReal (outcomeProb hazard maturity dt j) := by
  have hnn : ∀ x, 0 ≤ 1 - clampProb x := fun x => by linarith [clampProb_le_one x]
  have h1 : ∀ x, drawProb (Set.Ioi x) = ENNReal.ofReal (1 - clampProb x) := fun x => by
    rw [drawProb, ← h.law 0, Measure.map_apply (h.measurable 0) measurableSet_Ioi, h.above]
  have h2 : ∀ x, drawProb (Set.Iic x) = ENNReal.ofReal (clampProb x) := fun x => by
    rw [drawProb, ← h.law 0, Measure.map_apply (h.measurable 0) measurableSet_Iic, h.atMost]
  have h3 : (((List.range j).map (fun i : Nat => Set.Ioi (hazard (((i : ℝ) + 1) * dt) * dt))).map drawProb).prod =
      ENNReal.ofReal (survivalTo hazard dt j) := by
    unfold survivalTo
    rw [ENNReal.ofReal_prod_of_nonneg fun i _ => hnn _]
    induction j with
    | zero => simp
    | succ j ih => rw [List.range_succ, List.map_append, List.map_append, List.prod_append, ih, Finset.prod_range_succ]; simp [h1]
  unfold outcomeDraws outcomeProb
  rw [List.map_append, List.prod_append, h3]
  split_ifs
  · rw [ENNReal.ofReal_mul (survivalTo_nonneg _ _ _)]
    simp [h2]
  · simp

theorem pathLoop_outcome {hazard : ℝ → ℝ} {maturity dt : ℝ} (hdt : 0 < dt) (draw : Nat → ℝ) (pos : Nat) :
    ∃ j, j ≤ stepsBefore maturity dt ∧ pathLoop hazard maturity dt draw (⌈maturity / dt⌉₊ + 1) dt pos =
      .ok (defaultOutcome maturity dt j, pos + (outcomeDraws hazard maturity dt j).length) ∧
      ∀ j', j' ≤ stepsBefore maturity dt → ((∀ i (h : i < (outcomeDraws hazard maturity dt j').length),
        draw (pos + i) ∈ (outcomeDraws hazard maturity dt j')[i]) ↔ j' = j) := by
  have key : ∀ j, j ≤ stepsBefore maturity dt → ((∀ i (h : i < (outcomeDraws hazard maturity dt j).length),
      draw (pos + i) ∈ (outcomeDraws hazard maturity dt j)[i]) ↔
      (∀ i < j, hazard (((i : ℝ) + 1) * dt) * dt < draw (pos + i)) ∧
        (j < stepsBefore maturity dt → draw (pos + j) ≤ hazard (((j : ℝ) + 1) * dt) * dt)) := by
    intro j hj
    by_cases hlt : j < stepsBefore maturity dt
    · have e : outcomeDraws hazard maturity dt j = (List.range j).map (fun i : Nat => Set.Ioi (hazard (((i : ℝ) + 1) * dt) * dt)) ++
          [Set.Iic (hazard (((j : ℝ) + 1) * dt) * dt)] := by unfold outcomeDraws; rw [if_pos hlt]
      rw [e]
      constructor
      · intro H
        refine ⟨fun i hi => ?_, fun _ => ?_⟩
        · have := H i (by simp; omega)
          rw [List.getElem_append_left (by simpa using hi)] at this
          simpa using this
        · have := H j (by simp)
          rw [List.getElem_append_right (by simp)] at this
          simpa using this
      · rintro ⟨H1, H2⟩ i hi
        have hi' : i < j ∨ i = j := by simp at hi; omega
        rcases hi' with hi' | rfl
        · rw [List.getElem_append_left (by simpa using hi')]
          simpa using H1 i hi'
        · rw [List.getElem_append_right (by simp)]
          simpa using H2 hlt
    · have e : outcomeDraws hazard maturity dt j = (List.range j).map (fun i : Nat => Set.Ioi (hazard (((i : ℝ) + 1) * dt) * dt)) := by
        unfold outcomeDraws; rw [if_neg hlt, List.append_nil]
      rw [e]
      constructor
      · intro H
        refine ⟨fun i hi => ?_, fun h => absurd h hlt⟩
        have := H i (by simpa using hi)
        rw [List.getElem_map, List.getElem_range] at this
        exact this
      · rintro ⟨H1, -⟩ i hi
        simpa using H1 i (by simpa using hi)
  have uniq : ∀ j, j ≤ stepsBefore maturity dt → (∀ i (h : i < (outcomeDraws hazard maturity dt j).length),
      draw (pos + i) ∈ (outcomeDraws hazard maturity dt j)[i]) →
      ∀ j', j' ≤ stepsBefore maturity dt → ((∀ i (h : i < (outcomeDraws hazard maturity dt j').length),
        draw (pos + i) ∈ (outcomeDraws hazard maturity dt j')[i]) ↔ j' = j) := by
    intro j hj H j' hj'
    constructor
    · intro H'
      obtain ⟨a, b⟩ := (key j hj).1 H
      obtain ⟨a', b'⟩ := (key j' hj').1 H'
      rcases lt_trichotomy j' j with h | h | h
      · exact absurd (b' (by omega)) (not_le.2 (a j' h))
      · exact h
      · exact absurd (b (by omega)) (not_le.2 (a' j h))
    · rintro rfl; exact H
  have hsp := pathLoop_spec hazard maturity dt hdt draw pos (⌈maturity / dt⌉₊ + 1) 0
    (by unfold stepsBefore; omega) (fun i hi => absurd hi (by omega))
  simp only [Nat.cast_zero, zero_add, one_mul, Nat.add_zero] at hsp
  rcases hsp with ⟨j, hj, hl⟩ | ⟨hs, hl⟩
  · have hjN := (lt_stepsBefore hdt j).2 hj.1
    refine ⟨j, hjN.le, ?_, uniq j hjN.le ((key j hjN.le).2 ⟨hj.2.2, fun _ => hj.2.1⟩)⟩
    rw [hl]
    unfold defaultOutcome outcomeDraws
    rw [if_pos hjN, if_pos hjN]
    simp
  · refine ⟨stepsBefore maturity dt, le_rfl, ?_, uniq _ le_rfl ((key _ le_rfl).2
      ⟨fun i hi => hs i ((lt_stepsBefore hdt i).1 hi), fun h => absurd h (lt_irrefl _)⟩)⟩
    rw [hl]
    unfold defaultOutcome outcomeDraws
    rw [if_neg (lt_irrefl _), if_neg (lt_irrefl _)]
    simp

/-! ### Many paths -/

/-- The entry of path number `i`: the last entry of a simulation of `i + 1` paths. -/
noncomputable def pathEntry (hazard : ℝ → ℝ) (maturity dt : ℝ) (draw : Nat → ℝ) (i : Nat) : Option ℝ :=
  match defaultBernoulliPaths hazard maturity dt (i + 1) draw with
  | .ok ts => ts.getD i none
  | .error _ => none

theorem pathsFrom_outcomes {hazard : ℝ → ℝ} {maturity dt : ℝ} (hdt : 0 < dt) (draw : Nat → ℝ) : ∀ n pos,
    ∃ js : List Nat, js.length = n ∧ (∀ j ∈ js, j ≤ stepsBefore maturity dt) ∧
      pathsFrom hazard maturity dt draw (⌈maturity / dt⌉₊ + 1) n pos = .ok (js.map (defaultOutcome maturity dt)) ∧
      (∃ j, j ≤ stepsBefore maturity dt ∧ pathsFrom hazard maturity dt draw (⌈maturity / dt⌉₊ + 1) (n + 1) pos =
        .ok ((js ++ [j]).map (defaultOutcome maturity dt))) ∧
      ∀ js' : List Nat, js'.length = n → (∀ j ∈ js', j ≤ stepsBefore maturity dt) →
        ((∀ i (h : i < (js'.flatMap (outcomeDraws hazard maturity dt)).length),
          draw (pos + i) ∈ (js'.flatMap (outcomeDraws hazard maturity dt))[i]) ↔ js' = js) := by
  intro n
  induction n with
  | zero =>
    intro pos
    refine ⟨[], rfl, by simp, rfl, ?_, ?_⟩
    · obtain ⟨j, hj, hl, -⟩ := pathLoop_outcome (hazard := hazard) (maturity := maturity) hdt draw pos
      exact ⟨j, hj, by simp [pathsFrom, hl, ok_bind]⟩
    · intro js' h0 _
      have := List.length_eq_zero_iff.1 h0
      subst this
      simp
  | succ n ih =>
    intro pos
    obtain ⟨j, hj, hl, huniq⟩ := pathLoop_outcome (hazard := hazard) (maturity := maturity) hdt draw pos
    obtain ⟨js, hlen, hle, hp, ⟨j1, hj1, hp1⟩, hall⟩ := ih (pos + (outcomeDraws hazard maturity dt j).length)
    refine ⟨j :: js, by simp [hlen], ?_, ?_, ⟨j1, hj1, ?_⟩, ?_⟩
    · intro x hx
      rcases List.mem_cons.1 hx with rfl | hx
      · exact hj
      · exact hle x hx
    · rw [pathsFrom, hl, ok_bind]
      dsimp only
      rw [hp, ok_bind]
      rfl
    · rw [pathsFrom, hl, ok_bind]
      dsimp only
      rw [hp1, ok_bind]
      rfl
    · intro js' hlen' hle'
      rcases js' with _ | ⟨j', js'⟩
      · simp at hlen'
      · have hA := huniq j' (hle' j' (by simp))
        have hB := hall js' (by simpa using hlen') (fun x hx => hle' x (by simp [hx]))
        have split : (∀ i (h : i < ((j' :: js').flatMap (outcomeDraws hazard maturity dt)).length),
            draw (pos + i) ∈ ((j' :: js').flatMap (outcomeDraws hazard maturity dt))[i]) ↔
            (∀ i (h : i < (outcomeDraws hazard maturity dt j').length), draw (pos + i) ∈ (outcomeDraws hazard maturity dt j')[i]) ∧
            ∀ i (h : i < (js'.flatMap (outcomeDraws hazard maturity dt)).length),
              draw (pos + (outcomeDraws hazard maturity dt j').length + i) ∈ (js'.flatMap (outcomeDraws hazard maturity dt))[i] := by
          have e : (j' :: js').flatMap (outcomeDraws hazard maturity dt) =
            outcomeDraws hazard maturity dt j' ++ js'.flatMap (outcomeDraws hazard maturity dt) := by simp
          have m1 := mem_drawsIn (U := fun k (_ : Unit) => draw k) (ω := ())
            (L := outcomeDraws hazard maturity dt j' ++ js'.flatMap (outcomeDraws hazard maturity dt)) (pos := pos)
          have m2 := mem_drawsIn (U := fun k (_ : Unit) => draw k) (ω := ()) (L := outcomeDraws hazard maturity dt j') (pos := pos)
          have m3 := mem_drawsIn (U := fun k (_ : Unit) => draw k) (ω := ())
            (L := js'.flatMap (outcomeDraws hazard maturity dt)) (pos := pos + (outcomeDraws hazard maturity dt j').length)
          rw [drawsIn_append, Set.mem_inter_iff, m2, m3] at m1
          simp only [e]
          exact m1.symm
        rw [split, hA]
        constructor
        · rintro ⟨rfl, H⟩
          rw [hB.1 H]
        · intro H
          injection H with H1 H2
          subst H1
          exact ⟨rfl, hB.2 H2⟩

theorem paths_entries {hazard : ℝ → ℝ} {maturity dt : ℝ} (hdt : 0 < dt) (draw : Nat → ℝ) (n : Nat) :
    defaultBernoulliPaths hazard maturity dt n draw = .ok ((List.range n).map (pathEntry hazard maturity dt draw)) := by
  induction n with
  | zero => rfl
  | succ n ih =>
    obtain ⟨js, hlen, -, hp, ⟨j, -, hp1⟩, -⟩ := pathsFrom_outcomes (hazard := hazard) (maturity := maturity) hdt draw n 0
    have h1 : defaultBernoulliPaths hazard maturity dt (n + 1) draw = .ok ((js ++ [j]).map (defaultOutcome maturity dt)) := hp1
    have h0 : defaultBernoulliPaths hazard maturity dt n draw = .ok (js.map (defaultOutcome maturity dt)) := hp
    rw [ih] at h0
    injection h0 with h0
    have he : pathEntry hazard maturity dt draw n = defaultOutcome maturity dt j := by
      unfold pathEntry
      rw [h1]
      dsimp only
      rw [List.map_append, List.getD_append_right _ _ _ _ (by simp [hlen])]
      simp [hlen]
    rw [h1, List.range_succ, List.map_append, List.map_append, h0]
    simp [he]

theorem entries_draws {hazard : ℝ → ℝ} {maturity dt : ℝ} (hdt : 0 < dt) (U : Nat → Ω → ℝ) (n : Nat) (js : Nat → Nat)
    (hjs : ∀ i, js i ≤ stepsBefore maturity dt) :
    {ω | ∀ i < n, pathEntry hazard maturity dt (fun k => U k ω) i = defaultOutcome maturity dt (js i)} =
      DrawsIn U 0 (((List.range n).map js).flatMap (outcomeDraws hazard maturity dt)) := by
  ext ω
  obtain ⟨js0, hlen, hle, hp, -, huniq⟩ := pathsFrom_outcomes (hazard := hazard) (maturity := maturity) hdt (fun k => U k ω) n 0
  have h0 : defaultBernoulliPaths hazard maturity dt n (fun k => U k ω) = .ok (js0.map (defaultOutcome maturity dt)) := hp
  rw [paths_entries hdt] at h0
  injection h0 with h0
  rw [mem_drawsIn, huniq ((List.range n).map js) (by simp) (by
    intro j hj
    obtain ⟨i, -, rfl⟩ := List.mem_map.1 hj
    exact hjs i)]
  simp only [Set.mem_setOf_eq]
  have hi0 : ∀ i (hi : i < n), pathEntry hazard maturity dt (fun k => U k ω) i = defaultOutcome maturity dt (js0[i]'(by omega)) := by
    intro i hi
    have e1 : ((List.range n).map (pathEntry hazard maturity dt (fun k => U k ω)))[i]? = (js0.map (defaultOutcome maturity dt))[i]? := by rw [h0]
    rw [List.getElem?_eq_getElem (by simpa using hi), List.getElem?_eq_getElem (by simpa [hlen] using hi)] at e1
    simpa using e1
  constructor
  · intro H
    refine List.ext_getElem (by simp [hlen]) fun i h1 h2 => ?_
    have hi : i < n := by simpa using h1
    rw [List.getElem_map, List.getElem_range]
    exact defaultOutcome_injective hdt (hjs i) (hle _ (List.getElem_mem h2)) (by rw [← H i hi, hi0 i hi])
  · intro H i hi
    rw [hi0 i hi]
    congr 1
    have : js0[i]'(by omega) = ((List.range n).map js)[i]'(by simpa using hi) := by congr 1; exact H.symm
    rw [this, List.getElem_map, List.getElem_range]

theorem UniformDraws.entries_prob [IsProbabilityMeasure μ] (h : UniformDraws μ U) {hazard : ℝ → ℝ} {maturity dt : ℝ} (hdt : 0 < dt) (n : Nat)
    (js : Nat → Nat) (hjs : ∀ i, js i ≤ stepsBefore maturity dt) :
    μ {ω | ∀ i < n, pathEntry hazard maturity dt (fun k => U k ω) i = defaultOutcome maturity dt (js i)} =
      ∏ i ∈ Finset.range n, ENNReal.ofReal (outcomeProb hazard maturity dt (js i)) := by
  rw [entries_draws hdt U n js hjs, h.drawsIn_prob _ _ (by
    intro S hS
    obtain ⟨j, -, hS⟩ := List.mem_flatMap.1 hS
    exact measurable_outcomeDraws _ _ _ _ S hS)]
  clear hjs
  induction n with
  | zero => simp
  | succ n ih =>
    rw [List.range_succ, List.map_append, List.flatMap_append, List.map_append, List.prod_append, ih, Finset.prod_range_succ]
    simp only [List.map_cons, List.map_nil, List.flatMap_cons, List.flatMap_nil, List.append_nil]
    rw [h.outcomeDraws_prob]

theorem UniformDraws.measurable_entries (h : UniformDraws μ U) {hazard : ℝ → ℝ} {maturity dt : ℝ} (hdt : 0 < dt) (n : Nat)
    (js : Nat → Nat) (hjs : ∀ i, js i ≤ stepsBefore maturity dt) :
    MeasurableSet {ω | ∀ i < n, pathEntry hazard maturity dt (fun k => U k ω) i = defaultOutcome maturity dt (js i)} := by
  rw [entries_draws hdt U n js hjs]
  refine h.measurable_drawsIn _ _ fun S hS => ?_
  obtain ⟨j, -, hS⟩ := List.mem_flatMap.1 hS
  exact measurable_outcomeDraws _ _ _ _ S hS

/-- The probability that the entry of a path lies in a set. -/
noncomputable def entryProb (hazard : ℝ → ℝ) (maturity dt : ℝ) (A : Set (Option ℝ)) : ENNReal := by
  classical
  exact ∑ j ∈ (Finset.range (stepsBefore maturity dt + 1)).filter (fun j => defaultOutcome maturity dt j ∈ A),
    ENNReal.ofReal (outcomeProb hazard maturity dt j)

theorem entry_outcome {hazard : ℝ → ℝ} {maturity dt : ℝ} (hdt : 0 < dt) (draw : Nat → ℝ) (i : Nat) :
    ∃ j, j ≤ stepsBefore maturity dt ∧ pathEntry hazard maturity dt draw i = defaultOutcome maturity dt j := by
  obtain ⟨js, hlen, hle, hp, -, -⟩ := pathsFrom_outcomes (hazard := hazard) (maturity := maturity) hdt draw (i + 1) 0
  have h1 : defaultBernoulliPaths hazard maturity dt (i + 1) draw = .ok (js.map (defaultOutcome maturity dt)) := hp
  refine ⟨js[i]'(by omega), hle _ (List.getElem_mem _), ?_⟩
  unfold pathEntry
  rw [h1]
  dsimp only
  rw [List.getD_eq_getElem _ _ (by simp [hlen]), List.getElem_map]

theorem UniformDraws.sets_prob [IsProbabilityMeasure μ] (h : UniformDraws μ U) {hazard : ℝ → ℝ} {maturity dt : ℝ} (hdt : 0 < dt) (n : Nat)
    (A : Nat → Set (Option ℝ)) :
    MeasurableSet {ω | ∀ i < n, pathEntry hazard maturity dt (fun k => U k ω) i ∈ A i} ∧
    μ {ω | ∀ i < n, pathEntry hazard maturity dt (fun k => U k ω) i ∈ A i} = ∏ i ∈ Finset.range n, entryProb hazard maturity dt (A i) := by
  classical
  let B : Fin n → Finset Nat := fun i => (Finset.range (stepsBefore maturity dt + 1)).filter (fun j => defaultOutcome maturity dt j ∈ A i)
  let ext : (Fin n → Nat) → Nat → Nat := fun f i => if hi : i < n then min (f ⟨i, hi⟩) (stepsBefore maturity dt) else 0
  have hext : ∀ f i, ext f i ≤ stepsBefore maturity dt := by
    intro f i
    simp only [ext]
    split_ifs
    · exact min_le_right _ _
    · exact Nat.zero_le _
  have hextB : ∀ f ∈ Fintype.piFinset B, ∀ i (hi : i < n), ext f i = f ⟨i, hi⟩ ∧ defaultOutcome maturity dt (f ⟨i, hi⟩) ∈ A i := by
    intro f hf i hi
    have := Fintype.mem_piFinset.1 hf ⟨i, hi⟩
    obtain ⟨h1, h2⟩ := Finset.mem_filter.1 this
    refine ⟨?_, h2⟩
    simp only [ext, dif_pos hi]
    have := Finset.mem_range.1 h1
    omega
  have hset : {ω | ∀ i < n, pathEntry hazard maturity dt (fun k => U k ω) i ∈ A i} = ⋃ f ∈ Fintype.piFinset B,
      {ω | ∀ i < n, pathEntry hazard maturity dt (fun k => U k ω) i = defaultOutcome maturity dt (ext f i)} := by
    ext ω
    simp only [Set.mem_setOf_eq, Set.mem_iUnion, exists_prop]
    constructor
    · intro H
      choose j hj he using fun i => entry_outcome (hazard := hazard) (maturity := maturity) hdt (fun k => U k ω) i
      have hf : (fun i : Fin n => j i) ∈ Fintype.piFinset B := by
        refine Fintype.mem_piFinset.2 fun i => Finset.mem_filter.2 ⟨Finset.mem_range.2 (by have := hj i; omega), ?_⟩
        rw [← he]
        exact H i i.2
      refine ⟨_, hf, fun i hi => ?_⟩
      rw [(hextB _ hf i hi).1]
      exact he i
    · rintro ⟨f, hf, H⟩ i hi
      rw [H i hi, (hextB f hf i hi).1]
      exact (hextB f hf i hi).2
  have hm : ∀ f ∈ Fintype.piFinset B, MeasurableSet {ω | ∀ i < n, pathEntry hazard maturity dt (fun k => U k ω) i = defaultOutcome maturity dt (ext f i)} :=
    fun f _ => h.measurable_entries hdt n (ext f) (hext f)
  refine ⟨?_, ?_⟩
  · rw [hset]
    exact Finset.measurableSet_biUnion _ hm
  · rw [hset, measure_biUnion_finset ?_ hm]
    · have h1 : ∀ f ∈ Fintype.piFinset B, μ {ω | ∀ i < n, pathEntry hazard maturity dt (fun k => U k ω) i = defaultOutcome maturity dt (ext f i)} =
          ∏ i : Fin n, ENNReal.ofReal (outcomeProb hazard maturity dt (f i)) := by
        intro f hf
        rw [h.entries_prob hdt n (ext f) (hext f), Finset.prod_range]
        refine Finset.prod_congr rfl fun i _ => ?_
        rw [(hextB f hf i i.2).1]
      rw [Finset.sum_congr rfl h1, ← Finset.prod_univ_sum B (fun _ j => ENNReal.ofReal (outcomeProb hazard maturity dt j)), Finset.prod_range]
      refine Finset.prod_congr rfl fun i _ => ?_
      rfl
    · intro f hf g hg hne
      refine Set.disjoint_left.2 fun ω h1 h2 => hne ?_
      funext i
      have e1 := h1 i i.2
      have e2 := h2 i i.2
      have := defaultOutcome_injective hdt (hext f i) (hext g i) (e1.symm.trans e2)
      rwa [(hextB f hf i i.2).1, (hextB g hg i i.2).1] at this

theorem UniformDraws.entryProb_univ [IsProbabilityMeasure μ] (h : UniformDraws μ U) {hazard : ℝ → ℝ} {maturity dt : ℝ} (hdt : 0 < dt) :
    entryProb hazard maturity dt Set.univ = 1 := by
  have := (h.sets_prob (hazard := hazard) (maturity := maturity) hdt 1 (fun _ => Set.univ)).2
  simpa using this.symm

theorem UniformDraws.finset_prob [IsProbabilityMeasure μ] (h : UniformDraws μ U) {hazard : ℝ → ℝ} {maturity dt : ℝ} (hdt : 0 < dt)
    (s : Finset Nat) (A : Nat → Set (Option ℝ)) :
    MeasurableSet (⋂ i ∈ s, (fun ω => pathEntry hazard maturity dt (fun k => U k ω) i) ⁻¹' A i) ∧
    μ (⋂ i ∈ s, (fun ω => pathEntry hazard maturity dt (fun k => U k ω) i) ⁻¹' A i) = ∏ i ∈ s, entryProb hazard maturity dt (A i) := by
  classical
  obtain ⟨n, hn⟩ : ∃ n, ∀ i ∈ s, i < n := ⟨s.sup id + 1, fun i hi => Nat.lt_succ_of_le (Finset.le_sup (f := id) hi)⟩
  have := h.sets_prob (hazard := hazard) (maturity := maturity) hdt n (fun i => if i ∈ s then A i else Set.univ)
  have hset : {ω | ∀ i < n, pathEntry hazard maturity dt (fun k => U k ω) i ∈ if i ∈ s then A i else Set.univ} =
      ⋂ i ∈ s, (fun ω => pathEntry hazard maturity dt (fun k => U k ω) i) ⁻¹' A i := by
    ext ω
    simp only [Set.mem_setOf_eq, Set.mem_iInter, Set.mem_preimage]
    constructor
    · intro H i hi
      have := H i (hn i hi)
      rwa [if_pos hi] at this
    · intro H i _
      split_ifs with hi
      · exact H i hi
      · trivial
  rw [hset] at this
  refine ⟨this.1, this.2.trans ?_⟩
  have hsub : s ⊆ Finset.range n := fun i hi => Finset.mem_range.2 (hn i hi)
  rw [← Finset.prod_subset hsub]
  · exact Finset.prod_congr rfl fun i hi => by rw [if_pos hi]
  · intro i _ hi
    rw [if_neg hi]
    exact h.entryProb_univ hdt

theorem UniformDraws.entry_prob [IsProbabilityMeasure μ] (h : UniformDraws μ U) {hazard : ℝ → ℝ} {maturity dt : ℝ} (hdt : 0 < dt)
    (i : Nat) (A : Set (Option ℝ)) :
    MeasurableSet ((fun ω => pathEntry hazard maturity dt (fun k => U k ω) i) ⁻¹' A) ∧
    μ ((fun ω => pathEntry hazard maturity dt (fun k => U k ω) i) ⁻¹' A) = entryProb hazard maturity dt A := by
  have := h.finset_prob (hazard := hazard) (maturity := maturity) hdt {i} (fun _ => A)
  simpa using this

theorem entryProb_singleton {hazard : ℝ → ℝ} {maturity dt : ℝ} (hdt : 0 < dt) {j : Nat} (hj : j ≤ stepsBefore maturity dt) :
    entryProb hazard maturity dt {defaultOutcome maturity dt j} = ENNReal.ofReal (outcomeProb hazard maturity dt j) := by
  unfold entryProb
  refine (Finset.sum_congr ?_ fun _ _ => rfl).trans (Finset.sum_singleton _ j)
  ext i
  simp only [Finset.mem_filter, Finset.mem_range, Set.mem_singleton_iff, Finset.mem_singleton]
  constructor
  · rintro ⟨h1, h2⟩
    exact defaultOutcome_injective hdt (by omega) hj h2
  · rintro rfl
    exact ⟨by omega, rfl⟩

/-! ### The properties -/

/-- The mean of a quantity `f` of the default time (`f none` on survival), under the law of C76: default at grid time `(j + 1) dt` with the
probability of surviving the first `j` grid times and defaulting at this one. -/
noncomputable def defaultMean (hazard : ℝ → ℝ) (maturity dt : ℝ) (f : Option ℝ → ℝ) : ℝ :=
  (∑ j ∈ Finset.range (stepsBefore maturity dt),
    survivalTo hazard dt j * clampProb (hazard (((j : ℝ) + 1) * dt) * dt) * f (some (((j : ℝ) + 1) * dt))) +
  survivalTo hazard dt (stepsBefore maturity dt) * f none

theorem defaultMean_eq (hazard : ℝ → ℝ) (maturity dt : ℝ) (f : Option ℝ → ℝ) : defaultMean hazard maturity dt f =
    ∑ j ∈ Finset.range (stepsBefore maturity dt + 1), outcomeProb hazard maturity dt j * f (defaultOutcome maturity dt j) := by
  rw [Finset.sum_range_succ]
  unfold defaultMean outcomeProb defaultOutcome
  rw [if_neg (lt_irrefl _), if_neg (lt_irrefl _)]
  congr 1
  refine Finset.sum_congr rfl fun j hj => ?_
  rw [if_pos (Finset.mem_range.1 hj), if_pos (Finset.mem_range.1 hj)]

/-- C135. Simulated paths use a common stream of draws, each a number of them that depends on chance; even so their default times are
independent and each has the law of C76, and more paths on the same draws only add entries. -/
theorem C135_independent [IsProbabilityMeasure μ] (h : UniformDraws μ U) (hazard : ℝ → ℝ) (maturity dt : ℝ) (hdt : 0 < dt) :
    ∃ T : Nat → Ω → Option ℝ,
      (∀ n ω, defaultBernoulliPaths hazard maturity dt n (fun k => U k ω) = .ok ((List.range n).map (fun i => T i ω))) ∧
      (∀ i A, MeasurableSet (T i ⁻¹' A)) ∧
      (∀ (s : Finset Nat) (A : Nat → Set (Option ℝ)), μ (⋂ i ∈ s, T i ⁻¹' A i) = ∏ i ∈ s, μ (T i ⁻¹' A i)) ∧
      (∀ i, μ {ω | T i ω = none} = ENNReal.ofReal (survivalTo hazard dt (stepsBefore maturity dt))) ∧
      ∀ i (j : Nat), ((j : ℝ) + 1) * dt < maturity → μ {ω | T i ω = some (((j : ℝ) + 1) * dt)} =
        ENNReal.ofReal (survivalTo hazard dt j * clampProb (hazard (((j : ℝ) + 1) * dt) * dt)) := by
  refine ⟨fun i ω => pathEntry hazard maturity dt (fun k => U k ω) i, fun n ω => paths_entries hdt _ n,
    fun i A => (h.entry_prob hdt i A).1, ?_, ?_, ?_⟩
  · intro s A
    rw [(h.finset_prob hdt s A).2]
    exact Finset.prod_congr rfl fun i _ => ((h.entry_prob hdt i (A i)).2).symm
  · intro i
    have h1 := (h.entry_prob (hazard := hazard) (maturity := maturity) hdt i {defaultOutcome maturity dt (stepsBefore maturity dt)}).2
    rw [entryProb_singleton hdt le_rfl] at h1
    unfold defaultOutcome outcomeProb at h1
    rw [if_neg (lt_irrefl _), if_neg (lt_irrefl _)] at h1
    exact h1
  · intro i j hj
    have hj := (lt_stepsBefore hdt j).2 hj
    have h1 := (h.entry_prob (hazard := hazard) (maturity := maturity) hdt i {defaultOutcome maturity dt j}).2
    rw [entryProb_singleton hdt hj.le] at h1
    unfold defaultOutcome outcomeProb at h1
    rw [if_pos hj, if_pos hj] at h1
    exact h1

theorem UniformDraws.quantity [IsProbabilityMeasure μ] (h : UniformDraws μ U) {hazard : ℝ → ℝ} {maturity dt : ℝ} (hdt : 0 < dt)
    (f : Option ℝ → ℝ) (i : Nat) :
    Measurable (fun ω => f (pathEntry hazard maturity dt (fun k => U k ω) i)) ∧
    MemLp (fun ω => f (pathEntry hazard maturity dt (fun k => U k ω) i)) 2 μ ∧
    ∫ ω, f (pathEntry hazard maturity dt (fun k => U k ω) i) ∂μ = defaultMean hazard maturity dt f := by
  have hm : Measurable (fun ω => f (pathEntry hazard maturity dt (fun k => U k ω) i)) :=
    fun B _ => (h.entry_prob hdt i (f ⁻¹' B)).1
  have hmem : MemLp (fun ω => f (pathEntry hazard maturity dt (fun k => U k ω) i)) 2 μ := by
    refine MemLp.of_bound hm.aestronglyMeasurable
      (∑ j ∈ Finset.range (stepsBefore maturity dt + 1), ‖f (defaultOutcome maturity dt j)‖) (ae_of_all _ fun ω => ?_)
    obtain ⟨j, hj, he⟩ := entry_outcome (hazard := hazard) (maturity := maturity) hdt (fun k => U k ω) i
    rw [he]
    exact Finset.single_le_sum (f := fun j => ‖f (defaultOutcome maturity dt j)‖) (fun _ _ => norm_nonneg _) (Finset.mem_range.2 (by omega))
  refine ⟨hm, hmem, ?_⟩
  have hdec : (fun ω => f (pathEntry hazard maturity dt (fun k => U k ω) i)) = fun ω =>
      ∑ j ∈ Finset.range (stepsBefore maturity dt + 1),
        ((fun ω => pathEntry hazard maturity dt (fun k => U k ω) i) ⁻¹' {defaultOutcome maturity dt j}).indicator (fun _ => f (defaultOutcome maturity dt j)) ω := by
    funext ω
    obtain ⟨j, hj, he⟩ := entry_outcome (hazard := hazard) (maturity := maturity) hdt (fun k => U k ω) i
    rw [Finset.sum_eq_single_of_mem j (Finset.mem_range.2 (by omega))]
    · rw [Set.indicator_of_mem (by exact he), he]
    · intro j' hj' hne
      refine Set.indicator_of_notMem (fun hmem => hne ?_) _
      exact defaultOutcome_injective hdt (by have := Finset.mem_range.1 hj'; omega) hj (Eq.trans (Eq.symm hmem) he)
  rw [hdec, integral_finsetSum _ fun j _ => (integrable_const _).indicator (h.entry_prob hdt i _).1, defaultMean_eq]
  refine Finset.sum_congr rfl fun j hj => ?_
  rw [integral_indicator_const _ (h.entry_prob hdt i _).1, measureReal_def, (h.entry_prob hdt i _).2,
    entryProb_singleton hdt (by have := Finset.mem_range.1 hj; omega), ENNReal.toReal_ofReal (outcomeProb_nonneg _ _ _ _), smul_eq_mul]

theorem UniformDraws.quantities_independent [IsProbabilityMeasure μ] (h : UniformDraws μ U) {hazard : ℝ → ℝ} {maturity dt : ℝ}
    (hdt : 0 < dt) (f : Option ℝ → ℝ) :
    iIndepFun (fun i ω => f (pathEntry hazard maturity dt (fun k => U k ω) i)) μ := by
  rw [iIndepFun_iff_measure_inter_preimage_eq_mul]
  intro s B _
  have h1 := (h.finset_prob (hazard := hazard) (maturity := maturity) hdt s (fun i => f ⁻¹' B i)).2
  refine Eq.trans h1 (Finset.prod_congr rfl fun i _ => ?_)
  exact ((h.entry_prob hdt i (f ⁻¹' B i)).2).symm

/-- C135. The estimates made from simulated default times converge: for any quantity of the default time (a payoff, say, or the indicator of survival),
its average over the first `n` paths tends, for almost all draws, to its mean under the law of C76 as `n` grows. -/
theorem C135_strong_law [IsProbabilityMeasure μ] (h : UniformDraws μ U) (hazard : ℝ → ℝ) (maturity dt : ℝ) (hdt : 0 < dt)
    (f : Option ℝ → ℝ) :
    ∃ average : Nat → Ω → ℝ,
      (∀ n ω, ∃ ts, defaultBernoulliPaths hazard maturity dt n (fun k => U k ω) = .ok ts ∧ average n ω = (ts.map f).sum / n) ∧
      ∀ᵐ ω ∂μ, Tendsto (fun n => average n ω) atTop (𝓝 (defaultMean hazard maturity dt f)) := by
  have hq := fun i => h.quantity (hazard := hazard) (maturity := maturity) hdt f i
  have hlaw := strong_law_ae_real (fun i ω => f (pathEntry hazard maturity dt (fun k => U k ω) i))
    ((hq 0).2.1.integrable (by norm_num)) (fun i j hij => (h.quantities_independent hdt f).indepFun hij)
    (fun i => ⟨(hq i).1.aemeasurable, (hq 0).1.aemeasurable, by
      ext B hB
      rw [Measure.map_apply (hq i).1 hB, Measure.map_apply (hq 0).1 hB]
      exact ((h.entry_prob hdt i (f ⁻¹' B)).2).trans ((h.entry_prob hdt 0 (f ⁻¹' B)).2).symm⟩)
  refine ⟨fun n ω => (∑ i ∈ Finset.range n, f (pathEntry hazard maturity dt (fun k => U k ω) i)) / n,
    fun n ω => ⟨_, paths_entries hdt _ n, ?_⟩, ?_⟩
  · show (∑ i ∈ Finset.range n, f (pathEntry hazard maturity dt (fun k => U k ω) i)) / (n : ℝ) = _
    congr 1
    rw [List.map_map]
    induction n with
    | zero => simp
    | succ n ih => rw [Finset.sum_range_succ, ih, List.range_succ, List.map_append, List.sum_append]; simp
  · rw [(hq 0).2.2] at hlaw
    exact hlaw

/-- C135. How many paths are enough: the average over `n` paths misses the mean by `ε` or more with probability at most the variance over `n ε²`. -/
theorem C135_error [IsProbabilityMeasure μ] (h : UniformDraws μ U) (hazard : ℝ → ℝ) (maturity dt : ℝ) (hdt : 0 < dt)
    (f : Option ℝ → ℝ) (n : Nat) (hn : 0 < n) (ε : ℝ) (hε : 0 < ε) :
    ∃ ts : Ω → List (Option ℝ), (∀ ω, defaultBernoulliPaths hazard maturity dt n (fun k => U k ω) = .ok (ts ω)) ∧
      ∫ ω, ((ts ω).map f).sum / n ∂μ = defaultMean hazard maturity dt f ∧
      μ {ω | ε ≤ |((ts ω).map f).sum / n - defaultMean hazard maturity dt f|} ≤ ENNReal.ofReal
        (defaultMean hazard maturity dt (fun o => (f o - defaultMean hazard maturity dt f) ^ 2) / (n * ε ^ 2)) := by
  have hq := fun i => h.quantity (hazard := hazard) (maturity := maturity) hdt f i
  have hsum : ∀ ω, (((List.range n).map (pathEntry hazard maturity dt (fun k => U k ω))).map f).sum =
      ∑ i ∈ Finset.range n, f (pathEntry hazard maturity dt (fun k => U k ω) i) := by
    intro ω
    rw [List.map_map]
    clear hn
    induction n with
    | zero => simp
    | succ n ih => rw [Finset.sum_range_succ, ← ih, List.range_succ, List.map_append, List.sum_append]; simp
  have hn' : (0 : ℝ) < n := by exact_mod_cast hn
  have hmean : ∫ ω, ∑ i ∈ Finset.range n, f (pathEntry hazard maturity dt (fun k => U k ω) i) ∂μ = n * defaultMean hazard maturity dt f := by
    rw [integral_finsetSum _ fun i _ => (hq i).2.1.integrable (by norm_num)]
    simp [(hq _).2.2]
  refine ⟨fun ω => (List.range n).map (pathEntry hazard maturity dt (fun k => U k ω)), fun ω => paths_entries hdt _ n, ?_, ?_⟩
  · simp only [hsum]
    rw [integral_div, hmean]
    field_simp
  · have hvar : ∀ i, variance (fun ω => f (pathEntry hazard maturity dt (fun k => U k ω) i)) μ =
        defaultMean hazard maturity dt (fun o => (f o - defaultMean hazard maturity dt f) ^ 2) := by
      intro i
      rw [variance_eq_integral (hq i).1.aemeasurable, (hq i).2.2]
      exact (h.quantity (hazard := hazard) (maturity := maturity) hdt (fun o => (f o - defaultMean hazard maturity dt f) ^ 2) i).2.2
    have hvs := IndepFun.variance_sum (μ := μ) (X := fun i ω => f (pathEntry hazard maturity dt (fun k => U k ω) i)) (s := Finset.range n)
      (fun i _ => (hq i).2.1) (fun i _ j _ hij => (h.quantities_independent hdt f).indepFun hij)
    have hsumLp : MemLp (∑ i ∈ Finset.range n, fun ω => f (pathEntry hazard maturity dt (fun k => U k ω) i)) 2 μ :=
      memLp_finset_sum' _ fun i _ => (hq i).2.1
    have hch := meas_ge_le_variance_div_sq hsumLp (c := n * ε) (by positivity)
    rw [hvs, Finset.sum_congr rfl (fun i _ => hvar i), Finset.sum_const, Finset.card_range, nsmul_eq_mul] at hch
    simp only [Finset.sum_apply] at hch
    rw [hmean] at hch
    refine le_trans (measure_mono fun ω hω => ?_) (hch.trans_eq ?_)
    · simp only [Set.mem_setOf_eq] at hω ⊢
      rw [hsum] at hω
      have e : ∀ x : ℝ, x - n * defaultMean hazard maturity dt f = n * (x / n - defaultMean hazard maturity dt f) := by
        intro x; field_simp
      rw [e, abs_mul, abs_of_pos hn']
      exact mul_le_mul_of_nonneg_left hω hn'.le
    · congr 1
      field_simp

/-- C135. In particular the fraction of surviving paths estimates the survival probability `S` without bias, converges to it for almost all draws,
and misses it by `ε` or more with probability at most `S (1 - S) / (n ε²)`. -/
theorem C135_survivors [IsProbabilityMeasure μ] (h : UniformDraws μ U) (hazard : ℝ → ℝ) (maturity dt : ℝ) (hdt : 0 < dt) :
    ∃ fraction : Nat → Ω → ℝ,
      (∀ n ω, ∃ ts, defaultBernoulliPaths hazard maturity dt n (fun k => U k ω) = .ok ts ∧
        fraction n ω = (ts.countP (fun o => o.isNone) : ℝ) / n) ∧
      (∀ᵐ ω ∂μ, Tendsto (fun n => fraction n ω) atTop (𝓝 (survivalTo hazard dt (stepsBefore maturity dt)))) ∧
      ∀ n, 0 < n → ∫ ω, fraction n ω ∂μ = survivalTo hazard dt (stepsBefore maturity dt) ∧
        ∀ ε, 0 < ε → μ {ω | ε ≤ |fraction n ω - survivalTo hazard dt (stepsBefore maturity dt)|} ≤ ENNReal.ofReal
          (survivalTo hazard dt (stepsBefore maturity dt) * (1 - survivalTo hazard dt (stepsBefore maturity dt)) / (n * ε ^ 2)) := by
  set S := survivalTo hazard dt (stepsBefore maturity dt) with hS
  let f : Option ℝ → ℝ := fun o => if o.isNone then 1 else 0
  have hcount : ∀ ts : List (Option ℝ), (ts.map f).sum = (ts.countP (fun o => o.isNone) : ℝ) := by
    intro ts
    induction ts with
    | nil => simp
    | cons o ts ih =>
      rw [List.map_cons, List.sum_cons, ih, List.countP_cons]
      rcases o with _ | o
      · simp [f]; ring
      · simp [f]
  have hf : defaultMean hazard maturity dt f = S := by
    unfold defaultMean
    simp [f, hS]
  have htotal : defaultMean hazard maturity dt (fun _ => 1) = 1 := by
    have h1 := (h.quantity (hazard := hazard) (maturity := maturity) hdt (fun _ => 1) 0).2.2
    rw [← h1]
    simp
  have hv : defaultMean hazard maturity dt (fun o => (f o - S) ^ 2) = S * (1 - S) := by
    unfold defaultMean at htotal ⊢
    simp only [mul_one] at htotal
    rw [← hS] at htotal ⊢
    have e : ∀ j ∈ Finset.range (stepsBefore maturity dt), survivalTo hazard dt j * clampProb (hazard (((j : ℝ) + 1) * dt) * dt) *
        (f (some (((j : ℝ) + 1) * dt)) - S) ^ 2 = survivalTo hazard dt j * clampProb (hazard (((j : ℝ) + 1) * dt) * dt) * S ^ 2 := by
      intro j _
      simp [f]
    rw [Finset.sum_congr rfl e, ← Finset.sum_mul]
    have : f none = 1 := by simp [f]
    show _ + S * (f none - S) ^ 2 = _
    rw [this]
    have hs : ∑ j ∈ Finset.range (stepsBefore maturity dt), survivalTo hazard dt j * clampProb (hazard (((j : ℝ) + 1) * dt) * dt) = 1 - S := by
      linarith
    rw [hs]
    ring
  obtain ⟨avg, h1, h2⟩ := C135_strong_law h hazard maturity dt hdt f
  rw [hf] at h2
  refine ⟨avg, fun n ω => ?_, h2, fun n hn => ?_⟩
  · obtain ⟨ts, ht, he⟩ := h1 n ω
    exact ⟨ts, ht, by rw [he, hcount]⟩
  · have key : ∀ (ts : Ω → List (Option ℝ)), (∀ ω, defaultBernoulliPaths hazard maturity dt n (fun k => U k ω) = .ok (ts ω)) →
        ∀ ω, avg n ω = ((ts ω).map f).sum / n := by
      intro ts hts ω
      obtain ⟨ts', ht, he⟩ := h1 n ω
      rw [hts ω] at ht
      injection ht with ht
      rw [he, ht]
    refine ⟨?_, fun ε hε => ?_⟩
    · obtain ⟨ts, hts, hm, -⟩ := C135_error h hazard maturity dt hdt f n hn 1 one_pos
      simp only [key ts hts]
      rw [hm, hf]
    · obtain ⟨ts, hts, -, hb⟩ := C135_error h hazard maturity dt hdt f n hn ε hε
      simp only [key ts hts]
      rw [hf, hv] at hb
      exact hb

/-- C135. How far the simulated survival probability is from the continuous-time one, for a constant hazard rate: by a factor between
`exp (-2 rate² maturity dt)` and `exp (rate dt)`, if the default probability of a step is at most one half. -/
theorem C135_bias [IsProbabilityMeasure μ] (h : UniformDraws μ U) (rate maturity dt : ℝ) (hdt : 0 < dt) (hr : 0 ≤ rate) (hm : 0 < maturity)
    (hhalf : rate * dt ≤ 1 / 2) (pos : Nat) :
    ∃ S : ℝ, μ {ω | ∃ q, pathLoop (fun _ => rate) maturity dt (fun k => U k ω) (⌈maturity / dt⌉₊ + 1) dt pos = .ok (none, q)} = ENNReal.ofReal S ∧
      Real.exp (-(rate * maturity)) * Real.exp (-(2 * rate ^ 2 * maturity * dt)) ≤ S ∧
      S ≤ Real.exp (-(rate * maturity)) * Real.exp (rate * dt) := by
  refine ⟨_, C76_survival_probability h (fun _ => rate) maturity dt hdt pos, ?_, ?_⟩
  all_goals
    have hx0 : 0 ≤ rate * dt := mul_nonneg hr hdt.le
    have hc : clampProb (rate * dt) = rate * dt := by
      unfold clampProb
      rw [min_eq_right (by linarith), max_eq_right hx0]
    have hlt : ((stepsBefore maturity dt : Nat) : ℝ) * dt < maturity := by
      rcases Nat.eq_zero_or_pos (stepsBefore maturity dt) with h0 | h0
      · rw [h0]; simpa using hm
      · have := (lt_stepsBefore (maturity := maturity) hdt (stepsBefore maturity dt - 1)).1 (by omega)
        rw [Nat.cast_sub (by omega)] at this
        simpa using this
    have hge : maturity ≤ ((stepsBefore maturity dt : Nat) : ℝ) * dt + dt := by
      have := (lt_stepsBefore (maturity := maturity) hdt (stepsBefore maturity dt)).not.1 (lt_irrefl _)
      linarith
    simp only [hc, Finset.prod_const, Finset.card_range]
    rw [← Real.exp_add]
  · have hlog : Real.exp (-(rate * dt) - 2 * (rate * dt) ^ 2) ≤ 1 - rate * dt := by
      rw [← Real.le_log_iff_exp_le (by linarith)]
      refine le_trans ?_ (Real.one_sub_inv_le_log_of_pos (by linarith))
      have hpos : 0 < 1 - rate * dt := by linarith
      have : (1 - rate * dt)⁻¹ ≤ 1 + rate * dt + 2 * (rate * dt) ^ 2 := by
        rw [inv_le_comm₀ hpos (by positivity), ← one_div, div_le_iff₀ (by positivity)]
        nlinarith [mul_nonneg hx0 hx0, mul_nonneg (mul_nonneg hx0 hx0) (sub_nonneg.2 hhalf)]
      linarith
    refine le_trans ?_ (pow_le_pow_left₀ (Real.exp_pos _).le hlog _)
    rw [← Real.exp_nat_mul]
    refine Real.exp_le_exp.2 ?_
    have h1 : ((stepsBefore maturity dt : Nat) : ℝ) * dt * rate ≤ maturity * rate := mul_le_mul_of_nonneg_right hlt.le hr
    have h2 : ((stepsBefore maturity dt : Nat) : ℝ) * dt * (2 * rate ^ 2 * dt) ≤ maturity * (2 * rate ^ 2 * dt) :=
      mul_le_mul_of_nonneg_right hlt.le (by positivity)
    nlinarith [h1, h2]
  · refine le_trans (pow_le_pow_left₀ (by linarith) (Real.one_sub_le_exp_neg _) _) ?_
    rw [← Real.exp_nat_mul]
    refine Real.exp_le_exp.2 ?_
    have h1 : maturity * rate ≤ (((stepsBefore maturity dt : Nat) : ℝ) * dt + dt) * rate := mul_le_mul_of_nonneg_right hge hr
    nlinarith [h1]

/-- The logarithm of the simulated probability of surviving the first `j` grid times against minus the accumulated hazard. -/
theorem log_survivalTo {hazard : ℝ → ℝ} {T H L dt : ℝ} (hdt : 0 < dt) (hL : 0 ≤ L)
    (hh : ∀ t, 0 ≤ t → t ≤ T → 0 ≤ hazard t ∧ hazard t ≤ H)
    (hlip : ∀ s t, 0 ≤ s → s ≤ t → t ≤ T → |hazard t - hazard s| ≤ L * (t - s)) (hhalf : H * dt ≤ 1 / 2) :
    ∀ j : Nat, (j : ℝ) * dt ≤ T → 0 < survivalTo hazard dt j ∧ IntervalIntegrable hazard volume 0 (j * dt) ∧
      |Real.log (survivalTo hazard dt j) + ∫ t in (0 : ℝ)..(j * dt), hazard t| ≤ j * ((2 * H ^ 2 + L) * dt ^ 2) := by
  have hcont : ContinuousOn hazard (Set.Icc 0 T) := by
    have : LipschitzOnWith ⟨L, hL⟩ hazard (Set.Icc 0 T) := by
      refine LipschitzOnWith.of_dist_le_mul fun s hs t ht => ?_
      rw [Real.dist_eq, Real.dist_eq]
      show _ ≤ L * |s - t|
      rcases le_total s t with h1 | h1
      · rw [abs_sub_comm, abs_sub_comm s t, abs_of_nonneg (sub_nonneg.2 h1)]
        exact hlip s t hs.1 h1 ht.2
      · rw [abs_of_nonneg (sub_nonneg.2 h1)]
        exact hlip t s ht.1 h1 hs.2
    exact this.continuousOn
  intro j
  induction j with
  | zero => intro _; simp [survivalTo]
  | succ j ih =>
    intro hj
    have hjj : ((j + 1 : Nat) : ℝ) * dt = j * dt + dt := by push_cast; ring
    rw [hjj] at hj ⊢
    have hj0 : (0 : ℝ) ≤ j * dt := by positivity
    obtain ⟨hpos, hint, hle⟩ := ih (by linarith)
    have htime : ((j : ℝ) + 1) * dt = j * dt + dt := by ring
    obtain ⟨h0, h1⟩ := hh (((j : ℝ) + 1) * dt) (by positivity) (by rw [htime]; exact hj)
    set x := hazard (((j : ℝ) + 1) * dt) * dt with hx
    have hx0 : 0 ≤ x := mul_nonneg h0 hdt.le
    have hxH : x ≤ H * dt := mul_le_mul_of_nonneg_right h1 hdt.le
    have hc : clampProb x = x := by
      unfold clampProb
      rw [min_eq_right (by linarith), max_eq_right hx0]
    have hS : survivalTo hazard dt (j + 1) = survivalTo hazard dt j * (1 - x) := by
      unfold survivalTo
      rw [Finset.prod_range_succ, ← hx, hc]
    have hx1 : 0 < 1 - x := by linarith
    have hi2 : IntervalIntegrable hazard volume (j * dt) (j * dt + dt) := by
      refine (hcont.mono ?_).intervalIntegrable
      rw [Set.uIcc_of_le (by linarith)]
      exact Set.Icc_subset_Icc hj0 hj
    refine ⟨by rw [hS]; exact mul_pos hpos hx1, hint.trans hi2, ?_⟩
    have hlog : |Real.log (1 - x) + x| ≤ 2 * H ^ 2 * dt ^ 2 := by
      have u1 : Real.log (1 - x) ≤ -x := by linarith [Real.log_le_sub_one_of_pos hx1]
      have u2 : -x - 2 * x ^ 2 ≤ Real.log (1 - x) := by
        refine le_trans ?_ (Real.one_sub_inv_le_log_of_pos hx1)
        have : (1 - x)⁻¹ ≤ 1 + x + 2 * x ^ 2 := by
          rw [inv_le_comm₀ hx1 (by positivity), ← one_div, div_le_iff₀ (by positivity)]
          nlinarith [mul_nonneg hx0 hx0, mul_nonneg (mul_nonneg hx0 hx0) (by linarith : (0 : ℝ) ≤ 1 / 2 - x)]
        linarith
      have u3 : x ^ 2 ≤ (H * dt) ^ 2 := pow_le_pow_left₀ hx0 hxH 2
      rw [abs_le]
      constructor
      · nlinarith
      · have : 0 ≤ 2 * H ^ 2 * dt ^ 2 := by positivity
        linarith
    have hint2 : |(∫ t in (j * dt)..(j * dt + dt), hazard t) - x| ≤ L * dt ^ 2 := by
      have e : (∫ t in (j * dt)..(j * dt + dt), hazard t) - x =
          ∫ t in (j * dt)..(j * dt + dt), (hazard t - hazard (((j : ℝ) + 1) * dt)) := by
        rw [intervalIntegral.integral_sub hi2 intervalIntegrable_const, intervalIntegral.integral_const, smul_eq_mul, hx]
        ring
      rw [e, ← Real.norm_eq_abs]
      refine (intervalIntegral.norm_integral_le_of_norm_le_const (C := L * dt) fun t ht => ?_).trans_eq ?_
      · rw [Set.uIoc_of_le (by linarith)] at ht
        rw [Real.norm_eq_abs, abs_sub_comm]
        refine (hlip t (((j : ℝ) + 1) * dt) (by linarith [ht.1]) (by rw [htime]; exact ht.2) (by rw [htime]; exact hj)).trans ?_
        refine mul_le_mul_of_nonneg_left ?_ hL
        rw [htime]
        linarith [ht.1]
      · rw [show (j : ℝ) * dt + dt - j * dt = dt by ring, abs_of_pos hdt]
        ring
    rw [hS, Real.log_mul hpos.ne' hx1.ne', ← intervalIntegral.integral_add_adjacent_intervals hint hi2]
    have hsplit : Real.log (survivalTo hazard dt j) + Real.log (1 - x) + ((∫ t in (0 : ℝ)..(j * dt), hazard t) +
        ∫ t in (j * dt)..(j * dt + dt), hazard t) = (Real.log (survivalTo hazard dt j) + ∫ t in (0 : ℝ)..(j * dt), hazard t) +
        ((Real.log (1 - x) + x) + ((∫ t in (j * dt)..(j * dt + dt), hazard t) - x)) := by ring
    rw [hsplit]
    refine (abs_add_le _ _).trans ?_
    have := abs_add_le (Real.log (1 - x) + x) ((∫ t in (j * dt)..(j * dt + dt), hazard t) - x)
    push_cast
    nlinarith [hle, hlog, hint2, this]

/-- C135. The simulated probability of surviving to maturity against the continuous-time one, `exp (-∫ hazard)`, for any Lipschitz hazard function
between zero and `H`: by a factor between `exp (∓ ((2 H² + L) maturity + H) dt)`, if `H dt` is at most one half. So it tends to the
continuous-time probability as the step is refined. -/
theorem C135_hazard_curve [IsProbabilityMeasure μ] (h : UniformDraws μ U) (hazard : ℝ → ℝ) (maturity dt H L : ℝ) (hdt : 0 < dt)
    (hm : 0 < maturity) (hL : 0 ≤ L) (hh : ∀ t, 0 ≤ t → t ≤ maturity → 0 ≤ hazard t ∧ hazard t ≤ H)
    (hlip : ∀ s t, 0 ≤ s → s ≤ t → t ≤ maturity → |hazard t - hazard s| ≤ L * (t - s)) (hhalf : H * dt ≤ 1 / 2) (pos : Nat) :
    ∃ S : ℝ, μ {ω | ∃ q, pathLoop hazard maturity dt (fun k => U k ω) (⌈maturity / dt⌉₊ + 1) dt pos = .ok (none, q)} = ENNReal.ofReal S ∧
      Real.exp (-(∫ t in (0 : ℝ)..maturity, hazard t) - ((2 * H ^ 2 + L) * maturity + H) * dt) ≤ S ∧
      S ≤ Real.exp (-(∫ t in (0 : ℝ)..maturity, hazard t) + ((2 * H ^ 2 + L) * maturity + H) * dt) := by
  refine ⟨_, C76_survival_probability h hazard maturity dt hdt pos, ?_⟩
  change _ ≤ survivalTo hazard dt (stepsBefore maturity dt) ∧ survivalTo hazard dt (stepsBefore maturity dt) ≤ _
  have hlt : ((stepsBefore maturity dt : Nat) : ℝ) * dt < maturity := by
    rcases Nat.eq_zero_or_pos (stepsBefore maturity dt) with h0 | h0
    · rw [h0]; simpa using hm
    · have := (lt_stepsBefore (maturity := maturity) hdt (stepsBefore maturity dt - 1)).1 (by omega)
      rw [Nat.cast_sub (by omega)] at this
      simpa using this
  have hge : maturity ≤ ((stepsBefore maturity dt : Nat) : ℝ) * dt + dt := by
    have := (lt_stepsBefore (maturity := maturity) hdt (stepsBefore maturity dt)).not.1 (lt_irrefl _)
    linarith
  obtain ⟨hpos, hint, hle⟩ := log_survivalTo hdt hL hh hlip hhalf _ hlt.le
  set N := stepsBefore maturity dt
  have hN0 : (0 : ℝ) ≤ N * dt := by positivity
  have hH : 0 ≤ H := (hh 0 le_rfl hm.le).1.trans (hh 0 le_rfl hm.le).2
  have hi2 : IntervalIntegrable hazard volume (N * dt) maturity := by
    have hcont : ContinuousOn hazard (Set.Icc 0 maturity) := by
      have : LipschitzOnWith ⟨L, hL⟩ hazard (Set.Icc 0 maturity) := by
        refine LipschitzOnWith.of_dist_le_mul fun s hs t ht => ?_
        rw [Real.dist_eq, Real.dist_eq]
        show _ ≤ L * |s - t|
        rcases le_total s t with h1 | h1
        · rw [abs_sub_comm, abs_sub_comm s t, abs_of_nonneg (sub_nonneg.2 h1)]
          exact hlip s t hs.1 h1 ht.2
        · rw [abs_of_nonneg (sub_nonneg.2 h1)]
          exact hlip t s ht.1 h1 hs.2
      exact this.continuousOn
    refine (hcont.mono ?_).intervalIntegrable
    rw [Set.uIcc_of_le hlt.le]
    exact Set.Icc_subset_Icc hN0 le_rfl
  have hlast : |∫ t in (N * dt)..maturity, hazard t| ≤ H * dt := by
    rw [← Real.norm_eq_abs]
    refine (intervalIntegral.norm_integral_le_of_norm_le_const (C := H) fun t ht => ?_).trans ?_
    · rw [Set.uIoc_of_le hlt.le] at ht
      obtain ⟨a, b⟩ := hh t (by linarith [ht.1]) ht.2
      rw [Real.norm_eq_abs, abs_of_nonneg a]
      exact b
    · rw [abs_of_nonneg (by linarith)]
      exact mul_le_mul_of_nonneg_left (by linarith) hH
  have htot := intervalIntegral.integral_add_adjacent_intervals hint hi2
  have hb : (N : ℝ) * ((2 * H ^ 2 + L) * dt ^ 2) ≤ (2 * H ^ 2 + L) * maturity * dt := by
    have : (N : ℝ) * dt * ((2 * H ^ 2 + L) * dt) ≤ maturity * ((2 * H ^ 2 + L) * dt) :=
      mul_le_mul_of_nonneg_right hlt.le (by positivity)
    nlinarith [this]
  rw [abs_le] at hle hlast
  rw [← Real.le_log_iff_exp_le hpos, ← Real.log_le_iff_le_exp hpos, ← htot]
  constructor
  · linarith [hle.1, hlast.1]
  · linarith [hle.2, hlast.2]

/-- C135. With a step of at least the maturity nothing is ever tested: every path survives, whatever the hazard and the draws. -/
theorem C135_coarse_step (hazard : ℝ → ℝ) (maturity dt : ℝ) (hdt : 0 < dt) (hm : maturity ≤ dt) (draw : Nat → ℝ) (n : Nat) :
    defaultBernoulliPaths hazard maturity dt n draw = .ok (List.replicate n none) := by
  obtain ⟨ts, ht, hlen, -⟩ := C76_default_times hazard maturity dt hdt n draw
  rw [ht]
  congr 1
  refine List.eq_replicate_iff.2 ⟨hlen, fun o ho => ?_⟩
  rcases o with _ | t
  · rfl
  · obtain ⟨-, h2, j, hj, rfl⟩ := C76_before_maturity hazard maturity dt hdt n draw ts ht t ho
    have : (1 : ℝ) ≤ j := by exact_mod_cast hj
    nlinarith

/-- Concrete case for C135: hazard 1, maturity 1, step 1/4: three grid times before maturity, survival probability 27/64. -/
example : stepsBefore 1 (1 / 4) = 3 ∧ survivalTo (fun _ => 1) (1 / 4) 3 = 27 / 64 ∧
    defaultMean (fun _ => 1) 1 (1 / 4) (fun o => if o.isNone then 0 else 1) = 37 / 64 := by
  have h3 : stepsBefore 1 (1 / 4) = 3 := by
    unfold stepsBefore
    rw [show (1 : ℝ) / (1 / 4) = ((4 : Nat) : ℝ) by norm_num, Nat.ceil_natCast]
  have hc : clampProb (1 / 4) = 1 / 4 := by unfold clampProb; norm_num
  refine ⟨h3, ?_, ?_⟩
  · simp only [survivalTo, one_mul, hc, Finset.prod_const, Finset.card_range]
    norm_num
  · unfold defaultMean
    rw [h3]
    simp only [survivalTo, one_mul, hc, Finset.prod_const, Finset.card_range, Finset.sum_range_succ, Finset.sum_range_zero]
    norm_num

/-- Concrete case for C135_hazard_curve: the hazard `t / 10` up to maturity 5 in steps of 1/100. -/
example : (∀ t : ℝ, 0 ≤ t → t ≤ 5 → 0 ≤ t / 10 ∧ t / 10 ≤ 1 / 2) ∧
    (∀ s t : ℝ, 0 ≤ s → s ≤ t → t ≤ 5 → |t / 10 - s / 10| ≤ 1 / 10 * (t - s)) ∧ (1 / 2 : ℝ) * (1 / 100) ≤ 1 / 2 := by
  refine ⟨fun t h0 h1 => ⟨by linarith, by linarith⟩, fun s t _ hst _ => ?_, by norm_num⟩
  rw [abs_of_nonneg (by linarith)]
  linarith

end Verif.Props
