/- Properties of cashflows as sequences and of instruments as sets: C77, C78. -/
import Verif.Model.CashflowSequence
import Verif.Props.Cashflow
import Mathlib.Tactic.Linarith

namespace Verif.Props
open Verif

/-! ### Slices -/

/-- A bound of a slice over `n` positions, for a positive step: counted from the end if negative, and brought into `0..n`. -/
def sliceBound (n : Nat) (default : Int) : Option Int → Int
  | none => default
  | some i => if i < 0 then max 0 (i + n) else min i n

/-- The positions selected by `slice(start, stop, step)` for a positive step, among `n`. -/
def Selected (s : PySlice) (n : Nat) (p : Nat) : Prop :=
  sliceBound n 0 s.start ≤ p ∧ p < sliceBound n n s.stop ∧ ((p : Int) - sliceBound n 0 s.start) % s.step.getD 1 = 0

instance (s : PySlice) (n p : Nat) : Decidable (Selected s n p) := by unfold Selected; infer_instance

theorem pyRange_pos_mem {a b c : Int} (hc : 0 < c) (x : Int) : x ∈ pyRange a b c ↔ a ≤ x ∧ x < b ∧ (x - a) % c = 0 := by
  unfold pyRange
  rw [if_pos hc]
  simp only [List.mem_map, List.mem_range]
  constructor
  · rintro ⟨k, hk, rfl⟩
    have h1 : (k : Int) < (b - a + c - 1) / c := by omega
    have h2 : ((k : Int) + 1) * c ≤ b - a + c - 1 := by
      have := Int.mul_le_of_le_ediv hc (show (k : Int) + 1 ≤ (b - a + c - 1) / c by omega)
      exact this
    have h3 : 0 ≤ (k : Int) * c := mul_nonneg (by omega) hc.le
    have e : a + (k : Int) * c - a = k * c := by ring
    refine ⟨by omega, by nlinarith, ?_⟩
    rw [e]; exact Int.mul_emod_left _ _
  · rintro ⟨h1, h2, h3⟩
    obtain ⟨q, hq⟩ : ∃ q, x - a = c * q := ⟨(x - a) / c, by have := Int.mul_ediv_add_emod (x - a) c; rw [h3] at this; omega⟩
    have hq0 : 0 ≤ q := by
      by_contra h
      have : c * q ≤ c * (-1) := mul_le_mul_of_nonneg_left (by omega) hc.le
      omega
    refine ⟨q.toNat, ?_, ?_⟩
    · have h4 : q + 1 ≤ (b - a + c - 1) / c := by
        apply Int.le_ediv_of_mul_le hc
        have : (q + 1) * c = x - a + c := by rw [hq]; ring
        omega
      omega
    · rw [Int.toNat_of_nonneg hq0]
      have : q * c = c * q := mul_comm _ _
      omega

theorem pyRange_neg_mem {a b c : Int} (hc : c < 0) (x : Int) : x ∈ pyRange a b c ↔ b < x ∧ x ≤ a ∧ (a - x) % (-c) = 0 := by
  have key : pyRange a b c = (pyRange (-a) (-b) (-c)).map (fun y => -y) := by
    unfold pyRange
    rw [if_neg (by omega), if_pos (by omega), List.map_map]
    have e : (-b - -a + -c - 1) = (a - b - c - 1) := by ring
    rw [e]
    refine List.map_congr_left fun k _ => ?_
    simp only [Function.comp]
    ring
  rw [key, List.mem_map]
  constructor
  · rintro ⟨y, hy, rfl⟩
    obtain ⟨h1, h2, h3⟩ := (pyRange_pos_mem (by omega) y).1 hy
    refine ⟨by omega, by omega, ?_⟩
    have : a - -y = y - -a := by ring
    rw [this]; exact h3
  · rintro ⟨h1, h2, h3⟩
    refine ⟨-x, (pyRange_pos_mem (by omega) _).2 ⟨by omega, by omega, ?_⟩, by ring⟩
    have : -x - -a = a - x := by ring
    rw [this]; exact h3

theorem pyRange_nodup {a b c : Int} (hc : c ≠ 0) : (pyRange a b c).Nodup := by
  unfold pyRange
  split_ifs <;>
  · refine List.Nodup.map ?_ List.nodup_range
    intro x y h
    simp only [add_right_inj] at h
    have := mul_right_cancel₀ hc h
    omega

theorem pyRange_sorted {a b c : Int} (hc : 0 < c) : (pyRange a b c).Pairwise (· < ·) := by
  unfold pyRange
  rw [if_pos hc]
  refine List.pairwise_map.2 (List.pairwise_lt_range.imp ?_)
  intro x y h
  have : (x : Int) * c < y * c := mul_lt_mul_of_pos_right (by exact_mod_cast h) hc
  omega

theorem first_le (s : PySlice) {step : Int} (h : step < 0) (n : Nat) : s.first step n ≤ n - 1 := by
  unfold PySlice.first PySlice.adjust
  cases s.start with
  | none => simp only [if_pos h]; exact le_rfl
  | some i => simp only [if_pos h]; split_ifs <;> omega

theorem le_last (s : PySlice) {step : Int} (h : step < 0) (n : Nat) : -1 ≤ s.last step n := by
  unfold PySlice.last PySlice.adjust
  cases s.stop with
  | none => simp only [if_pos h]; exact le_rfl
  | some i => simp only [if_pos h]; split_ifs <;> omega

theorem first_eq (s : PySlice) {step : Int} (h : 0 < step) (n : Nat) : s.first step n = sliceBound n 0 s.start := by
  unfold PySlice.first PySlice.adjust sliceBound
  cases s.start with
  | none => simp only [if_neg (not_lt.2 h.le)]
  | some i => simp only [if_neg (not_lt.2 h.le)]; split_ifs <;> omega

theorem last_eq (s : PySlice) {step : Int} (h : 0 < step) (n : Nat) : s.last step n = sliceBound n n s.stop := by
  unfold PySlice.last PySlice.adjust sliceBound
  cases s.stop with
  | none => simp only [if_neg (not_lt.2 h.le)]
  | some i => simp only [if_neg (not_lt.2 h.le)]; split_ifs <;> omega

theorem sliceBound_bounds (n : Nat) (d : Int) (hd : 0 ≤ d ∧ d ≤ n) (o : Option Int) : 0 ≤ sliceBound n d o ∧ sliceBound n d o ≤ n := by
  unfold sliceBound
  cases o with
  | none => exact hd
  | some i => simp only; split_ifs <;> omega

/-- Every position produced by a slice is in the list. -/
theorem indices_bounds {s : PySlice} {n : Nat} {idx : List Int} (h : s.indices n = .ok idx) : ∀ i ∈ idx, 0 ≤ i ∧ i < n := by
  unfold PySlice.indices at h
  simp only at h
  split_ifs at h with h0
  injection h with h
  subst h
  intro i hi
  by_cases hneg : s.step.getD 1 < 0
  · obtain ⟨h1, h2, -⟩ := (pyRange_neg_mem hneg i).1 hi
    have := first_le s hneg n
    have := le_last s hneg n
    omega
  · have hpos : 0 < s.step.getD 1 := by omega
    obtain ⟨h1, h2, -⟩ := (pyRange_pos_mem hpos i).1 hi
    rw [first_eq s hpos] at h1
    rw [last_eq s hpos] at h2
    have := sliceBound_bounds n 0 ⟨le_rfl, by omega⟩ s.start
    have := sliceBound_bounds n n ⟨by omega, le_rfl⟩ s.stop
    omega

/-- For a positive step a slice takes the selected positions in increasing order. -/
theorem indices_pos {s : PySlice} (hs : 0 < s.step.getD 1) (n : Nat) :
    s.indices n = .ok (((List.range n).filter fun p => decide (Selected s n p)).map fun p : Nat => (p : Int)) := by
  have hind : ∃ idx, s.indices n = .ok idx ∧ idx = pyRange (sliceBound n 0 s.start) (sliceBound n n s.stop) (s.step.getD 1) := by
    unfold PySlice.indices
    simp only [if_neg hs.ne']
    exact ⟨_, rfl, by rw [first_eq s hs, last_eq s hs]⟩
  obtain ⟨idx, he, hidx⟩ := hind
  rw [he]
  refine congrArg Except.ok ?_
  have hb := indices_bounds he
  have hsort : (((List.range n).filter fun p => decide (Selected s n p)).map fun p : Nat => (p : Int)).Pairwise (· < ·) := by
    refine List.pairwise_map.2 ((List.pairwise_lt_range.filter _).imp ?_)
    intro x y h
    exact_mod_cast h
  have hsort' : idx.Pairwise (· < ·) := by rw [hidx]; exact pyRange_sorted hs
  have hperm : idx.Perm (((List.range n).filter fun p => decide (Selected s n p)).map fun p : Nat => (p : Int)) := by
    refine (List.perm_ext_iff_of_nodup (hsort'.imp fun h => h.ne) (hsort.imp fun h => h.ne)).2 ?_
    intro x
    constructor
    · intro hx
      obtain ⟨h1, h2⟩ := hb x hx
      have hm := hx
      rw [hidx] at hm
      obtain ⟨m1, m2, m3⟩ := (pyRange_pos_mem hs x).1 hm
      refine List.mem_map.2 ⟨x.toNat, List.mem_filter.2 ⟨List.mem_range.2 (by omega), ?_⟩, by omega⟩
      rw [decide_eq_true_iff]
      unfold Selected
      rw [Int.toNat_of_nonneg h1]
      exact ⟨m1, m2, m3⟩
    · intro hx
      obtain ⟨p, hp, rfl⟩ := List.mem_map.1 hx
      obtain ⟨-, hp⟩ := List.mem_filter.1 hp
      rw [decide_eq_true_iff] at hp
      rw [hidx]
      exact (pyRange_pos_mem hs _).2 hp
  exact hperm.eq_of_pairwise (fun a b _ _ h1 h2 => absurd h1 (not_lt.2 h2.le)) hsort' hsort

theorem filterMap_getElem? {α : Type} (l : List α) (idx : List Int) (h : ∀ i ∈ idx, 0 ≤ i ∧ i < l.length) :
    (idx.filterMap fun i => l[i.toNat]?).length = idx.length ∧
    ∀ k (h1 : k < idx.length), (idx.filterMap fun i => l[i.toNat]?)[k]? = l[idx[k].toNat]? := by
  induction idx with
  | nil => exact ⟨rfl, fun k h1 => absurd h1 (by simp)⟩
  | cons i is ih =>
    obtain ⟨h1, h2⟩ := ih (fun j hj => h j (by simp [hj]))
    obtain ⟨b1, b2⟩ := h i (by simp)
    have hi : (fun i : Int => l[i.toNat]?) i = some (l[i.toNat]'(by omega)) := List.getElem?_eq_getElem _
    rw [List.filterMap_cons_some (f := fun i : Int => l[i.toNat]?) hi]
    refine ⟨by simp [h1], ?_⟩
    intro k hk
    rcases k with _ | k
    · simp
    · simpa using h2 k (by simpa using hk)

theorem slice_sublist {α : Type} {s : PySlice} (hs : 0 < s.step.getD 1) (l : List α) :
    ∃ r, s.apply l = .ok r ∧ r.Sublist l := by
  have hi := indices_pos hs l.length
  have hb := indices_bounds hi
  refine ⟨_, by unfold PySlice.apply; rw [hi, ok_bind], ?_⟩
  rw [List.filterMap_map]
  have e : ∀ (f : Nat → Bool) , ((List.range l.length).filter f).filterMap ((fun i : Int => l[i.toNat]?) ∘ fun p : Nat => (p : Int)) =
      (((List.range l.length).filterMap fun p => l[p]?.map fun a => (p, a)).filter fun q => f q.1).map Prod.snd := by
    intro f
    generalize List.range l.length = L
    have hcomp : ((fun i : Int => l[i.toNat]?) ∘ fun p : Nat => (p : Int)) = fun p => l[p]? := by funext p; simp
    rw [hcomp]
    induction L with
    | nil => rfl
    | cons p ps ih =>
      cases hp : l[p]? with
      | none =>
        by_cases hf : f p
        · simp [hf, hp, ih]
        · simp [hf, hp, ih]
      | some a =>
        by_cases hf : f p
        · simp [hf, hp, ih]
        · simp [hf, hp, ih]
  rw [e]
  have hall : ((List.range l.length).filterMap fun p => l[p]?.map fun a => (p, a)).map Prod.snd = l := by
    rw [List.map_filterMap]
    have : ∀ p ∈ List.range l.length, Option.map Prod.snd (l[p]?.map fun a => (p, a)) = l[p]? := by
      intro p _; cases l[p]? <;> rfl
    rw [List.filterMap_congr this]
    clear this e hb hi
    induction l with
    | nil => rfl
    | cons a as ih =>
      rw [List.length_cons, List.range_succ_eq_map, List.filterMap_cons_some (by simp : (a :: as)[0]? = some a), List.filterMap_map]
      congr 1
  exact (List.filter_sublist.map Prod.snd).trans (by rw [hall])

/-! ### C77 -/

/-- C77. `cashflow[i]` is the payment number `i`, counted from the end if `i` is negative, for -len ≤ i < len, and IndexError
otherwise. -/
theorem C77_getitem (schedule : List Payment) (i : Int) :
    (∀ k : Nat, (h : k < schedule.length) → (i = k ∨ i = (k : Int) - schedule.length) → Cashflow.getItem schedule i = .ok schedule[k]) ∧
    ((i < -(Cashflow.len schedule : Int) ∨ (Cashflow.len schedule : Int) ≤ i) → Cashflow.getItem schedule i = .error .indexError) := by
  unfold Cashflow.getItem pyGetItem Cashflow.len
  constructor
  · intro k hk hi
    have hj : (if i < 0 then i + (schedule.length : Int) else i) = k := by split_ifs <;> omega
    simp only [hj]
    rw [if_neg (by omega), Int.toNat_natCast, List.getElem?_eq_getElem hk]
  · intro hi
    by_cases h0 : i < 0
    · simp only [if_pos h0]
      rw [if_pos (by omega)]
    · simp only [if_neg h0]
      have hn : schedule[i.toNat]? = none := List.getElem?_eq_none (by omega)
      rw [hn]

/-- C77. Slicing with a positive step gives the cashflow of exactly the selected payments, in their order: a payment is selected if its
position is between the bounds (negative bounds counting from the end) and a multiple of the step from the first. -/
theorem C77_slice (ps : List Payment) (s : PySlice) (hs : 0 < s.step.getD 1) :
    Cashflow.getSlice (Cashflow.create ps) s =
      .ok (((List.range (Cashflow.create ps).length).filter fun p => decide (Selected s (Cashflow.create ps).length p)).filterMap
        fun p => (Cashflow.create ps)[p]?) := by
  obtain ⟨r, hr, hsub⟩ := slice_sublist hs (Cashflow.create ps)
  have hsorted : KeySorted Payment.date r := (pySorted_sorted Payment.date ps).sublist hsub
  have hsame : Cashflow.create r = r := pySorted_of_sorted Payment.date hsorted
  have hi := indices_pos hs (Cashflow.create ps).length
  have hr' := hr
  unfold PySlice.apply at hr'
  rw [hi, ok_bind, List.filterMap_map] at hr'
  injection hr' with hr'
  unfold Cashflow.getSlice
  rw [hr, ok_bind, hsame, ← hr']
  refine congrArg Except.ok (List.filterMap_congr fun p _ => ?_)
  simp

/-- C77. Slicing with any step gives a sorted cashflow of payments of the original, each at most as often; a step of 0 is a ValueError. -/
theorem C77_slice_any (ps : List Payment) (s : PySlice) :
    (s.step.getD 1 = 0 → Cashflow.getSlice (Cashflow.create ps) s = .error .valueError) ∧
    (s.step.getD 1 ≠ 0 → ∃ r, Cashflow.getSlice (Cashflow.create ps) s = .ok r ∧ r.Pairwise (fun a b => a.date ≤ b.date) ∧
      r.Subperm (Cashflow.create ps)) := by
  constructor
  · intro h
    unfold Cashflow.getSlice PySlice.apply PySlice.indices
    simp only [if_pos h]
    rfl
  · intro h
    have hex : ∃ idx, s.indices (Cashflow.create ps).length = .ok idx ∧ idx.Nodup := by
      unfold PySlice.indices
      simp only [if_neg h]
      exact ⟨_, rfl, pyRange_nodup h⟩
    obtain ⟨idx, hidx, hnd⟩ := hex
    have hb := indices_bounds hidx
    refine ⟨_, by unfold Cashflow.getSlice PySlice.apply; rw [hidx, ok_bind, ok_bind]; rfl, pySorted_sorted Payment.date _, ?_⟩
    refine (pySorted_perm Payment.date _).subperm.trans ?_
    generalize Cashflow.create ps = l at *
    have e : (idx.filterMap fun i => l[i.toNat]?) = (idx.map Int.toNat).filterMap fun p => l[p]? := by
      rw [List.filterMap_map]; rfl
    rw [e]
    have hsub : (idx.map Int.toNat).Subperm (List.range l.length) := by
      refine List.subperm_of_subset ?_ ?_
      · refine List.Nodup.map_on ?_ hnd
        intro x hx y hy hxy
        have := hb x hx; have := hb y hy
        omega
      · intro p hp
        obtain ⟨i, hi, rfl⟩ := List.mem_map.1 hp
        have := hb i hi
        exact List.mem_range.2 (by omega)
    have hl : (List.range l.length).filterMap (fun p => l[p]?) = l := by
      clear hb hidx e hsub
      induction l with
      | nil => rfl
      | cons a as ih =>
        rw [List.length_cons, List.range_succ_eq_map, List.filterMap_cons_some (by simp : (a :: as)[0]? = some a), List.filterMap_map]
        congr 1
    obtain ⟨q, hq, hs⟩ := hsub
    refine ⟨q.filterMap fun p => l[p]?, hq.filterMap _, ?_⟩
    have := hs.filterMap (fun p => l[p]?)
    rwa [hl] at this

/-- The first position taken by a slice with a negative step, among `n`: the given start (counted from the end if negative), but not
beyond the last position. -/
def backStart (n : Nat) : Option Int → Int
  | none => n - 1
  | some i => min (n - 1) (if i < 0 then i + n else i)

/-- The positions selected by `slice(start, stop, step)` for a negative step, among `n`: from the start downwards by the step, as long
as they are beyond `stop` (counted from the end if negative). -/
def SelectedBack (s : PySlice) (n : Nat) (p : Nat) : Prop :=
  p ≤ backStart n s.start ∧ (∀ j, s.stop = some j → (if j < 0 then j + n else j) < p) ∧ (backStart n s.start - p) % (-s.step.getD 1) = 0

instance (s : PySlice) (n p : Nat) : Decidable (SelectedBack s n p) := by
  unfold SelectedBack
  cases hs : s.stop with
  | none => simp only [reduceCtorEq, false_implies, implies_true, true_and]; infer_instance
  | some j => simp only [Option.some.injEq, forall_eq']; infer_instance

theorem selectedBack_iff {s : PySlice} (hs : s.step.getD 1 < 0) (n p : Nat) (hp : p < n) :
    (p : Int) ∈ pyRange (s.first (s.step.getD 1) n) (s.last (s.step.getD 1) n) (s.step.getD 1) ↔ SelectedBack s n p := by
  rw [pyRange_neg_mem hs]
  unfold SelectedBack
  have hlast : s.last (s.step.getD 1) n < p ↔ ∀ j, s.stop = some j → (if j < 0 then j + n else j) < p := by
    unfold PySlice.last PySlice.adjust
    cases s.stop with
    | none => simp only [if_pos hs, reduceCtorEq, false_implies, implies_true, iff_true]; omega
    | some j => simp only [if_pos hs, Option.some.injEq, forall_eq']; split_ifs <;> omega
  rw [hlast]
  have hfirst : (p : Int) ≤ s.first (s.step.getD 1) n ↔ p ≤ backStart n s.start := by
    unfold PySlice.first PySlice.adjust backStart
    cases s.start with
    | none => simp only [if_pos hs]
    | some i => simp only [if_pos hs]; split_ifs <;> omega
  have heq : (p : Int) ≤ backStart n s.start → s.first (s.step.getD 1) n = backStart n s.start := by
    unfold PySlice.first PySlice.adjust backStart
    cases s.start with
    | none => simp only [if_pos hs, implies_true]
    | some i => simp only [if_pos hs]; split_ifs <;> omega
  constructor
  · rintro ⟨h1, h2, h3⟩
    have := hfirst.1 h2
    exact ⟨this, h1, by rw [← heq this]; exact h3⟩
  · rintro ⟨h1, h2, h3⟩
    exact ⟨h2, hfirst.2 h1, by rw [heq h1]; exact h3⟩

/-- C77. With a negative step the slice takes every so-manyth payment from its start downwards; the new cashflow has them in date order
(for distinct payment dates). -/
theorem C77_slice_back (ps : List Payment) (hd : (ps.map Payment.date).Nodup) (s : PySlice) (hs : s.step.getD 1 < 0) :
    Cashflow.getSlice (Cashflow.create ps) s =
      .ok (((List.range (Cashflow.create ps).length).filter fun p => decide (SelectedBack s (Cashflow.create ps).length p)).filterMap
        fun p => (Cashflow.create ps)[p]?) := by
  have hex : ∃ idx, s.indices (Cashflow.create ps).length = .ok idx ∧ idx.Nodup ∧
      idx = pyRange (s.first (s.step.getD 1) (Cashflow.create ps).length) (s.last (s.step.getD 1) (Cashflow.create ps).length)
        (s.step.getD 1) := by
    unfold PySlice.indices
    simp only [if_neg hs.ne]
    exact ⟨_, rfl, pyRange_nodup hs.ne, rfl⟩
  obtain ⟨idx, hidx, hnd, he⟩ := hex
  have hb := indices_bounds hidx
  have hsorted : KeySorted Payment.date (Cashflow.create ps) := pySorted_sorted Payment.date ps
  have hdist : ((Cashflow.create ps).map Payment.date).Nodup := ((pySorted_perm Payment.date ps).map _).nodup_iff.2 hd
  unfold Cashflow.getSlice PySlice.apply
  rw [hidx, ok_bind]
  generalize Cashflow.create ps = l at *
  rw [ok_bind]
  refine congrArg Except.ok ?_
  have hperm : idx.Perm (((List.range l.length).filter fun p => decide (SelectedBack s l.length p)).map fun p : Nat => (p : Int)) := by
    have hsort : (((List.range l.length).filter fun p => decide (SelectedBack s l.length p)).map fun p : Nat => (p : Int)).Pairwise (· < ·) := by
      refine List.pairwise_map.2 ((List.pairwise_lt_range.filter _).imp ?_)
      intro x y h
      exact_mod_cast h
    refine (List.perm_ext_iff_of_nodup hnd (hsort.imp fun h => h.ne)).2 fun x => ?_
    constructor
    · intro hx
      obtain ⟨h1, h2⟩ := hb x hx
      refine List.mem_map.2 ⟨x.toNat, List.mem_filter.2 ⟨List.mem_range.2 (by omega), ?_⟩, by omega⟩
      rw [decide_eq_true_iff, ← selectedBack_iff hs _ _ (by omega), ← he, Int.toNat_of_nonneg h1]
      exact hx
    · intro hx
      obtain ⟨p, hp, rfl⟩ := List.mem_map.1 hx
      obtain ⟨hp1, hp⟩ := List.mem_filter.1 hp
      rw [decide_eq_true_iff] at hp
      rw [he]
      exact (selectedBack_iff hs _ _ (List.mem_range.1 hp1)).2 hp
  have hl : (List.range l.length).filterMap (fun p => l[p]?) = l := by
    clear hb hidx he hperm hsorted hdist
    induction l with
    | nil => rfl
    | cons a as ih =>
      rw [List.length_cons, List.range_succ_eq_map, List.filterMap_cons_some (by simp : (a :: as)[0]? = some a), List.filterMap_map]
      congr 1
  have hsub : (((List.range l.length).filter fun p => decide (SelectedBack s l.length p)).filterMap fun p => l[p]?).Sublist l := by
    have := (List.filter_sublist (l := List.range l.length) (p := fun p => decide (SelectedBack s l.length p))).filterMap fun p => l[p]?
    rwa [hl] at this
  have hp2 := hperm.filterMap fun i => l[i.toNat]?
  rw [List.filterMap_map] at hp2
  have hcomp : ((fun i : Int => l[i.toNat]?) ∘ fun p : Nat => (p : Int)) = fun p => l[p]? := by funext p; simp
  rw [hcomp] at hp2
  have hdist' := hdist.sublist (hsub.map Payment.date)
  have h1 := pySorted_perm_eq Payment.date hp2 ((hp2.map _).nodup_iff.2 hdist')
  unfold Cashflow.create
  rw [h1]
  exact pySorted_of_sorted Payment.date (hsorted.sublist hsub)

/-- C77. Reversing a cashflow with `[::-1]` does nothing when the payment dates are distinct. -/
theorem C77_reverse (ps : List Payment) (hd : (ps.map Payment.date).Nodup) :
    Cashflow.getSlice (Cashflow.create ps) ⟨none, none, some (-1)⟩ = .ok (Cashflow.create ps) := by
  have hlen : ∀ l : List Payment, PySlice.apply ⟨none, none, some (-1)⟩ l = .ok l.reverse := by
    intro l
    have hidx : PySlice.indices ⟨none, none, some (-1)⟩ l.length = .ok (pyRange ((l.length : Int) - 1) (-1) (-1)) := rfl
    unfold PySlice.apply
    rw [hidx, ok_bind]
    refine congrArg Except.ok ?_
    have hb := indices_bounds hidx
    obtain ⟨h1, h2⟩ := filterMap_getElem? l _ hb
    have hr : pyRange ((l.length : Int) - 1) (-1) (-1) = (List.range l.length).map fun k : Nat => (l.length : Int) - 1 + k * (-1) := by
      unfold pyRange
      rw [if_neg (by omega)]
      congr 2
      rw [show - (-1 : Int) = 1 by rfl, Int.ediv_one]
      omega
    have hl : (pyRange ((l.length : Int) - 1) (-1) (-1)).length = l.length := by rw [hr]; simp
    apply List.ext_getElem?
    intro k
    by_cases hk : k < l.length
    · rw [h2 k (by omega), List.getElem?_reverse hk]
      have : (pyRange ((l.length : Int) - 1) (-1) (-1))[k]'(by omega) = (l.length : Int) - 1 + k * (-1) := by
        simp only [hr, List.getElem_map, List.getElem_range]
      rw [this]
      congr 1
      omega
    · rw [List.getElem?_eq_none (by omega), List.getElem?_eq_none (by simp; omega)]
  unfold Cashflow.getSlice
  rw [hlen, ok_bind]
  refine congrArg Except.ok ?_
  have hp : (Cashflow.create ps).reverse.Perm ps := (List.reverse_perm _).trans (pySorted_perm Payment.date ps)
  exact pySorted_perm_eq Payment.date hp ((hp.map _).nodup_iff.2 hd)

/-- C77. For every integer `k`, `cashflow[:k]` and `cashflow[k:]` split the schedule, and their present values add up to the present
value of the cashflow. -/
theorem C77_split (ps : List Payment) (k : Int) :
    ∃ a b, Cashflow.getSlice (Cashflow.create ps) ⟨none, some k, none⟩ = .ok a ∧
      Cashflow.getSlice (Cashflow.create ps) ⟨some k, none, none⟩ = .ok b ∧ a ++ b = Cashflow.create ps ∧
      ∀ (curve : DiscountFn) (df : PyDate → ℚ), (∀ p ∈ ps, p.amount ≠ none → curve.referenceDate ≤ p.date →
          curve.call p.date = .ok (df p.date)) →
        ∃ x y, Cashflow.presentValue a curve = .ok x ∧ Cashflow.presentValue b curve = .ok y ∧
          Cashflow.presentValue (Cashflow.create ps) curve = .ok (x + y) := by
  have happ : ∀ l : List Payment, PySlice.apply ⟨none, some k, none⟩ l = .ok (l.take (sliceBound l.length 0 (some k)).toNat) ∧
      PySlice.apply ⟨some k, none, none⟩ l = .ok (l.drop (sliceBound l.length 0 (some k)).toNat) := by
    intro l
    have hb0 : 0 ≤ sliceBound l.length 0 (some k) ∧ sliceBound l.length 0 (some k) ≤ l.length := by
      simp only [sliceBound]; split_ifs <;> omega
    have aux : ∀ (a b : Int), 0 ≤ a → a ≤ b → b ≤ l.length →
        (pyRange a b 1).filterMap (fun i => l[i.toNat]?) = (l.take b.toNat).drop a.toNat := by
      intro a b h0 h1 h2
      have hr : pyRange a b 1 = (List.range (b - a).toNat).map fun k : Nat => a + k * 1 := by
        unfold pyRange
        rw [if_pos (by omega)]
        congr 2
        rw [Int.ediv_one]
        omega
      have hbd : ∀ i ∈ pyRange a b 1, 0 ≤ i ∧ i < l.length := by
        intro i hi
        obtain ⟨m1, m2, -⟩ := (pyRange_pos_mem (by omega) i).1 hi
        omega
      obtain ⟨g1, g2⟩ := filterMap_getElem? l _ hbd
      have hl : (pyRange a b 1).length = (b - a).toNat := by rw [hr]; simp
      apply List.ext_getElem?
      intro j
      by_cases hj : j < (b - a).toNat
      · rw [g2 j (by omega), List.getElem?_drop, List.getElem?_take_of_lt (by omega)]
        have : (pyRange a b 1)[j]'(by omega) = a + j * 1 := by simp only [hr, List.getElem_map, List.getElem_range]
        rw [this]
        congr 1
        omega
      · rw [List.getElem?_eq_none (by omega), List.getElem?_eq_none (by simp; omega)]
    constructor
    · have hidx : PySlice.indices ⟨none, some k, none⟩ l.length = .ok (pyRange 0 (sliceBound l.length 0 (some k)) 1) := by
        unfold PySlice.indices
        simp only [Option.getD_none, if_neg (one_ne_zero), first_eq _ one_pos, last_eq _ one_pos]
        rfl
      unfold PySlice.apply
      rw [hidx, ok_bind, aux _ _ le_rfl hb0.1 hb0.2]
      simp
    · have hidx : PySlice.indices ⟨some k, none, none⟩ l.length = .ok (pyRange (sliceBound l.length 0 (some k)) l.length 1) := by
        unfold PySlice.indices
        simp only [Option.getD_none, if_neg (one_ne_zero), first_eq _ one_pos, last_eq _ one_pos]
        rfl
      unfold PySlice.apply
      rw [hidx, ok_bind, aux _ _ hb0.1 hb0.2 le_rfl]
      simp
  obtain ⟨h1, h2⟩ := happ (Cashflow.create ps)
  set m := (sliceBound (Cashflow.create ps).length 0 (some k)).toNat with hm
  have hs : KeySorted Payment.date (Cashflow.create ps) := pySorted_sorted Payment.date ps
  have c1 : Cashflow.create ((Cashflow.create ps).take m) = (Cashflow.create ps).take m :=
    pySorted_of_sorted Payment.date (hs.sublist (List.take_sublist _ _))
  have c2 : Cashflow.create ((Cashflow.create ps).drop m) = (Cashflow.create ps).drop m :=
    pySorted_of_sorted Payment.date (hs.sublist (List.drop_sublist _ _))
  refine ⟨(Cashflow.create ps).take m, (Cashflow.create ps).drop m, ?_, ?_, List.take_append_drop _ _, ?_⟩
  · unfold Cashflow.getSlice; rw [h1, ok_bind, c1]
  · unfold Cashflow.getSlice; rw [h2, ok_bind, c2]
  · intro curve df hdf
    have hmem : ∀ p ∈ Cashflow.create ps, p ∈ ps := fun p hp => (pySorted_perm Payment.date ps).mem_iff.1 hp
    refine ⟨_, _, presentValue_schedule _ curve df fun p hp => hdf p (hmem p (List.mem_of_mem_take hp)),
      presentValue_schedule _ curve df fun p hp => hdf p (hmem p (List.mem_of_mem_drop hp)), ?_⟩
    rw [presentValue_schedule _ curve df fun p hp => hdf p (hmem p hp), ← List.sum_append, ← List.map_append, List.take_append_drop]

/-- C77. The payment dates are in order, and rebuilding a cashflow from its payment dates and amounts gives the same cashflow. -/
theorem C77_rebuild (ps : List Payment) :
    (Cashflow.getPaymentDates (Cashflow.create ps)).Pairwise (· ≤ ·) ∧
    Cashflow.createFromIterables (Cashflow.getPaymentDates (Cashflow.create ps)) (Cashflow.getPaymentAmounts (Cashflow.create ps)) =
      .ok (Cashflow.create ps) := by
  constructor
  · exact List.pairwise_map.2 (pySorted_sorted Payment.date ps)
  · unfold Cashflow.createFromIterables Cashflow.getPaymentDates Cashflow.getPaymentAmounts
    rw [if_neg (by simp)]
    refine congrArg Except.ok ?_
    have : (List.zip ((Cashflow.create ps).map Payment.date) ((Cashflow.create ps).map Payment.amount)).map
        (fun da => (⟨da.1, da.2⟩ : Payment)) = Cashflow.create ps := by
      generalize Cashflow.create ps = l
      induction l with
      | nil => rfl
      | cons a as ih => simp [ih]
    rw [this]
    exact pySorted_of_sorted Payment.date (pySorted_sorted Payment.date ps)

/-- Concrete case for C77: the last two of three payments. -/
example : Cashflow.getSlice (Cashflow.create [⟨D 2023 1 5, some 2⟩, ⟨D 2022 1 1, none⟩, ⟨D 2024 1 1, some 3⟩]) ⟨some (-2), none, none⟩ =
    .ok [⟨D 2023 1 5, some 2⟩, ⟨D 2024 1 1, some 3⟩] := by decide +kernel

/-- Concrete case for C77: every second payment. -/
example : Cashflow.getSlice (Cashflow.create [⟨D 2023 1 5, some 2⟩, ⟨D 2022 1 1, none⟩, ⟨D 2024 1 1, some 3⟩]) ⟨some 9, some 0, some (-1)⟩ =
    .ok [⟨D 2023 1 5, some 2⟩, ⟨D 2024 1 1, some 3⟩] := by decide +kernel

example : Cashflow.getSlice (Cashflow.create [⟨D 2023 1 5, some 2⟩, ⟨D 2022 1 1, none⟩, ⟨D 2024 1 1, some 3⟩]) ⟨none, none, some 2⟩ =
    .ok [⟨D 2022 1 1, none⟩, ⟨D 2024 1 1, some 3⟩] := by decide +kernel

/-! ### C78 -/

/-- C78 (failure). No collection of cashflows can be iterated. -/
theorem C78_iteration_raises {ν : Type} (c : CashflowCollection ν) : c.iterate = .error .typeError := rfl

/-- C78. Instruments with different numbers of cashflows compare as different and by size. -/
theorem C78_sizes_partial {ν : Type} (c d : CashflowCollection ν) (member : CashflowKey × ν → Bool) :
    (c.len ≠ d.len → c.eq d member = .ok false) ∧
    (d.len < c.len → c.le d member = .ok false) ∧ (d.len ≤ c.len → c.lt d member = .ok false) ∧
    (c.len < d.len → c.ge d member = .ok false) := by
  refine ⟨fun h => ?_, fun h => ?_, fun h => ?_, fun h => ?_⟩
  · unfold CashflowCollection.eq; rw [if_neg h]
  · unfold CashflowCollection.le; rw [if_pos h]
  · unfold CashflowCollection.lt; rw [if_neg (by omega)]
  · unfold CashflowCollection.ge; rw [if_pos h]

/-- C78 (failure). `c == d` raises TypeError for any two instruments with the same number of cashflows: even `c == c`. -/
theorem C78_equality_raises {ν : Type} (c d : CashflowCollection ν) (member : CashflowKey × ν → Bool) :
    c.eq d member = .error .typeError ↔ c.len = d.len := by
  unfold CashflowCollection.eq CashflowCollection.le
  split_ifs with h h2
  · omega
  · exact ⟨fun _ => h, fun _ => rfl⟩
  · exact ⟨fun e => (by cases e), fun e => absurd e h⟩

/-- C78 (failure). Every comparison that the sizes do not settle raises TypeError. -/
theorem C78_order_raises {ν : Type} (c d : CashflowCollection ν) (member : CashflowKey × ν → Bool) :
    (c.len ≤ d.len → c.le d member = .error .typeError) ∧ (c.len < d.len → c.lt d member = .error .typeError) ∧
    (d.len ≤ c.len → c.ge d member = .error .typeError) := by
  refine ⟨fun h => ?_, fun h => ?_, fun h => ?_⟩
  · unfold CashflowCollection.le; rw [if_neg (by omega)]; rfl
  · unfold CashflowCollection.lt CashflowCollection.le; rw [if_pos h, if_neg (by omega)]; rfl
  · unfold CashflowCollection.ge; rw [if_neg (by omega)]; rfl

/-- C78 (failure). So looking for an instrument in a list raises TypeError as soon as an earlier element is another instrument with as
many cashflows, although the instrument is in the list. -/
theorem C78_membership_raises {ν : Type} (heap : Nat → CashflowCollection ν) (member : CashflowKey × ν → Bool) (x : Nat)
    (before after : List Nat) (hx : x ∉ before) (y : Nat) (hy : y ∈ before) (hlen : (heap y).len = (heap x).len) :
    CashflowCollection.inList heap member x (before ++ x :: after) = .error .typeError := by
  induction before with
  | nil => simp at hy
  | cons z zs ih =>
    simp only [List.cons_append, CashflowCollection.inList]
    have hz : z ≠ x := fun e => hx (by simp [e])
    rw [if_neg hz]
    by_cases hl : (heap z).len = (heap x).len
    · rw [(C78_equality_raises (heap z) (heap x) member).2 hl]
      rfl
    · rw [((C78_sizes_partial (heap z) (heap x) member).1 hl), ok_bind]
      rw [if_neg (by simp)]
      refine ih (fun h => hx (by simp [h])) ?_
      rcases List.mem_cons.1 hy with e | e
      · exact absurd (e ▸ hlen) hl
      · exact e

/-- C78. Otherwise the lookup is right: if no other instrument in front has as many cashflows, an instrument in the list is found, and
one that is not in the list, when no element has as many cashflows, is reported missing. -/
theorem C78_membership_partial {ν : Type} (heap : Nat → CashflowCollection ν) (member : CashflowKey × ν → Bool) (x : Nat)
    (before : List Nat) (hx : x ∉ before) (hlen : ∀ y ∈ before, (heap y).len ≠ (heap x).len) :
    (∀ after, CashflowCollection.inList heap member x (before ++ x :: after) = .ok true) ∧
    CashflowCollection.inList heap member x before = .ok false := by
  induction before with
  | nil => exact ⟨fun after => by simp [CashflowCollection.inList], rfl⟩
  | cons z zs ih =>
    obtain ⟨i1, i2⟩ := ih (fun h => hx (by simp [h])) (fun y hy => hlen y (by simp [hy]))
    have hz : z ≠ x := fun e => hx (by simp [e])
    have he := (C78_sizes_partial (heap z) (heap x) member).1 (hlen z (by simp))
    constructor
    · intro after
      simp only [List.cons_append, CashflowCollection.inList]
      rw [if_neg hz, he, ok_bind, if_neg (by simp)]
      exact i1 after
    · simp only [CashflowCollection.inList]
      rw [if_neg hz, he, ok_bind, if_neg (by simp)]
      exact i2

/-- Concrete case: a bond after a bill with a single cashflow is found. -/
example : CashflowCollection.inList (fun n => if n = 3 then CashflowCollection.create [[(⟨D 2024 1 1, some 1⟩ : Payment)]] [.member 0]
    else CashflowCollection.create [[(⟨D 2024 1 1, some (n : ℚ)⟩ : Payment)], []] [.member 1, .member 0]) (fun _ => true) 7 [3, 7]
    = .ok true :=
  (C78_membership_partial _ _ 7 [3] (by decide) (by simp; decide +kernel)).1 []

/-- Concrete case for C78: the second of two bonds, each with coupons and a principal, is not found. -/
example : CashflowCollection.inList (fun n => CashflowCollection.create [[(⟨D 2024 1 1, some (n : ℚ)⟩ : Payment)], []]
    [.member 1, .member 0]) (fun _ => true) 7 [3, 7] = .error .typeError :=
  C78_membership_raises _ _ 7 [3] [] (by decide) 3 (by simp) rfl

end Verif.Props
