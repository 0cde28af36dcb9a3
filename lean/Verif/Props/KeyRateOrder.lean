/- Property C93: comparing key rates, and the private methods that add to a collection. -/
import Verif.Model.KeyRateOrder
import Verif.Props.KeyRateSequence
import Mathlib.Data.List.Permutation

namespace Verif.Props
open Verif Verif.Spec Verif.KeyRateCollection

/-! ## C93 -/

/-- C93 (partial: see `C93_trichotomy_false`). The comparisons are those of the key dates: `<=` is a total preorder, `<`, `>`, `>=` are
derived from it as usual, equal key rates are `<=` and `>=` each other and have the same hash (whatever python's hash of a tuple is);
and for key rates of one convention exactly one of `<`, `==`, `>` holds, so that `<=` means `<` or `==`. -/
theorem C93_order_partial (a b c : KeyRate) :
    ((a.le b = true ↔ a.keyDate ≤ b.keyDate) ∧ (a.lt b = true ↔ a.keyDate < b.keyDate)) ∧
    (a.le b = true ∨ b.le a = true) ∧ (a.le b = true → b.le c = true → a.le c = true) ∧
    (a.lt b = !b.le a) ∧ (a.gt b = b.lt a) ∧ (a.ge b = b.le a) ∧ (a.ne b = !a.eq b) ∧
    (a.eq b = true → a.le b = true ∧ a.ge b = true ∧ ∀ hash, a.hashValue hash = b.hashValue hash) ∧
    (a.dcc = b.dcc →
      ((a.lt b = true ∧ a.eq b = false ∧ a.gt b = false) ∨ (a.lt b = false ∧ a.eq b = true ∧ a.gt b = false) ∨
        (a.lt b = false ∧ a.eq b = false ∧ a.gt b = true)) ∧ (a.le b = (a.lt b || a.eq b))) := by
  simp only [KeyRate.le, KeyRate.lt, KeyRate.gt, KeyRate.ge, KeyRate.ne, KeyRate.eq, KeyRate.hashValue, decide_eq_true_eq]
  refine ⟨⟨trivial, trivial⟩, le_total _ _, fun h1 h2 => le_trans h1 h2, ?_, trivial, trivial, trivial, ?_, ?_⟩
  · rw [← decide_not]; congr 1; exact propext not_le.symm
  · intro h
    simp only [Bool.and_eq_true, beq_iff_eq] at h
    obtain ⟨h1, h2⟩ := h
    rw [h1, h2]
    exact ⟨le_refl _, le_refl _, fun _ => rfl⟩
  · intro h
    rw [h]
    rcases lt_trichotomy a.keyDate b.keyDate with g | g | g
    · refine ⟨Or.inl ?_, ?_⟩
      · simp [g, ne_of_lt g, not_lt.2 (le_of_lt g)]
      · simp [g, le_of_lt g]
    · rw [g]; simp
    · refine ⟨Or.inr (Or.inr ?_), ?_⟩
      · simp [g, ne_of_gt g, not_lt.2 (le_of_lt g)]
      · have : ¬ a.keyDate ≤ b.keyDate := not_le.2 g
        have : ¬ a.keyDate < b.keyDate := not_lt.2 (le_of_lt g)
        simp [*, ne_of_gt g]

/-- C93 is false across conventions: two key rates of one date with different conventions are neither `<` nor `==` nor `>`, although
each is `<=` the other. -/
theorem C93_trichotomy_false (a b : KeyRate) (hdate : a.keyDate = b.keyDate) (hdcc : a.dcc ≠ b.dcc) :
    a.lt b = false ∧ a.eq b = false ∧ a.gt b = false ∧ a.le b = true ∧ b.le a = true := by
  simp [KeyRate.le, KeyRate.lt, KeyRate.gt, KeyRate.eq, hdate, hdcc]

/-- C93. A collection that was constructed is truthy, and a key rate iterates over itself alone. -/
theorem C93_truthy (h : KRHeap) (ids : List Nat) (c : KeyRateCollection) (h' : KRHeap) (hc : create h ids = (.ok c, h')) (i : Nat) :
    c.truthy = true ∧ iterOne i = [i] := by
  refine ⟨?_, rfl⟩
  have hne := ((C23_raises_iff h ids).2.1 ⟨c, by rw [hc]⟩).1
  have hp := (C23_construction h ids c h' hc).1
  have : c.keyRates ≠ [] := by rintro e; rw [e] at hp; exact hne hp.symm.eq_nil
  cases hk : c.keyRates with
  | nil => exact absurd hk this
  | cons a l => simp [truthy, hk]

/-- C93 (partial: see `C93_combine_false`). `_add_key_rate_collection` never raises; it returns the sorted, wired union when the
collections do not conflict, and `self` with its key rates when they do. -/
theorem C93_combine_partial (h : KRHeap) (c d : KeyRateCollection) (hne : c.keyRates ≠ []) (hc : Sorted h c.keyRates)
    (hd : Sorted h d.keyRates) (out : KROutcome KeyRateCollection) (hout : AddsPrivate h c d out) :
    (Conflict h c.keyRates d.keyRates → out.1 = .ok c) ∧
    (¬ Conflict h c.keyRates d.keyRates → ∃ e h', out = (.ok e, h') ∧ Sorted h' e.keyRates ∧ Wired h' e.keyRates ∧
      (∀ x : RateId, x ∈ e.keyRates.map (rateId h') ↔ x ∈ c.keyRates.map (rateId h) ∨ x ∈ d.keyRates.map (rateId h)) ∧
      (∀ i ∈ c.keyRates, i ∈ e.keyRates) ∧ (∀ i ∈ e.keyRates, i ∈ c.keyRates ∨ i ∈ d.keyRates)) := by
  obtain ⟨order, hperm, rfl⟩ := hout
  obtain ⟨h1, h2⟩ := C25_union h c d hne hc hd (create h order) ⟨order, hperm, rfl⟩
  constructor
  · intro hconf
    have := h1.2 hconf
    have e : create h order = (.error .valueError, (create h order).2) := Prod.ext this rfl
    rw [e]
  · intro hnc
    obtain ⟨e, h', he, rest⟩ := h2 hnc
    exact ⟨e, h', by rw [he], rest⟩

/-- Key rates 2025 and 2030 (actual/360), 2027 (actual/360) and 2030 (actual/365). -/
def conflictHeap : KRHeap := fun i =>
  match i with
  | 0 => ⟨.act360, D 2025 1 1, none, some (D 2030 1 1), 1⟩
  | 1 => ⟨.act360, D 2030 1 1, some (D 2025 1 1), none, 1⟩
  | 2 => ⟨.act360, D 2027 1 1, none, some (D 2030 1 1), 1⟩
  | _ => ⟨.act365, D 2030 1 1, some (D 2027 1 1), none, 1⟩

/-- C93 is false of `_add_key_rate_collection` when the collections conflict: `self` comes back with the same key rates, but the dates
of some of them were already moved to neighbours of the other collection, so that it is no longer wired — whatever the order in which
the set is enumerated. -/
theorem C93_combine_false (out : KROutcome KeyRateCollection) (hout : AddsPrivate conflictHeap ⟨[0, 1], 0⟩ ⟨[2, 3], 0⟩ out) :
    Wired conflictHeap [0, 1] ∧ out.1 = .ok ⟨[0, 1], 0⟩ ∧ ¬ Wired out.2 [0, 1] := by
  refine ⟨?_, ?_⟩
  · intro k i hk
    match k, hk with
    | 0, hk => injection hk with hk; subst hk; decide +kernel
    | 1, hk => injection hk with hk; subst hk; decide +kernel
    | k + 2, hk => cases hk
  · obtain ⟨order, hperm, rfl⟩ := hout
    have hu : union conflictHeap [0, 1] [2, 3] = [0, 1, 2, 3] := by decide +kernel
    rw [hu] at hperm
    have key : ∀ o ∈ [0, 1, 2, 3].permutations', (create conflictHeap o).1 = .error .valueError ∧
        ((create conflictHeap o).2 0).next = some (D 2027 1 1) := by
      decide +kernel
    obtain ⟨k1, k2⟩ := key order (List.mem_permutations'.2 hperm)
    have e : create conflictHeap order = (.error .valueError, (create conflictHeap order).2) := Prod.ext k1 rfl
    rw [e]
    refine ⟨rfl, fun hw => ?_⟩
    obtain ⟨-, hn⟩ := hw 0 0 rfl
    rw [k2] at hn
    simp only [List.getElem?_cons_succ, List.getElem?_cons_zero, Option.map_some, Option.some.injEq] at hn
    have hsame : ∀ j, ((create conflictHeap order).2 j).keyDate = (conflictHeap j).keyDate := by
      rcases create_spec conflictHeap order with ⟨-, -, h', e', hs, -⟩ | ⟨-, h', e', hs, -⟩
      · rw [e']; exact fun j => (hs j).1
      · rw [e']; exact fun j => (hs j).1
    rw [hsame 1] at hn
    exact absurd hn (by decide +kernel)

theorem getItem_natCast (c : KeyRateCollection) (i : Nat) :
    c.getItem (i : Int) = if h : i < c.keyRates.length then .ok c.keyRates[i] else .error .indexError := by
  unfold getItem pyIndex
  by_cases h : i < c.keyRates.length
  · have h1 : (0 : Int) ≤ i ∧ (i : Int) < c.keyRates.length := by omega
    rw [if_pos h1, dif_pos h]
    simp [h]
  · have h1 : ¬ ((0 : Int) ≤ i ∧ (i : Int) < c.keyRates.length) := by omega
    have h2 : ¬ ((i : Int) < 0 ∧ -(c.keyRates.length : Int) ≤ i) := by omega
    rw [if_neg h1, if_neg h2, dif_neg h]

theorem insertIdx_eq {α : Type} : ∀ (l : List α) (i : Nat) (x : α), i ≤ l.length → l.insertIdx i x = l.take i ++ x :: l.drop i
  | _, 0, _, _ => by simp
  | [], i + 1, _, h => by simp at h
  | a :: l, i + 1, x, h => by
    simp only [List.length_cons] at h
    simp [List.insertIdx_succ_cons, insertIdx_eq l i x (by omega)]

/-- C93 (partial: see `C93_add_last_raises`, `C93_add_duplicate_raises`). `_add_key_rate` with a date before the last key date that is
not a key date returns a sorted, wired collection of the old key rates and the new one, and `self` has been changed to the same list. -/
theorem C93_add_partial (h : KRHeap) (c : KeyRateCollection) (hs : Sorted h c.keyRates) (x last : Nat)
    (hlast : c.keyRates.getLast? = some last) (hlt : (h x).keyDate < (h last).keyDate)
    (hnew : ∀ i ∈ c.keyRates, (h i).keyDate ≠ (h x).keyDate) :
    ∃ e h', addPrivate h c x = (.ok e, ⟨e.keyRates, c.iterIndex⟩, h') ∧ e.keyRates.Perm (x :: c.keyRates) ∧
      Sorted h' e.keyRates ∧ Wired h' e.keyRates ∧
      (∀ j, (h' j).keyDate = (h j).keyDate ∧ (h' j).dcc = (h j).dcc ∧ (h' j).bump = (h j).bump) := by
  have hks : KeySorted (fun j => (h j).keyDate) c.keyRates := hs.imp (fun g => le_of_lt g)
  obtain ⟨hn, h1, h2⟩ := bisectRight_spec (fun j => (h j).keyDate) c.keyRates hks (h x).keyDate
  unfold addPrivate
  simp only
  generalize hi : bisectRight (fun j => (h j).keyDate) c.keyRates (h x).keyDate = i at *
  have hi' : i < c.keyRates.length := by
    rcases Nat.lt_or_ge i c.keyRates.length with g | g
    · exact g
    · exfalso
      have hpos : 0 < c.keyRates.length := by
        cases hk : c.keyRates with
        | nil => rw [hk] at hlast; cases hlast
        | cons a l => simp
      have hidx : c.keyRates.length - 1 < c.keyRates.length := by omega
      have := h1 (c.keyRates.length - 1) hidx (by omega)
      rw [List.getLast?_eq_getElem?, List.getElem?_eq_getElem hidx] at hlast
      injection hlast with hlast
      rw [hlast] at this
      exact absurd hlt (not_lt.2 this)
  rw [getItem_natCast, dif_pos hi']
  simp only
  have hgt := h2 i hi' (le_refl _)
  have hne : (h c.keyRates[i]).ne (h x) = true := by
    have : (h c.keyRates[i]).keyDate ≠ (h x).keyDate := ne_of_gt hgt
    simp [KeyRate.ne, KeyRate.eq, this]
  rw [if_pos hne]
  simp only
  have hins : c.keyRates.insertIdx i x = insortRight (fun j => (h j).keyDate) c.keyRates x := by
    unfold insortRight
    simp only
    rw [hi, insertIdx_eq _ _ _ (le_of_lt hi')]
  have hperm : (c.keyRates.insertIdx i x).Perm (x :: c.keyRates) := by rw [hins]; exact insortRight_perm _ _ _
  have hsorted : KeySorted (fun j => (h j).keyDate) (c.keyRates.insertIdx i x) := by
    rw [hins]; exact insortRight_sorted _ _ _ hks
  have hnd : ((c.keyRates.insertIdx i x).map (fun j => (h j).keyDate)).Nodup := by
    rw [(hperm.map _).nodup_iff, List.map_cons, List.nodup_cons]
    refine ⟨?_, ?_⟩
    · intro hm
      obtain ⟨j, hj, e⟩ := List.mem_map.1 hm
      exact hnew j hj e
    · rw [List.nodup_iff_pairwise_ne, List.pairwise_map]
      exact hs.imp (fun g => ne_of_lt g)
  obtain ⟨e, he⟩ := (C23_raises_iff h (c.keyRates.insertIdx i x)).2.2 ⟨by
    intro hnil
    rw [hnil] at hperm
    exact absurd hperm.symm.eq_nil (by simp), hnd⟩
  have hcr : create h (c.keyRates.insertIdx i x) = (.ok e, (create h (c.keyRates.insertIdx i x)).2) := Prod.ext he rfl
  obtain ⟨p, s, w, same, -⟩ := C23_construction h _ e _ hcr
  have hek : e.keyRates = c.keyRates.insertIdx i x := by
    rcases create_spec h (c.keyRates.insertIdx i x) with ⟨-, -, h', e', -⟩ | ⟨-, h', e', -⟩
    · rw [hcr] at e'
      injection e' with e1 e2
      injection e1 with e1
      rw [e1]
      exact pySorted_of_sorted _ hsorted
    · rw [hcr] at e'
      cases e'
  refine ⟨e, (create h (c.keyRates.insertIdx i x)).2, ?_, p.trans hperm, s, w, same⟩
  rw [hcr, ← hek]

/-- C93 is false for a date on or after the last key date: `_add_key_rate` raises IndexError (leaving everything as it was). -/
theorem C93_add_last_raises (h : KRHeap) (c : KeyRateCollection) (hs : Sorted h c.keyRates) (x : Nat)
    (hall : ∀ i ∈ c.keyRates, (h i).keyDate ≤ (h x).keyDate) : addPrivate h c x = (.error .indexError, c, h) := by
  have hks : KeySorted (fun j => (h j).keyDate) c.keyRates := hs.imp (fun g => le_of_lt g)
  obtain ⟨hn, -, h2⟩ := bisectRight_spec (fun j => (h j).keyDate) c.keyRates hks (h x).keyDate
  unfold addPrivate
  simp only
  generalize bisectRight (fun j => (h j).keyDate) c.keyRates (h x).keyDate = i at *
  have hi' : ¬ i < c.keyRates.length := fun g =>
    absurd (h2 i g (le_refl _)) (not_lt.2 (hall _ (List.getElem_mem g)))
  rw [getItem_natCast, dif_neg hi']

/-- C93 is false for a date that is a key date already but the last: `_add_key_rate` raises ValueError and leaves `self` with two key
rates of that date, even when the key rate was in the collection. -/
theorem C93_add_duplicate_raises (h : KRHeap) (c : KeyRateCollection) (hs : Sorted h c.keyRates) (x y last : Nat)
    (hy : y ∈ c.keyRates) (hdate : (h y).keyDate = (h x).keyDate) (hlast : last ∈ c.keyRates)
    (hlt : (h x).keyDate < (h last).keyDate) :
    ∃ c' h', addPrivate h c x = (.error .valueError, c', h') ∧ c'.keyRates.Perm (x :: c.keyRates) := by
  have hks : KeySorted (fun j => (h j).keyDate) c.keyRates := hs.imp (fun g => le_of_lt g)
  obtain ⟨hn, h1, h2⟩ := bisectRight_spec (fun j => (h j).keyDate) c.keyRates hks (h x).keyDate
  unfold addPrivate
  simp only
  generalize hi : bisectRight (fun j => (h j).keyDate) c.keyRates (h x).keyDate = i at *
  have hi' : i < c.keyRates.length := by
    rcases Nat.lt_or_ge i c.keyRates.length with g | g
    · exact g
    · exfalso
      obtain ⟨k, hk, e⟩ := List.mem_iff_getElem.1 hlast
      have := h1 k hk (by omega)
      rw [e] at this
      exact absurd hlt (not_lt.2 this)
  rw [getItem_natCast, dif_pos hi']
  simp only
  have hne : (h c.keyRates[i]).ne (h x) = true := by
    have : (h c.keyRates[i]).keyDate ≠ (h x).keyDate := ne_of_gt (h2 i hi' (le_refl _))
    simp [KeyRate.ne, KeyRate.eq, this]
  rw [if_pos hne]
  simp only
  have hperm : (c.keyRates.insertIdx i x).Perm (x :: c.keyRates) := List.perm_insertIdx _ _ (by omega)
  refine ⟨_, _, Prod.ext ?_ rfl, hperm⟩
  refine (C23_raises_iff h _).1.2 (Or.inr ?_)
  rw [(hperm.map _).nodup_iff, List.map_cons, List.nodup_cons]
  rintro ⟨hm, -⟩
  exact hm (List.mem_map.2 ⟨y, hy, hdate⟩)

/-- The hypotheses are met: a third key rate between two, after both, and of the date of the first. -/
example : Sorted conflictHeap [0, 1] ∧ (∀ i ∈ [0, 1], (conflictHeap i).keyDate ≠ (conflictHeap 2).keyDate) ∧
    (conflictHeap 2).keyDate < (conflictHeap 1).keyDate ∧ (∀ i ∈ [0, 1], (conflictHeap i).keyDate ≤ (conflictHeap 3).keyDate) ∧
    Conflict conflictHeap [0, 1] [2, 3] ∧ (conflictHeap 1).keyDate = (conflictHeap 3).keyDate ∧
    (conflictHeap 1).dcc ≠ (conflictHeap 3).dcc := by
  refine ⟨?_, by decide +kernel, by decide +kernel, by decide +kernel, ⟨1, by simp, 3, by simp, ?_⟩, by decide +kernel,
    by decide +kernel⟩
  · unfold Sorted; decide +kernel
  · decide +kernel

end Verif.Props
