/- Properties C80 and C81: key-rate collections as sequences. -/
import Verif.Model.KeyRateSequence
import Verif.Props.KeyRateOps
import Verif.Props.CashflowSequence

namespace Verif.Props
open Verif Verif.Spec Verif.KeyRateCollection

theorem same_iff (h : KRHeap) (v value : Nat) : same h v value = true ↔ rateId h v = rateId h value := by
  unfold same
  rw [Bool.or_eq_true, keyRate_eq_iff, beq_iff_eq]
  exact ⟨fun e => e.elim (fun e => by rw [e]) id, Or.inr⟩

/-! ## C80 -/

/-- C80. `k in c` holds exactly when `c` has a key rate with the convention and date of `k`; `c.count(k)` is the number of such
key rates, at most one. -/
theorem C80_lookup (h : KRHeap) (c : KeyRateCollection) (hs : Sorted h c.keyRates) (value : Nat) :
    (contains h c value = true ↔ ∃ i ∈ c.keyRates, rateId h i = rateId h value) ∧
    count h c value = (c.keyRates.map (rateId h)).count (rateId h value) ∧ count h c value ≤ 1 := by
  have hcount : count h c value = (c.keyRates.map (rateId h)).count (rateId h value) := by
    unfold count
    rw [List.count, List.countP_map, List.countP_eq_length_filter]
    congr 1
    refine List.filter_congr fun v _ => ?_
    rw [Bool.eq_iff_iff, same_iff]
    simp
  refine ⟨?_, hcount, ?_⟩
  · unfold contains
    rw [List.any_eq_true]
    simp only [same_iff]
  · rw [hcount]
    refine List.nodup_iff_count_le_one.1 ?_ _
    rw [List.nodup_iff_pairwise_ne, List.pairwise_map]
    exact List.Pairwise.imp (fun {a b} (hab : (h a).keyDate < (h b).keyDate) (e : rateId h a = rateId h b) => (ne_of_lt hab) (congrArg Prod.snd e)) hs

/-- C80. `reversed(c)` runs through the key rates from the last to the first. -/
theorem C80_reversed (c : KeyRateCollection) : reversedItems c = .ok c.keyRates.reverse := by
  have hget : ∀ i ∈ (List.range c.keyRates.length).reverse, c.getItem (i : Int) = .ok ((c.keyRates[i]?).getD 0) := by
    intro i hi
    have hi' : i < c.keyRates.length := by simpa using hi
    unfold getItem pyIndex
    rw [if_pos (by omega)]
    simp [List.getElem?_eq_getElem hi']
  have key : ∀ L : List Nat, (∀ i ∈ L, c.getItem (i : Int) = .ok ((c.keyRates[i]?).getD 0)) →
      L.mapM (fun i : Nat => c.getItem (i : Int)) = .ok (L.map fun i => (c.keyRates[i]?).getD 0) := by
    intro L
    induction L with
    | nil => intro _; rfl
    | cons a L ih =>
      intro hL
      rw [List.mapM_cons, hL a (by simp), ok_bind, ih (fun i hi => hL i (by simp [hi])), ok_bind]
      rfl
  unfold reversedItems
  rw [key _ hget, List.map_reverse]
  congr 2
  refine List.ext_getElem (by simp) ?_
  intro k h1 h2
  simp [List.getElem?_eq_getElem h2]

/-- Position `k` lies between the bounds given to `index`, negative ones counting from the end. -/
def Within (n : Nat) (start : Int) (stop : Option Int) (k : Nat) : Prop :=
  (if start < 0 then n + start ≤ k else start ≤ k) ∧ ∀ e, stop = some e → if e < 0 then (k : Int) < n + e else (k : Int) < e

theorem indexLoop_spec (h : KRHeap) (value : Nat) (stop : Option Int) : ∀ (rest : List Nat) (i : Int),
    (∃ m : Nat, ∃ hm : m < rest.length, indexLoop h value stop rest i = .ok (i + m) ∧ (∀ e, stop = some e → i + m < e) ∧
      rateId h rest[m] = rateId h value ∧ ∀ j : Nat, (hj : j < m) → rateId h rest[j] ≠ rateId h value) ∨
    (indexLoop h value stop rest i = .error .valueError ∧
      ∀ m : Nat, (hm : m < rest.length) → (∀ e, stop = some e → i + m < e) → rateId h rest[m] ≠ rateId h value) := by
  intro rest
  induction rest with
  | nil => intro i; right; exact ⟨rfl, fun m hm => absurd hm (by simp)⟩
  | cons v rest ih =>
    intro i
    have hcond : before stop i = true ↔ ∀ e, stop = some e → i < e := by
      unfold before
      cases stop with
      | none => simp
      | some s => simp
    by_cases hin : ∀ e, stop = some e → i < e
    · by_cases hv : same h v value
      · left
        refine ⟨0, by simp, ?_, by simpa using hin, (same_iff h v value).1 hv, by simp⟩
        rw [indexLoop, if_pos (hcond.2 hin), if_pos hv]; simp
      · have hne : rateId h v ≠ rateId h value := fun e => hv ((same_iff h v value).2 e)
        have heq : indexLoop h value stop (v :: rest) i = indexLoop h value stop rest (i + 1) := by
          rw [indexLoop, if_pos (hcond.2 hin), if_neg hv]
        rw [heq]
        rcases ih (i + 1) with ⟨m, hm, h1, h2, h3, h4⟩ | ⟨h1, h2⟩
        · left
          refine ⟨m + 1, by simpa using hm, ?_, ?_, by simpa using h3, ?_⟩
          · rw [h1]; push_cast; congr 1; ring
          · intro e he; have := h2 e he; push_cast; omega
          · intro j hj
            cases j with
            | zero => simpa using hne
            | succ j => simpa using h4 j (by omega)
        · right
          refine ⟨h1, ?_⟩
          intro m hm hb
          cases m with
          | zero => simpa using hne
          | succ m =>
            have := h2 m (by simpa using hm) (by intro e he; have := hb e he; push_cast at this; omega)
            simpa using this
    · right
      refine ⟨?_, ?_⟩
      · rw [indexLoop, if_neg (fun hc => hin (hcond.1 hc))]
      · intro m hm hb
        exfalso
        exact hin fun e he => by have := hb e he; omega

/-- C80. `c.index(k, start, stop)` is the first position between the bounds whose key rate has the convention and date of `k`; if
there is none, ValueError. -/
theorem C80_index (h : KRHeap) (c : KeyRateCollection) (value : Nat) (start : Int) (stop : Option Int) :
    (∃ k : Nat, ∃ hk : k < c.keyRates.length, c.index h value start stop = .ok k ∧ Within c.keyRates.length start stop k ∧
      rateId h c.keyRates[k] = rateId h value ∧
      ∀ j : Nat, (hj : j < k) → Within c.keyRates.length start stop j → rateId h c.keyRates[j] ≠ rateId h value) ∨
    (c.index h value start stop = .error .valueError ∧
      ∀ k : Nat, (hk : k < c.keyRates.length) → Within c.keyRates.length start stop k →
        rateId h c.keyRates[k] ≠ rateId h value) := by
  unfold index
  simp only
  set n := c.keyRates.length with hn
  set s : Int := if start < 0 then max (n + start) 0 else start with hs
  have hs0 : 0 ≤ s := by rw [hs]; split_ifs <;> omega
  have hW : ∀ k : Nat, Within n start stop k ↔ s ≤ k ∧ ∀ e, (stop.map fun x : Int => if x < 0 then x + n else x) = some e → (k : Int) < e := by
    intro k
    unfold Within
    refine and_congr ?_ ?_
    · rw [hs]; split_ifs <;> omega
    · cases stop with
      | none => simp
      | some x =>
        simp only [Option.map_some, Option.some.injEq, forall_eq']
        split_ifs <;> omega
  rcases indexLoop_spec h value (stop.map fun x : Int => if x < 0 then x + n else x) (c.keyRates.drop s.toNat) s with
    ⟨m, hm, h1, h2, h3, h4⟩ | ⟨h1, h2⟩
  · left
    rw [List.length_drop] at hm
    refine ⟨s.toNat + m, by omega, ?_, ?_, ?_, ?_⟩
    · rw [h1]; congr 1; push_cast; rw [Int.toNat_of_nonneg hs0]
    · rw [hW]; refine ⟨by push_cast; omega, ?_⟩
      intro e he; have := h2 e he; push_cast; omega
    · rw [List.getElem_drop] at h3; exact h3
    · intro j hj hw
      obtain ⟨w1, -⟩ := (hW j).1 hw
      have := h4 (j - s.toNat) (by omega)
      rw [List.getElem_drop] at this
      have e : s.toNat + (j - s.toNat) = j := by omega
      simpa only [e] using this
  · right
    refine ⟨h1, ?_⟩
    intro k hk hw
    obtain ⟨w1, w2⟩ := (hW k).1 hw
    have := h2 (k - s.toNat) (by rw [List.length_drop]; omega) (by intro e he; have := w2 e he; omega)
    rw [List.getElem_drop] at this
    have e : s.toNat + (k - s.toNat) = k := by omega
    simpa only [e] using this

theorem delItem_negative (h : KRHeap) (c : KeyRateCollection) (k : Nat) (hk : k < c.keyRates.length) (i : Int)
    (hi : i = k ∨ i = (k : Int) - c.keyRates.length) :
    c.delItem h i = c.delItem h (k : Int) ∧ c.getItem i = .ok c.keyRates[k] := by
  have hp : pyIndex c.keyRates.length i = some k := by
    unfold pyIndex
    rcases hi with rfl | rfl
    · rw [if_pos (by omega)]; simp
    · rw [if_neg (by omega), if_pos (by omega)]; congr 1; omega
  have hp' : pyIndex c.keyRates.length (k : Int) = some k := by
    unfold pyIndex; rw [if_pos (by omega)]; simp
  constructor
  · unfold delItem; rw [hp, hp']
  · unfold getItem; rw [hp]; simp only; rw [List.getElem?_eq_getElem hk]

/-- C80. From a collection of at least two key rates, `c.pop(i)` returns the key rate at position `i` (from the end if negative)
and leaves the others, in order and rewired; outside the range it raises IndexError and changes nothing. -/
theorem C80_pop (h : KRHeap) (c : KeyRateCollection) (hs : Sorted h c.keyRates) (h2 : 2 ≤ c.keyRates.length) (i : Int) :
    (∀ k : Nat, (hk : k < c.keyRates.length) → (i = k ∨ i = (k : Int) - c.keyRates.length) →
      ∃ c' h', c.pop h i = (.ok c.keyRates[k], c', h') ∧ c'.keyRates = c.keyRates.eraseIdx k ∧
        Sorted h' c'.keyRates ∧ Wired h' c'.keyRates) ∧
    ((i < -(c.keyRates.length : Int) ∨ (c.keyRates.length : Int) ≤ i) → c.pop h i = (.error .indexError, c, h)) := by
  constructor
  · intro k hk hi
    obtain ⟨e1, e2⟩ := delItem_negative h c k hk i hi
    obtain ⟨d1, d2, -⟩ := C52_delitem h c hs k hk
    obtain ⟨d2, d3, d4⟩ := d2 h2
    refine ⟨(c.delItem h k).2.1, (c.delItem h k).2.2, ?_, d1, by rw [d1]; exact d3, by rw [d1]; exact d4⟩
    unfold pop
    rw [e2, e1]
    simp only
    have : c.delItem h k = (.ok (), (c.delItem h k).2.1, (c.delItem h k).2.2) := Prod.ext d2 rfl
    rw [this]
  · intro hi
    have : c.getItem i = .error .indexError := by
      unfold getItem pyIndex
      rw [if_neg (by omega), if_neg (by omega)]
    unfold pop
    rw [this]

/-- C80. From a collection of at least two key rates, `c.remove(k)` removes the key rate with the convention and date of `k` and
leaves the others, in order and rewired; if there is none it raises ValueError and changes nothing. -/
theorem C80_remove (h : KRHeap) (c : KeyRateCollection) (hs : Sorted h c.keyRates) (h2 : 2 ≤ c.keyRates.length) (value : Nat) :
    ((∃ i ∈ c.keyRates, rateId h i = rateId h value) → (c.remove h value).1 = .ok () ∧
      (c.remove h value).2.1.keyRates = c.keyRates.filter (fun i => decide (rateId h i ≠ rateId h value)) ∧
      Sorted (c.remove h value).2.2 (c.remove h value).2.1.keyRates ∧
      Wired (c.remove h value).2.2 (c.remove h value).2.1.keyRates) ∧
    ((∀ i ∈ c.keyRates, rateId h i ≠ rateId h value) → c.remove h value = (.error .valueError, c, h)) := by
  have hW : ∀ k : Nat, Within c.keyRates.length 0 none k := by
    intro k; unfold Within; simp
  have hidx := C80_index h c value 0 none
  constructor
  · rintro ⟨i, hi, hid⟩
    rcases hidx with ⟨k, hk, e, -, hk2, -⟩ | ⟨-, hno⟩
    · have hrem : c.remove h value = c.delItem h (k : Int) := by unfold remove; rw [e]
      obtain ⟨d1, d2, -⟩ := C52_delitem h c hs k hk
      obtain ⟨d2, d3, d4⟩ := d2 h2
      rw [hrem]
      refine ⟨d2, ?_, by rw [d1]; exact d3, by rw [d1]; exact d4⟩
      rw [d1]
      have hndid : (c.keyRates.map (rateId h)).Nodup := by
        rw [List.nodup_iff_pairwise_ne, List.pairwise_map]
        exact List.Pairwise.imp (fun {a b} (hab : (h a).keyDate < (h b).keyDate) (e : rateId h a = rateId h b) => (ne_of_lt hab) (congrArg Prod.snd e)) hs
      have hnd : c.keyRates.Nodup := List.Nodup.of_map _ hndid
      rw [← hnd.erase_getElem k hk, hnd.erase_eq_filter]
      refine List.filter_congr fun x hx => ?_
      rw [Bool.eq_iff_iff]
      simp only [bne_iff_ne, decide_eq_true_eq]
      rw [← hk2]
      constructor
      · intro hne heq; exact hne (List.inj_on_of_nodup_map hndid hx (List.getElem_mem hk) heq)
      · intro hne heq; exact hne (by rw [heq])
    · obtain ⟨k, hk, rfl⟩ := List.getElem_of_mem hi
      exact absurd hid (hno k hk (hW k))
  · intro hno
    rcases hidx with ⟨k, hk, e, -, hk2, -⟩ | ⟨e, -⟩
    · exact absurd hk2 (hno _ (List.getElem_mem hk))
    · unfold remove; rw [e]

theorem slice_apply_spec {α : Type} (s : PySlice) (l : List α) (h0 : s.step.getD 1 ≠ 0) :
    ∃ idx : List Int, s.indices l.length = .ok idx ∧ idx.Nodup ∧ (∀ i ∈ idx, 0 ≤ i ∧ i < l.length) ∧
      s.apply l = .ok (idx.filterMap fun i => l[i.toNat]?) := by
  have hind : s.indices l.length = .ok (pyRange (s.first (s.step.getD 1) l.length) (s.last (s.step.getD 1) l.length) (s.step.getD 1)) := by
    unfold PySlice.indices; simp only; rw [if_neg h0]
  refine ⟨_, hind, pyRange_nodup h0, indices_bounds hind, ?_⟩
  unfold PySlice.apply; rw [hind, ok_bind]

theorem filterMap_nodup {α : Type} {l : List α} (hl : l.Nodup) {idx : List Int} (hi : idx.Nodup)
    (hb : ∀ i ∈ idx, 0 ≤ i ∧ i < l.length) : (idx.filterMap fun i => l[i.toNat]?).Nodup := by
  induction idx with
  | nil => simp
  | cons i is ih =>
    obtain ⟨b1, b2⟩ := hb i (by simp)
    have hsome : (fun i : Int => l[i.toNat]?) i = some (l[i.toNat]'(by omega)) := List.getElem?_eq_getElem _
    rw [List.filterMap_cons_some (f := fun i : Int => l[i.toNat]?) hsome]
    refine List.nodup_cons.2 ⟨?_, ih (List.nodup_cons.1 hi).2 (fun j hj => hb j (by simp [hj]))⟩
    intro hmem
    obtain ⟨j, hj, hje⟩ := List.mem_filterMap.1 hmem
    obtain ⟨c1, c2⟩ := hb j (by simp [hj])
    rw [List.getElem?_eq_getElem (by omega)] at hje
    injection hje with hje
    have := (List.Nodup.getElem_inj_iff hl).1 hje
    have : j = i := by omega
    subst this
    exact (List.nodup_cons.1 hi).1 hj

/-- C80. `c[start:stop:step]` for any slice of nonzero step: ValueError if it selects no position; otherwise a new sorted, wired
collection holding exactly the selected key rates (in date order whatever the sign of the step). -/
theorem C80_slice (h : KRHeap) (c : KeyRateCollection) (hs : Sorted h c.keyRates) (s : PySlice) (h0 : s.step.getD 1 ≠ 0)
    (idx : List Int) (hidx : s.indices c.keyRates.length = .ok idx) :
    (idx = [] → (c.getPySlice h s).1 = .error .valueError) ∧
    (idx ≠ [] → ∃ c' h', c.getPySlice h s = (.ok c', h') ∧ Sorted h' c'.keyRates ∧ Wired h' c'.keyRates ∧
      c'.keyRates.Sublist c.keyRates ∧
      ∀ k : Nat, (hk : k < c.keyRates.length) → (c.keyRates[k] ∈ c'.keyRates ↔ (k : Int) ∈ idx)) := by
  obtain ⟨idx', e1, hnd, hb, happ⟩ := slice_apply_spec s c.keyRates h0
  rw [hidx] at e1
  injection e1 with e1
  subst e1
  have hget : c.getPySlice h s = create h (idx.filterMap fun i => c.keyRates[i.toNat]?) := by
    unfold getPySlice; rw [happ]
  have hlen := (filterMap_getElem? c.keyRates idx hb).1
  have hcn : c.keyRates.Nodup := DateSorted.nodup hs
  have hndl := filterMap_nodup hcn hnd hb
  have hsub : ∀ x ∈ (idx.filterMap fun i => c.keyRates[i.toNat]?), x ∈ c.keyRates := by
    intro x hx
    obtain ⟨i, hi, e⟩ := List.mem_filterMap.1 hx
    exact List.mem_of_getElem? e
  have hndc : (c.keyRates.map (fun i => (h i).keyDate)).Nodup := by
    rw [List.nodup_iff_pairwise_ne, List.pairwise_map]
    exact hs.imp fun hab => ne_of_lt hab
  rw [hget]
  constructor
  · rintro rfl
    exact (C23_raises_iff h _).1.2 (Or.inl rfl)
  · intro hne
    obtain ⟨c', hc'⟩ := (C23_raises_iff h (idx.filterMap fun i => c.keyRates[i.toNat]?)).2.2 (by
      refine ⟨?_, ?_⟩
      · intro hnil; rw [hnil] at hlen; exact hne (List.eq_nil_of_length_eq_zero (by simpa using hlen.symm))
      · rw [List.nodup_map_iff_inj_on hndl]
        intro x hx y hy hxy
        exact List.inj_on_of_nodup_map hndc (hsub x hx) (hsub y hy) hxy)
    have hcr : create h (idx.filterMap fun i => c.keyRates[i.toNat]?) = (.ok c', _) := Prod.ext hc' rfl
    obtain ⟨p1, p2, p3, p4, -⟩ := C23_construction _ _ _ _ hcr
    refine ⟨c', _, hcr, p2, p3, ?_, ?_⟩
    · have hs' : Sorted h c'.keyRates := p2.imp fun hab => by rw [(p4 _).1, (p4 _).1] at hab; exact hab
      obtain ⟨l, hl1, hl2⟩ := List.subperm_of_subset (DateSorted.nodup hs') fun x hx => hsub x (p1.mem_iff.1 hx)
      have : l = c'.keyRates := List.Perm.eq_of_pairwise (le := fun a b => (h a).keyDate < (h b).keyDate)
        (fun a b _ _ h1 h2 => absurd h1 (lt_asymm h2)) (List.Pairwise.sublist hl2 hs) hs' hl1
      rw [← this]; exact hl2
    · intro k hk
      rw [p1.mem_iff, List.mem_filterMap]
      constructor
      · rintro ⟨i, hi, e⟩
        obtain ⟨b1, b2⟩ := hb i hi
        rw [List.getElem?_eq_getElem (by omega)] at e
        injection e with e
        have := (List.Nodup.getElem_inj_iff hcn).1 e
        have : i = k := by omega
        rwa [this] at hi
      · intro hi
        exact ⟨k, hi, by simp [List.getElem?_eq_getElem hk]⟩

/-- C80. For a positive step the selected positions are those between the bounds (negative bounds from the end, out-of-range ones
clipped) at multiples of the step from the start. -/
theorem C80_slice_positive (h : KRHeap) (c : KeyRateCollection) (hs : Sorted h c.keyRates) (s : PySlice) (h0 : 0 < s.step.getD 1)
    (c' : KeyRateCollection) (h' : KRHeap) (hc : c.getPySlice h s = (.ok c', h')) (k : Nat) (hk : k < c.keyRates.length) :
    c.keyRates[k] ∈ c'.keyRates ↔ Selected s c.keyRates.length k := by
  have hidx := indices_pos h0 c.keyRates.length
  obtain ⟨h1, h2⟩ := C80_slice h c hs s (ne_of_gt h0) _ hidx
  have hne : (((List.range c.keyRates.length).filter fun p => decide (Selected s c.keyRates.length p)).map fun p : Nat => (p : Int)) ≠ [] := by
    intro hnil
    have := h1 hnil
    rw [hc] at this
    cases this
  obtain ⟨c2, h2', e, -, -, -, hmem⟩ := h2 hne
  rw [hc] at e
  cases e
  rw [hmem k hk]
  constructor
  · intro hm
    obtain ⟨p, hp, he⟩ := List.mem_map.1 hm
    have : p = k := by omega
    subst this
    simpa using (List.mem_filter.1 hp).2
  · intro hsel
    exact List.mem_map.2 ⟨k, List.mem_filter.2 ⟨List.mem_range.2 hk, by simpa using hsel⟩, rfl⟩

/-- C80. `del c[slice]` removes exactly the selected positions; if others remain, they form a sorted, wired collection, and if
none remain it raises ValueError, leaving the collection empty. -/
theorem C80_delete_slice (h : KRHeap) (c : KeyRateCollection) (hs : Sorted h c.keyRates) (s : PySlice)
    (idx : List Int) (hidx : s.indices c.keyRates.length = .ok idx) :
    (c.delSlice h s).2.1.keyRates.Sublist c.keyRates ∧
    (∀ k : Nat, (hk : k < c.keyRates.length) → (c.keyRates[k] ∈ (c.delSlice h s).2.1.keyRates ↔ (k : Int) ∉ idx)) ∧
    ((c.delSlice h s).2.1.keyRates ≠ [] → (c.delSlice h s).1 = .ok () ∧ Sorted (c.delSlice h s).2.2 (c.delSlice h s).2.1.keyRates ∧
      Wired (c.delSlice h s).2.2 (c.delSlice h s).2.1.keyRates) ∧
    ((c.delSlice h s).2.1.keyRates = [] → (c.delSlice h s).1 = .error .valueError) := by
  have hcn : c.keyRates.Nodup := DateSorted.nodup hs
  set ids := (c.keyRates.zipIdx.filter fun p => !idx.contains (p.2 : Int)).map Prod.fst with hids
  have hcase := C26_iadd_partial h c ids
  simp only [iaddBody] at hcase
  have hsub : ids.Sublist c.keyRates := by
    have := (List.filter_sublist (l := c.keyRates.zipIdx) (p := fun p => !idx.contains (p.2 : Int))).map Prod.fst
    rwa [List.zipIdx_map_fst] at this
  have hdel : c.delSlice h s = ((setDates h ids).1, { c with keyRates := ids }, (setDates h ids).2) := by
    unfold delSlice; rw [hidx]
  rw [hdel]
  simp only
  refine ⟨hsub, ?_, ?_, ?_⟩
  · intro k hk
    rw [hids, List.mem_map]
    constructor
    · rintro ⟨⟨x, m⟩, hm, hx⟩
      obtain ⟨m1, m2⟩ := List.mem_filter.1 hm
      simp only at hx
      subst hx
      obtain ⟨-, m3, m4⟩ := List.mem_zipIdx m1
      have := (List.Nodup.getElem_inj_iff hcn).1 m4
      simp only [Bool.not_eq_true', List.contains_eq_mem, decide_eq_false_iff_not] at m2
      have e : m = k := by omega
      rwa [e] at m2
    · intro hk2
      refine ⟨(c.keyRates[k], k), List.mem_filter.2 ⟨?_, ?_⟩, rfl⟩
      · rw [List.mem_zipIdx_iff_getElem?]; simp [List.getElem?_eq_getElem hk]
      · simpa using hk2
  · intro hne
    have hok := hcase.1.2 ⟨hne, List.Pairwise.sublist hsub hs⟩
    exact ⟨hok, (hcase.2.1 hok).2⟩
  · intro hnil
    apply hcase.2.2
    intro hok
    exact (hcase.1.1 hok).1 hnil

/-! ## C81 -/

/-- C81 (what holds). Extending by nothing, and reversing a single key rate, leave the collection as it is. -/
theorem C81_trivial_partial (h : KRHeap) (c : KeyRateCollection) :
    c.extend h [] = .ok c ∧ (c.keyRates.length ≤ 1 → c.reverse h = (.ok (), c, h)) := by
  refine ⟨rfl, fun hl => ?_⟩
  have : c.keyRates.length / 2 = 0 := by omega
  unfold reverse
  rw [this]; rfl

/-- C81 (failure). No key rate can be added one at a time: `append`, `insert` and `extend` by anything raise TypeError. -/
theorem C81_growth_raises (h : KRHeap) (c : KeyRateCollection) (value : Nat) (rest : List Nat) (i : Int) :
    c.append h value = .error .typeError ∧ c.insertAt i value = .error .typeError ∧ c.addKeyRate value = .error .typeError ∧
    c.extend h (value :: rest) = .error .typeError := ⟨rfl, rfl, rfl, rfl⟩

/-- C81 (failure). `c.reverse()` raises TypeError for two or more key rates, changing nothing. -/
theorem C81_reverse_raises (h : KRHeap) (c : KeyRateCollection) (hw : Wired h c.keyRates) (h2 : 2 ≤ c.keyRates.length) :
    c.reverse h = (.error .typeError, c, h) := by
  obtain ⟨m, hm⟩ : ∃ m, c.keyRates.length / 2 = m + 1 := ⟨c.keyRates.length / 2 - 1, by omega⟩
  have hi0 : pyIndex c.keyRates.length (0 : Int) = some 0 := by unfold pyIndex; rw [if_pos (by omega)]; rfl
  have hg0 : c.getItem 0 = .ok c.keyRates[0] := (delItem_negative h c 0 (by omega) 0 (Or.inl rfl)).2
  have hgl : c.getItem ((c.keyRates.length : Int) - (0 : Nat) - 1) = .ok c.keyRates[c.keyRates.length - 1] :=
    (delItem_negative h c (c.keyRates.length - 1) (by omega) _ (Or.inl (by omega))).2
  have hprior : (h c.keyRates[0]).prior = none := by
    have := (hw 0 c.keyRates[0] (List.getElem?_eq_getElem (by omega))).1
    rwa [if_pos rfl] at this
  have hset : ∀ v, c.setItem h 0 v = (.error .typeError, c, h) := by
    intro v
    unfold setItem
    rw [hi0]
    simp only
    rw [List.getElem?_eq_getElem (by omega)]
    simp only
    rw [hprior]
  have hex : c.exchange h 0 ((c.keyRates.length : Int) - (0 : Nat) - 1) = (.error .typeError, c, h) := by
    unfold exchange
    rw [hgl, hg0]
    simp only
    rw [hset]
  unfold reverse
  rw [hm]
  simp only [reverseLoop, Nat.cast_zero]
  simp only [Nat.cast_zero] at hex
  rw [hex]

theorem clearLoop_raises (n : Nat) : ∀ (h : KRHeap) (c : KeyRateCollection), Sorted h c.keyRates → c.keyRates ≠ [] →
    c.keyRates.length ≤ n → (clearLoop n h c).1 = .error .valueError ∧ (clearLoop n h c).2.1.keyRates = [] := by
  induction n with
  | zero => intro h c _ hne hl; exact absurd (List.eq_nil_of_length_eq_zero (by omega)) hne
  | succ n ih =>
    intro h c hs hne hl
    have hpos : 0 < c.keyRates.length := List.length_pos_iff.2 hne
    by_cases h2 : 2 ≤ c.keyRates.length
    · obtain ⟨c', h', e, hc', hs', -⟩ := (C80_pop h c hs h2 (-1)).1 (c.keyRates.length - 1) (by omega) (Or.inr (by omega))
      have hlen := List.length_eraseIdx_of_lt (show c.keyRates.length - 1 < c.keyRates.length by omega)
      have := ih h' c' hs' (by rw [hc']; intro hh; rw [hh] at hlen; simp at hlen; omega) (by rw [hc']; omega)
      rw [clearLoop, e]
      exact this
    · have h1 : c.keyRates.length = 1 := by omega
      obtain ⟨e1, e2⟩ := delItem_negative h c 0 (by omega) (-1) (Or.inr (by omega))
      obtain ⟨-, -, d3⟩ := C52_delitem h c hs 0 (by omega)
      obtain ⟨d3, d4⟩ := d3 h1
      have hpop : c.pop h = (.error .valueError, (c.delItem h (0 : Nat)).2.1, (c.delItem h (0 : Nat)).2.2) := by
        unfold pop
        rw [e2, e1]
        simp only
        have : c.delItem h (0 : Nat) = (.error .valueError, (c.delItem h (0 : Nat)).2.1, (c.delItem h (0 : Nat)).2.2) := Prod.ext d3 rfl
        rw [this]
      rw [clearLoop, hpop]
      exact ⟨rfl, d4⟩

/-- C81 (failure). `c.clear()` empties the collection and then raises ValueError. -/
theorem C81_clear_raises (h : KRHeap) (c : KeyRateCollection) (hs : Sorted h c.keyRates) (hne : c.keyRates ≠ []) :
    (c.clear h).1 = .error .valueError ∧ (c.clear h).2.1.keyRates = [] :=
  clearLoop_raises _ h c hs hne (by omega)

/-- C81. Clearing an empty collection works, so the second of two calls of `clear` succeeds. -/
theorem C81_clear_empty (h : KRHeap) (c : KeyRateCollection) :
    (c.keyRates = [] → c.clear h = (.ok (), c, h)) ∧
    (Sorted h c.keyRates → ((c.clear h).2.1.clear (c.clear h).2.2).1 = .ok ()) := by
  have key : ∀ (h : KRHeap) (c : KeyRateCollection), c.keyRates = [] → c.clear h = (.ok (), c, h) := by
    rintro h ⟨ids, i⟩ hc
    simp only at hc
    subst hc
    rfl
  refine ⟨key h c, fun hs => ?_⟩
  by_cases hne : c.keyRates = []
  · rw [key h c hne]; simp only; rw [key h c hne]
  · rw [key _ _ (C81_clear_raises h c hs hne).2]

/-- C81 (failure). Assigning to a slice never works: AttributeError, or ValueError for an empty selection or a zero step.  The key
rates keep their places, but the selected ones are left wired to each other as if they were a collection of their own. -/
theorem C81_slice_assignment_raises (h : KRHeap) (c : KeyRateCollection) (s : PySlice) (value : Nat) :
    (c.setSlice h s value).2.1 = c ∧
    (s.step.getD 1 = 0 → c.setSlice h s value = (.error .valueError, c, h)) ∧
    (Sorted h c.keyRates → s.step.getD 1 ≠ 0 → ∀ idx, s.indices c.keyRates.length = .ok idx →
      (idx = [] → (c.setSlice h s value).1 = .error .valueError) ∧
      (idx ≠ [] → (c.setSlice h s value).1 = .error .attributeError ∧ ∃ sel : List Nat, sel.Sublist c.keyRates ∧
        (∀ k : Nat, (hk : k < c.keyRates.length) → (c.keyRates[k] ∈ sel ↔ (k : Int) ∈ idx)) ∧
        Wired (c.setSlice h s value).2.2 sel)) := by
  refine ⟨?_, ?_, ?_⟩
  · unfold setSlice
    rcases c.getPySlice h s with ⟨_ | _, _⟩ <;> rfl
  · intro h0
    unfold setSlice getPySlice PySlice.apply PySlice.indices
    simp [h0]
  · intro hs h0 idx hidx
    obtain ⟨h1, h2⟩ := C80_slice h c hs s h0 idx hidx
    refine ⟨fun he => ?_, fun hne => ?_⟩
    · have := h1 he
      unfold setSlice
      rcases hg : c.getPySlice h s with ⟨_ | _, _⟩ <;> rw [hg] at this <;> simp_all
    · obtain ⟨c', h', hc, -, hw, hsub, hmem⟩ := h2 hne
      have e : c.setSlice h s value = (.error .attributeError, c, h') := by unfold setSlice; rw [hc]
      rw [e]
      exact ⟨rfl, c'.keyRates, hsub, hmem, hw⟩

/-- C81 (failure). A refused assignment `c[0:1] = k` leaves the collection unusable: after the first key date it raises TypeError. -/
theorem C81_slice_assignment_breaks (h : KRHeap) (c : KeyRateCollection) (first value : Nat)
    (hfirst : c.keyRates[0]? = some first) (d : PyDate) (hd : (h first).keyDate < d) :
    (c.setSlice h ⟨some 0, some 1, none⟩ value).1 = .error .attributeError ∧
    KeyRateCollection.call (c.setSlice h ⟨some 0, some 1, none⟩ value).2.2 c d = .error .typeError := by
  obtain ⟨e, he⟩ := (C23_raises_iff h [first]).2.2 (by simp)
  have hsl : c.getPySlice h ⟨some 0, some 1, none⟩ = getSlice h c 0 1 := by
    match hk : c.keyRates with
    | [] => rw [hk] at hfirst; cases hfirst
    | a :: l =>
      have e1 : (PySlice.apply ⟨some 0, some 1, none⟩ (a :: l)) = .ok [a] := by
        unfold PySlice.apply PySlice.indices
        have e0 : PySlice.first ⟨some 0, some 1, none⟩ 1 (l.length + 1) = 0 := by simp [PySlice.first, PySlice.adjust]; omega
        have e2 : PySlice.last ⟨some 0, some 1, none⟩ 1 (l.length + 1) = 1 := by simp [PySlice.last, PySlice.adjust]
        simp [e0, e2, pyRange]
      unfold getPySlice getSlice
      rw [hk, e1]
      simp
  have hs1 : getSlice h c 0 1 = create h [first] := by
    match hk : c.keyRates with
    | [] => rw [hk] at hfirst; cases hfirst
    | a :: l =>
      rw [hk] at hfirst
      simp at hfirst
      subst hfirst
      simp [getSlice, hk]
  have hst : c.setSlice h ⟨some 0, some 1, none⟩ value = (.error .attributeError, c, (getSlice h c 0 1).2) := by
    unfold setSlice
    rw [hsl, hs1, show create h [first] = (.ok e, (create h [first]).2) from Prod.ext he rfl]
  rw [hst]
  exact ⟨rfl, C51_slice_breaks_collection h c first hfirst d hd⟩

/-- The loop bound of `clear` is never reached. -/
theorem clear_ne_fuel (h : KRHeap) (c : KeyRateCollection) (hs : Sorted h c.keyRates) : (c.clear h).1 ≠ .error .fuel := by
  by_cases hne : c.keyRates = []
  · unfold clear
    rw [hne]
    simp only [List.length_nil, Nat.zero_add, clearLoop]
    have : c.pop h = (.error .indexError, c, h) := by
      unfold pop getItem pyIndex
      rw [hne]; rfl
    rw [this]
    simp
  · rw [(C81_clear_raises h c hs hne).1]; simp

/-- Concrete case for C80 and C81: the collection of three key rates, sorted and wired, with a slice of step -2. -/
example : ∃ c h', create exampleHeap [0, 1, 2] = (.ok c, h') ∧ Sorted h' c.keyRates ∧ Wired h' c.keyRates ∧
    2 ≤ c.keyRates.length ∧ PySlice.indices ⟨none, none, some (-2)⟩ c.keyRates.length = .ok [2, 0] := by
  obtain ⟨c, hc⟩ := (C23_raises_iff exampleHeap [0, 1, 2]).2.2 (by decide +kernel)
  have hcr : create exampleHeap [0, 1, 2] = (.ok c, _) := Prod.ext hc rfl
  have := C23_construction _ _ _ _ hcr
  have hl : c.keyRates.length = 3 := this.1.length_eq
  exact ⟨c, _, hcr, this.2.1, this.2.2.1, by omega, by rw [hl]; decide +kernel⟩

end Verif.Props
