/- Property C114: key-rate collections stay valid under every history of operations. -/
import Verif.Props.KeyRateSequence

namespace Verif.Props
open Verif Verif.Spec Verif.KeyRateCollection

/-! ### Histories -/

/-- One operation on a collection `c` whose key rates come from the pool `P`; it changes the collection to `c'` and the heap to `h'`,
whether it raises or not (only `+=` and construction are required not to raise: C26_iadd_unsorted). -/
inductive Operation (P : Nat → Prop) (h : KRHeap) (c : KeyRateCollection) : KeyRateCollection → KRHeap → Prop
  /-- the variable is rebound to a new collection -/
  | build (ids : List Nat) (d : KeyRateCollection) (h' : KRHeap) : (∀ i ∈ ids, P i) → create h ids = (.ok d, h') → Operation P h c d h'
  /-- `c[key] = new` -/
  | assign (key : Int) (new : Nat) : P new → Operation P h c (c.setItem h key new).2.1 (c.setItem h key new).2.2
  /-- `del c[key]` -/
  | delete (key : Int) : Operation P h c (c.delItem h key).2.1 (c.delItem h key).2.2
  /-- `del c[slice]` -/
  | deleteSlice (s : PySlice) : Operation P h c (c.delSlice h s).2.1 (c.delSlice h s).2.2
  /-- `c.pop(i)` -/
  | pop (i : Int) : Operation P h c (c.pop h i).2.1 (c.pop h i).2.2
  /-- `c.remove(value)` -/
  | remove (value : Nat) : Operation P h c (c.remove h value).2.1 (c.remove h value).2.2
  /-- `c.clear()` -/
  | clear : Operation P h c (c.clear h).2.1 (c.clear h).2.2
  /-- `c.reverse()` -/
  | reverse : Operation P h c (c.reverse h).2.1 (c.reverse h).2.2
  /-- `c += other`, not raising -/
  | iadd (other : List Nat) (out : Except PyErr Unit × KeyRateCollection × KRHeap) : (∀ i ∈ other, P i) → IAdds h c other out →
      out.1 = .ok () → Operation P h c out.2.1 out.2.2
  /-- `c.set_bump_val(b)` -/
  | setBump (b : ℚ) : Operation P h c c (c.setBumpVal h b).2
  /-- `k.set_bump_val(b)` for any key rate `k` -/
  | bumpOne (i : Nat) (b : ℚ) : Operation P h c c (Function.update h i ((h i).setBumpVal b))
  /-- `next(c)` -/
  | next : Operation P h c c.next.2 h

/-- The state of a program that holds key-rate collections in variables numbered by `Nat`. -/
structure KRWorld where
  heap : KRHeap
  coll : Nat → KeyRateCollection

/-- A history: any sequence of operations, each on any one of the collections; collection `n` only ever receives key rates of its
pool `P n`. -/
inductive KRHistory (P : Nat → Nat → Prop) (w : KRWorld) : KRWorld → Prop
  | start : KRHistory P w w
  | step (v : KRWorld) (n : Nat) (c' : KeyRateCollection) (h' : KRHeap) : KRHistory P w v → Operation (P n) v.heap (v.coll n) c' h' →
      KRHistory P w ⟨h', Function.update v.coll n c'⟩

/-! ### The invariant -/

/-- Sorted, wired, and made of key rates of the pool. -/
def Good (P : Nat → Prop) (h : KRHeap) (ids : List Nat) : Prop := Sorted h ids ∧ Wired h ids ∧ ∀ i ∈ ids, P i

/-- Dates and conventions are as before, and the links of key rates outside the pool too. -/
def Framed (P : Nat → Prop) (h h' : KRHeap) : Prop :=
  ∀ j, (h' j).keyDate = (h j).keyDate ∧ (h' j).dcc = (h j).dcc ∧ (¬ P j → (h' j).prior = (h j).prior ∧ (h' j).next = (h j).next)

theorem Framed.refl (P : Nat → Prop) (h : KRHeap) : Framed P h h := fun _ => ⟨rfl, rfl, fun _ => ⟨rfl, rfl⟩⟩

theorem Framed.trans {P : Nat → Prop} {h h' h'' : KRHeap} (a : Framed P h h') (b : Framed P h' h'') : Framed P h h'' := by
  intro j
  obtain ⟨a1, a2, a3⟩ := a j
  obtain ⟨b1, b2, b3⟩ := b j
  exact ⟨b1.trans a1, b2.trans a2, fun hj => ⟨(b3 hj).1.trans (a3 hj).1, (b3 hj).2.trans (a3 hj).2⟩⟩

theorem sorted_congr {h h' : KRHeap} (he : ∀ j, (h' j).keyDate = (h j).keyDate) {ids : List Nat} (hs : Sorted h ids) : Sorted h' ids :=
  List.Pairwise.imp (fun {a b} hab => by rw [he a, he b]; exact hab) hs

/-- Rewiring a sorted list of key rates of the pool makes it good and touches nothing outside. -/
theorem rewire {P : Nat → Prop} {h : KRHeap} {ids : List Nat} (hs : Sorted h ids) (hP : ∀ i ∈ ids, P i) :
    Good P (setDates h ids).2 ids ∧ Framed P h (setDates h ids).2 := by
  rcases setDates_spec h ids with ⟨_, hds, h', e, same, out, w⟩ | ⟨hbad, h', e, same, out⟩
  · rw [e]
    have hf : (fun j => (h' j).keyDate) = (fun j => (h j).keyDate) := funext fun j => (same j).1
    refine ⟨⟨sorted_congr (fun j => (same j).1) hs, ?_, hP⟩, fun j => ⟨(same j).1, (same j).2.1, fun hj => ?_⟩⟩
    · intro k i hk
      show (h' i).prior = (if k = 0 then none else (ids[k - 1]?).map (fun j => (h' j).keyDate)) ∧
        (h' i).next = (ids[k + 1]?).map (fun j => (h' j).keyDate)
      rw [w k i hk, hf]
      exact ⟨rfl, rfl⟩
    · show (h' j).prior = _ ∧ (h' j).next = _
      rw [out j (fun hm => hj (hP j hm))]; exact ⟨rfl, rfl⟩
  · have hnil : ids = [] := by
      by_contra hne
      exact hbad ⟨hne, hs⟩
    subst hnil
    rw [e]
    refine ⟨⟨List.Pairwise.nil, fun k i hk => (by simp at hk), by simp⟩, fun j => ⟨(same j).1, (same j).2.1, fun _ => ?_⟩⟩
    show (h' j).prior = _ ∧ (h' j).next = _
    rw [out j (by simp)]; exact ⟨rfl, rfl⟩

theorem delItem_good {P : Nat → Prop} {h : KRHeap} {c : KeyRateCollection} (g : Good P h c.keyRates) (key : Int) :
    Good P (c.delItem h key).2.2 (c.delItem h key).2.1.keyRates ∧ Framed P h (c.delItem h key).2.2 := by
  unfold delItem
  cases hk : pyIndex c.keyRates.length key with
  | none => exact ⟨g, Framed.refl P h⟩
  | some k =>
    have hsub := List.eraseIdx_sublist c.keyRates k
    exact rewire (List.Pairwise.sublist hsub g.1) fun i hi => g.2.2 i (hsub.subset hi)

theorem pop_good {P : Nat → Prop} {h : KRHeap} {c : KeyRateCollection} (g : Good P h c.keyRates) (i : Int) :
    Good P (c.pop h i).2.2 (c.pop h i).2.1.keyRates ∧ Framed P h (c.pop h i).2.2 := by
  have hd := delItem_good g i
  unfold pop
  cases c.getItem i with
  | error e => exact ⟨g, Framed.refl P h⟩
  | ok v =>
    simp only
    rcases hdel : c.delItem h i with ⟨r, c', h'⟩
    rw [hdel] at hd
    cases r <;> exact hd

theorem clear_good {P : Nat → Prop} (n : Nat) : ∀ {h : KRHeap} {c : KeyRateCollection}, Good P h c.keyRates →
    Good P (clearLoop n h c).2.2 (clearLoop n h c).2.1.keyRates ∧ Framed P h (clearLoop n h c).2.2 := by
  induction n with
  | zero => intro h c g; exact ⟨g, Framed.refl P h⟩
  | succ n ih =>
    intro h c g
    have hp := pop_good g (-1)
    unfold clearLoop
    rcases hpop : c.pop h with ⟨r, c', h'⟩
    rw [hpop] at hp
    rcases r with e | v
    · cases e <;> exact hp
    · obtain ⟨a, b⟩ := ih hp.1
      exact ⟨a, hp.2.trans b⟩

theorem setItem_good {P : Nat → Prop} {h : KRHeap} {c : KeyRateCollection} (g : Good P h c.keyRates) (key : Int) (new : Nat) (hn : P new) :
    Good P (c.setItem h key new).2.2 (c.setItem h key new).2.1.keyRates ∧ Framed P h (c.setItem h key new).2.2 := by
  cases hk : pyIndex c.keyRates.length key with
  | none =>
    unfold setItem
    rw [hk]
    exact ⟨g, Framed.refl P h⟩
  | some k =>
    have hlt : k < c.keyRates.length := by
      unfold pyIndex at hk
      split_ifs at hk with h1 h2 <;> simp only [Option.some.injEq] at hk <;> omega
    have hkk : pyIndex c.keyRates.length (k : Int) = some k := by
      unfold pyIndex; rw [if_pos (by omega)]; simp
    have hsame : c.setItem h key new = c.setItem h (k : Int) new := by unfold setItem; rw [hk, hkk]
    rw [hsame]
    obtain ⟨-, hok⟩ := C52_setitem_partial h c g.1 g.2.1 k hlt new
    have hcases : ((c.setItem h (k : Int) new).2 = (c, h)) ∨
        ((c.setItem h (k : Int) new).1 = (setDates h (c.keyRates.set k new)).1 ∧
          (c.setItem h (k : Int) new).2.1.keyRates = c.keyRates.set k new ∧
          (c.setItem h (k : Int) new).2.2 = (setDates h (c.keyRates.set k new)).2 ∧
          ∃ a b, 0 < k ∧ c.keyRates[k - 1]? = some a ∧ c.keyRates[k + 1]? = some b ∧
            (h a).keyDate < (h new).keyDate ∧ (h new).keyDate < (h b).keyDate) := by
      obtain ⟨w1, w2⟩ := g.2.1 k _ (List.getElem?_eq_getElem hlt)
      unfold setItem
      rw [hkk]
      simp only [List.getElem?_eq_getElem hlt, w1, w2]
      by_cases h0 : k = 0
      · subst h0; simp
      · obtain ⟨a, ha⟩ : ∃ a, c.keyRates[k - 1]? = some a := ⟨_, List.getElem?_eq_getElem (by omega)⟩
        simp only [h0, if_false, ha, Option.map_some]
        by_cases h1 : (h a).keyDate < (h new).keyDate
        · rw [if_pos h1]
          rcases hb : c.keyRates[k + 1]? with _ | b
          · simp
          · simp only [Option.map_some]
            by_cases h2 : (h new).keyDate < (h b).keyDate
            · rw [if_pos h2]
              exact Or.inr ⟨rfl, rfl, rfl, a, b, by omega, rfl, rfl, h1, h2⟩
            · rw [if_neg h2]; exact Or.inl rfl
        · rw [if_neg h1]; exact Or.inl rfl
    rcases hcases with hu | ⟨e1, e2, e3, hnb⟩
    · rw [hu]; exact ⟨g, Framed.refl P h⟩
    · obtain ⟨hiff, hok⟩ := C52_setitem_partial h c g.1 g.2.1 k hlt new
      have hr := hiff.2 hnb
      rw [e1] at hr
      have hs : Sorted h (c.keyRates.set k new) := by
        rcases setDates_spec h (c.keyRates.set k new) with ⟨_, hds, _⟩ | ⟨_, h', e, _⟩
        · exact hds
        · rw [e] at hr; cases hr
      rw [e2, e3]
      refine rewire hs fun i hi => ?_
      rcases List.mem_or_eq_of_mem_set hi with hm | rfl
      · exact g.2.2 i hm
      · exact hn

theorem operation_good {P : Nat → Prop} {h : KRHeap} {c c' : KeyRateCollection} {h' : KRHeap} (g : Good P h c.keyRates)
    (op : Operation P h c c' h') : Good P h' c'.keyRates ∧ Framed P h h' := by
  cases op with
  | build ids d h' hP hc =>
    obtain ⟨hp, hs, hw, hsame, hout⟩ := C23_construction h ids c' h' hc
    have hmem : ∀ i ∈ c'.keyRates, P i := fun i hi => hP i (hp.mem_iff.1 hi)
    refine ⟨⟨hs, hw, hmem⟩, fun j => ⟨(hsame j).1, (hsame j).2.1, fun hj => ?_⟩⟩
    rw [hout j (fun hm => hj (hP j hm))]; exact ⟨rfl, rfl⟩
  | assign key new hn => exact setItem_good g key new hn
  | delete key => exact delItem_good g key
  | deleteSlice s =>
    unfold delSlice
    cases hidx : s.indices c.keyRates.length with
    | error e => exact ⟨g, Framed.refl P h⟩
    | ok idx =>
      have hsub : ((c.keyRates.zipIdx.filter fun p => !idx.contains (p.2 : Int)).map Prod.fst).Sublist c.keyRates := by
        have := (List.filter_sublist (l := c.keyRates.zipIdx) (p := fun p => !idx.contains (p.2 : Int))).map Prod.fst
        rwa [List.zipIdx_map_fst] at this
      exact rewire (List.Pairwise.sublist hsub g.1) fun i hi => g.2.2 i (hsub.subset hi)
  | pop i => exact pop_good g i
  | remove value =>
    unfold KeyRateCollection.remove
    cases c.index h value with
    | error e => exact ⟨g, Framed.refl P h⟩
    | ok i => exact delItem_good g i
  | clear => exact clear_good _ g
  | reverse =>
    by_cases h2 : 2 ≤ c.keyRates.length
    · rw [C81_reverse_raises h c g.2.1 h2]; exact ⟨g, Framed.refl P h⟩
    · rw [(C81_trivial_partial h c).2 (by omega)]; exact ⟨g, Framed.refl P h⟩
  | iadd other out hP hout hok =>
    obtain ⟨order, hperm, rfl⟩ := hout
    have hs := (((C26_iadd_partial h c order).1).1 hok).2
    refine rewire hs fun i hi => ?_
    have hi' := (hperm.mem_iff.1 hi)
    have hsub : ∀ i ∈ union h c.keyRates other, i ∈ c.keyRates ++ other := by
      have key : ∀ (l s : List Nat), ∀ i ∈ l.foldl (setInsert h) s, i ∈ s ++ l := by
        intro l
        induction l with
        | nil => intro s i hi; simpa using hi
        | cons x xs ih =>
          intro s i hi
          have := ih _ i hi
          unfold setInsert at this
          split_ifs at this
          · simp only [List.mem_append, List.mem_cons] at this ⊢; tauto
          · simp only [List.mem_append, List.mem_cons, List.not_mem_nil, or_false] at this ⊢; tauto
      intro i hi
      simpa using key (c.keyRates ++ other) [] i hi
    rcases List.mem_append.1 (hsub i hi') with hm | hm
    · exact g.2.2 i hm
    · exact hP i hm
  | setBump b =>
    have hfr : Framed P h (setBumpLoop h b c.keyRates) := by
      intro j
      rw [setBumpLoop_get]
      split_ifs <;> exact ⟨rfl, rfl, fun _ => ⟨rfl, rfl⟩⟩
    obtain ⟨a, b⟩ := rewire (h := setBumpLoop h b c.keyRates) (sorted_congr (fun j => (hfr j).1) g.1) g.2.2
    exact ⟨a, hfr.trans b⟩
  | bumpOne i b =>
    have hlink : ∀ j, (Function.update h i ((h i).setBumpVal b) j).keyDate = (h j).keyDate ∧
        (Function.update h i ((h i).setBumpVal b) j).dcc = (h j).dcc ∧
        (Function.update h i ((h i).setBumpVal b) j).prior = (h j).prior ∧
        (Function.update h i ((h i).setBumpVal b) j).next = (h j).next := by
      intro j
      by_cases hj : j = i
      · subst hj; simp [KeyRate.setBumpVal]
      · simp [Function.update_of_ne hj]
    have hf : (fun j => (Function.update h i ((h i).setBumpVal b) j).keyDate) = (fun j => (h j).keyDate) := funext fun j => (hlink j).1
    refine ⟨⟨sorted_congr (fun j => (hlink j).1) g.1, ?_, g.2.2⟩, fun j => ⟨(hlink j).1, (hlink j).2.1, fun _ => (hlink j).2.2⟩⟩
    intro k m hk
    obtain ⟨w1, w2⟩ := g.2.1 k m hk
    rw [(hlink m).2.2.1, (hlink m).2.2.2, hf]
    exact ⟨w1, w2⟩
  | next =>
    have : c.next.2.keyRates = c.keyRates := by
      unfold KeyRateCollection.next
      cases c.keyRates[c.iterIndex]? <;> rfl
    rw [this]
    exact ⟨g, Framed.refl P h⟩

/-- A good collection stays good when the links of its key rates are left alone. -/
theorem good_framed {P Q : Nat → Prop} (hd : ∀ j, ¬ (P j ∧ Q j)) {h h' : KRHeap} {ids : List Nat} (g : Good P h ids) (f : Framed Q h h') :
    Good P h' ids := by
  have hf : (fun j => (h' j).keyDate) = (fun j => (h j).keyDate) := funext fun j => (f j).1
  refine ⟨sorted_congr (fun j => (f j).1) g.1, ?_, g.2.2⟩
  intro k i hk
  obtain ⟨e1, e2⟩ := (f i).2.2 fun hq => hd i ⟨g.2.2 i (List.mem_of_getElem? hk), hq⟩
  obtain ⟨w1, w2⟩ := g.2.1 k i hk
  rw [e1, e2, hf]
  exact ⟨w1, w2⟩

/-! ### C114 -/

theorem history_good {P : Nat → Nat → Prop} (hP : ∀ m n, m ≠ n → ∀ j, ¬ (P m j ∧ P n j)) {w v : KRWorld}
    (hw : ∀ n, Good (P n) w.heap (w.coll n).keyRates) (hist : KRHistory P w v) :
    (∀ n, Good (P n) v.heap (v.coll n).keyRates) ∧ ∀ j, (v.heap j).keyDate = (w.heap j).keyDate ∧ (v.heap j).dcc = (w.heap j).dcc := by
  induction hist with
  | start => exact ⟨hw, fun j => ⟨rfl, rfl⟩⟩
  | step v n c' h' _ op ih =>
    obtain ⟨ih1, ih2⟩ := ih
    obtain ⟨g, f⟩ := operation_good (ih1 n) op
    refine ⟨fun m => ?_, fun j => ⟨(f j).1.trans (ih2 j).1, (f j).2.1.trans (ih2 j).2⟩⟩
    by_cases hm : m = n
    · subst hm; simp only [Function.update_self]; exact g
    · simp only [Function.update_of_ne hm]
      exact good_framed (hP m n hm) (ih1 m) f

/-- C114. Start with no key rate in any collection.  After any history of constructions, assignments, deletions, pops, removals,
clearings, reversals, `+=` (that did not raise) and bump changes on any number of collections, raising or not and interleaved in any
way, every collection is in strictly increasing date order and each of its key rates is linked to its neighbours, provided the
collections never share key rates.  Key dates and conventions never change. -/
theorem C114_history (P : Nat → Nat → Prop) (hP : ∀ m n, m ≠ n → ∀ j, ¬ (P m j ∧ P n j)) (w v : KRWorld)
    (hw : ∀ n, (w.coll n).keyRates = []) (hist : KRHistory P w v) (n : Nat) :
    (v.coll n).keyRates.Pairwise (fun a b => (v.heap a).keyDate < (v.heap b).keyDate) ∧
    (∀ (k i : Nat), (v.coll n).keyRates[k]? = some i →
      (v.heap i).prior = (if k = 0 then none else ((v.coll n).keyRates[k - 1]?).map fun j => (v.heap j).keyDate) ∧
      (v.heap i).next = ((v.coll n).keyRates[k + 1]?).map fun j => (v.heap j).keyDate) ∧
    ∀ j, (v.heap j).keyDate = (w.heap j).keyDate ∧ (v.heap j).dcc = (w.heap j).dcc := by
  obtain ⟨h1, h2⟩ := history_good hP (w := w) (fun n => by
    rw [hw n]; exact ⟨List.Pairwise.nil, fun k i hk => (by simp at hk), by simp⟩) hist
  exact ⟨(h1 n).1, (h1 n).2.1, h2⟩

/-- C114. So after every such history a collection of two or more key rates of one convention (not 30/360) can still be bumped in
parallel: setting its bump to `b` succeeds and adds exactly `b` at every date. -/
theorem C114_parallel_shift (P : Nat → Nat → Prop) (hP : ∀ m n, m ≠ n → ∀ j, ¬ (P m j ∧ P n j)) (w v : KRWorld)
    (hw : ∀ n, (w.coll n).keyRates = []) (hist : KRHistory P w v) (n : Nat) (hlen : 2 ≤ (v.coll n).keyRates.length)
    (dcc : DayCountConvention) (hdcc : dcc ≠ .thirty360 ∧ dcc ≠ .unknown)
    (hall : ∀ i ∈ (v.coll n).keyRates, (v.heap i).dcc = dcc ∧ (dcc = .actAct → 2 ≤ (v.heap i).keyDate.year)) (b : ℚ) :
    ∃ h', KeyRateCollection.setBumpVal v.heap (v.coll n) b = (.ok (), h') ∧ ∀ d, KeyRateCollection.call h' (v.coll n) d = .ok b := by
  obtain ⟨hs, hw', -⟩ := C114_history P hP w v hw hist n
  have hfr : ∀ j, (setBumpLoop v.heap b (v.coll n).keyRates j).keyDate = (v.heap j).keyDate ∧
      (setBumpLoop v.heap b (v.coll n).keyRates j).dcc = (v.heap j).dcc := by
    intro j; rw [setBumpLoop_get]; split_ifs <;> exact ⟨rfl, rfl⟩
  have hs' : Sorted (setBumpLoop v.heap b (v.coll n).keyRates) (v.coll n).keyRates := sorted_congr (fun j => (hfr j).1) hs
  unfold KeyRateCollection.setBumpVal
  have hgood := (rewire (P := fun _ => True) hs' (fun _ _ => trivial)).1
  rcases setDates_spec (setBumpLoop v.heap b (v.coll n).keyRates) (v.coll n).keyRates with ⟨_, hds, h2, e, s2, _, w2⟩ | ⟨hbad, _⟩
  · rw [e] at hgood
    refine ⟨h2, e, fun d => ?_⟩
    refine combined_eq h2 (v.coll n).keyRates hgood.1 hgood.2.1 hlen dcc hdcc b ?_ d (v.coll n).iterIndex
    intro i hi
    obtain ⟨a1, a2⟩ := hall i hi
    rw [(s2 i).1, (s2 i).2.1, (s2 i).2.2, setBumpLoop_get, if_pos hi]
    exact ⟨a1, rfl, a2⟩
  · exfalso
    refine hbad ⟨fun hn => ?_, hs'⟩
    rw [hn] at hlen; simp at hlen

/-- Concrete case for C114: a collection of three key rates is built, then one of them is deleted and the bump set. -/
example : ∃ v : KRWorld, KRHistory (fun n i => n = 0 ∧ i ≤ 2) ⟨exampleHeap, fun _ => ⟨[], 0⟩⟩ v ∧ (v.coll 0).keyRates.length = 2 := by
  obtain ⟨c, hc⟩ := (C23_raises_iff exampleHeap [0, 1, 2]).2.2 (by decide +kernel)
  have hcr : create exampleHeap [0, 1, 2] = (.ok c, (create exampleHeap [0, 1, 2]).2) := Prod.ext hc rfl
  obtain ⟨hp, hs, -⟩ := C23_construction _ _ _ _ hcr
  have hlen : c.keyRates.length = 3 := hp.length_eq
  have s1 := KRHistory.step (P := fun n i => n = 0 ∧ i ≤ 2) (w := ⟨exampleHeap, fun _ => ⟨[], 0⟩⟩) _ 0 c _ .start
    (.build [0, 1, 2] c _ (by simp) hcr)
  have s2 := KRHistory.step _ 0 _ _ s1 (.delete 1)
  have s3 := KRHistory.step _ 0 _ _ s2 (.setBump 5)
  refine ⟨_, s3, ?_⟩
  simp only [Function.update_self]
  have := (C52_delitem (create exampleHeap [0, 1, 2]).2 c hs 1 (by omega)).1
  rw [show ((1 : Nat) : Int) = 1 from rfl] at this
  rw [this, List.length_eraseIdx_of_lt (by omega), hlen]

end Verif.Props
