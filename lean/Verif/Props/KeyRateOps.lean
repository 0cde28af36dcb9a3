/- Properties C25, C26, C51, C52: operations on key-rate collections. -/
import Verif.Props.KeyRate

namespace Verif.Props
open Verif Verif.Spec Verif.DayCount Verif.KeyRateCollection

theorem keyRate_eq_iff (h : KRHeap) (i j : Nat) : (h i).eq (h j) = true ↔ rateId h i = rateId h j := by
  simp [KeyRate.eq, rateId]

theorem setInsert_eq (h : KRHeap) (s : List Nat) (i : Nat) :
    setInsert h s i = if rateId h i ∈ s.map (rateId h) then s else s ++ [i] := by
  unfold setInsert
  congr 1
  simp only [eq_iff_iff, List.any_eq_true, keyRate_eq_iff, List.mem_map]

theorem foldInsert_spec (h : KRHeap) : ∀ (l s : List Nat), (s.map (rateId h)).Nodup →
    ((l.foldl (setInsert h) s).map (rateId h)).Nodup ∧
    (∀ x, x ∈ (l.foldl (setInsert h) s).map (rateId h) ↔ x ∈ s.map (rateId h) ∨ x ∈ l.map (rateId h)) ∧
    (∀ i, i ∈ l.foldl (setInsert h) s → i ∈ s ∨ i ∈ l) ∧ (∀ i, i ∈ s → i ∈ l.foldl (setInsert h) s)
  | [], s, hs => ⟨hs, by simp, by simp, by simp⟩
  | a :: l, s, hs => by
    simp only [List.foldl_cons]
    rw [setInsert_eq]
    split_ifs with ha
    · obtain ⟨h1, h2, h3, h4⟩ := foldInsert_spec h l s hs
      refine ⟨h1, fun x => ?_, fun i hi => ?_, h4⟩
      · rw [h2]
        simp only [List.map_cons, List.mem_cons]
        constructor
        · rintro (hx | hx)
          · exact Or.inl hx
          · exact Or.inr (Or.inr hx)
        · rintro (hx | rfl | hx)
          · exact Or.inl hx
          · exact Or.inl ha
          · exact Or.inr hx
      · rcases h3 i hi with hh | hh
        · exact Or.inl hh
        · exact Or.inr (List.mem_cons_of_mem _ hh)
    · have hs' : ((s ++ [a]).map (rateId h)).Nodup := by
        rw [List.map_append, List.nodup_append]
        refine ⟨hs, by simp, ?_⟩
        intro x hx y hy hxy
        simp at hy
        rw [hy] at hxy
        rw [hxy] at hx
        exact ha hx
      obtain ⟨h1, h2, h3, h4⟩ := foldInsert_spec h l (s ++ [a]) hs'
      refine ⟨h1, fun x => ?_, fun i hi => ?_, fun i hi => h4 i (by simp [hi])⟩
      · rw [h2]
        simp only [List.map_append, List.mem_append, List.map_cons, List.mem_cons, List.map_nil, List.not_mem_nil,
          or_false]
        tauto
      · rcases h3 i hi with hh | hh
        · simp at hh
          rcases hh with hh | rfl
          · exact Or.inl hh
          · exact Or.inr List.mem_cons_self
        · exact Or.inr (List.mem_cons_of_mem _ hh)

theorem foldInsert_self (h : KRHeap) : ∀ (l s : List Nat), ((s ++ l).map (rateId h)).Nodup →
    l.foldl (setInsert h) s = s ++ l
  | [], s, _ => by simp
  | a :: l, s, hn => by
    have ha : rateId h a ∉ s.map (rateId h) := by
      rw [List.map_append, List.nodup_append] at hn
      intro hm
      exact hn.2.2 _ hm _ (by simp) rfl
    simp only [List.foldl_cons]
    rw [setInsert_eq, if_neg ha, foldInsert_self h l (s ++ [a]) (by simpa using hn)]
    simp

theorem sorted_ids_nodup {h : KRHeap} {ids : List Nat} (hs : Sorted h ids) : (ids.map (rateId h)).Nodup := by
  rw [List.nodup_iff_pairwise_ne, List.pairwise_map]
  refine hs.imp ?_
  intro a b hab heq
  have : (h a).keyDate = (h b).keyDate := congrArg Prod.snd heq
  rw [this] at hab
  exact lt_irrefl _ hab

theorem union_spec (h : KRHeap) (a b : List Nat) (ha : Sorted h a) :
    ((union h a b).map (rateId h)).Nodup ∧
    (∀ x, x ∈ (union h a b).map (rateId h) ↔ x ∈ a.map (rateId h) ∨ x ∈ b.map (rateId h)) ∧
    (∀ i, i ∈ union h a b → i ∈ a ∨ i ∈ b) ∧ (∀ i, i ∈ a → i ∈ union h a b) := by
  unfold union
  rw [List.foldl_append, foldInsert_self h a [] (by simpa using sorted_ids_nodup ha), List.nil_append]
  exact foldInsert_spec h b a (sorted_ids_nodup ha)

/-- Two key rates, one from each collection, disagree on the convention at a common date. -/
def Conflict (h : KRHeap) (a b : List Nat) : Prop :=
  ∃ i ∈ a, ∃ j ∈ b, (h i).keyDate = (h j).keyDate ∧ (h i).dcc ≠ (h j).dcc

theorem union_dates_nodup_iff (h : KRHeap) (a b : List Nat) (ha : Sorted h a) (hb : Sorted h b) :
    ((union h a b).map (fun i => (h i).keyDate)).Nodup ↔ ¬ Conflict h a b := by
  obtain ⟨hn, hmem, hsub, hsup⟩ := union_spec h a b ha
  constructor
  · rintro hnd ⟨i, hi, j, hj, hdate, hdcc⟩
    have hju : rateId h j ∈ (union h a b).map (rateId h) := (hmem _).2 (Or.inr (List.mem_map_of_mem hj))
    obtain ⟨k, hk, hkj⟩ := List.mem_map.1 hju
    have hd : (h i).keyDate = (h k).keyDate := by rw [hdate]; exact (congrArg Prod.snd hkj).symm
    have := List.inj_on_of_nodup_map hnd (hsup i hi) hk hd
    subst this
    exact hdcc (congrArg Prod.fst hkj)
  · intro hc
    rw [List.nodup_iff_pairwise_ne, List.pairwise_map]
    rw [List.nodup_iff_pairwise_ne, List.pairwise_map] at hn
    refine (List.Pairwise.and_mem.1 hn).imp ?_
    rintro i j ⟨hi, hj, hij⟩ hd
    have key : ∀ l : List Nat, Sorted h l → i ∈ l → j ∈ l → i = j := by
      intro l hl hil hjl
      have hnd : (l.map (fun i => (h i).keyDate)).Nodup := by
        rw [List.nodup_iff_pairwise_ne, List.pairwise_map]
        exact hl.imp (fun hab => ne_of_lt hab)
      exact List.inj_on_of_nodup_map hnd hil hjl hd
    have hdcc : (h i).dcc ≠ (h j).dcc := fun hcc => hij (Prod.ext hcc hd)
    rcases hsub i hi with hia | hib <;> rcases hsub j hj with hja | hjb
    · exact hij (by rw [key a ha hia hja])
    · exact hc ⟨i, hia, j, hjb, hd, hdcc⟩
    · exact hc ⟨j, hja, i, hib, hd.symm, hdcc.symm⟩
    · exact hij (by rw [key b hb hib hjb])

/-! ## C25 -/

/-- C25. `c + d` raises ValueError exactly when the two collections hold key rates with the same date and different
conventions; otherwise it is a sorted, wired collection whose key rates (by convention and date) are those of `c` and of
`d`, keeping `c`'s own objects — whatever order python enumerates the set in. -/
theorem C25_union (h : KRHeap) (c d : KeyRateCollection) (hne : c.keyRates ≠ []) (hc : Sorted h c.keyRates)
    (hd : Sorted h d.keyRates) (out : KROutcome KeyRateCollection) (hout : Adds h c d out) :
    (out.1 = .error .valueError ↔ Conflict h c.keyRates d.keyRates) ∧
    (¬ Conflict h c.keyRates d.keyRates → ∃ e h', out = (.ok e, h') ∧ Sorted h' e.keyRates ∧ Wired h' e.keyRates ∧
      (∀ x : RateId, x ∈ e.keyRates.map (rateId h') ↔ x ∈ c.keyRates.map (rateId h) ∨ x ∈ d.keyRates.map (rateId h)) ∧
      (∀ i ∈ c.keyRates, i ∈ e.keyRates) ∧ (∀ i ∈ e.keyRates, i ∈ c.keyRates ∨ i ∈ d.keyRates)) := by
  obtain ⟨order, hperm, rfl⟩ := hout
  obtain ⟨_, hmem, hsub, hsup⟩ := union_spec h c.keyRates d.keyRates hc
  have hiff := union_dates_nodup_iff h c.keyRates d.keyRates hc hd
  rw [← (hperm.map (fun i => (h i).keyDate)).nodup_iff] at hiff
  have horder : order ≠ [] := by
    rintro rfl
    obtain ⟨i, hi⟩ := List.exists_mem_of_ne_nil _ hne
    have := hperm.mem_iff.2 (hsup i hi)
    simp at this
  obtain ⟨h1, h2⟩ := C23_raises_iff h order
  constructor
  · rw [h1, hiff]
    simp [horder]
  · intro hnc
    obtain ⟨e, he⟩ := h2.2 ⟨horder, hiff.2 hnc⟩
    have hcr : create h order = (.ok e, (create h order).2) := Prod.ext he rfl
    obtain ⟨p, s, w, same, _⟩ := C23_construction h order e _ hcr
    have hid : ∀ i, rateId (create h order).2 i = rateId h i := fun i => Prod.ext (same i).2.1 (same i).1
    refine ⟨e, _, hcr, s, w, ?_, ?_, ?_⟩
    · intro x
      rw [← hmem x]
      have hpm : (e.keyRates.map (rateId (create h order).2)).Perm ((union h c.keyRates d.keyRates).map (rateId h)) := by
        rw [List.map_congr_left (fun i _ => hid i)]
        exact (p.trans hperm).map _
      exact hpm.mem_iff
    · intro i hi; exact (p.trans hperm).mem_iff.2 (hsup i hi)
    · intro i hi; exact hsub i ((p.trans hperm).mem_iff.1 hi)

theorem eq_of_ids (h : KRHeap) : ∀ (a b : List Nat), Sorted h a → Sorted h b →
    (∀ x, x ∈ a.map (rateId h) ↔ x ∈ b.map (rateId h)) → a.map (rateId h) = b.map (rateId h) := by
  intro a b ha hb hmem
  have hp : (a.map (rateId h)).Perm (b.map (rateId h)) :=
    (List.perm_ext_iff_of_nodup (sorted_ids_nodup ha) (sorted_ids_nodup hb)).2 hmem
  refine List.Perm.eq_of_pairwise (le := fun x y : RateId => x.2 < y.2) ?_ ?_ ?_ hp
  · intro x y _ _ h1 h2; exact absurd h1 (lt_asymm h2)
  · rw [List.pairwise_map]; exact ha
  · rw [List.pairwise_map]; exact hb

theorem collection_eq_iff (h : KRHeap) (c d : KeyRateCollection) :
    KeyRateCollection.eq h c d = true ↔ c.keyRates.map (rateId h) = d.keyRates.map (rateId h) := by
  unfold KeyRateCollection.eq
  generalize c.keyRates = a
  generalize d.keyRates = b
  induction a generalizing b with
  | nil => cases b <;> simp
  | cons x a ih =>
    cases b with
    | nil => simp
    | cons y b =>
      have := ih b
      simp only [List.length_cons, List.zip_cons_cons, List.all_cons, Bool.and_eq_true, beq_iff_eq,
        Nat.add_right_cancel_iff, keyRate_eq_iff, List.map_cons, List.cons.injEq] at this ⊢
      rw [← this]
      tauto

/-- C25. Addition is commutative up to `==`, and adding a collection to itself gives an equal collection, whatever the
enumeration orders. -/
theorem C25_commutative_idempotent (h : KRHeap) (c d : KeyRateCollection) (hne : c.keyRates ≠ [])
    (hne' : d.keyRates ≠ []) (hc : Sorted h c.keyRates) (hd : Sorted h d.keyRates) (e e' f : KeyRateCollection)
    (h1 h2 h3 : KRHeap) (he : Adds h c d (.ok e, h1)) (he' : Adds h d c (.ok e', h2)) (hf : Adds h c c (.ok f, h3)) :
    KeyRateCollection.eq h e e' = true ∧ KeyRateCollection.eq h f c = true := by
  have noConf : ∀ (a b : KeyRateCollection), a.keyRates ≠ [] → Sorted h a.keyRates → Sorted h b.keyRates →
      ∀ (x : KeyRateCollection) (hx : KRHeap), Adds h a b (.ok x, hx) → Sorted h x.keyRates ∧
        (∀ y : RateId, y ∈ x.keyRates.map (rateId h) ↔ y ∈ a.keyRates.map (rateId h) ∨ y ∈ b.keyRates.map (rateId h)) := by
    intro a b hna ha hb x hx hadd
    obtain ⟨hraise, hok⟩ := C25_union h a b hna ha hb _ hadd
    have hnc : ¬ Conflict h a.keyRates b.keyRates := by
      intro hcf; have := hraise.2 hcf; cases this
    obtain ⟨x', hx', heq, hs, _, hmem, _, _⟩ := hok hnc
    cases heq
    obtain ⟨order, _, hcr⟩ := hadd
    obtain ⟨_, _, _, same, _⟩ := C23_construction h order x hx hcr.symm
    constructor
    · have hfn : (fun i => (hx i).keyDate) = (fun i => (h i).keyDate) := funext fun i => (same i).1
      have : Sorted hx x.keyRates ↔ DateSorted (fun i => (hx i).keyDate) x.keyRates := Iff.rfl
      rw [this, hfn] at hs
      exact hs
    · intro y
      rw [← hmem y, List.map_congr_left (fun i _ => show rateId hx i = rateId h i from Prod.ext (same i).2.1 (same i).1)]
  obtain ⟨se, me⟩ := noConf c d hne hc hd e h1 he
  obtain ⟨se', me'⟩ := noConf d c hne' hd hc e' h2 he'
  obtain ⟨sf, mf⟩ := noConf c c hne hc hc f h3 hf
  rw [collection_eq_iff, collection_eq_iff]
  refine ⟨eq_of_ids h _ _ se se' ?_, eq_of_ids h _ _ sf hc ?_⟩
  · intro x; rw [me x, me' x, or_comm]
  · intro x; rw [mf x, or_self]

example : Sorted exampleHeap [0, 1] ∧ Sorted exampleHeap [2, 1] ∧ ¬ Conflict exampleHeap [0, 1] [2, 1] := by
  refine ⟨?_, ?_, ?_⟩
  · simp only [Sorted, List.pairwise_cons]; decide +kernel
  · simp only [Sorted, List.pairwise_cons]; decide +kernel
  · rintro ⟨i, hi, j, hj, _, hd⟩
    have : ∀ i, (exampleHeap i).dcc = .act360 := by intro i; unfold exampleHeap; split <;> rfl
    exact hd (by rw [this, this])

/-! ## C26 -/

/-- C26. `c += other` succeeds exactly when python happens to enumerate the set union in increasing date order; the
collection then holds the sorted, wired union.  Missing: the documented behaviour for every enumeration order. -/
theorem C26_iadd_partial (h : KRHeap) (c : KeyRateCollection) (order : List Nat) :
    ((iaddBody h c order).1 = .ok () ↔ order ≠ [] ∧ Sorted h order) ∧
    ((iaddBody h c order).1 = .ok () → (iaddBody h c order).2.1.keyRates = order ∧
      Sorted (iaddBody h c order).2.2 order ∧ Wired (iaddBody h c order).2.2 order) ∧
    ((iaddBody h c order).1 ≠ .ok () → (iaddBody h c order).1 = .error .valueError) := by
  simp only [iaddBody]
  rcases setDates_spec h order with ⟨hne, hds, h', e, same, _, w⟩ | ⟨hbad, h', e, _⟩
  · rw [e]
    have hf : (fun j => (h' j).keyDate) = (fun j => (h j).keyDate) := funext fun j => (same j).1
    refine ⟨⟨fun _ => ⟨hne, hds⟩, fun _ => rfl⟩, fun _ => ⟨trivial, ?_, ?_⟩, fun hn => absurd rfl hn⟩
    · have : Sorted h' order ↔ DateSorted (fun j => (h' j).keyDate) order := Iff.rfl
      rw [this, hf]; exact hds
    · intro k i hk
      show (h' i).prior = (if k = 0 then none else (order[k - 1]?).map (fun j => (h' j).keyDate)) ∧
        (h' i).next = (order[k + 1]?).map (fun j => (h' j).keyDate)
      rw [w k i hk, hf]
      exact ⟨rfl, rfl⟩
  · rw [e]
    exact ⟨⟨fun hh => (by cases hh), fun hh => absurd hh hbad⟩, fun hh => (by cases hh), fun _ => rfl⟩

/-- C26. Whenever `c += other` does not raise, the collection is sorted, wired, and holds exactly the key rates (by
convention and date) of `c` and of `other`, including all of `c`'s objects. -/
theorem C26_iadd_union_partial (h : KRHeap) (c : KeyRateCollection) (hc : Sorted h c.keyRates) (other : List Nat)
    (out : Except PyErr Unit × KeyRateCollection × KRHeap) (hout : IAdds h c other out) (hok : out.1 = .ok ()) :
    Sorted out.2.2 out.2.1.keyRates ∧ Wired out.2.2 out.2.1.keyRates ∧
    (∀ x : RateId, x ∈ out.2.1.keyRates.map (rateId h) ↔ x ∈ c.keyRates.map (rateId h) ∨ x ∈ other.map (rateId h)) ∧
    (∀ i ∈ c.keyRates, i ∈ out.2.1.keyRates) := by
  obtain ⟨order, hperm, rfl⟩ := hout
  obtain ⟨_, hmem, _, hsup⟩ := union_spec h c.keyRates other hc
  obtain ⟨hk, hs, hw⟩ := (C26_iadd_partial h c order).2.1 hok
  rw [hk]
  refine ⟨hs, hw, ?_, ?_⟩
  · intro x; rw [← hmem x]; exact (hperm.map _).mem_iff
  · intro i hi; exact hperm.mem_iff.2 (hsup i hi)

example : ∃ out, IAdds exampleHeap ⟨[0], 0⟩ [1, 2] out ∧ out.1 = .ok () := by
  refine ⟨iaddBody exampleHeap ⟨[0], 0⟩ [2, 0, 1], ⟨[2, 0, 1], by decide +kernel, rfl⟩, ?_⟩
  rw [(C26_iadd_partial _ _ _).1]
  refine ⟨by simp, ?_⟩
  simp only [Sorted, List.pairwise_cons]; decide +kernel

/-- C26 fails: as soon as the union has two key rates, some enumeration order makes `c += other` raise ValueError, and
the collection is left out of date order. -/
theorem C26_iadd_unsorted (h : KRHeap) (c : KeyRateCollection) (other : List Nat)
    (hlen : 2 ≤ (union h c.keyRates other).length) :
    ∃ out, IAdds h c other out ∧ out.1 = .error .valueError ∧ ¬ Sorted out.2.2 out.2.1.keyRates := by
  obtain ⟨order, hperm, hns⟩ : ∃ order : List Nat, order.Perm (union h c.keyRates other) ∧ ¬ Sorted h order := by
    by_cases hs : Sorted h (union h c.keyRates other)
    · refine ⟨(union h c.keyRates other).reverse, List.reverse_perm _, ?_⟩
      intro hr
      unfold Sorted at hs hr
      rw [List.pairwise_reverse] at hr
      match hu : union h c.keyRates other with
      | [] => rw [hu] at hlen; simp at hlen
      | [a] => rw [hu] at hlen; simp at hlen
      | a :: b :: l =>
        rw [hu] at hs hr
        have h1 := (List.pairwise_cons.1 hs).1 b (by simp)
        have h2 := (List.pairwise_cons.1 hr).1 b (by simp)
        exact lt_asymm h1 h2
    · exact ⟨_, List.Perm.refl _, hs⟩
  refine ⟨iaddBody h c order, ⟨order, hperm, rfl⟩, ?_, ?_⟩
  · have := C26_iadd_partial h c order
    apply this.2.2
    intro hok
    exact hns (this.1.1 hok).2
  · simp only [iaddBody]
    rcases setDates_spec h order with ⟨_, hds, _⟩ | ⟨_, h', e, same, _⟩
    · exact absurd hds hns
    · rw [e]
      have hf : (fun j => (h' j).keyDate) = (fun j => (h j).keyDate) := funext fun j => (same j).1
      have : Sorted h' order ↔ DateSorted (fun j => (h' j).keyDate) order := Iff.rfl
      simp only
      rw [this, hf]; exact hns

example : 2 ≤ (union exampleHeap [0] [1, 2]).length := by decide +kernel

/-! ## C51 -/

/-- C51. Building a collection leaves the key rates it does not hold, and hence every collection sharing none of them,
unchanged.  Missing: collections that share key rates. -/
theorem C51_disjoint_unchanged_partial (h : KRHeap) (ids : List Nat) (e : KeyRateCollection)
    (hdisj : ∀ i ∈ e.keyRates, i ∉ ids) (d : PyDate) :
    KeyRateCollection.call (create h ids).2 e d = KeyRateCollection.call h e d := by
  have hun : ∀ j, j ∉ ids → (create h ids).2 j = h j := by
    rcases create_spec h ids with ⟨_, _, h', he, _, hn, _⟩ | ⟨_, h', he, _, hn⟩
    · rw [he]; exact hn
    · rw [he]; exact hn
  unfold KeyRateCollection.call pySum
  have : ∀ l : List Nat, (∀ i ∈ l, i ∉ ids) →
      collect (fun i => ((create h ids).2 i).call d) l = collect (fun i => (h i).call d) l := by
    intro l hl
    induction l with
    | nil => rfl
    | cons a l ih =>
      simp only [collect]
      rw [hun a (hl a (by simp)), ih (fun i hi => hl i (by simp [hi]))]
  rw [this _ hdisj]

/-- C51 fails: taking the slice `c[0:1]` of a collection rewires the shared first key rate, so `c` itself raises
TypeError at every later date. -/
theorem C51_slice_breaks_collection (h : KRHeap) (c : KeyRateCollection) (first : Nat)
    (hfirst : c.keyRates[0]? = some first) (d : PyDate) (hd : (h first).keyDate < d) :
    KeyRateCollection.call (getSlice h c 0 1).2 c d = .error .typeError := by
  match hk : c.keyRates with
  | [] => rw [hk] at hfirst; cases hfirst
  | a :: l =>
    rw [hk] at hfirst
    simp at hfirst
    subst hfirst
    have hsl : getSlice h c 0 1 = create h [a] := by simp [getSlice, hk]
    rw [hsl]
    obtain ⟨e, he⟩ := (C23_raises_iff h [a]).2.2 (by simp)
    have hcr : create h [a] = (.ok e, (create h [a]).2) := Prod.ext he rfl
    obtain ⟨hp, _, hw, hsame, _⟩ := C23_construction h [a] e _ hcr
    have hke : e.keyRates = [a] := List.perm_singleton.1 hp
    obtain ⟨h1, h2⟩ := hw 0 a (by rw [hke]; rfl)
    rw [hke] at h2
    simp at h1 h2
    have hlt : ((create h [a]).2 a).keyDate < d := by rw [(hsame a).1]; exact hd
    have : ((create h [a]).2 a).call d = .error .typeError := by
      simp [KeyRate.call, h1, h2, not_le.2 hlt]
    unfold KeyRateCollection.call
    rw [hk]
    simp [pySum, collect, this]

/-! ## C52 -/

theorem getElem?_lt {α : Type} {l : List α} {k : Nat} {a : α} (h : l[k]? = some a) : k < l.length := by
  rcases Nat.lt_or_ge k l.length with h' | h'
  · exact h'
  · rw [List.getElem?_eq_none h'] at h; cases h

/-- C52. Replacing a key rate by index works exactly for inner positions and dates strictly between the neighbours, and
then the collection stays sorted and wired; the first and the last key rate can never be replaced.  Missing: replacing
the first or last key rate. -/
theorem C52_setitem_partial (h : KRHeap) (c : KeyRateCollection) (hs : Sorted h c.keyRates) (hw : Wired h c.keyRates)
    (k : Nat) (hk : k < c.keyRates.length) (new : Nat) :
    ((setItem h c k new).1 = .ok () ↔ ∃ a b, 0 < k ∧ c.keyRates[k - 1]? = some a ∧ c.keyRates[k + 1]? = some b ∧
      (h a).keyDate < (h new).keyDate ∧ (h new).keyDate < (h b).keyDate) ∧
    ((setItem h c k new).1 = .ok () → (setItem h c k new).2.1.keyRates = c.keyRates.set k new ∧
      Sorted (setItem h c k new).2.2 (c.keyRates.set k new) ∧ Wired (setItem h c k new).2.2 (c.keyRates.set k new)) := by
  have hidx : pyIndex c.keyRates.length (k : Int) = some k := by
    unfold pyIndex; rw [if_pos (by omega)]; simp
  obtain ⟨old, hold⟩ : ∃ old, c.keyRates[k]? = some old := ⟨_, List.getElem?_eq_getElem hk⟩
  obtain ⟨hp, hn⟩ := hw k old hold
  unfold setItem
  simp only [hidx, hold, hp, hn]
  by_cases h0 : k = 0
  · subst h0; simp
  · obtain ⟨a, ha⟩ : ∃ a, c.keyRates[k - 1]? = some a := ⟨_, List.getElem?_eq_getElem (by omega)⟩
    simp only [h0, if_false, ha, Option.map_some]
    by_cases h1 : (h a).keyDate < (h new).keyDate
    · rw [if_pos h1]
      rcases hb : c.keyRates[k + 1]? with _ | b
      · simp
      · simp only [Option.map_some]
        by_cases h2 : (h new).keyDate < (h b).keyDate
        · rw [if_pos h2]
          have hsn : Sorted h (c.keyRates.set k new) := by
            have : Sorted h (c.keyRates.set k new) ↔ DateSorted (fun j => (h j).keyDate) (c.keyRates.set k new) := Iff.rfl
            rw [this, dateSorted_iff]
            have hgood := dateSorted_iff.1 (show DateSorted (fun j => (h j).keyDate) c.keyRates from hs)
            intro m hm
            rw [List.length_set] at hm
            constructor
            · intro i j hi hj
              rw [List.getElem?_set] at hi hj
              by_cases e1 : k = m
              · subst e1
                rw [if_pos rfl, if_pos hk] at hi
                rw [if_neg (by omega), hb] at hj
                cases hi; cases hj
                exact h2
              · rw [if_neg e1] at hi
                by_cases e2 : k = m + 1
                · subst e2
                  rw [if_pos rfl, if_pos hk] at hj
                  rw [Nat.add_sub_cancel, hi] at ha
                  cases hj; cases ha
                  exact h1
                · rw [if_neg e2] at hj
                  exact (hgood m hm).1 i j hi hj
            · intro i j hm0 hi hj
              rw [List.getElem?_set] at hi hj
              by_cases e1 : k = m
              · subst e1
                rw [if_neg (by omega), ha] at hi
                rw [if_pos rfl, if_pos hk] at hj
                cases hi; cases hj
                exact h1
              · rw [if_neg e1] at hj
                by_cases e2 : k = m - 1
                · rw [if_pos e2, if_pos (by omega)] at hi
                  rw [show k + 1 = m by omega, hj] at hb
                  cases hi; cases hb
                  exact h2
                · rw [if_neg e2] at hi
                  exact (hgood m hm).2 i j hm0 hi hj
          have hne : c.keyRates.set k new ≠ [] := by
            intro hh; have := congrArg List.length hh; simp at this; rw [this] at hk; simp at hk
          have hcase := C26_iadd_partial h c (c.keyRates.set k new)
          simp only [iaddBody] at hcase
          have hok := hcase.1.2 ⟨hne, hsn⟩
          have hres := hcase.2.1 hok
          refine ⟨⟨fun _ => ⟨a, b, by omega, rfl, rfl, h1, h2⟩, fun _ => hok⟩, fun _ => ⟨rfl, hres.2.1, hres.2.2⟩⟩
        · rw [if_neg h2]
          constructor
          · constructor
            · intro hh; cases hh
            · rintro ⟨a', b', _, ha', hb', _, hlt⟩
              cases hb'; exact absurd hlt h2
          · intro hh; cases hh
    · rw [if_neg h1]
      constructor
      · constructor
        · intro hh; cases hh
        · rintro ⟨a', b', _, ha', _, hlt, _⟩
          cases ha'; exact absurd hlt h1
      · intro hh; cases hh

/-- C52. Deleting a key rate from a collection of two or more keeps it sorted and rewires the neighbours; deleting the
only one raises ValueError after emptying the collection. -/
theorem C52_delitem (h : KRHeap) (c : KeyRateCollection) (hs : Sorted h c.keyRates) (k : Nat)
    (hk : k < c.keyRates.length) :
    (delItem h c k).2.1.keyRates = c.keyRates.eraseIdx k ∧
    (2 ≤ c.keyRates.length → (delItem h c k).1 = .ok () ∧ Sorted (delItem h c k).2.2 (c.keyRates.eraseIdx k) ∧
      Wired (delItem h c k).2.2 (c.keyRates.eraseIdx k)) ∧
    (c.keyRates.length = 1 → (delItem h c k).1 = .error .valueError ∧ (delItem h c k).2.1.keyRates = []) := by
  have hidx : pyIndex c.keyRates.length (k : Int) = some k := by
    unfold pyIndex; rw [if_pos (by omega)]; simp
  have hcase := C26_iadd_partial h c (c.keyRates.eraseIdx k)
  simp only [iaddBody] at hcase
  unfold delItem
  simp only [hidx]
  have hlen := List.length_eraseIdx_of_lt hk
  refine ⟨trivial, ?_, ?_⟩
  · intro h2
    have hne : c.keyRates.eraseIdx k ≠ [] := by
      intro hh; rw [hh] at hlen; simp at hlen; omega
    have hsn : Sorted h (c.keyRates.eraseIdx k) := List.Pairwise.sublist (List.eraseIdx_sublist _ _) hs
    have hok := hcase.1.2 ⟨hne, hsn⟩
    have hres := hcase.2.1 hok
    exact ⟨hok, hres.2.1, hres.2.2⟩
  · intro h1
    have hnil : c.keyRates.eraseIdx k = [] := List.eq_nil_of_length_eq_zero (by omega)
    refine ⟨?_, hnil⟩
    apply hcase.2.2
    intro hok
    exact (hcase.1.1 hok).1 hnil

/-- Collections as the hypotheses of C51 and C52 require exist: every built one. -/
example : ∃ c h', create exampleHeap [0, 1, 2] = (.ok c, h') ∧ Sorted h' c.keyRates ∧ Wired h' c.keyRates ∧
    c.keyRates.length = 3 := by
  obtain ⟨c, hc⟩ := (C23_raises_iff exampleHeap [0, 1, 2]).2.2 (by decide +kernel)
  have hcr : create exampleHeap [0, 1, 2] = (.ok c, _) := Prod.ext hc rfl
  have := C23_construction _ _ _ _ hcr
  exact ⟨c, _, hcr, this.2.1, this.2.2.1, this.1.length_eq⟩

end Verif.Props
