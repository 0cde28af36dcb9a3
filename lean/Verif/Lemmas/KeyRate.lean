/- Helper lemmas for key-rate collections. -/
import Verif.Model.KeyRate
import Verif.Lemmas.PyList

namespace Verif
open KeyRateCollection

/-- The attributes no wiring step touches are the same. -/
def SameRates (h h' : KRHeap) : Prop :=
  ∀ j, (h' j).keyDate = (h j).keyDate ∧ (h' j).dcc = (h j).dcc ∧ (h' j).bump = (h j).bump

theorem SameRates.refl (h : KRHeap) : SameRates h h := fun _ => ⟨rfl, rfl, rfl⟩

theorem SameRates.trans {a b c : KRHeap} (h1 : SameRates a b) (h2 : SameRates b c) : SameRates a c := fun j =>
  ⟨(h2 j).1.trans (h1 j).1, (h2 j).2.1.trans (h1 j).2.1, (h2 j).2.2.trans (h1 j).2.2⟩

/-- The attributes of the `k`-th key rate after wiring. -/
def wired (date : Nat → PyDate) (ids : List Nat) (k : Nat) (r : KeyRate) : KeyRate :=
  { r with prior := if k = 0 then none else (ids[k - 1]?).map date, next := (ids[k + 1]?).map date }

/-- The dates around position `k` are in order. -/
def GoodAt (date : Nat → PyDate) (ids : List Nat) (k : Nat) : Prop :=
  (∀ i j, ids[k]? = some i → ids[k + 1]? = some j → date i < date j) ∧
  (∀ i j, 0 < k → ids[k - 1]? = some i → ids[k]? = some j → date i < date j)

theorem sameRates_update {h : KRHeap} {i : Nat} {r : KeyRate} (h1 : r.keyDate = (h i).keyDate) (h2 : r.dcc = (h i).dcc)
    (h3 : r.bump = (h i).bump) : SameRates h (Function.update h i r) := by
  intro j
  by_cases hj : j = i
  · subst hj; simp [h1, h2, h3]
  · simp [Function.update_of_ne hj]

theorem wireAt_spec {h : KRHeap} {date : Nat → PyDate} (hd : ∀ j, (h j).keyDate = date j) {ids : List Nat} {k i : Nat}
    (hlen : 1 < ids.length) (hk : ids[k]? = some i) :
    (GoodAt date ids k ∧ wireAt h ids k i = (.ok (), Function.update h i (wired date ids k (h i)))) ∨
    (¬ GoodAt date ids k ∧ ∃ h', wireAt h ids k i = (.error .valueError, h') ∧ SameRates h h' ∧
      ∀ j, j ≠ i → h' j = h j) := by
  have hklt : k < ids.length := by
    rcases Nat.lt_or_ge k ids.length with h | h
    · exact h
    · rw [List.getElem?_eq_none h] at hk; cases hk
  unfold wireAt
  by_cases h0 : k = 0
  · subst h0
    obtain ⟨b, hb⟩ : ∃ b, ids[0 + 1]? = some b := ⟨_, List.getElem?_eq_getElem (by omega)⟩
    rw [if_pos rfl]
    simp only [KRHeap.modify, KeyRate.setPriorDate, KROutcome.andThen, setNextTo, dateAt, hb, Function.update_self,
      KeyRate.setNextDate, Function.update_idem]
    have hbd : (Function.update h i { h i with prior := none } b).keyDate = date b := by
      by_cases e : b = i
      · subst e; simp [hd]
      · simp [Function.update_of_ne e, hd]
    rw [hbd]
    by_cases hlt : date b ≤ (h i).keyDate
    · right
      refine ⟨fun hg => ?_, ?_⟩
      · exact absurd (hg.1 i b hk hb) (not_lt.2 (by rw [← hd i]; exact hlt))
      · simp only [hlt, if_true]
        exact ⟨_, rfl, sameRates_update rfl rfl rfl, fun j hj => Function.update_of_ne hj _ _⟩
    · left
      refine ⟨⟨fun i' j hi' hj => ?_, fun i' j h => absurd h (lt_irrefl _)⟩, ?_⟩
      · rw [hk] at hi'; rw [hb] at hj; cases hi'; cases hj
        rw [← hd i]; exact not_le.1 hlt
      · simp only [hlt, if_false]
        simp [wired, hb]
  · rw [if_neg h0]
    obtain ⟨a, ha⟩ : ∃ a, ids[k - 1]? = some a := ⟨_, List.getElem?_eq_getElem (by omega)⟩
    by_cases hl : k = ids.length - 1
    · rw [if_pos hl]
      have hb : ids[k + 1]? = none := List.getElem?_eq_none (by omega)
      simp only [KRHeap.modify, KeyRate.setNextDate, KROutcome.andThen, setPriorTo, dateAt, ha, Function.update_self,
        KeyRate.setPriorDate, Function.update_idem]
      have hbd : (Function.update h i { h i with next := none } a).keyDate = date a := by
        by_cases e : a = i
        · subst e; simp [hd]
        · simp [Function.update_of_ne e, hd]
      rw [hbd]
      by_cases hlt : (h i).keyDate ≤ date a
      · right
        refine ⟨fun hg => ?_, ?_⟩
        · exact absurd (hg.2 a i (by omega) ha hk) (not_lt.2 (by rw [← hd i]; exact hlt))
        · simp only [hlt, if_true]
          exact ⟨_, rfl, sameRates_update rfl rfl rfl, fun j hj => Function.update_of_ne hj _ _⟩
      · left
        refine ⟨⟨fun i' j hi' hj => ?_, fun i' j _ hi' hj => ?_⟩, ?_⟩
        · rw [hb] at hj; cases hj
        · rw [ha] at hi'; rw [hk] at hj; cases hi'; cases hj
          rw [← hd i]; exact not_le.1 hlt
        · simp only [hlt, if_false]
          simp [wired, ha, hb, h0]
    · rw [if_neg hl]
      obtain ⟨b, hb⟩ : ∃ b, ids[k + 1]? = some b := ⟨_, List.getElem?_eq_getElem (by omega)⟩
      simp only [KRHeap.modify, KeyRate.setNextDate, KROutcome.andThen, setPriorTo, setNextTo, dateAt, ha, hb,
        KeyRate.setPriorDate]
      by_cases hlt : (h i).keyDate ≤ date a
      · right
        refine ⟨fun hg => ?_, ?_⟩
        · exact absurd (hg.2 a i (by omega) ha hk) (not_lt.2 (by rw [← hd i]; exact hlt))
        · simp only [hd a, hlt, if_true]
          exact ⟨_, rfl, SameRates.refl h, fun j _ => rfl⟩
      · have hbd : (Function.update h i { h i with prior := some (date a) } b).keyDate = date b := by
          by_cases e : b = i
          · subst e; simp [hd]
          · simp [Function.update_of_ne e, hd]
        simp only [hd a, hlt, if_false, hbd, Function.update_self, Function.update_idem]
        by_cases hlt2 : date b ≤ (h i).keyDate
        · right
          refine ⟨fun hg => ?_, ?_⟩
          · exact absurd (hg.1 i b hk hb) (not_lt.2 (by rw [← hd i]; exact hlt2))
          · simp only [hlt2, if_true]
            exact ⟨_, rfl, sameRates_update rfl rfl rfl, fun j hj => Function.update_of_ne hj _ _⟩
        · left
          refine ⟨⟨fun i' j hi' hj => ?_, fun i' j _ hi' hj => ?_⟩, ?_⟩
          · rw [hk] at hi'; rw [hb] at hj; cases hi'; cases hj
            rw [← hd i]; exact not_le.1 hlt2
          · rw [ha] at hi'; rw [hk] at hj; cases hi'; cases hj
            rw [← hd i]; exact not_le.1 hlt
          · simp only [hlt2, if_false]
            simp [wired, ha, hb, h0]

theorem wireLoop_spec {date : Nat → PyDate} {ids : List Nat} (hlen : 1 < ids.length) :
    ∀ (rest : List Nat) (k : Nat) (h : KRHeap), (∀ j, (h j).keyDate = date j) → rest = ids.drop k →
      ((∀ m, k ≤ m → m < ids.length → GoodAt date ids m) ∧ ∃ h', wireLoop ids rest k h = (.ok (), h') ∧
        SameRates h h' ∧ (∀ j, j ∉ rest → h' j = h j) ∧
        (ids.Nodup → ∀ m i, k ≤ m → ids[m]? = some i → h' i = wired date ids m (h i))) ∨
      ((∃ m, k ≤ m ∧ m < ids.length ∧ ¬ GoodAt date ids m) ∧ ∃ h', wireLoop ids rest k h = (.error .valueError, h') ∧
        SameRates h h' ∧ ∀ j, j ∉ rest → h' j = h j)
  | [], k, h, hd, hrest => by
    left
    have : ids.length ≤ k := by
      have := congrArg List.length hrest; simp at this; omega
    refine ⟨fun m h1 h2 => by omega, h, rfl, SameRates.refl h, fun _ _ => rfl, ?_⟩
    intro _ m i hm hi
    rw [List.getElem?_eq_none (by omega)] at hi; cases hi
  | i :: rest, k, h, hd, hrest => by
    have hk : ids[k]? = some i := by
      have := congrArg (fun l => l[0]?) hrest
      simp at this; exact this.symm
    have hrest' : rest = ids.drop (k + 1) := by
      have := congrArg List.tail hrest
      simpa using this
    have hklt : k < ids.length := by
      rcases Nat.lt_or_ge k ids.length with h | h
      · exact h
      · rw [List.getElem?_eq_none h] at hk; cases hk
    simp only [wireLoop]
    rcases wireAt_spec hd hlen hk with ⟨hg, he⟩ | ⟨hg, h', he, hs, hn⟩
    · rw [he]
      simp only [KROutcome.andThen]
      have hsame : SameRates h (Function.update h i (wired date ids k (h i))) := sameRates_update rfl rfl rfl
      rcases wireLoop_spec hlen rest (k + 1) _ (fun j => (hsame j).1.trans (hd j)) hrest' with
        ⟨hall, h', hl, hs, hn, hw⟩ | ⟨⟨m, hm1, hm2, hm3⟩, h', hl, hs, hn⟩
      · left
        refine ⟨?_, h', hl, hsame.trans hs, ?_, ?_⟩
        · intro m h1 h2
          rcases Nat.eq_or_lt_of_le h1 with rfl | h1
          · exact hg
          · exact hall m h1 h2
        · intro j hj
          simp at hj
          rw [hn j hj.2, Function.update_of_ne hj.1]
        · intro hnd m a hm ha
          rcases Nat.eq_or_lt_of_le hm with rfl | hm
          · rw [hk] at ha; cases ha
            have : i ∉ rest := by
              rw [hrest']
              intro hmem
              obtain ⟨t, ht, hti⟩ := List.mem_iff_getElem.1 hmem
              rw [List.getElem_drop] at hti
              have h1 : ids[k]? = ids[k + 1 + t]? := by
                rw [hk, List.getElem?_eq_getElem (by simp at ht; omega), hti]
              have := (List.getElem?_inj hklt hnd).1 h1
              omega
            rw [hn _ this, Function.update_self]
          · rw [hw hnd m a hm ha]
            have : a ≠ i := by
              rintro rfl
              have h1 : ids[k]? = ids[m]? := by rw [hk, ha]
              have := (List.getElem?_inj hklt hnd).1 h1
              omega
            rw [Function.update_of_ne this]
      · right
        refine ⟨⟨m, by omega, hm2, hm3⟩, h', hl, hsame.trans hs, ?_⟩
        intro j hj
        simp at hj
        rw [hn j hj.2, Function.update_of_ne hj.1]
    · right
      rw [he]
      refine ⟨⟨k, Nat.le_refl _, hklt, hg⟩, h', rfl, hs, ?_⟩
      intro j hj
      simp at hj
      exact hn j hj.1

/-- Strictly increasing key dates. -/
def DateSorted (date : Nat → PyDate) (ids : List Nat) : Prop := ids.Pairwise (fun a b => date a < date b)

theorem dateSorted_iff {date : Nat → PyDate} {ids : List Nat} :
    DateSorted date ids ↔ ∀ m, m < ids.length → GoodAt date ids m := by
  unfold DateSorted
  constructor
  · intro h m hm
    rw [List.pairwise_iff_getElem] at h
    constructor
    · intro i j hi hj
      obtain ⟨h1, rfl⟩ := List.getElem?_eq_some_iff.1 hi
      obtain ⟨h2, rfl⟩ := List.getElem?_eq_some_iff.1 hj
      exact h _ _ _ _ (by omega)
    · intro i j h0 hi hj
      obtain ⟨h1, rfl⟩ := List.getElem?_eq_some_iff.1 hi
      obtain ⟨h2, rfl⟩ := List.getElem?_eq_some_iff.1 hj
      exact h _ _ _ _ (by omega)
  · intro h
    have hch : List.IsChain (fun a b => date a < date b) ids := by
      rw [List.isChain_iff_getElem]
      intro i hi
      exact (h i (by omega)).1 _ _ (List.getElem?_eq_getElem (by omega)) (List.getElem?_eq_getElem (by omega))
    have : IsTrans Nat (fun a b => date a < date b) := ⟨fun _ _ _ => lt_trans⟩
    exact List.isChain_iff_pairwise.1 hch

theorem DateSorted.nodup {date : Nat → PyDate} {ids : List Nat} (h : DateSorted date ids) : ids.Nodup := by
  refine List.Pairwise.imp ?_ h
  rintro a b hab rfl
  exact lt_irrefl _ hab

/-- `_set_dates_in_collection`: succeeds exactly on nonempty lists with strictly increasing dates, and then wires the
neighbours; it touches nothing else. -/
theorem setDates_spec (h : KRHeap) (ids : List Nat) :
    (ids ≠ [] ∧ DateSorted (fun j => (h j).keyDate) ids ∧ ∃ h', setDates h ids = (.ok (), h') ∧ SameRates h h' ∧
      (∀ j, j ∉ ids → h' j = h j) ∧
      ∀ m i, ids[m]? = some i → h' i = wired (fun j => (h j).keyDate) ids m (h i)) ∨
    (¬ (ids ≠ [] ∧ DateSorted (fun j => (h j).keyDate) ids) ∧ ∃ h', setDates h ids = (.error .valueError, h') ∧
      SameRates h h' ∧ ∀ j, j ∉ ids → h' j = h j) := by
  unfold setDates
  by_cases hlen : 1 < ids.length
  · rw [if_pos hlen]
    have hne : ids ≠ [] := by rintro rfl; simp at hlen
    rcases wireLoop_spec (date := fun j => (h j).keyDate) hlen ids 0 h (fun _ => rfl) rfl with
      ⟨hall, h', hl, hs, hn, hw⟩ | ⟨⟨m, _, hm2, hm3⟩, h', hl, hs, hn⟩
    · left
      have hds := dateSorted_iff.2 (fun m hm => hall m (Nat.zero_le _) hm)
      exact ⟨hne, hds, h', hl, hs, hn, fun m i hi => hw hds.nodup m i (Nat.zero_le _) hi⟩
    · right
      exact ⟨fun hh => hm3 (dateSorted_iff.1 hh.2 m hm2), h', hl, hs, hn⟩
  · rw [if_neg hlen]
    match ids, hlen with
    | [], _ =>
      right
      exact ⟨by simp, h, rfl, SameRates.refl h, fun _ _ => rfl⟩
    | [i], _ =>
      left
      refine ⟨by simp, by simp [DateSorted], Function.update h i { h i with prior := none, next := none }, ?_,
        sameRates_update rfl rfl rfl, ?_, ?_⟩
      · simp [KRHeap.modify, KeyRate.setPriorDate, KeyRate.setNextDate, KROutcome.andThen]
      · intro j hj; simp at hj; exact Function.update_of_ne hj _ _
      · intro m a ha
        match m, ha with
        | 0, ha => simp at ha; subst ha; simp [wired]
        | m + 1, ha => simp at ha
    | a :: b :: l, hlen => simp at hlen

end Verif
