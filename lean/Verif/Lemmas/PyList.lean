/- Helper lemmas: stable sorting, bisection, dictionaries. -/
import Verif.Model.PyList
import Mathlib.Data.List.Perm.Basic
import Mathlib.Data.List.Perm.Subperm
import Mathlib.Data.List.Dedup
import Mathlib.Data.List.Pairwise
import Mathlib.Tactic.SplitIfs

namespace Verif

section sort
variable {α κ : Type} [LinearOrder κ] (key : α → κ)

/-- Sorted by key, non-strictly. -/
def KeySorted (l : List α) : Prop := l.Pairwise (fun a b => key a ≤ key b)

theorem pyInsert_perm (a : α) (l : List α) : (pyInsert key a l).Perm (a :: l) := by
  induction l with
  | nil => exact List.Perm.refl _
  | cons b bs ih =>
    simp only [pyInsert]
    split_ifs
    · exact List.Perm.refl _
    · exact (List.Perm.cons b ih).trans (List.Perm.swap a b bs)

theorem pyInsert_sorted (a : α) (l : List α) (h : KeySorted key l) : KeySorted key (pyInsert key a l) := by
  induction l with
  | nil => simp [pyInsert, KeySorted]
  | cons b bs ih =>
    have hb := List.pairwise_cons.1 h
    simp only [pyInsert]
    split_ifs with hab
    · refine List.pairwise_cons.2 ⟨fun c hc => ?_, h⟩
      rcases List.mem_cons.1 hc with rfl | hc
      · exact hab
      · exact le_trans hab (hb.1 c hc)
    · refine List.pairwise_cons.2 ⟨fun c hc => ?_, ih hb.2⟩
      rcases List.mem_cons.1 ((pyInsert_perm key a bs).mem_iff.1 hc) with rfl | hc
      · exact le_of_lt (not_le.1 hab)
      · exact hb.1 c hc

theorem pyInsert_filter (a : α) (l : List α) (k : κ) :
    (pyInsert key a l).filter (fun x => decide (key x = k)) = (a :: l).filter (fun x => decide (key x = k)) := by
  induction l with
  | nil => rfl
  | cons b bs ih =>
    simp only [pyInsert]
    split_ifs with hab
    · rfl
    · rw [List.filter_cons, ih, List.filter_cons, List.filter_cons, List.filter_cons]
      by_cases h1 : key a = k <;> by_cases h2 : key b = k <;> simp [h1, h2]
      exact absurd (le_of_eq (h1.trans h2.symm)) hab

theorem pySorted_perm (l : List α) : (pySorted key l).Perm l := by
  induction l with
  | nil => exact List.Perm.refl _
  | cons a as ih => exact (pyInsert_perm key a _).trans (List.Perm.cons a ih)

theorem pySorted_sorted (l : List α) : KeySorted key (pySorted key l) := by
  induction l with
  | nil => simp [pySorted, KeySorted]
  | cons a as ih => exact pyInsert_sorted key a _ ih

/-- Stability: elements with equal keys keep their order. -/
theorem pySorted_filter (l : List α) (k : κ) :
    (pySorted key l).filter (fun x => decide (key x = k)) = l.filter (fun x => decide (key x = k)) := by
  induction l with
  | nil => rfl
  | cons a as ih =>
    show (pyInsert key a (pySorted key as)).filter _ = _
    rw [pyInsert_filter, List.filter_cons, ih, List.filter_cons]

/-- A sorted list is determined by its equal-key classes. -/
theorem keySorted_unique {l m : List α} (hl : KeySorted key l) (hm : KeySorted key m)
    (h : ∀ k, l.filter (fun x => decide (key x = k)) = m.filter (fun x => decide (key x = k))) : l = m := by
  induction l generalizing m with
  | nil =>
    cases m with
    | nil => rfl
    | cons b bs => have := h (key b); simp at this
  | cons a as ih =>
    cases m with
    | nil => have := h (key a); simp at this
    | cons b bs =>
      have ha := List.pairwise_cons.1 hl
      have hb := List.pairwise_cons.1 hm
      have hkey : key a = key b := by
        apply le_antisymm
        · have : b ∈ (b :: bs).filter (fun x => decide (key x = key b)) := by simp
          rw [← h (key b)] at this
          have hmem := List.mem_of_mem_filter this
          rcases List.mem_cons.1 hmem with rfl | hmem
          · exact le_refl _
          · exact ha.1 b hmem
        · have : a ∈ (a :: as).filter (fun x => decide (key x = key a)) := by simp
          rw [h (key a)] at this
          have hmem := List.mem_of_mem_filter this
          rcases List.mem_cons.1 hmem with rfl | hmem
          · exact le_refl _
          · exact hb.1 a hmem
      have hab : a = b := by
        have := h (key a)
        simp [hkey] at this
        exact this.1
      subst hab
      congr 1
      apply ih ha.2 hb.2
      intro k
      have := h k
      by_cases hk : key a = k <;> simpa [hk] using this

/-- Being sorted and having the same equal-key classes determines the result of `sorted`. -/
theorem pySorted_unique {l m : List α} (hm : KeySorted key m)
    (h : ∀ k, m.filter (fun x => decide (key x = k)) = l.filter (fun x => decide (key x = k))) :
    pySorted key l = m :=
  keySorted_unique key (pySorted_sorted key l) hm (fun k => by rw [pySorted_filter, h])

/-- Sorting a sorted list changes nothing. -/
theorem pySorted_of_sorted {l : List α} (h : KeySorted key l) : pySorted key l = l :=
  pySorted_unique key h (fun _ => rfl)

/-- With distinct keys, sorting does not depend on the order of the input. -/
theorem pySorted_perm_eq {l m : List α} (h : l.Perm m) (hnd : (l.map key).Nodup) : pySorted key l = pySorted key m := by
  apply pySorted_unique key (pySorted_sorted key m)
  intro k
  rw [pySorted_filter]
  have hp := (h.filter (fun x => decide (key x = k)))
  have hlen : ∀ (l : List α), (l.map key).Nodup → (l.filter (fun x => decide (key x = k))).length ≤ 1 := by
    intro l hl
    induction l with
    | nil => simp
    | cons a as ih =>
      simp only [List.map_cons, List.nodup_cons] at hl
      rw [List.filter_cons]
      split_ifs with hk
      · have : as.filter (fun x => decide (key x = k)) = [] := by
          rw [List.filter_eq_nil_iff]
          intro b hb hbk
          simp at hk hbk
          exact hl.1 (List.mem_map.2 ⟨b, hb, by rw [hbk, hk]⟩)
        simp [this]
      · exact ih hl.2
  have h1 := hlen l hnd
  have := hp.length_eq
  match hx : l.filter (fun x => decide (key x = k)), hy : m.filter (fun x => decide (key x = k)) with
  | [], [] => rfl
  | [], y :: ys => rw [hx, hy] at this; simp at this
  | x :: xs, [] => rw [hx, hy] at this; simp at this
  | [x], [y] => rw [hx, hy] at hp; simpa using hp.symm
  | x :: x' :: xs, _ => rw [hx] at h1; simp at h1
  | [x], y :: y' :: ys => rw [hx, hy] at this; simp at this

end sort

section bisect
variable {α : Type}

/-- On a list whose first `n` elements satisfy the predicate and whose other elements do not, the binary search finds
`n`. -/
theorem bisectLoop_eq (p : α → Bool) (l : List α) (n : Nat) (hn : n ≤ l.length)
    (h1 : ∀ i (h : i < l.length), i < n → p l[i] = true) (h2 : ∀ i (h : i < l.length), n ≤ i → p l[i] = false)
    (f lo hi : Nat) (hf : hi - lo ≤ f) (hlo : lo ≤ n) (hhi : n ≤ hi) (hlen : hi ≤ l.length) :
    bisectLoop p l f lo hi = n := by
  induction f generalizing lo hi with
  | zero => simp only [bisectLoop]; omega
  | succ f ih =>
    simp only [bisectLoop]
    split_ifs with hlt
    · have hmid : (lo + hi) / 2 < l.length := by omega
      rw [List.getElem?_eq_getElem hmid]
      simp only
      by_cases hp : p l[(lo + hi) / 2] = true
      · rw [if_pos hp]
        have : (lo + hi) / 2 < n := by
          by_contra hc; rw [h2 _ hmid (by omega)] at hp; cases hp
        exact ih _ _ (by omega) (by omega) hhi hlen
      · rw [if_neg hp]
        have : n ≤ (lo + hi) / 2 := by
          by_contra hc; exact hp (h1 _ hmid (by omega))
        exact ih _ _ (by omega) hlo (by omega) (by omega)
    · omega

/-- In a sorted list the elements of key at most `kx` form a prefix, which `bisect_right` measures. -/
theorem bisectRight_spec {κ : Type} [LinearOrder κ] (key : α → κ) (l : List α) (hs : KeySorted key l) (kx : κ) :
    bisectRight key l kx ≤ l.length ∧
    (∀ i (h : i < l.length), i < bisectRight key l kx → key l[i] ≤ kx) ∧
    (∀ i (h : i < l.length), bisectRight key l kx ≤ i → kx < key l[i]) := by
  obtain ⟨n, hn, h1, h2⟩ : ∃ n, n ≤ l.length ∧ (∀ i (h : i < l.length), i < n → key l[i] ≤ kx) ∧
      (∀ i (h : i < l.length), n ≤ i → kx < key l[i]) := by
    induction l with
    | nil => exact ⟨0, by simp, by simp, by simp⟩
    | cons a as ih =>
      have ha := List.pairwise_cons.1 hs
      by_cases hk : key a ≤ kx
      · obtain ⟨n, hn, g1, g2⟩ := ih ha.2
        refine ⟨n + 1, by simpa using hn, ?_, ?_⟩
        · intro i h hi
          cases i with
          | zero => exact hk
          | succ i => exact g1 i (by simpa using h) (by omega)
        · intro i h hi
          cases i with
          | zero => omega
          | succ i => exact g2 i (by simpa using h) (by omega)
      · refine ⟨0, by simp, by simp, ?_⟩
        intro i h _
        cases i with
        | zero => exact not_le.1 hk
        | succ i =>
          have : as[i]'(by simpa using h) ∈ as := List.getElem_mem _
          exact lt_of_lt_of_le (not_le.1 hk) (ha.1 _ this)
  have he : bisectRight key l kx = n := by
    apply bisectLoop_eq _ l n hn _ _ _ _ _ (by omega) (by omega) hn (Nat.le_refl _)
    · intro i h hi; simpa using h1 i h hi
    · intro i h hi; simpa using h2 i h hi
  rw [he]; exact ⟨hn, h1, h2⟩

theorem bisectLeft_spec {κ : Type} [LinearOrder κ] (key : α → κ) (l : List α) (hs : KeySorted key l) (kx : κ) :
    bisectLeft key l kx ≤ l.length ∧
    (∀ i (h : i < l.length), i < bisectLeft key l kx → key l[i] < kx) ∧
    (∀ i (h : i < l.length), bisectLeft key l kx ≤ i → kx ≤ key l[i]) := by
  obtain ⟨n, hn, h1, h2⟩ : ∃ n, n ≤ l.length ∧ (∀ i (h : i < l.length), i < n → key l[i] < kx) ∧
      (∀ i (h : i < l.length), n ≤ i → kx ≤ key l[i]) := by
    induction l with
    | nil => exact ⟨0, by simp, by simp, by simp⟩
    | cons a as ih =>
      have ha := List.pairwise_cons.1 hs
      by_cases hk : key a < kx
      · obtain ⟨n, hn, g1, g2⟩ := ih ha.2
        refine ⟨n + 1, by simpa using hn, ?_, ?_⟩
        · intro i h hi
          cases i with
          | zero => exact hk
          | succ i => exact g1 i (by simpa using h) (by omega)
        · intro i h hi
          cases i with
          | zero => omega
          | succ i => exact g2 i (by simpa using h) (by omega)
      · refine ⟨0, by simp, by simp, ?_⟩
        intro i h _
        cases i with
        | zero => exact not_lt.1 hk
        | succ i =>
          have : as[i]'(by simpa using h) ∈ as := List.getElem_mem _
          exact le_trans (not_lt.1 hk) (ha.1 _ this)
  have he : bisectLeft key l kx = n := by
    apply bisectLoop_eq _ l n hn _ _ _ _ _ (by omega) (by omega) hn (Nat.le_refl _)
    · intro i h hi; simpa using h1 i h hi
    · intro i h hi; simpa using h2 i h hi
  rw [he]; exact ⟨hn, h1, h2⟩

theorem insortRight_perm {κ : Type} [LinearOrder κ] (key : α → κ) (l : List α) (x : α) :
    (insortRight key l x).Perm (x :: l) := by
  unfold insortRight
  simp only
  refine List.perm_middle.trans ?_
  rw [List.take_append_drop]

theorem insortRight_sorted {κ : Type} [LinearOrder κ] (key : α → κ) (l : List α) (x : α) (hs : KeySorted key l) :
    KeySorted key (insortRight key l x) := by
  obtain ⟨hn, h1, h2⟩ := bisectRight_spec key l hs (key x)
  unfold insortRight
  simp only
  generalize bisectRight key l (key x) = n at *
  have hs' : KeySorted key (l.take n ++ l.drop n) := by rw [List.take_append_drop]; exact hs
  obtain ⟨s1, s2, s3⟩ := List.pairwise_append.1 hs'
  refine List.pairwise_append.2 ⟨s1, List.pairwise_cons.2 ⟨?_, s2⟩, ?_⟩
  · intro b hb
    obtain ⟨i, hi, rfl⟩ := List.getElem_of_mem hb
    rw [List.getElem_drop]
    rw [List.length_drop] at hi
    exact le_of_lt (h2 _ (by omega) (by omega))
  · intro a ha b hb
    rcases List.mem_cons.1 hb with rfl | hb
    · obtain ⟨i, hi, rfl⟩ := List.getElem_of_mem ha
      rw [List.getElem_take]
      rw [List.length_take] at hi
      exact h1 _ (by omega) (by omega)
    · exact s3 a ha b hb

theorem insortRight_filter {κ : Type} [LinearOrder κ] (key : α → κ) (l : List α) (x : α) (hs : KeySorted key l) (k : κ) :
    (insortRight key l x).filter (fun y => decide (key y = k)) =
      (l ++ [x]).filter (fun y => decide (key y = k)) := by
  obtain ⟨hn, h1, h2⟩ := bisectRight_spec key l hs (key x)
  unfold insortRight
  simp only
  generalize bisectRight key l (key x) = n at *
  conv_rhs => rw [← List.take_append_drop n l]
  rw [List.filter_append, List.append_assoc, List.filter_append]
  congr 1
  rw [List.filter_cons]
  split_ifs with hk
  · simp at hk
    have : (l.drop n).filter (fun y => decide (key y = k)) = [] := by
      rw [List.filter_eq_nil_iff]
      intro b hb hbk
      obtain ⟨i, hi, rfl⟩ := List.getElem_of_mem hb
      rw [List.getElem_drop] at hbk
      rw [List.length_drop] at hi
      have := h2 (n + i) (by omega) (by omega)
      simp at hbk
      rw [hk, hbk] at this
      exact lt_irrefl _ this
    simp [List.filter_append, this, hk]
  · simp at hk
    simp [List.filter_append, hk]

end bisect

section dict
variable {κ ν : Type} [DecidableEq κ]

theorem PyDict.get?_set (d : PyDict κ ν) (k k' : κ) (v : ν) :
    PyDict.get? (PyDict.set d k v) k' = if k = k' then some v else PyDict.get? d k' := by
  induction d with
  | nil => simp [PyDict.set, PyDict.get?]
  | cons a d ih =>
    obtain ⟨a, w⟩ := a
    simp only [PyDict.set]
    split_ifs with h1 h2 h2
    · subst h1; subst h2; simp [PyDict.get?]
    · subst h1; simp [PyDict.get?, h2]
    · subst h2; simp [PyDict.get?, h1, ih]
    · simp only [PyDict.get?, ih, h2, if_false]

theorem PyDict.keys_set (d : PyDict κ ν) (k : κ) (v : ν) :
    (PyDict.set d k v).map Prod.fst = if k ∈ d.map Prod.fst then d.map Prod.fst else d.map Prod.fst ++ [k] := by
  induction d with
  | nil => simp [PyDict.set]
  | cons a d ih =>
    obtain ⟨a, w⟩ := a
    simp only [PyDict.set]
    split_ifs with h1 h2 h2
    · simp
    · subst h1; simp at h2
    · simp at h2
      rcases h2 with h2 | h2
      · exact absurd h2.symm h1
      · simp [ih, h2]
    · simp at h2
      simp [ih, h2]

theorem PyDict.get?_isSome (d : PyDict κ ν) (k : κ) : (PyDict.get? d k).isSome ↔ k ∈ d.map Prod.fst := by
  induction d with
  | nil => simp [PyDict.get?]
  | cons a d ih =>
    obtain ⟨a, w⟩ := a
    simp only [PyDict.get?]
    split_ifs with h
    · simp [h]
    · rw [ih]; simp [Ne.symm h]

theorem PyDict.nodup_set (d : PyDict κ ν) (k : κ) (v : ν) (h : (d.map Prod.fst).Nodup) :
    ((PyDict.set d k v).map Prod.fst).Nodup := by
  rw [PyDict.keys_set]
  split_ifs with hk
  · exact h
  · exact List.nodup_append.2 ⟨h, by simp, by intro a ha b hb; simp at hb; subst hb; rintro rfl; exact hk ha⟩

end dict
end Verif
