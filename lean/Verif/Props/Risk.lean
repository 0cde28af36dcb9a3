/- Properties of risk ladders, iteration and portfolios' key rates: C48, C49, C60. -/
import Verif.Model.Risk
import Verif.Props.KeyRate

namespace Verif.Props
open Verif Verif.Spec Verif.DayCount

/-! ## C48: membership -/

/-- C48 is false: `risk in ladder` is False for every risk, stored or not. -/
theorem C48_never_contains (l : RiskLadder) (r : Risk) : l.contains r = false := rfl

/-- C48 (partial). Membership is answered correctly exactly for risks which are not stored.  Missing: the stored ones. -/
theorem C48_correct_iff_partial (l : RiskLadder) (r : Risk) : (l.contains r = true ↔ r ∈ l.risks) ↔ r ∉ l.risks := by
  rw [C48_never_contains]; simp

/-- C48. Iterating a ladder, and its three columns, give the stored risks in the order given. -/
theorem C48_columns (risks : List Risk) :
    (RiskLadder.create risks).iter = risks ∧ (RiskLadder.create risks).len = risks.length ∧
    ((RiskLadder.create risks).getKeyRateDates.zip
      ((RiskLadder.create risks).getPv01s.zip (RiskLadder.create risks).getIndices)) =
        risks.map (fun r => (r.keyRateDate, r.pv01, r.index)) := by
  refine ⟨rfl, rfl, ?_⟩
  show (risks.map _).zip ((risks.map _).zip (risks.map _)) = _
  induction risks with
  | nil => rfl
  | cons r rs ih => simp only [List.map_cons, List.zip_cons_cons, ih]

/-! ## C49: the iteration protocol -/

/-- The state after `n` calls, and the outcome of call number `n` (counted from zero). -/
def stateAfter {σ α : Type} (next : σ → Except PyErr α × σ) (s : σ) : Nat → σ
  | 0 => s
  | n + 1 => (next (stateAfter next s n)).2

/-- The outcome of call number `n`. -/
def outcome {σ α : Type} (next : σ → Except PyErr α × σ) (s : σ) (n : Nat) : Except PyErr α := (next (stateAfter next s n)).1

/-- What the protocol requires of call number `n` on a collection with these elements: go through the elements, raise
StopIteration once, start again. -/
def expected {α : Type} (items : List α) (n : Nat) : Except PyErr α :=
  match items[n % (items.length + 1)]? with
  | some a => .ok a
  | none => .error .stopIteration

/-- Any object whose `next` reads its items at an index, steps the index, and resets it at the end follows the protocol. -/
theorem protocol {σ α : Type} (next : σ → Except PyErr α × σ) (items : σ → List α) (index : σ → Nat)
    (h1 : ∀ s a, (items s)[index s]? = some a → (next s).1 = .ok a ∧ items (next s).2 = items s ∧ index (next s).2 = index s + 1)
    (h2 : ∀ s, (items s)[index s]? = none → (next s).1 = .error .stopIteration ∧ items (next s).2 = items s ∧ index (next s).2 = 0)
    (s : σ) (h0 : index s = 0) (n : Nat) : outcome next s n = expected (items s) n := by
  have key : ∀ n, items (stateAfter next s n) = items s ∧ index (stateAfter next s n) = n % ((items s).length + 1) := by
    intro n
    induction n with
    | zero => exact ⟨rfl, by rw [Nat.zero_mod]; exact h0⟩
    | succ n ih =>
      obtain ⟨i1, i2⟩ := ih
      have hlt : n % ((items s).length + 1) < (items s).length + 1 := Nat.mod_lt _ (by omega)
      rcases Nat.lt_or_ge (n % ((items s).length + 1)) (items s).length with h | h
      · have hs : (items (stateAfter next s n))[index (stateAfter next s n)]? = some ((items s)[n % ((items s).length + 1)]) := by
          rw [i1, i2, List.getElem?_eq_getElem h]
        obtain ⟨-, a, b⟩ := h1 _ _ hs
        refine ⟨a.trans i1, b.trans ?_⟩
        rw [i2, Nat.add_mod n 1, Nat.mod_eq_of_lt (a := 1) (by omega), Nat.mod_eq_of_lt (a := _ + 1) (by omega)]
      · have hs : (items (stateAfter next s n))[index (stateAfter next s n)]? = none := by
          rw [i1, i2, List.getElem?_eq_none h]
        obtain ⟨-, a, b⟩ := h2 _ hs
        refine ⟨a.trans i1, b.trans ?_⟩
        have e : n % ((items s).length + 1) = (items s).length := by omega
        rw [Nat.add_mod, e]
        cases hl : (items s).length with
        | zero => simp
        | succ m => rw [Nat.mod_eq_of_lt (a := 1) (by omega), Nat.mod_self]
  obtain ⟨k1, k2⟩ := key n
  unfold outcome expected
  cases hg : (items s)[n % ((items s).length + 1)]? with
  | some a => exact (h1 _ a (by rw [k1, k2, hg])).1
  | none => exact (h2 _ (by rw [k1, k2, hg])).1

/-- C49. Key rate collections follow the protocol, for any number of `next()` calls. -/
theorem C49_key_rates (ids : List Nat) (n : Nat) :
    outcome KeyRateCollection.next ⟨ids, 0⟩ n = expected ids n := by
  refine protocol KeyRateCollection.next KeyRateCollection.keyRates KeyRateCollection.iterIndex ?_ ?_ ⟨ids, 0⟩ rfl n
  · intro s a h; unfold KeyRateCollection.next; rw [h]; exact ⟨rfl, rfl, rfl⟩
  · intro s h; unfold KeyRateCollection.next; rw [h]; exact ⟨rfl, rfl, rfl⟩

/-- C49. So do risk ladders. -/
theorem C49_risk_ladder (risks : List Risk) (n : Nat) : outcome RiskLadder.next (RiskLadder.create risks) n = expected risks n := by
  refine protocol RiskLadder.next RiskLadder.risks RiskLadder.iterIndex ?_ ?_ (RiskLadder.create risks) rfl n
  · intro s a h; unfold RiskLadder.next; rw [h]; exact ⟨rfl, rfl, rfl⟩
  · intro s h; unfold RiskLadder.next; rw [h]; exact ⟨rfl, rfl, rfl⟩

/-- C49. And portfolios. -/
theorem C49_portfolio (assets : List PortfolioEntry) (cash : ℚ) (n : Nat) :
    outcome Portfolio.next ⟨assets, cash, 0⟩ n = expected assets n := by
  refine protocol Portfolio.next Portfolio.assets Portfolio.iterIndex ?_ ?_ ⟨assets, cash, 0⟩ rfl n
  · intro s a h; unfold Portfolio.next; rw [h]; exact ⟨rfl, rfl, rfl⟩
  · intro s h; unfold Portfolio.next; rw [h]; exact ⟨rfl, rfl, rfl⟩

/-- Concrete case for C49: seven calls on a collection of two. -/
example : (List.range 7).map (outcome KeyRateCollection.next ⟨[5, 3], 0⟩) =
    [.ok 5, .ok 3, .error .stopIteration, .ok 5, .ok 3, .error .stopIteration, .ok 5] := by decide

/-! ## C60: a portfolio's key rates -/

theorem allocate_get (dcc : DayCountConvention) (ds : List PyDate) (base : Nat) (h : KRHeap) (j : Nat) :
    Portfolio.allocate dcc ds base h j =
      if hj : base ≤ j ∧ j - base < ds.length then KeyRate.create dcc (ds[j - base]'hj.2) none none else h j := by
  induction ds generalizing base h with
  | nil => simp [Portfolio.allocate]
  | cons d ds ih =>
    simp only [Portfolio.allocate]
    rw [ih]
    by_cases h1 : base + 1 ≤ j ∧ j - (base + 1) < ds.length
    · rw [dif_pos h1, dif_pos ⟨by omega, by simp; omega⟩]
      congr 1
      obtain ⟨m, hm⟩ : ∃ m, j - base = m + 1 := ⟨j - base - 1, by omega⟩
      simp only [hm, List.getElem_cons_succ]
      congr 1
      omega
    · rw [dif_neg h1]
      by_cases h2 : j = base
      · subst h2
        rw [Function.update_self, dif_pos ⟨le_refl _, by simp⟩]
        simp
      · rw [Function.update_of_ne h2, dif_neg (by rintro ⟨a, b⟩; simp at b; exact h1 ⟨by omega, by omega⟩)]

theorem allocate_dates (dcc : DayCountConvention) (ds : List PyDate) (base : Nat) (h : KRHeap) :
    (List.range' base ds.length).map (fun i => (Portfolio.allocate dcc ds base h i).keyDate) = ds := by
  apply List.ext_getElem
  · simp
  · intro k h1 h2
    simp only [List.getElem_map, List.getElem_range', one_mul]
    rw [allocate_get, dif_pos ⟨by omega, by omega⟩]
    simp [KeyRate.create]

/-- C60. The key rates of a portfolio can be built exactly when there are assets and no two have the same knot date; otherwise
ValueError. -/
theorem C60_raises_iff (dcc : DayCountConvention) (knots : List PyDate) (base : Nat) (h : KRHeap) :
    ((Portfolio.toKeyRateCollection dcc knots base h).1 = .error .valueError ↔ knots = [] ∨ ¬ knots.Nodup) ∧
    ((∃ c, (Portfolio.toKeyRateCollection dcc knots base h).1 = .ok c) ↔ knots ≠ [] ∧ knots.Nodup) := by
  have := C23_raises_iff (Portfolio.allocate dcc knots base h) (List.range' base knots.length)
  rw [allocate_dates] at this
  have e : List.range' base knots.length = [] ↔ knots = [] := by
    rw [← List.length_eq_zero_iff, List.length_range', List.length_eq_zero_iff]
  rw [e] at this
  unfold Portfolio.toKeyRateCollection
  simpa [e] using this

/-- C60. It has one key rate per asset, dated by the knots in increasing order, with the given convention and one basis point; the
key rates existing before are untouched. -/
theorem C60_key_rates (dcc : DayCountConvention) (knots : List PyDate) (base : Nat) (h h' : KRHeap) (c : KeyRateCollection)
    (hc : Portfolio.toKeyRateCollection dcc knots base h = (.ok c, h')) :
    (c.keyRates.map (fun i => (h' i).keyDate)).Pairwise (· < ·) ∧ (c.keyRates.map (fun i => (h' i).keyDate)).Perm knots ∧
    (∀ i ∈ c.keyRates, (h' i).dcc = dcc ∧ (h' i).bump = 1 / 10000) ∧ (∀ j, j < base → h' j = h j) := by
  obtain ⟨hp, hs, -, hsame, hother⟩ := C23_construction _ _ _ _ hc
  have hdates : (fun i => (h' i).keyDate) = fun i => (Portfolio.allocate dcc knots base h i).keyDate := funext fun i => (hsame i).1
  refine ⟨?_, ?_, ?_, ?_⟩
  · rw [List.pairwise_map]; exact hs
  · rw [hdates]
    have := hp.map (fun i => (Portfolio.allocate dcc knots base h i).keyDate)
    rwa [allocate_dates] at this
  · intro i hi
    have hi := hp.mem_iff.1 hi
    rw [List.mem_range'] at hi
    obtain ⟨k, hk, rfl⟩ := hi
    rw [(hsame _).2.1, (hsame _).2.2, allocate_get, dif_pos ⟨by omega, by omega⟩]
    exact ⟨rfl, rfl⟩
  · intro j hj
    rw [hother j (by rw [List.mem_range']; rintro ⟨k, hk, rfl⟩; omega), allocate_get, dif_neg (by omega)]

/-- C60. For two or more assets, under every convention but 30/360, the key rates together shift every date by one basis point. -/
theorem C60_parallel_shift (dcc : DayCountConvention) (hdcc : dcc ≠ .thirty360 ∧ dcc ≠ .unknown) (knots : List PyDate)
    (hlen : 2 ≤ knots.length) (hax : ∀ k ∈ knots, AxisOk dcc k) (base : Nat) (h h' : KRHeap) (c : KeyRateCollection)
    (hc : Portfolio.toKeyRateCollection dcc knots base h = (.ok c, h')) (d : PyDate) :
    KeyRateCollection.call h' c d = .ok (1 / 10000) := by
  refine C24_parallel_shift_partial _ _ c h' hc (by simpa using hlen) dcc hdcc (1 / 10000) ?_ d
  intro i hi
  rw [List.mem_range'] at hi
  obtain ⟨k, hk, rfl⟩ := hi
  rw [allocate_get, dif_pos ⟨by omega, by omega⟩]
  exact ⟨rfl, rfl, hax _ (List.getElem_mem _)⟩

/-- Concrete case for C60. -/
example : ∃ c, (Portfolio.toKeyRateCollection .act360 [D 2026 1 1, D 2024 1 1] 0 (fun _ => KeyRate.create .act360 (D 2020 1 1) none none)).1
    = .ok c := (C60_raises_iff _ _ _ _).2.2 ⟨by decide, by decide +kernel⟩

end Verif.Props
