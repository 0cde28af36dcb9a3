/-
Property theorems C08: `generate_dates_by_increments` (scheduler.py:122-158).
-/
import Verif.Lemmas.Months
import Verif.Lemmas.Scheduler
import Verif.Props.Scheduling
import Mathlib.Tactic.Linarith
import Mathlib.Tactic.Ring
import Mathlib.Tactic.Push

namespace Verif.Props
open Verif Verif.Spec Verif.Scheduler

/-- `d` is on the near side of the end date for the direction of travel. -/
def NotPast (positive : Bool) (endDate d : PyDate) : Prop := if positive then d ≤ endDate else endDate ≤ d

theorem incrementLoop_spec {inc : Increment} {pos : Bool} {e : PyDate} {n : Nat} {d : PyDate} {L : List PyDate}
    (h : incrementLoop inc pos e n d = .ok L) :
    L.length ≤ n ∧ (∀ x ∈ L, NotPast pos e x) ∧ (∀ x, L.head? = some x → x = d) ∧
    List.IsChain (fun x y => addIncrement x inc = .ok y) L ∧
    (L.length < n → (L = [] ∧ ¬ NotPast pos e d) ∨
      ∃ l x, L.getLast? = some l ∧ addIncrement l inc = .ok x ∧ ¬ NotPast pos e x) := by
  induction n generalizing d L with
  | zero => simp only [incrementLoop] at h; cases h; simp
  | succ n ih =>
    simp only [incrementLoop] at h
    split_ifs at h with hc hd hd
    · simp only [bind_ok] at h
      obtain ⟨d', hd', rest, hrest, h⟩ := h
      cases h
      obtain ⟨h1, h2, h3, h4, h5⟩ := ih hrest
      refine ⟨by simpa using h1, ?_, by simp, ?_, ?_⟩
      · intro x hx
        rcases List.mem_cons.1 hx with rfl | hx
        · unfold NotPast; rw [hc]; simpa using hd
        · exact h2 x hx
      · cases rest with
        | nil => simp
        | cons y ys =>
          have := h3 y rfl
          subst this
          exact List.IsChain.cons_cons hd' h4
      · intro hlt
        right
        rcases h5 (by simpa using hlt) with ⟨rfl, h6⟩ | ⟨l, x, h6, h7, h8⟩
        · exact ⟨d, d', by simp, hd', h6⟩
        · cases rest with
          | nil => simp at h6
          | cons y ys => exact ⟨l, x, by rw [List.getLast?_cons_cons]; exact h6, h7, h8⟩
    · cases h
      refine ⟨by simp, by simp, by simp, by simp, fun _ => Or.inl ⟨rfl, ?_⟩⟩
      unfold NotPast; rw [hc]; simpa using hd
    · simp only [bind_ok] at h
      obtain ⟨d', hd', rest, hrest, h⟩ := h
      cases h
      obtain ⟨h1, h2, h3, h4, h5⟩ := ih hrest
      refine ⟨by simpa using h1, ?_, by simp, ?_, ?_⟩
      · intro x hx
        rcases List.mem_cons.1 hx with rfl | hx
        · unfold NotPast; simp only [hc]; exact hd
        · exact h2 x hx
      · cases rest with
        | nil => simp
        | cons y ys =>
          have := h3 y rfl
          subst this
          exact List.IsChain.cons_cons hd' h4
      · intro hlt
        right
        rcases h5 (by simpa using hlt) with ⟨rfl, h6⟩ | ⟨l, x, h6, h7, h8⟩
        · exact ⟨d, d', by simp, hd', h6⟩
        · cases rest with
          | nil => simp at h6
          | cons y ys => exact ⟨l, x, by rw [List.getLast?_cons_cons]; exact h6, h7, h8⟩
    · cases h
      refine ⟨by simp, by simp, by simp, by simp, fun _ => Or.inl ⟨rfl, ?_⟩⟩
      unfold NotPast; simp only [hc]; exact hd

/-- C08 (any increment). Whenever the call returns, the list starts at the start date, consecutive dates differ by the
increment, no date is past the end date, there are at most `max_dates + 1` of them, and unless that cap was hit the next
date would be past the end. -/
theorem C08_chain (s e : PyDate) (inc : Increment) (maxDates : Int) (L : List PyDate)
    (h : generateDatesByIncrements s e inc maxDates = .ok L) :
    ∃ pos, isPositive s inc = .ok pos ∧
      (∀ x, L.head? = some x → x = s) ∧
      List.IsChain (fun x y => addIncrement x inc = .ok y) L ∧
      (∀ x ∈ L, NotPast pos e x) ∧
      L.length ≤ (maxDates + 1).toNat ∧
      (L.length < (maxDates + 1).toNat → (L = [] ∧ ¬ NotPast pos e s) ∨
        ∃ l x, L.getLast? = some l ∧ addIncrement l inc = .ok x ∧ ¬ NotPast pos e x) := by
  unfold generateDatesByIncrements at h
  rw [bind_ok] at h
  obtain ⟨pos, hp, h⟩ := h
  obtain ⟨h1, h2, h3, h4, h5⟩ := incrementLoop_spec h
  exact ⟨pos, hp, h3, h4, h2, h1, h5⟩

theorem chain_get {R : PyDate → PyDate → Prop} {L : List PyDate} (h : List.IsChain R L) (i : Nat)
    (hi : i + 1 < L.length) : R (L[i]'(by omega)) L[i + 1] := List.isChain_iff_getElem.1 h i hi

/-- C08 (timedelta). The `i`-th date is `start + i * increment`; dates stay between start and end; the list is cut only
by the cap `max_dates + 1` or by the end date. -/
theorem C08_timedelta (s e : PyDate) (k maxDates : Int) (L : List PyDate)
    (h : generateDatesByIncrements s e (.timedelta k) maxDates = .ok L) :
    (∀ i (hi : i < L.length), L[i].ord = s.ord + i * k) ∧
    (0 ≤ k → ∀ x ∈ L, s ≤ x ∧ x ≤ e) ∧
    (k < 0 → ∀ x ∈ L, e ≤ x ∧ x ≤ s) ∧
    L.length ≤ (maxDates + 1).toNat ∧
    (L.length < (maxDates + 1).toNat →
      (0 ≤ k → e.ord < s.ord + L.length * k) ∧ (k < 0 → s.ord + L.length * k < e.ord)) := by
  obtain ⟨pos, hp, h1, h2, h3, h4, h5⟩ := C08_chain s e _ maxDates L h
  have hpos : pos = decide (0 ≤ k) := by simp only [isPositive] at hp; cases hp; rfl
  have key : ∀ i (hi : i < L.length), L[i].ord = s.ord + i * k := by
    intro i
    induction i with
    | zero =>
      intro hi
      have : L[0] = s := h1 _ (by rw [List.head?_eq_getElem?, List.getElem?_eq_getElem hi])
      rw [this]; simp
    | succ i ih =>
      intro hi
      have hc := chain_get h2 i hi
      simp only [addIncrement, PyDate.addDays_ok] at hc
      rw [hc, ih (by omega)]; push_cast; ring
  refine ⟨key, ?_, ?_, h4, ?_⟩
  · intro hk x hx
    have hn := h3 x hx
    rw [hpos] at hn
    simp only [NotPast, hk, decide_true, if_true] at hn
    refine ⟨?_, hn⟩
    obtain ⟨i, hi, rfl⟩ := List.getElem_of_mem hx
    rw [PyDate.le_iff, key i hi]
    nlinarith
  · intro hk x hx
    have hn := h3 x hx
    rw [hpos] at hn
    have hk' : ¬ 0 ≤ k := by omega
    simp only [NotPast, hk', decide_false, Bool.false_eq_true, if_false] at hn
    refine ⟨hn, ?_⟩
    obtain ⟨i, hi, rfl⟩ := List.getElem_of_mem hx
    rw [PyDate.le_iff, key i hi]
    nlinarith
  · intro hlt
    have hx : ∃ n : Int, (n = s.ord + L.length * k) ∧
        (0 ≤ k → ¬ n ≤ e.ord) ∧ (k < 0 → ¬ e.ord ≤ n) := by
      rcases h5 hlt with ⟨rfl, hn⟩ | ⟨l, x, hl, hx, hn⟩
      · refine ⟨s.ord, by simp, ?_, ?_⟩
        · intro hk; rw [hpos] at hn; simpa [NotPast, hk, PyDate.le_iff] using hn
        · intro hk; rw [hpos] at hn
          have hk' : ¬ 0 ≤ k := by omega
          simpa [NotPast, hk', PyDate.le_iff] using hn
      · have hne : L ≠ [] := by rintro rfl; simp at hl
        have hlen : 0 < L.length := List.length_pos_iff.2 hne
        rw [List.getLast?_eq_getElem?, List.getElem?_eq_getElem (by omega)] at hl
        have hl' : L[L.length - 1] = l := Option.some.inj hl
        have ho := key (L.length - 1) (by omega)
        rw [hl'] at ho
        simp only [addIncrement, PyDate.addDays_ok] at hx
        refine ⟨x.ord, ?_, ?_, ?_⟩
        · rw [hx, ho]
          obtain ⟨m, hm⟩ : ∃ m, L.length = m + 1 := ⟨L.length - 1, by omega⟩
          rw [hm, Nat.add_sub_cancel]; push_cast; ring
        · intro hk; rw [hpos] at hn; simpa [NotPast, hk, PyDate.le_iff] using hn
        · intro hk; rw [hpos] at hn
          have hk' : ¬ 0 ≤ k := by omega
          simpa [NotPast, hk', PyDate.le_iff] using hn
    obtain ⟨n, rfl, ha, hb⟩ := hx
    exact ⟨fun hk => by have := ha hk; omega, fun hk => by have := hb hk; omega⟩

/-- C08. The call with a timedelta returns (does not overflow) whenever one increment past the end date is still a
date. -/
theorem C08_timedelta_returns (s e : PyDate) (k maxDates : Int) (h1 : 1 ≤ e.ord + k) (h2 : e.ord + k ≤ PyDate.maxOrd) :
    ∃ L, generateDatesByIncrements s e (.timedelta k) maxDates = .ok L := by
  unfold generateDatesByIncrements
  simp only [isPositive, ok_bind]
  generalize (maxDates + 1).toNat = n
  induction n generalizing s with
  | zero => exact ⟨[], rfl⟩
  | succ n ih =>
    simp only [incrementLoop]
    by_cases hc : (if decide (0 ≤ k) = true then s ≤ e else e ≤ s)
    · rw [if_pos hc]
      have hb := s.ord_bounds
      have hr : 1 ≤ s.ord + k ∧ s.ord + k ≤ PyDate.maxOrd := by
        by_cases hk : 0 ≤ k
        · simp [hk, PyDate.le_iff] at hc; omega
        · simp [hk, PyDate.le_iff] at hc; omega
      obtain ⟨d', _, ho⟩ := PyDate.ofOrd?_some (s.ord + k) hr.1 hr.2
      have ha : addIncrement s (.timedelta k) = .ok d' := by simp only [addIncrement]; exact PyDate.addDays_ok.2 ho
      obtain ⟨L, hL⟩ := ih d'
      exact ⟨s :: L, by rw [ha, ok_bind, hL, ok_bind]⟩
    · rw [if_neg hc]; exact ⟨[], rfl⟩

/-- C08. The number of dates is capped at `max_dates + 1`, one more than the parameter's name says, and the cap is
attained: a zero increment within the interval yields exactly `max_dates + 1` copies of the start date. -/
theorem C08_zero_increment (s e : PyDate) (hse : s ≤ e) (n : Nat) :
    generateDatesByIncrements s e (.timedelta 0) (n : Int) = .ok (List.replicate (n + 1) s) := by
  unfold generateDatesByIncrements
  simp only [isPositive, ok_bind]
  rw [show ((n : Int) + 1).toNat = n + 1 by omega]
  generalize n + 1 = m
  induction m with
  | zero => rfl
  | succ m ih =>
    have ha : addIncrement s (.timedelta 0) = .ok s := by
      simp only [addIncrement]; exact PyDate.addDays_ok.2 (by omega)
    simp only [incrementLoop]
    simp only [le_refl, decide_true, if_true, hse, ha, ok_bind] at ih ⊢
    rw [ih, ok_bind]; rfl

/-- C08. An object which is neither a timedelta nor a relativedelta is rejected with TypeError. -/
theorem C08_other_rejected (s e : PyDate) (maxDates : Int) :
    generateDatesByIncrements s e .other maxDates = .error .typeError := rfl

/-- C08 (relativedelta of months, start day at most 28). The `i`-th date is exactly `i * k` calendar months after the
start date, on the same day of the month. -/
theorem C08_months (s e : PyDate) (k maxDates : Int) (L : List PyDate) (hs : s.day ≤ 28)
    (h : generateDatesByIncrements s e (.relativedelta k 0) maxDates = .ok L) (i : Nat) (hi : i < L.length) :
    L[i].year * 12 + L[i].month = s.year * 12 + s.month + i * k ∧ L[i].day = s.day := by
  obtain ⟨pos, hp, h1, h2, h3, h4, h5⟩ := C08_chain s e _ maxDates L h
  suffices L[i].monthIndex = s.monthIndex + i * k ∧ L[i].day = s.day by
    unfold PyDate.monthIndex at this; omega
  induction i with
  | zero =>
    have : L[0] = s := h1 _ (by rw [List.head?_eq_getElem?, List.getElem?_eq_getElem hi])
    rw [this]; simp
  | succ i ih =>
    obtain ⟨ih1, ih2⟩ := ih (by omega)
    have hc := chain_get h2 i hi
    simp only [addIncrement, bind_ok] at hc
    obtain ⟨y, hy, hz⟩ := hc
    have hyz : L[i + 1] = y := PyDate.ord_inj.1 (by have := PyDate.addDays_ok.1 hz; omega)
    rw [← hyz] at hy
    have hd := PyDate.addMonths_day hy (by omega)
    refine ⟨?_, by omega⟩
    rw [(PyDate.addMonths_ok.1 hy).1, ih1]; push_cast; ring

/-- C08 (relativedelta of months, any start day). Dates move strictly in the direction of the increment, month by month,
and the day of the month never increases. -/
theorem C08_months_any_day (s e : PyDate) (k maxDates : Int) (L : List PyDate)
    (h : generateDatesByIncrements s e (.relativedelta k 0) maxDates = .ok L) (i : Nat) (hi : i < L.length) :
    L[i].year * 12 + L[i].month = s.year * 12 + s.month + i * k ∧ L[i].day ≤ s.day := by
  obtain ⟨pos, hp, h1, h2, h3, h4, h5⟩ := C08_chain s e _ maxDates L h
  suffices L[i].monthIndex = s.monthIndex + i * k ∧ L[i].day ≤ s.day by
    unfold PyDate.monthIndex at this; omega
  induction i with
  | zero =>
    have : L[0] = s := h1 _ (by rw [List.head?_eq_getElem?, List.getElem?_eq_getElem hi])
    rw [this]; simp
  | succ i ih =>
    obtain ⟨ih1, ih2⟩ := ih (by omega)
    have hc := chain_get h2 i hi
    simp only [addIncrement, bind_ok] at hc
    obtain ⟨y, hy, hz⟩ := hc
    have hyz : L[i + 1] = y := PyDate.ord_inj.1 (by have := PyDate.addDays_ok.1 hz; omega)
    rw [← hyz] at hy
    have hd := PyDate.addMonths_day_le hy
    refine ⟨?_, by omega⟩
    rw [(PyDate.addMonths_ok.1 hy).1, ih1]; push_cast; ring

theorem incrementMonths_eq {d r : PyDate} {k : Int} (h : addIncrement d (.relativedelta k 0) = .ok r) : d.addMonths k = .ok r := by
  simp only [addIncrement, bind_ok] at h
  obtain ⟨y, hy, hz⟩ := h
  have : r = y := PyDate.ord_inj.1 (by have := PyDate.addDays_ok.1 hz; omega)
  rw [this]; exact hy

/-- C08 (relativedelta of months). A nonnegative number of months walks forward up to the end date, a negative one back to it; the
list stops early only when the next date would be past the end. -/
theorem C08_months_bounds (s e : PyDate) (k maxDates : Int) (L : List PyDate)
    (h : generateDatesByIncrements s e (.relativedelta k 0) maxDates = .ok L) :
    (0 ≤ k → ∀ x ∈ L, x ≤ e) ∧ (k < 0 → ∀ x ∈ L, e ≤ x) ∧ (∀ x, L.head? = some x → x = s) ∧
    L.length ≤ (maxDates + 1).toNat ∧
    (L.length < (maxDates + 1).toNat →
      (0 ≤ k → (L = [] ∧ e < s) ∨ ∃ l x, L.getLast? = some l ∧ l.addMonths k = .ok x ∧ e < x) ∧
      (k < 0 → (L = [] ∧ s < e) ∨ ∃ l x, L.getLast? = some l ∧ l.addMonths k = .ok x ∧ x < e)) := by
  obtain ⟨pos, hp, h1, h2, h3, h4, h5⟩ := C08_chain s e _ maxDates L h
  have hpos : pos = decide (0 ≤ k) := by
    simp only [isPositive, bind_ok] at hp
    obtain ⟨r, hr, hp⟩ := hp
    injection hp with hp
    have hr := incrementMonths_eq hr
    rw [← hp, decide_eq_decide]
    rcases lt_trichotomy k 0 with hk | hk | hk
    · have := PyDate.addMonths_neg_lt hr hk
      exact ⟨fun h => absurd h (not_le.2 this), fun h => by omega⟩
    · subst hk
      rw [PyDate.addMonths_zero] at hr
      injection hr with hr
      subst hr
      simp
    · exact ⟨fun _ => hk.le, fun _ => (PyDate.addMonths_pos_lt hr hk).le⟩
  have hfwd : 0 ≤ k → ∀ x, NotPast pos e x ↔ x ≤ e := by
    intro hk x; rw [hpos]; simp [NotPast, hk]
  have hbwd : k < 0 → ∀ x, NotPast pos e x ↔ e ≤ x := by
    intro hk x; rw [hpos]; simp [NotPast, not_le.2 hk]
  refine ⟨fun hk x hx => (hfwd hk x).1 (h3 x hx), fun hk x hx => (hbwd hk x).1 (h3 x hx), h1, h4, fun hlt => ⟨fun hk => ?_, fun hk => ?_⟩⟩
  · rcases h5 hlt with ⟨h6, h7⟩ | ⟨l, x, h6, h7, h8⟩
    · exact Or.inl ⟨h6, not_le.1 fun hc => h7 ((hfwd hk s).2 hc)⟩
    · exact Or.inr ⟨l, x, h6, incrementMonths_eq h7, not_le.1 fun hc => h8 ((hfwd hk x).2 hc)⟩
  · rcases h5 hlt with ⟨h6, h7⟩ | ⟨l, x, h6, h7, h8⟩
    · exact Or.inl ⟨h6, not_le.1 fun hc => h7 ((hbwd hk s).2 hc)⟩
    · exact Or.inr ⟨l, x, h6, incrementMonths_eq h7, not_le.1 fun hc => h8 ((hbwd hk x).2 hc)⟩

/-- C08. The day of the month drifts for starts after the 28th: going back from 31 August by six months at a time gives
28 February and then 28 August (not 31 August). -/
theorem C08_month_drift :
    generateDatesByIncrements (D 2023 8 31) (D 2022 8 1) (.relativedelta (-6) 0) =
      .ok [D 2023 8 31, D 2023 2 28, D 2022 8 28] := by decide +kernel

example : generateDatesByIncrements (D 2023 1 1) (D 2023 1 10) (.timedelta 3) =
    .ok [D 2023 1 1, D 2023 1 4, D 2023 1 7, D 2023 1 10] := by decide +kernel
example : generateDatesByIncrements (D 2023 1 1) (D 2023 12 31) (.timedelta 1) 2 =
    .ok [D 2023 1 1, D 2023 1 2, D 2023 1 3] := by decide +kernel
example : (1 : Int) ≤ (D 2023 1 10).ord + 3 ∧ (D 2023 1 10).ord + 3 ≤ PyDate.maxOrd := by decide +kernel
example : generateDatesByIncrements (D 2023 8 15) (D 2022 8 1) (.relativedelta (-6) 0) =
    .ok [D 2023 8 15, D 2023 2 15, D 2022 8 15] := by decide +kernel

end Verif.Props
