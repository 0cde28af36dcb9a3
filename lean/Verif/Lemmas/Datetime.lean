/- Helper lemmas for datetimes, datetime grids and accruals between datetimes. -/
import Verif.Model.Datetime
import Verif.Lemmas.Months
import Verif.Lemmas.DayCount
import Verif.Spec.DayCount
import Verif.Spec.Stochastic

namespace Verif
open Spec

namespace PyDatetime

theorem ofInstant?_eq_some {n : Int} {d : PyDatetime} : ofInstant? n = some d ↔ d.instant = n := by
  unfold ofInstant?
  constructor
  · intro h
    split at h
    · next x hx =>
      cases h
      have := PyDate.ofOrd?_eq_some.1 hx
      unfold instant
      simp only
      omega
    · cases h
  · intro h
    have hb := d.bounds
    unfold instant at h
    have h1 : d.day.ord = n / 86400000000 := by omega
    have h2 : d.micros = n % 86400000000 := by omega
    rw [PyDate.ofOrd?_eq_some.2 h1]
    cases d
    simp_all

theorem addMicros_ok {d e : PyDatetime} {k : Int} : d.addMicros k = .ok e ↔ e.instant = d.instant + k := by
  unfold addMicros
  constructor
  · intro h
    split at h
    · next x hx => injection h with h; subst h; exact ofInstant?_eq_some.1 hx
    · cases h
  · intro h
    rw [ofInstant?_eq_some.2 h]

theorem addMonths_ok {d e : PyDatetime} {k : Int} :
    d.addMonths k = .ok e ↔ d.day.addMonths k = .ok e.day ∧ e.micros = d.micros := by
  unfold addMonths
  rw [bind_ok]
  constructor
  · rintro ⟨a, ha, h⟩
    injection h with h
    rw [← h]
    exact ⟨ha, rfl⟩
  · rintro ⟨h1, h2⟩
    refine ⟨_, h1, ?_⟩
    congr 1
    cases e
    simp_all

theorem addMonths_lt {d e : PyDatetime} {k : Int} (h : d.addMonths k = .ok e) (hk : 0 < k) : d < e := by
  obtain ⟨h1, h2⟩ := addMonths_ok.1 h
  have := PyDate.addMonths_pos_lt h1 hk
  rw [PyDate.lt_iff] at this
  rw [lt_iff]
  unfold instant
  omega

theorem addMonths_zero (d : PyDatetime) : d.addMonths 0 = .ok d := addMonths_ok.2 ⟨PyDate.addMonths_zero _, rfl⟩

end PyDatetime

namespace DtGrid

/-- An increment which moves every datetime forward. -/
def Advances (inc : DtIncrement) : Prop := ∀ d d', addIncrement d inc = .ok d' → d < d'

theorem advances_timedelta {k : Int} (hk : 0 < k) : Advances (.timedelta k) := by
  intro d d' h
  have := PyDatetime.addMicros_ok.1 h
  rw [PyDatetime.lt_iff]; omega

theorem advances_relativedelta {m k : Int} (hm : 0 ≤ m) (hk : 0 ≤ k) (h : 0 < m + k) : Advances (.relativedelta m k) := by
  intro d d' hd
  unfold addIncrement at hd
  rw [bind_ok] at hd
  obtain ⟨e, h1, h2⟩ := hd
  have h2 := PyDatetime.addMicros_ok.1 h2
  rcases lt_or_eq_of_le hm with hm | hm
  · have := PyDatetime.addMonths_lt h1 hm
    rw [PyDatetime.lt_iff] at *
    omega
  · subst hm
    rw [PyDatetime.addMonths_zero] at h1
    injection h1 with h1
    subst h1
    rw [PyDatetime.lt_iff]
    omega

theorem advances_of_forward {inc : DtIncrement} (h : Forward inc) : Advances inc := by
  cases inc with
  | timedelta k => exact advances_timedelta h
  | relativedelta m k => exact advances_relativedelta h.1 h.2.1 h.2.2

theorem isPositive_of_forward {inc : DtIncrement} (h : Forward inc) {d : PyDatetime} {b : Bool}
    (hb : isPositive d inc = .ok b) : b = true := by
  cases inc with
  | timedelta k =>
    simp only [isPositive] at hb
    injection hb with hb
    rw [← hb, decide_eq_true_iff]
    exact le_of_lt h
  | relativedelta m k =>
    simp only [isPositive] at hb
    rw [bind_ok] at hb
    obtain ⟨d', hd', hb⟩ := hb
    injection hb with hb
    rw [← hb, decide_eq_true_iff]
    exact le_of_lt (advances_of_forward h d d' hd')

/-- The forward loop: the dates from `d` on, each the increment of the one before, all at most `stop`; if it was not cut
short the increment of the last is beyond `stop`. -/
theorem loop_spec {inc : DtIncrement} {stop : PyDatetime} {n : Nat} {d : PyDatetime} {l : List PyDatetime}
    (h : incrementLoop inc true stop n d = .ok l) :
    l.length ≤ n ∧ (∀ x ∈ l, x ≤ stop) ∧ List.IsChain (fun x y => addIncrement x inc = .ok y) l ∧
      (l.head? = if n ≠ 0 ∧ d ≤ stop then some d else none) ∧
      (∀ last, l.getLast? = some last → l.length < n → ∃ y, addIncrement last inc = .ok y ∧ stop < y) := by
  induction n generalizing d l with
  | zero =>
    unfold incrementLoop at h
    injection h with h
    subst h
    simp
  | succ n ih =>
    unfold incrementLoop at h
    simp only [if_true] at h
    by_cases hd : d ≤ stop
    · rw [if_pos hd, bind_ok] at h
      obtain ⟨d', hd', h⟩ := h
      rw [bind_ok] at h
      obtain ⟨rest, hrest, h⟩ := h
      injection h with h
      subst h
      obtain ⟨h1, h2, h3, h4, h5⟩ := ih hrest
      refine ⟨by simp; omega, ?_, ?_, by simp [hd], ?_⟩
      · intro x hx
        rcases List.mem_cons.1 hx with rfl | hx
        · exact hd
        · exact h2 x hx
      · cases rest with
        | nil => simp
        | cons r rest =>
          rw [List.isChain_cons_cons]
          refine ⟨?_, h3⟩
          simp only [List.head?_cons] at h4
          split at h4
          · injection h4 with h4; rw [h4]; exact hd'
          · cases h4
      · intro last hlast hlen
        cases rest with
        | nil =>
          simp only [List.getLast?_singleton, Option.some.injEq] at hlast
          subst hlast
          refine ⟨d', hd', ?_⟩
          by_contra hc
          rw [not_lt] at hc
          simp only [List.head?_nil, List.length_singleton] at h4 hlen
          rw [if_pos ⟨by omega, hc⟩] at h4
          cases h4
        | cons r rest =>
          rw [List.getLast?_cons_cons] at hlast
          exact h5 last hlast (by simp at hlen ⊢; omega)
    · rw [if_neg hd] at h
      injection h with h
      subst h
      simp [hd]

end DtGrid

namespace DayCount

/-- Accrual of two datetimes through the decorator: the day counts of the inner and outer whole days, mixed. -/
theorem includeDatetimes_datetimes {f : PyDate → PyDate → Except PyErr ℚ} {s e : PyDatetime} {x : ℚ}
    (h : includeDatetimes f s.like e.like = .ok x) :
    ∃ s' e' : PyDate, ∃ i o : ℚ, s'.ord = s.day.ord + 1 ∧ e'.ord = e.day.ord + 1 ∧ f s' e.day = .ok i ∧ f s.day e' = .ok o ∧
      x = i + (o - i) * (((86400000000 - s.micros + e.micros : Int) : ℚ) / 172800000000) := by
  simp only [includeDatetimes, PyDatetime.like, DateLike.isDatetime, DateLike.day, DateLike.instant, DateLike.micros,
    Bool.true_eq_false, and_self, if_false, if_true] at h
  rw [bind_ok] at h; obtain ⟨e', he', h⟩ := h
  rw [bind_ok] at h; obtain ⟨s', hs', h⟩ := h
  rw [bind_ok] at h; obtain ⟨i, hi, h⟩ := h
  rw [bind_ok] at h; obtain ⟨o, ho, h⟩ := h
  have hs := PyDate.addDays_ok.1 hs'
  have he := PyDate.addDays_ok.1 he'
  refine ⟨s', e', i, o, hs, he, hi, ho, ?_⟩
  rw [hs, he] at h
  rw [pyDiv_of_ne (by push_cast; ring_nf; norm_num), ok_bind] at h
  injection h with h
  rw [← h]
  congr 2
  push_cast
  field_simp
  ring

/-- Positivity for a day count that is the difference of a strictly increasing function of the date. -/
theorem includeDatetimes_pos {f : PyDate → PyDate → Except PyErr ℚ} {Y : PyDate → ℚ} (hY : ∀ a b : PyDate, a < b → Y a < Y b)
    (hf : ∀ a b i, f a b = .ok i → i = Y b - Y a) {s e : PyDatetime} (hse : s < e) {x : ℚ}
    (h : includeDatetimes f s.like e.like = .ok x) : 0 < x := by
  obtain ⟨s', e', i, o, hs, he, hi, ho, hx⟩ := includeDatetimes_datetimes h
  have hi := hf _ _ _ hi
  have ho := hf _ _ _ ho
  have hs' : s.day < s' := by rw [PyDate.lt_iff]; omega
  have he' : e.day < e' := by rw [PyDate.lt_iff]; omega
  have ha := hY _ _ hs'
  have hb := hY _ _ he'
  have bs := s.bounds
  have be := e.bounds
  rw [PyDatetime.lt_iff] at hse
  unfold PyDatetime.instant at hse
  by_cases hd : s.day = e.day
  · have hse' : s' = e' := PyDate.ord_injective (by rw [hs, he, hd])
    have hm : s.micros < e.micros := by rw [hd] at hse; omega
    have hm' : (s.micros : ℚ) < e.micros := by exact_mod_cast hm
    rw [hse', ← hd] at hi
    rw [hse'] at ha
    have : x = (Y e' - Y s.day) * ((e.micros : ℚ) - s.micros) / 86400000000 := by
      rw [hx, hi, ho]; push_cast; ring
    rw [this]
    have h1 : 0 < Y e' - Y s.day := by linarith
    have h2 : (0 : ℚ) < e.micros - s.micros := by linarith
    positivity
  · have hlt : s.day < e.day := by
      rw [PyDate.lt_iff]
      have : s.day.ord ≠ e.day.ord := fun hc => hd (PyDate.ord_injective hc)
      omega
    have hi0 : 0 ≤ i := by
      rw [hi]
      have : s' ≤ e.day := by rw [PyDate.lt_iff] at hlt; rw [PyDate.le_iff]; omega
      rcases lt_or_eq_of_le this with h' | h'
      · have := hY _ _ h'; linarith
      · rw [h']; simp
    have hoi : 0 < o - i := by rw [hi, ho]; linarith
    have hw : (0 : ℚ) < ((86400000000 - s.micros + e.micros : Int) : ℚ) := by
      have : (0 : Int) < 86400000000 - s.micros + e.micros := by omega
      exact_mod_cast this
    rw [hx]
    have : 0 < (o - i) * (((86400000000 - s.micros + e.micros : Int) : ℚ) / 172800000000) := by positivity
    linarith

theorem actOver_pos {q : ℚ} (hq : 0 < q) {s e : PyDatetime} (hse : s < e) {x : ℚ}
    (h : includeDatetimes (actOver q) s.like e.like = .ok x) : 0 < x := by
  refine includeDatetimes_pos (Y := fun d => (d.ord : ℚ) / q) ?_ ?_ hse h
  · intro a b hab
    rw [PyDate.lt_iff] at hab
    have : (a.ord : ℚ) < b.ord := by exact_mod_cast hab
    exact div_lt_div_of_pos_right this hq
  · intro a b i hi
    unfold actOver at hi
    injection hi with hi
    rw [← hi]; push_cast; ring

theorem actAct_diff {a b : PyDate} {i : ℚ} (h : actAct a b = .ok i) : i = yearCoord b - yearCoord a := by
  have ha := a.bounds
  have hb := b.bounds
  by_cases h1 : a.year = 1 ∨ b.year = 1
  · rw [actAct_year_one h1] at h; cases h
  · rw [actAct_eq (by omega) (by omega)] at h
    injection h with h
    exact h.symm

/-- The accrual between two different datetimes is positive under every convention but 30/360. -/
theorem dtAccrual_pos {dcc : DayCountConvention} (hd : dcc ≠ .thirty360) {s e : PyDatetime} (hse : s < e) {x : ℚ}
    (h : dtAccrual s e dcc = .ok x) : 0 < x := by
  unfold dtAccrual computeAccrualLength at h
  split at h
  · cases dcc with
    | act360 => exact actOver_pos (by norm_num) hse h
    | act365 => exact actOver_pos (by norm_num) hse h
    | act36525 => exact actOver_pos (by norm_num) hse h
    | actAct => exact includeDatetimes_pos (Y := yearCoord) (fun a b => yearCoord_strictMono) (fun a b i => actAct_diff) hse h
    | thirty360 => exact absurd rfl hd
    | unknown => cases h
  · cases h

end DayCount
end Verif
