/- Helper lemmas about the scheduler model. -/
import Verif.Model.Scheduler
import Verif.Lemmas.Except
import Verif.Spec.Calendar

namespace Verif.Scheduler
open Verif Verif.Spec

theorem generateHolidayDates_single {name : String} {y : Int} {cal : HolidayCalendar} {h : Holiday}
    (hl : cal.lookup name = some h) :
    generateHolidayDates name y y cal =
      collect (fun y => do let base ← PyDate.mk? y h.month h.day; h.adjust base) [y] := by
  unfold generateHolidayDates
  rw [hl]
  have : yearRange y y = [y] := by
    unfold yearRange
    have : (y + 1 - y).toNat = 1 := by omega
    rw [this]; simp
  simp only [this]

theorem lookup_of_mem {cal : HolidayCalendar} {kv : String × Holiday} (h : kv ∈ cal) :
    ∃ h', cal.lookup kv.1 = some h' := by
  induction cal with
  | nil => simp at h
  | cons a as ih =>
    obtain ⟨k, v⟩ := a
    by_cases hk : kv.1 = k
    · exact ⟨v, by simp [List.lookup, hk]⟩
    · rcases List.mem_cons.1 h with rfl | h
      · simp at hk
      · obtain ⟨h', hh⟩ := ih h
        refine ⟨h', ?_⟩
        have : (kv.1 == k) = false := by simpa using hk
        simp [List.lookup, this, hh]

theorem mem_of_lookup {cal : HolidayCalendar} {name : String} {h : Holiday} (hl : cal.lookup name = some h) :
    (name, h) ∈ cal := by
  induction cal with
  | nil => simp [List.lookup] at hl
  | cons a as ih =>
    obtain ⟨k, v⟩ := a
    by_cases hk : name = k
    · subst hk; simp [List.lookup] at hl; subst hl; simp
    · have : (name == k) = false := by simpa using hk
      simp [List.lookup, this] at hl
      simp [ih hl]

theorem generateAll_mem {cal : HolidayCalendar} {y : Int} {L : List PyDate}
    (h : generateAllHolidays y y cal = .ok L) (d : PyDate) : d ∈ L ↔ ObservedIn cal y d := by
  unfold generateAllHolidays at h
  rw [bind_ok] at h
  obtain ⟨sets, hs, hL⟩ := h
  cases hL
  rw [List.mem_flatten]
  constructor
  · rintro ⟨S, hS, hd⟩
    obtain ⟨kv, hkv, hgen⟩ := (collect_mem hs S).1 hS
    obtain ⟨h', hl⟩ := lookup_of_mem hkv
    rw [generateHolidayDates_single hl] at hgen
    obtain ⟨y', hy', hb⟩ := (collect_mem hgen d).1 hd
    simp at hy'; subst hy'
    rw [bind_ok] at hb
    obtain ⟨base, hbase, hadj⟩ := hb
    rw [PyDate.mk?_ok] at hbase
    exact ⟨kv.1, h', base, hl, hbase.1, hbase.2.1, hbase.2.2, hadj⟩
  · rintro ⟨name, h', base, hl, h1, h2, h3, hadj⟩
    have hmem := mem_of_lookup hl
    obtain ⟨S, hS⟩ := collect_ok_of_mem hs _ hmem
    refine ⟨S, (collect_mem hs S).2 ⟨_, hmem, hS⟩, ?_⟩
    simp only at hS
    rw [generateHolidayDates_single hl] at hS
    refine (collect_mem hS d).2 ⟨y, by simp, ?_⟩
    rw [bind_ok]
    exact ⟨base, PyDate.mk?_ok.2 ⟨h1, h2, h3⟩, hadj⟩

theorem generateAll_ok_iff (cal : HolidayCalendar) (y : Int) :
    (∃ L, generateAllHolidays y y cal = .ok L) ↔ Evaluable cal y := by
  constructor
  · rintro ⟨L, h⟩ name h' hl
    unfold generateAllHolidays at h
    rw [bind_ok] at h
    obtain ⟨sets, hs, -⟩ := h
    obtain ⟨S, hS⟩ := collect_ok_of_mem hs _ (mem_of_lookup hl)
    simp only at hS
    rw [generateHolidayDates_single hl] at hS
    obtain ⟨b, hb⟩ := collect_ok_of_mem hS y (by simp)
    rw [bind_ok] at hb
    obtain ⟨base, hbase, hadj⟩ := hb
    rw [PyDate.mk?_ok] at hbase
    exact ⟨base, b, hbase.1, hbase.2.1, hbase.2.2, hadj⟩
  · intro h
    unfold generateAllHolidays
    obtain ⟨r, hr⟩ := collect_total (f := fun (kv : String × Holiday) => generateHolidayDates kv.1 y y cal) (l := cal) (by
      intro kv hkv
      obtain ⟨h', hl⟩ := lookup_of_mem hkv
      obtain ⟨base, obs, h1, h2, h3, h4⟩ := h kv.1 h' hl
      rw [generateHolidayDates_single hl]
      refine ⟨[obs], ?_⟩
      have : PyDate.mk? y h'.month h'.day = .ok base := PyDate.mk?_ok.2 ⟨h1, h2, h3⟩
      simp [collect, this, h4])
    exact ⟨r.flatten, by rw [hr]; rfl⟩

theorem isBusinessDay_ok {cal : HolidayCalendar} {d : PyDate} {b : Bool} (h : isBusinessDay cal d = .ok b) :
    b = true ↔ BusinessDay cal d := by
  unfold isBusinessDay at h
  simp only [bind_ok] at h
  obtain ⟨L, hL, hb⟩ := h
  cases hb
  have := generateAll_mem hL d
  unfold BusinessDay IsWeekend
  rw [← this]
  simp
  tauto

theorem isBusinessDay_total_iff (cal : HolidayCalendar) (d : PyDate) :
    (∃ b, isBusinessDay cal d = .ok b) ↔ Evaluable cal d.year := by
  rw [← generateAll_ok_iff]
  unfold isBusinessDay
  simp only [bind_ok]
  constructor
  · rintro ⟨b, L, hL, -⟩; exact ⟨L, hL⟩
  · rintro ⟨L, hL⟩; exact ⟨_, L, hL, rfl⟩

theorem isBusinessDay_true {cal : HolidayCalendar} {d : PyDate} (he : Evaluable cal d.year) (h : BusinessDay cal d) :
    isBusinessDay cal d = .ok true := by
  obtain ⟨b, hb⟩ := (isBusinessDay_total_iff cal d).2 he
  have := (isBusinessDay_ok hb).2 h
  rw [hb, this]

theorem isBusinessDay_false {cal : HolidayCalendar} {d : PyDate} (he : Evaluable cal d.year)
    (h : ¬ BusinessDay cal d) : isBusinessDay cal d = .ok false := by
  obtain ⟨b, hb⟩ := (isBusinessDay_total_iff cal d).2 he
  have := isBusinessDay_ok hb
  cases b with
  | true => exact absurd (this.1 rfl) h
  | false => exact hb

theorem isBusinessDay_true' {cal : HolidayCalendar} {d : PyDate} (h : isBusinessDay cal d = .ok true) :
    BusinessDay cal d := (isBusinessDay_ok h).1 rfl

theorem isBusinessDay_false' {cal : HolidayCalendar} {d : PyDate} (h : isBusinessDay cal d = .ok false) :
    ¬ BusinessDay cal d := fun hb => by simpa using (isBusinessDay_ok h).2 hb

theorem evaluable_of_ok {cal : HolidayCalendar} {d : PyDate} {b : Bool} (h : isBusinessDay cal d = .ok b) :
    Evaluable cal d.year := (isBusinessDay_total_iff cal d).1 ⟨b, h⟩

/-- What the roll loop with step `+1` returns: the first business day, and every day passed was evaluated. -/
theorem roll_fwd_ok {cal : HolidayCalendar} {n : Nat} {d r : PyDate} (h : roll cal 1 n d = .ok r) :
    FirstOnOrAfter cal d r ∧ (∀ e, d ≤ e → e ≤ r → Evaluable cal e.year) := by
  induction n generalizing d with
  | zero => cases h
  | succ n ih =>
    simp only [roll, bind_ok] at h
    obtain ⟨b, hb, h⟩ := h
    cases b with
    | true =>
      simp at h; subst h
      refine ⟨⟨le_refl _, isBusinessDay_true' hb, fun e h1 h2 => absurd h1 (not_le.2 h2)⟩, ?_⟩
      intro e h1 h2
      have : e = d := le_antisymm h2 h1
      subst this; exact evaluable_of_ok hb
    | false =>
      simp only [Bool.false_eq_true, if_false, bind_ok] at h
      obtain ⟨d', hd', h⟩ := h
      obtain ⟨⟨h1, h2, h3⟩, h4⟩ := ih h
      rw [PyDate.addDays_ok] at hd'
      rw [PyDate.le_iff] at h1
      refine ⟨⟨PyDate.le_iff.2 (by omega), h2, ?_⟩, ?_⟩
      · intro e he1 he2
        by_cases hed : e = d
        · subst hed; exact isBusinessDay_false' hb
        · have hne : e.ord ≠ d.ord := fun hc => hed (PyDate.ord_inj.1 hc)
          rw [PyDate.le_iff] at he1
          exact h3 e (PyDate.le_iff.2 (by omega)) he2
      · intro e he1 he2
        by_cases hed : e = d
        · subst hed; exact evaluable_of_ok hb
        · have hne : e.ord ≠ d.ord := fun hc => hed (PyDate.ord_inj.1 hc)
          rw [PyDate.le_iff] at he1
          exact h4 e (PyDate.le_iff.2 (by omega)) he2

theorem roll_back_ok {cal : HolidayCalendar} {n : Nat} {d r : PyDate} (h : roll cal (-1) n d = .ok r) :
    LastOnOrBefore cal d r ∧ (∀ e, r ≤ e → e ≤ d → Evaluable cal e.year) := by
  induction n generalizing d with
  | zero => cases h
  | succ n ih =>
    simp only [roll, bind_ok] at h
    obtain ⟨b, hb, h⟩ := h
    cases b with
    | true =>
      simp at h; subst h
      refine ⟨⟨le_refl _, isBusinessDay_true' hb, fun e h1 h2 => absurd h2 (not_le.2 h1)⟩, ?_⟩
      intro e h1 h2
      have : e = d := le_antisymm h2 h1
      subst this; exact evaluable_of_ok hb
    | false =>
      simp only [Bool.false_eq_true, if_false, bind_ok] at h
      obtain ⟨d', hd', h⟩ := h
      obtain ⟨⟨h1, h2, h3⟩, h4⟩ := ih h
      rw [PyDate.addDays_ok] at hd'
      rw [PyDate.le_iff] at h1
      refine ⟨⟨PyDate.le_iff.2 (by omega), h2, ?_⟩, ?_⟩
      · intro e he1 he2
        by_cases hed : e = d
        · subst hed; exact isBusinessDay_false' hb
        · have hne : e.ord ≠ d.ord := fun hc => hed (PyDate.ord_inj.1 hc)
          rw [PyDate.le_iff] at he2
          exact h3 e he1 (PyDate.le_iff.2 (by omega))
      · intro e he1 he2
        by_cases hed : e = d
        · subst hed; exact evaluable_of_ok hb
        · have hne : e.ord ≠ d.ord := fun hc => hed (PyDate.ord_inj.1 hc)
          rw [PyDate.le_iff] at he2
          exact h4 e he1 (PyDate.le_iff.2 (by omega))

/-- Completeness of the forward loop: with enough fuel it finds the first business day. -/
theorem roll_fwd_complete {cal : HolidayCalendar} {n : Nat} {d r : PyDate} (h : FirstOnOrAfter cal d r)
    (he : ∀ e, d ≤ e → e ≤ r → Evaluable cal e.year) (hn : (r.ord - d.ord).toNat < n) :
    roll cal 1 n d = .ok r := by
  induction n generalizing d with
  | zero => omega
  | succ n ih =>
    obtain ⟨h1, h2, h3⟩ := h
    rw [PyDate.le_iff] at h1
    by_cases hdr : d = r
    · subst hdr
      simp [roll, isBusinessDay_true (he d (le_refl _) (le_refl _)) h2]
    · have hne : d.ord ≠ r.ord := fun hc => hdr (PyDate.ord_inj.1 hc)
      have hbf : isBusinessDay cal d = .ok false :=
        isBusinessDay_false (he d (le_refl _) (PyDate.le_iff.2 h1)) (h3 d (le_refl _) (PyDate.lt_iff.2 (by omega)))
      have hb := r.ord_bounds
      have hb' := d.ord_bounds
      obtain ⟨d', -, hd'⟩ := PyDate.ofOrd?_some (d.ord + 1) (by omega) (by omega)
      have hadd : d.addDays 1 = .ok d' := PyDate.addDays_ok.2 hd'
      simp only [roll, hbf, ok_bind, Bool.false_eq_true, if_false, hadd]
      apply ih
      · refine ⟨PyDate.le_iff.2 (by omega), h2, fun e he1 he2 => h3 e ?_ he2⟩
        rw [PyDate.le_iff] at *; omega
      · intro e he1 he2
        refine he e ?_ he2
        rw [PyDate.le_iff] at *; omega
      · omega

theorem roll_back_complete {cal : HolidayCalendar} {n : Nat} {d r : PyDate} (h : LastOnOrBefore cal d r)
    (he : ∀ e, r ≤ e → e ≤ d → Evaluable cal e.year) (hn : (d.ord - r.ord).toNat < n) :
    roll cal (-1) n d = .ok r := by
  induction n generalizing d with
  | zero => omega
  | succ n ih =>
    obtain ⟨h1, h2, h3⟩ := h
    rw [PyDate.le_iff] at h1
    by_cases hdr : d = r
    · subst hdr
      simp [roll, isBusinessDay_true (he d (le_refl _) (le_refl _)) h2]
    · have hne : d.ord ≠ r.ord := fun hc => hdr (PyDate.ord_inj.1 hc)
      have hbf : isBusinessDay cal d = .ok false :=
        isBusinessDay_false (he d (PyDate.le_iff.2 h1) (le_refl _)) (h3 d (PyDate.lt_iff.2 (by omega)) (le_refl _))
      have hb := r.ord_bounds
      have hb' := d.ord_bounds
      obtain ⟨d', -, hd'⟩ := PyDate.ofOrd?_some (d.ord + -1) (by omega) (by omega)
      have hadd : d.addDays (-1) = .ok d' := PyDate.addDays_ok.2 hd'
      simp only [roll, hbf, ok_bind, Bool.false_eq_true, if_false, hadd]
      apply ih
      · refine ⟨PyDate.le_iff.2 (by omega), h2, fun e he1 he2 => h3 e he1 ?_⟩
        rw [PyDate.le_iff] at *; omega
      · intro e he1 he2
        refine he e he1 ?_
        rw [PyDate.le_iff] at *; omega
      · omega

theorem fuel_enough (a b : PyDate) : (a.ord - b.ord).toNat < loopFuel := by
  have h1 := a.ord_bounds; have h2 := b.ord_bounds
  unfold loopFuel; unfold PyDate.maxOrd at *; omega

theorem rollFwd_iff {cal : HolidayCalendar} {d r : PyDate} :
    roll cal 1 loopFuel d = .ok r ↔ FirstOnOrAfter cal d r ∧ (∀ e, d ≤ e → e ≤ r → Evaluable cal e.year) :=
  ⟨roll_fwd_ok, fun h => roll_fwd_complete h.1 h.2 (fuel_enough _ _)⟩

theorem rollBack_iff {cal : HolidayCalendar} {d r : PyDate} :
    roll cal (-1) loopFuel d = .ok r ↔ LastOnOrBefore cal d r ∧ (∀ e, r ≤ e → e ≤ d → Evaluable cal e.year) :=
  ⟨roll_back_ok, fun h => roll_back_complete h.1 h.2 (fuel_enough _ _)⟩

/-- Adjustment functions of a calendar never report the model's artificial `fuel` error. -/
def FuelFree (cal : HolidayCalendar) : Prop := ∀ name h, cal.lookup name = some h → ∀ d, h.adjust d ≠ .error .fuel

theorem collect_error {α β : Type} {f : α → Except PyErr β} {l : List α} {e : PyErr} (h : collect f l = .error e) :
    ∃ a ∈ l, f a = .error e := by
  induction l with
  | nil => cases h
  | cons a as ih =>
    simp only [collect, bind_error] at h
    rcases h with h | ⟨b, hb, h | ⟨bs, hbs, h⟩⟩
    · exact ⟨a, by simp, h⟩
    · obtain ⟨x, hx, hx'⟩ := ih h
      exact ⟨x, by simp [hx], hx'⟩
    · cases h

theorem isBusinessDay_ne_fuel {cal : HolidayCalendar} (hc : FuelFree cal) (d : PyDate) :
    isBusinessDay cal d ≠ .error .fuel := by
  intro h
  unfold isBusinessDay at h
  simp only [bind_error] at h
  rcases h with h | ⟨L, _, h⟩
  · unfold generateAllHolidays at h
    rw [bind_error] at h
    rcases h with h | ⟨_, _, h⟩
    · obtain ⟨kv, hkv, h⟩ := collect_error h
      obtain ⟨h', hl⟩ := lookup_of_mem hkv
      rw [generateHolidayDates_single hl] at h
      obtain ⟨y, _, h⟩ := collect_error h
      rw [bind_error] at h
      rcases h with h | ⟨b, _, h⟩
      · have := (PyDate.mk?_error.1 h).1; cases this
      · exact hc _ _ hl _ h
    · cases h
  · cases h

/-- The loops always terminate: the model's loop bound is never what stops them. -/
theorem roll_ne_fuel {cal : HolidayCalendar} (hc : FuelFree cal) {step : Int} (hs : step = 1 ∨ step = -1) (n : Nat)
    (d : PyDate) (hn : (if step = 1 then PyDate.maxOrd - d.ord else d.ord).toNat < n) :
    roll cal step n d ≠ .error .fuel := by
  induction n generalizing d with
  | zero => omega
  | succ n ih =>
    intro h
    simp only [roll, bind_error] at h
    rcases h with h | ⟨b, hb, h⟩
    · exact isBusinessDay_ne_fuel hc d h
    · cases b with
      | true => simp at h
      | false =>
        simp only [Bool.false_eq_true, if_false, bind_error] at h
        rcases h with h | ⟨d', hd', h⟩
        · have := (PyDate.addDays_error.1 h).1; cases this
        · refine ih d' ?_ h
          rw [PyDate.addDays_ok] at hd'
          have := d'.ord_bounds; have := d.ord_bounds
          rcases hs with rfl | rfl <;> simp at hn ⊢ <;> omega

end Verif.Scheduler

namespace Verif.Scheduler
open Verif Verif.Spec

theorem FirstOnOrAfter.unique {cal : HolidayCalendar} {d r s : PyDate} (h1 : FirstOnOrAfter cal d r)
    (h2 : FirstOnOrAfter cal d s) : r = s := by
  rcases lt_trichotomy r s with h | h | h
  · exact absurd h1.2.1 (h2.2.2 r h1.1 h)
  · exact h
  · exact absurd h2.2.1 (h1.2.2 s h2.1 h)

theorem LastBefore.unique {cal : HolidayCalendar} {d r s : PyDate} (h1 : LastBefore cal d r)
    (h2 : LastBefore cal d s) : r = s := by
  rcases lt_trichotomy r s with h | h | h
  · exact absurd h2.2.1 (h1.2.2 s h h2.1)
  · exact h
  · exact absurd h1.2.1 (h2.2.2 r h h1.1)

theorem isBusinessDay_of_evaluable {cal : HolidayCalendar} {d : PyDate} (he : Evaluable cal d.year)
    (hb : BusinessDay cal d) : isBusinessDay cal d = .ok true := isBusinessDay_true he hb

theorem roll_of_bd {cal : HolidayCalendar} {d : PyDate} (h : isBusinessDay cal d = .ok true) (step : Int) :
    roll cal step loopFuel d = .ok d := by
  obtain ⟨n, hn⟩ : ∃ n, loopFuel = n + 1 := ⟨3652060, rfl⟩
  rw [hn]
  simp [roll, h]

/-- One step forward: the next business day strictly after `d`. -/
def NextAfter (cal : HolidayCalendar) (d r : PyDate) : Prop :=
  d < r ∧ BusinessDay cal r ∧ ∀ e, d < e → e < r → ¬ BusinessDay cal e

theorem addSingle_iff {cal : HolidayCalendar} {d r : PyDate} :
    addSingleBusinessDay cal d = .ok r ↔
      BusinessDay cal d ∧ NextAfter cal d r ∧ (∀ e, d ≤ e → e ≤ r → Evaluable cal e.year) := by
  unfold addSingleBusinessDay
  rw [bind_ok]
  constructor
  · rintro ⟨b, hb, h⟩
    cases b with
    | false => simp at h
    | true =>
      simp only [if_true, bind_ok] at h
      obtain ⟨d', hd', h⟩ := h
      rw [PyDate.addDays_ok] at hd'
      obtain ⟨⟨h1, h2, h3⟩, h4⟩ := rollFwd_iff.1 h
      rw [PyDate.le_iff] at h1
      refine ⟨isBusinessDay_true' hb, ⟨PyDate.lt_iff.2 (by omega), h2, ?_⟩, ?_⟩
      · intro e he1 he2
        rw [PyDate.lt_iff] at he1
        exact h3 e (PyDate.le_iff.2 (by omega)) he2
      · intro e he1 he2
        by_cases hed : e = d
        · subst hed; exact evaluable_of_ok hb
        · have hne : e.ord ≠ d.ord := fun hc => hed (PyDate.ord_inj.1 hc)
          rw [PyDate.le_iff] at he1
          exact h4 e (PyDate.le_iff.2 (by omega)) he2
  · rintro ⟨hbd, ⟨h1, h2, h3⟩, h4⟩
    refine ⟨true, isBusinessDay_true (h4 d (le_refl _) (le_of_lt h1)) hbd, ?_⟩
    rw [PyDate.lt_iff] at h1
    have hb := r.ord_bounds
    have hb' := d.ord_bounds
    obtain ⟨d', -, hd'⟩ := PyDate.ofOrd?_some (d.ord + 1) (by omega) (by omega)
    simp only [if_true, bind_ok]
    refine ⟨d', PyDate.addDays_ok.2 hd', rollFwd_iff.2 ⟨⟨PyDate.le_iff.2 (by omega), h2, ?_⟩, ?_⟩⟩
    · intro e he1 he2
      rw [PyDate.le_iff] at he1
      exact h3 e (PyDate.lt_iff.2 (by omega)) he2
    · intro e he1 he2
      rw [PyDate.le_iff] at he1
      exact h4 e (PyDate.le_iff.2 (by omega)) he2

/-- One step back from a date that is a business day: the last business day strictly before it. -/
theorem subSingle_bd_iff {cal : HolidayCalendar} {d r : PyDate} (hbd : isBusinessDay cal d = .ok true) :
    subtractSingleBusinessDay cal d = .ok r ↔
      LastBefore cal d r ∧ (∀ e, r ≤ e → e ≤ d → Evaluable cal e.year) := by
  unfold subtractSingleBusinessDay
  simp only [hbd, ok_bind, if_true, bind_ok]
  constructor
  · rintro ⟨d', hd', h⟩
    rw [PyDate.addDays_ok] at hd'
    obtain ⟨⟨h1, h2, h3⟩, h4⟩ := rollBack_iff.1 h
    rw [PyDate.le_iff] at h1
    refine ⟨⟨PyDate.lt_iff.2 (by omega), h2, ?_⟩, ?_⟩
    · intro e he1 he2
      rw [PyDate.lt_iff] at he2
      exact h3 e he1 (PyDate.le_iff.2 (by omega))
    · intro e he1 he2
      by_cases hed : e = d
      · subst hed; exact evaluable_of_ok hbd
      · have hne : e.ord ≠ d.ord := fun hc => hed (PyDate.ord_inj.1 hc)
        rw [PyDate.le_iff] at he2
        exact h4 e he1 (PyDate.le_iff.2 (by omega))
  · rintro ⟨⟨h1, h2, h3⟩, h4⟩
    rw [PyDate.lt_iff] at h1
    have hb := r.ord_bounds
    have hb' := d.ord_bounds
    obtain ⟨d', -, hd'⟩ := PyDate.ofOrd?_some (d.ord + -1) (by omega) (by omega)
    refine ⟨d', PyDate.addDays_ok.2 hd', rollBack_iff.2 ⟨⟨PyDate.le_iff.2 (by omega), h2, ?_⟩, ?_⟩⟩
    · intro e he1 he2
      rw [PyDate.le_iff] at he2
      exact h3 e he1 (PyDate.lt_iff.2 (by omega))
    · intro e he1 he2
      rw [PyDate.le_iff] at he2
      exact h4 e he1 (PyDate.le_iff.2 (by omega))

theorem iterSteps_add (f : PyDate → Except PyErr PyDate) (n m : Nat) (d : PyDate) :
    iterSteps f (n + m) d = (iterSteps f n d >>= iterSteps f m) := by
  induction n generalizing d with
  | zero => simp [iterSteps]
  | succ n ih =>
    rw [Nat.succ_add]
    simp only [iterSteps]
    cases h : f d with
    | error e => rfl
    | ok d' => simp [ih]

/-- Every day passed by `n` forward steps was evaluated, and the result counts `n` business days. -/
theorem iterAdd_spec {cal : HolidayCalendar} {n : Nat} {d r : PyDate} (hbd : isBusinessDay cal d = .ok true)
    (h : iterSteps (addSingleBusinessDay cal) n d = .ok r) :
    isBusinessDay cal r = .ok true ∧ d ≤ r ∧ (∀ e, d ≤ e → e ≤ r → Evaluable cal e.year) ∧
    ∃ L, BusinessDaysIn cal d r L ∧ L.length = n := by
  induction n generalizing d with
  | zero =>
    simp only [iterSteps] at h; cases h
    refine ⟨hbd, le_refl _, ?_, [], ⟨List.Pairwise.nil, ?_⟩, rfl⟩
    · intro e h1 h2
      have := le_antisymm h2 h1
      subst this; exact evaluable_of_ok hbd
    · intro e
      simp only [List.not_mem_nil, false_iff]
      rintro ⟨h1, h2, -⟩; exact absurd h1 (not_le.2 h2)
  | succ n ih =>
    simp only [iterSteps, bind_ok] at h
    obtain ⟨d', hd', h⟩ := h
    obtain ⟨hd, ⟨h1, h2, h3⟩, h4⟩ := addSingle_iff.1 hd'
    obtain ⟨i1, i2, i3, L, ⟨iL1, iL2⟩, iL3⟩ := ih (isBusinessDay_true (h4 d' (le_of_lt h1) (le_refl _)) h2) h
    refine ⟨i1, le_trans (le_of_lt h1) i2, ?_, d :: L, ⟨?_, ?_⟩, by simp [iL3]⟩
    · intro e he1 he2
      rcases le_total e d' with hc | hc
      · exact h4 e he1 hc
      · exact i3 e hc he2
    · refine List.Pairwise.cons ?_ iL1
      intro e he
      exact lt_of_lt_of_le h1 ((iL2 e).1 he).1
    · intro e
      rw [List.mem_cons, iL2]
      constructor
      · rintro (rfl | ⟨ha, hb, hc⟩)
        · exact ⟨le_refl _, lt_of_lt_of_le h1 i2, hd⟩
        · exact ⟨le_trans (le_of_lt h1) ha, hb, hc⟩
      · rintro ⟨ha, hb, hc⟩
        by_cases hed : e = d
        · exact Or.inl hed
        · right
          refine ⟨?_, hb, hc⟩
          by_contra hlt
          exact h3 e (lt_of_le_of_ne ha (Ne.symm hed)) (not_le.1 hlt) hc

theorem iterSub_spec {cal : HolidayCalendar} {n : Nat} {d r : PyDate} (hbd : isBusinessDay cal d = .ok true)
    (h : iterSteps (subtractSingleBusinessDay cal) n d = .ok r) :
    isBusinessDay cal r = .ok true ∧ r ≤ d ∧ (∀ e, r ≤ e → e ≤ d → Evaluable cal e.year) ∧
    ∃ L, BusinessDaysIn cal r d L ∧ L.length = n := by
  induction n generalizing d with
  | zero =>
    simp only [iterSteps] at h; cases h
    refine ⟨hbd, le_refl _, ?_, [], ⟨List.Pairwise.nil, ?_⟩, rfl⟩
    · intro e h1 h2
      have := le_antisymm h2 h1
      subst this; exact evaluable_of_ok hbd
    · intro e
      simp only [List.not_mem_nil, false_iff]
      rintro ⟨h1, h2, -⟩; exact absurd h1 (not_le.2 h2)
  | succ n ih =>
    simp only [iterSteps, bind_ok] at h
    obtain ⟨d', hd', h⟩ := h
    obtain ⟨⟨h1, h2, h3⟩, h4⟩ := (subSingle_bd_iff hbd).1 hd'
    obtain ⟨i1, i2, i3, L, ⟨iL1, iL2⟩, iL3⟩ := ih (isBusinessDay_true (h4 d' (le_refl _) (le_of_lt h1)) h2) h
    refine ⟨i1, le_trans i2 (le_of_lt h1), ?_, L ++ [d'], ⟨?_, ?_⟩, by simp [iL3]⟩
    · intro e he1 he2
      rcases le_total e d' with hc | hc
      · exact i3 e he1 hc
      · exact h4 e hc he2
    · rw [List.pairwise_append]
      refine ⟨iL1, List.pairwise_singleton _ _, ?_⟩
      intro a ha b hb
      simp at hb; subst hb
      exact ((iL2 a).1 ha).2.1
    · intro e
      rw [List.mem_append, iL2, List.mem_singleton]
      constructor
      · rintro (⟨ha, hb, hc⟩ | rfl)
        · exact ⟨ha, lt_trans hb h1, hc⟩
        · exact ⟨i2, h1, h2⟩
      · rintro ⟨ha, hb, hc⟩
        rcases lt_trichotomy e d' with hlt | heq | hgt
        · exact Or.inl ⟨ha, hlt, hc⟩
        · exact Or.inr heq
        · exact absurd hc (h3 e hgt hb)

/-- Two strictly increasing listings of the same business days are the same. -/
theorem BusinessDaysIn.unique {cal : HolidayCalendar} {a b : PyDate} {L M : List PyDate}
    (h1 : BusinessDaysIn cal a b L) (h2 : BusinessDaysIn cal a b M) : L = M := by
  obtain ⟨p1, m1⟩ := h1
  obtain ⟨p2, m2⟩ := h2
  have hmem : ∀ e, e ∈ L ↔ e ∈ M := fun e => (m1 e).trans (m2 e).symm
  clear m1 m2
  induction L generalizing M with
  | nil =>
    cases M with
    | nil => rfl
    | cons x M => have := (hmem x).2 (by simp); simp at this
  | cons x L ih =>
    cases M with
    | nil => have := (hmem x).1 (by simp); simp at this
    | cons y M =>
      rw [List.pairwise_cons] at p1 p2
      have hxy : x = y := by
        rcases List.mem_cons.1 ((hmem x).1 (by simp)) with h | h
        · exact h
        · rcases List.mem_cons.1 ((hmem y).2 (by simp)) with h' | h'
          · exact h'.symm
          · exact absurd (p1.1 y h') (not_lt.2 (le_of_lt (p2.1 x h)))
      subst hxy
      have : L = M := by
        apply ih p1.2 p2.2
        intro e
        constructor
        · intro he
          rcases List.mem_cons.1 ((hmem e).1 (by simp [he])) with h | h
          · subst h; exact absurd (p1.1 e he) (lt_irrefl _)
          · exact h
        · intro he
          rcases List.mem_cons.1 ((hmem e).2 (by simp [he])) with h | h
          · subst h; exact absurd (p2.1 e he) (lt_irrefl _)
          · exact h
      rw [this]

theorem addBusinessDays_nonneg_eq (cal : HolidayCalendar) (d : PyDate) (n : Nat) :
    addBusinessDays cal d (n : Int) = (roll cal 1 loopFuel d >>= iterSteps (addSingleBusinessDay cal) n) := by
  unfold addBusinessDays
  have h : (n : Int) ≥ 0 := by omega
  simp [h]

theorem addBusinessDays_neg_eq (cal : HolidayCalendar) (d : PyDate) (n : Nat) (hn : 0 < n) :
    addBusinessDays cal d (-(n : Int)) = (roll cal 1 loopFuel d >>= iterSteps (subtractSingleBusinessDay cal) n) := by
  unfold addBusinessDays
  have h : ¬ (-(n : Int) ≥ 0) := by omega
  have h2 : (- -(n : Int)).toNat = n := by omega
  simp only [h, if_false, h2]

theorem roll_result_bd {cal : HolidayCalendar} {d r : PyDate} {n : Nat} (h : roll cal 1 n d = .ok r) :
    isBusinessDay cal r = .ok true := by
  obtain ⟨⟨h1, h2, h3⟩, h4⟩ := roll_fwd_ok h
  exact isBusinessDay_true (h4 r h1 (le_refl _)) h2

end Verif.Scheduler

namespace Verif.Scheduler
open Verif Verif.Spec

theorem iterAdd_complete {cal : HolidayCalendar} {n : Nat} {d r : PyDate} {L : List PyDate}
    (hd : BusinessDay cal d) (hr : BusinessDay cal r) (hdr : d ≤ r)
    (hL : BusinessDaysIn cal d r L) (hlen : L.length = n)
    (he : ∀ e, d ≤ e → e ≤ r → Evaluable cal e.year) :
    iterSteps (addSingleBusinessDay cal) n d = .ok r := by
  induction n generalizing d L with
  | zero =>
    have hnil : L = [] := List.length_eq_zero_iff.1 hlen
    subst hnil
    have : d = r := by
      by_contra hne
      have := (hL.2 d).2 ⟨le_refl _, lt_of_le_of_ne hdr hne, hd⟩
      simp at this
    subst this; rfl
  | succ n ih =>
    obtain ⟨hp, hm⟩ := hL
    cases L with
    | nil => simp at hlen
    | cons x M =>
      rw [List.pairwise_cons] at hp
      have hx := (hm x).1 (by simp)
      have hlt : d < r := lt_of_le_of_lt hx.1 hx.2.1
      have hxd : x = d := by
        rcases List.mem_cons.1 ((hm d).2 ⟨le_refl _, hlt, hd⟩) with h | h
        · exact h.symm
        · exact absurd (hp.1 d h) (not_lt.2 hx.1)
      subst hxd
      -- the next business day
      have key : ∃ d', NextAfter cal x d' ∧ d' ≤ r ∧ BusinessDaysIn cal d' r M := by
        cases M with
        | nil =>
          refine ⟨r, ⟨hlt, hr, ?_⟩, le_refl _, ⟨List.Pairwise.nil, ?_⟩⟩
          · intro e h1 h2 h3
            have := (hm e).2 ⟨le_of_lt h1, h2, h3⟩
            simp at this; subst this; exact lt_irrefl _ h1
          · intro e; simp only [List.not_mem_nil, false_iff]; rintro ⟨h1, h2, -⟩; exact absurd h1 (not_le.2 h2)
        | cons y N =>
          have hy := (hm y).1 (by simp)
          have hp2 := hp.2
          rw [List.pairwise_cons] at hp2
          refine ⟨y, ⟨hp.1 y (by simp), hy.2.2, ?_⟩, le_of_lt hy.2.1, ⟨hp.2, ?_⟩⟩
          · intro e h1 h2 h3
            have := (hm e).2 ⟨le_of_lt h1, lt_trans h2 hy.2.1, h3⟩
            rcases List.mem_cons.1 this with h | h
            · subst h; exact lt_irrefl _ h1
            · rcases List.mem_cons.1 h with h | h
              · subst h; exact lt_irrefl _ h2
              · exact absurd (hp2.1 e h) (not_lt.2 (le_of_lt h2))
          · intro e
            constructor
            · intro h
              have := (hm e).1 (List.mem_cons_of_mem _ h)
              refine ⟨?_, this.2⟩
              rcases List.mem_cons.1 h with h | h
              · exact le_of_eq h.symm
              · exact le_of_lt (hp2.1 e h)
            · rintro ⟨h1, h2, h3⟩
              rcases List.mem_cons.1 ((hm e).2 ⟨le_trans hy.1 h1, h2, h3⟩) with h | h
              · subst h; exact absurd (hp.1 y (by simp)) (not_lt.2 h1)
              · exact h
      obtain ⟨d', hnext, hd'r, hM⟩ := key
      have hstep : addSingleBusinessDay cal x = .ok d' :=
        addSingle_iff.2 ⟨hd, hnext, fun e h1 h2 => he e h1 (le_trans h2 hd'r)⟩
      simp only [iterSteps, hstep, ok_bind]
      exact ih hnext.2.1 hd'r hM (by simpa using hlen) (fun e h1 h2 => he e (le_trans (le_of_lt hnext.1) h1) h2)

theorem iterSub_complete {cal : HolidayCalendar} {n : Nat} {d r : PyDate} {L : List PyDate}
    (hd : BusinessDay cal d) (hr : BusinessDay cal r) (hdr : r ≤ d)
    (hL : BusinessDaysIn cal r d L) (hlen : L.length = n)
    (he : ∀ e, r ≤ e → e ≤ d → Evaluable cal e.year) :
    iterSteps (subtractSingleBusinessDay cal) n d = .ok r := by
  induction n generalizing d L with
  | zero =>
    have hnil : L = [] := List.length_eq_zero_iff.1 hlen
    subst hnil
    have : r = d := by
      by_contra hne
      have := (hL.2 r).2 ⟨le_refl _, lt_of_le_of_ne hdr hne, hr⟩
      simp at this
    subst this; rfl
  | succ n ih =>
    obtain ⟨hp, hm⟩ := hL
    rcases List.eq_nil_or_concat L with h | ⟨M, y, h⟩
    · subst h; simp at hlen
    · rw [List.concat_eq_append] at h
      subst h
      rw [List.pairwise_append] at hp
      have hy := (hm y).1 (by simp)
      have hlast : LastBefore cal d y := by
        refine ⟨hy.2.1, hy.2.2, ?_⟩
        intro e h1 h2 h3
        have := (hm e).2 ⟨le_trans hy.1 (le_of_lt h1), h2, h3⟩
        rcases List.mem_append.1 this with h | h
        · exact absurd (hp.2.2 e h y (by simp)) (not_lt.2 (le_of_lt h1))
        · simp at h; subst h; exact lt_irrefl _ h1
      have hM : BusinessDaysIn cal r y M := by
        refine ⟨hp.1, ?_⟩
        intro e
        constructor
        · intro h
          have := (hm e).1 (List.mem_append_left _ h)
          exact ⟨this.1, hp.2.2 e h y (by simp), this.2.2⟩
        · rintro ⟨h1, h2, h3⟩
          rcases List.mem_append.1 ((hm e).2 ⟨h1, lt_trans h2 hy.2.1, h3⟩) with h | h
          · exact h
          · simp at h; subst h; exact absurd h2 (lt_irrefl _)
      have hstep : subtractSingleBusinessDay cal d = .ok y :=
        (subSingle_bd_iff (isBusinessDay_true (he d hdr (le_refl _)) hd)).2
          ⟨hlast, fun e h1 h2 => he e (le_trans hy.1 h1) h2⟩
      simp only [iterSteps, hstep, ok_bind]
      exact ih hy.2.2 hy.1 hM (by simpa using hlen) (fun e h1 h2 => he e h1 (le_trans h2 (le_of_lt hy.2.1)))

end Verif.Scheduler
