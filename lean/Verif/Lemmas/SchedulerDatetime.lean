/- Helper lemmas: the scheduler on datetimes is the scheduler on dates with a calendar whose holidays all fall on a Saturday. -/
import Verif.Model.SchedulerDatetime
import Verif.Lemmas.Scheduler
import Verif.Lemmas.Datetime

namespace Verif.DtScheduler
open Verif Verif.Spec Verif.Scheduler

theorem map_ok {α β : Type} {x : Except PyErr α} {f : α → β} {b : β} : x.map f = .ok b ↔ ∃ a, x = .ok a ∧ f a = b := by
  cases x with
  | error e =>
    constructor
    · intro h; cases h
    · rintro ⟨a, h, _⟩; cases h
  | ok a => exact ⟨fun h => ⟨a, rfl, by injection h⟩, fun ⟨a', h, h'⟩ => by cases h; rw [← h']; rfl⟩

/-- 0001-01-06, a Saturday. -/
def sat : PyDate := ⟨1, 1, 6, by decide⟩

/-- The calendar whose templates raise as those of `cal` do, but are observed on a Saturday. -/
def blind (cal : HolidayCalendar) : HolidayCalendar :=
  cal.map (fun kv => (kv.1, ⟨kv.2.month, kv.2.day, fun n => (kv.2.adjust n).map (fun _ => sat)⟩))

theorem blind_lookup (cal : HolidayCalendar) (name : String) :
    (blind cal).lookup name = (cal.lookup name).map (fun h => ⟨h.month, h.day, fun n => (h.adjust n).map (fun _ => sat)⟩) := by
  induction cal with
  | nil => rfl
  | cons a as ih =>
    obtain ⟨k, v⟩ := a
    by_cases hk : name = k
    · subst hk; simp [blind, List.lookup]
    · have : (name == k) = false := by simpa using hk
      simp only [blind, List.map_cons, List.lookup, this] at ih ⊢
      exact ih

theorem collect_map {α β γ : Type} (f : α → Except PyErr β) (g : β → γ) (l : List α) :
    collect (fun a => (f a).map g) l = (collect f l).map (List.map g) := by
  induction l with
  | nil => rfl
  | cons a as ih =>
    simp only [collect]
    rw [ih]
    cases f a with
    | error e => rfl
    | ok b =>
      show (((collect f as).map (List.map g)) >>= fun bs => (Except.ok (g b :: bs) : Except PyErr (List γ))) = _
      cases collect f as with
      | error e => rfl
      | ok bs => rfl

theorem generateHolidayDates_blind (cal : HolidayCalendar) (name : String) (y z : Int) :
    generateHolidayDates name y z (blind cal) = (generateHolidayDates name y z cal).map (List.map (fun _ => sat)) := by
  unfold generateHolidayDates
  rw [blind_lookup]
  cases cal.lookup name with
  | none => rfl
  | some h =>
    simp only [Option.map_some]
    rw [← collect_map]
    congr 1
    funext y
    cases PyDate.mk? y h.month h.day with
    | error e => rfl
    | ok b => rfl

theorem collect_keys (cal : HolidayCalendar) {β : Type} (f : String → Except PyErr β) :
    collect (fun kv : String × Holiday => f kv.1) (blind cal) = collect (fun kv : String × Holiday => f kv.1) cal := by
  induction cal with
  | nil => rfl
  | cons a as ih => simp only [blind, List.map_cons, collect] at ih ⊢; rw [ih]

theorem generateAll_blind (cal : HolidayCalendar) (y z : Int) :
    generateAllHolidays y z (blind cal) = (generateAllHolidays y z cal).map (List.map (fun _ => sat)) := by
  unfold generateAllHolidays
  have h1 : (fun kv : String × Holiday => generateHolidayDates kv.1 y z (blind cal)) =
      (fun kv : String × Holiday => (fun s => (generateHolidayDates s y z cal).map (List.map (fun _ => sat))) kv.1) := by
    funext kv; exact generateHolidayDates_blind cal kv.1 y z
  rw [h1]
  have h2 := collect_keys cal (fun s => (generateHolidayDates s y z cal).map (List.map (fun _ => sat)))
  simp only at h2 ⊢
  rw [h2]
  rw [collect_map (fun kv : String × Holiday => generateHolidayDates kv.1 y z cal) (List.map (fun _ => sat)) cal]
  cases collect (fun kv : String × Holiday => generateHolidayDates kv.1 y z cal) cal with
  | error e => rfl
  | ok s =>
    show Except.ok _ = Except.ok _
    rw [List.map_flatten]

theorem inDates_false (d : PyDatetime) (l : List PyDate) : inDates d l = false := by
  unfold inDates; simp

theorem isBusinessDay_eq (cal : HolidayCalendar) (d : PyDatetime) :
    isBusinessDay cal d = Scheduler.isBusinessDay (blind cal) d.day := by
  unfold isBusinessDay Scheduler.isBusinessDay
  rw [generateAll_blind]
  cases generateAllHolidays d.day.year d.day.year cal with
  | error e => rfl
  | ok l =>
    show Except.ok _ = Except.ok _
    refine congrArg Except.ok ?_
    rw [inDates_false]
    by_cases hw : d.day.weekday = 5 ∨ d.day.weekday = 6
    · rcases hw with hw | hw <;> simp [hw]
    · have hne : d.day ≠ sat := by
        intro h; apply hw; left; rw [h]; decide +kernel
      have : (List.map (fun _ => sat) l).contains d.day = false := by
        rw [List.contains_eq_any_beq]
        rw [List.any_eq_false]
        intro x hx
        obtain ⟨_, _, rfl⟩ := List.mem_map.1 hx
        simpa using hne
      rw [this]

theorem addMicros_day (d : PyDatetime) (k : Int) : d.addMicros (k * dayMicros) = (d.day.addDays k).map (atTimeOf d) := by
  have hb := d.bounds
  have h1 : (d.instant + k * dayMicros) / 86400000000 = d.day.ord + k := by unfold PyDatetime.instant dayMicros; omega
  have h2 : (d.instant + k * dayMicros) % 86400000000 = d.micros := by unfold PyDatetime.instant dayMicros; omega
  unfold PyDatetime.addMicros PyDatetime.ofInstant? PyDate.addDays
  rw [h1]
  cases PyDate.ofOrd? (d.day.ord + k) with
  | none => rfl
  | some e =>
    show Except.ok _ = Except.ok _
    refine congrArg Except.ok ?_
    unfold atTimeOf
    simp only [h2]

theorem atTimeOf_atTimeOf (d : PyDatetime) (e f : PyDate) : atTimeOf (atTimeOf d e) f = atTimeOf d f := rfl
theorem atTimeOf_self (d : PyDatetime) : atTimeOf d d.day = d := rfl

theorem map_bind_at {d : PyDatetime} {x : Except PyErr PyDate} {f : PyDatetime → Except PyErr PyDatetime}
    {g : PyDate → Except PyErr PyDate} (h : ∀ e, f (atTimeOf d e) = (g e).map (atTimeOf d)) :
    (x.map (atTimeOf d) >>= f) = (x >>= g).map (atTimeOf d) := by
  cases x with
  | error e => rfl
  | ok e => exact h e

theorem roll_eq (cal : HolidayCalendar) (step : Int) (n : Nat) (d : PyDatetime) :
    roll cal step n d = (Scheduler.roll (blind cal) step n d.day).map (atTimeOf d) := by
  induction n generalizing d with
  | zero => rfl
  | succ n ih =>
    simp only [roll, Scheduler.roll, isBusinessDay_eq]
    cases Scheduler.isBusinessDay (blind cal) d.day with
    | error e => rfl
    | ok b =>
      cases b with
      | true => rfl
      | false =>
        simp only [ok_bind, Bool.false_eq_true, if_false, addMicros_day]
        exact map_bind_at (fun e => ih (atTimeOf d e))

theorem addSingle_eq (cal : HolidayCalendar) (d : PyDatetime) :
    addSingleBusinessDay cal d = (Scheduler.addSingleBusinessDay (blind cal) d.day).map (atTimeOf d) := by
  simp only [addSingleBusinessDay, Scheduler.addSingleBusinessDay, isBusinessDay_eq]
  cases Scheduler.isBusinessDay (blind cal) d.day with
  | error e => rfl
  | ok b =>
    cases b with
    | false => rfl
    | true =>
      simp only [ok_bind, if_true]
      have := addMicros_day d 1
      rw [one_mul] at this
      rw [this]
      exact map_bind_at (fun e => roll_eq cal 1 loopFuel (atTimeOf d e))

theorem subSingle_eq (cal : HolidayCalendar) (d : PyDatetime) :
    subtractSingleBusinessDay cal d = (Scheduler.subtractSingleBusinessDay (blind cal) d.day).map (atTimeOf d) := by
  simp only [subtractSingleBusinessDay, Scheduler.subtractSingleBusinessDay, isBusinessDay_eq]
  have tail : ∀ e, ((atTimeOf d e).addMicros (-dayMicros) >>= fun d2 => roll cal (-1) loopFuel d2) =
      (e.addDays (-1) >>= fun d2 => Scheduler.roll (blind cal) (-1) loopFuel d2).map (atTimeOf d) := by
    intro e
    have := addMicros_day (atTimeOf d e) (-1)
    rw [show (-1 : Int) * dayMicros = -dayMicros by ring] at this
    rw [this]
    exact map_bind_at (d := atTimeOf d e) (fun f => roll_eq cal (-1) loopFuel (atTimeOf d f))
  cases Scheduler.isBusinessDay (blind cal) d.day with
  | error e => rfl
  | ok b =>
    cases b with
    | true => exact tail d.day
    | false =>
      simp only [ok_bind, Bool.false_eq_true, if_false]
      rw [roll_eq]
      exact map_bind_at tail

theorem iter_eq {f : PyDatetime → Except PyErr PyDatetime} {g : PyDate → Except PyErr PyDate}
    (h : ∀ d : PyDatetime, f d = (g d.day).map (atTimeOf d)) (n : Nat) (d : PyDatetime) :
    iterSteps f n d = (Scheduler.iterSteps g n d.day).map (atTimeOf d) := by
  induction n generalizing d with
  | zero => rfl
  | succ n ih =>
    simp only [iterSteps, Scheduler.iterSteps, h]
    exact map_bind_at (fun e => ih (atTimeOf d e))

theorem addBusinessDays_eq (cal : HolidayCalendar) (d : PyDatetime) (n : Int) :
    addBusinessDays cal d n = (Scheduler.addBusinessDays (blind cal) d.day n).map (atTimeOf d) := by
  unfold addBusinessDays Scheduler.addBusinessDays
  rw [roll_eq]
  refine map_bind_at (fun e => ?_)
  split_ifs
  · exact iter_eq (addSingle_eq cal) _ (atTimeOf d e)
  · exact iter_eq (subSingle_eq cal) _ (atTimeOf d e)

theorem modified_eq (cal : HolidayCalendar) (d : PyDatetime) :
    modifiedFollowingDateAdjustment cal d = (Scheduler.modifiedFollowingDateAdjustment (blind cal) d.day).map (atTimeOf d) := by
  unfold modifiedFollowingDateAdjustment Scheduler.modifiedFollowingDateAdjustment
  rw [addBusinessDays_eq, addBusinessDays_eq]
  refine map_bind_at (fun e => ?_)
  show (if e.month = d.day.month then _ else _) = _
  split_ifs
  · rfl
  · rfl

theorem settlement_eq (cal : HolidayCalendar) (d : PyDatetime) (c : SettlementConvention) :
    calculateSettlementDate cal d c = (Scheduler.calculateSettlementDate (blind cal) d.day c).map (atTimeOf d) := by
  cases c <;> simp only [calculateSettlementDate, Scheduler.calculateSettlementDate, addBusinessDays_eq, isBusinessDay_eq] <;>
    try rfl
  cases Scheduler.isBusinessDay (blind cal) d.day with
  | error e => rfl
  | ok b => cases b <;> rfl

theorem blind_evaluable (cal : HolidayCalendar) (y : Int) : Evaluable (blind cal) y ↔ Evaluable cal y := by
  rw [← generateAll_ok_iff, ← generateAll_ok_iff, generateAll_blind]
  constructor
  · rintro ⟨L, h⟩; obtain ⟨a, ha, _⟩ := map_ok.1 h; exact ⟨a, ha⟩
  · rintro ⟨L, h⟩; exact ⟨_, by rw [h]; rfl⟩

theorem blind_business (cal : HolidayCalendar) (d : PyDate) : BusinessDay (blind cal) d ↔ ¬ IsWeekend d := by
  unfold BusinessDay
  constructor
  · exact fun h => h.1
  · intro h
    refine ⟨h, ?_⟩
    rintro ⟨name, hd, nominal, hl, _, _, _, ha⟩
    rw [blind_lookup] at hl
    cases hc : cal.lookup name with
    | none => rw [hc] at hl; cases hl
    | some v =>
      rw [hc, Option.map_some] at hl
      injection hl with hl
      subst hl
      obtain ⟨_, _, hs⟩ := map_ok.1 ha
      apply h
      left
      rw [← hs]; decide +kernel

end Verif.DtScheduler
