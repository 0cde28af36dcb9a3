/- Property C08 on datetimes: `generate_dates_by_increments` with a timedelta, forwards or backwards. -/
import Verif.Lemmas.Datetime
import Verif.Props.Scheduling

namespace Verif.Props
open Verif Verif.Spec

/-- `t` lies on the near side of `stop` when moving by `k` microseconds at a time. -/
def NearSide (k stop t : Int) : Prop := if 0 ≤ k then t ≤ stop else stop ≤ t

instance (k stop t : Int) : Decidable (NearSide k stop t) := by unfold NearSide; infer_instance

theorem dtLoop_spec {k : Int} {stop : PyDatetime} : ∀ (n : Nat) (d : PyDatetime) (L : List PyDatetime),
    DtGrid.incrementLoop (.timedelta k) (decide (0 ≤ k)) stop n d = .ok L →
    L.length ≤ n ∧ (∀ i (hi : i < L.length), L[i].instant = d.instant + i * k) ∧ (∀ x ∈ L, NearSide k stop.instant x.instant) ∧
      (L.length < n → ¬ NearSide k stop.instant (d.instant + L.length * k))
  | 0, d, L, h => by
    unfold DtGrid.incrementLoop at h
    injection h with h
    subst h
    simp
  | n + 1, d, L, h => by
    unfold DtGrid.incrementLoop at h
    have hc : (if decide (0 ≤ k) = true then d ≤ stop else stop ≤ d) ↔ NearSide k stop.instant d.instant := by
      unfold NearSide
      by_cases hk : 0 ≤ k
      · simp [hk, PyDatetime.le_iff]
      · simp [hk, PyDatetime.le_iff]
    by_cases hn : NearSide k stop.instant d.instant
    · rw [if_pos (hc.2 hn), bind_ok] at h
      obtain ⟨d', hd', h⟩ := h
      rw [bind_ok] at h
      obtain ⟨rest, hr, h⟩ := h
      injection h with h
      subst h
      have hi' : d'.instant = d.instant + k := PyDatetime.addMicros_ok.1 hd'
      obtain ⟨h1, h2, h3, h4⟩ := dtLoop_spec n d' rest hr
      refine ⟨by simp; omega, ?_, ?_, ?_⟩
      · intro i hi
        rcases i with _ | i
        · simp
        · simp only [List.getElem_cons_succ]
          rw [h2 i (by simp at hi; omega), hi']
          push_cast; ring
      · intro x hx
        rcases List.mem_cons.1 hx with rfl | hx
        · exact hn
        · exact h3 x hx
      · intro hl
        have := h4 (by simp at hl; omega)
        rw [hi'] at this
        have e : d.instant + ((d :: rest).length : Int) * k = d.instant + k + (rest.length : Int) * k := by
          simp only [List.length_cons]; push_cast; ring
        rw [e]; exact this
    · rw [if_neg (fun h' => hn (hc.1 h'))] at h
      injection h with h
      subst h
      refine ⟨by simp, by simp, by simp, fun _ => by simpa using hn⟩

/-- C08 on datetimes. With a timedelta of `k` microseconds, positive or negative, the `i`-th returned datetime is `start + i * k`, all
lie on the near side of the end, the list stops only because the next one would be past the end or the cap of `max_dates + 1` is
reached. -/
theorem C08_datetimes (start stop : PyDatetime) (k : Int) (maxDates : Nat) (L : List PyDatetime)
    (h : DtGrid.generate start stop (.timedelta k) maxDates = .ok L) :
    L.length ≤ maxDates + 1 ∧ (∀ i (hi : i < L.length), L[i].instant = start.instant + i * k) ∧
      (∀ x ∈ L, if 0 ≤ k then x ≤ stop else stop ≤ x) ∧
      (L.length < maxDates + 1 → if 0 ≤ k then stop.instant < start.instant + L.length * k
        else start.instant + L.length * k < stop.instant) := by
  unfold DtGrid.generate at h
  rw [bind_ok] at h
  obtain ⟨b, hb, h⟩ := h
  simp only [DtGrid.isPositive] at hb
  injection hb with hb
  subst hb
  obtain ⟨h1, h2, h3, h4⟩ := dtLoop_spec _ _ _ h
  refine ⟨h1, h2, fun x hx => ?_, fun hl => ?_⟩
  · have := h3 x hx
    unfold NearSide at this
    split_ifs at this ⊢ <;> rw [PyDatetime.le_iff] <;> exact this
  · have := h4 hl
    unfold NearSide at this
    split_ifs at this ⊢ <;> omega

/-- Backwards by twelve hours over a day: three datetimes, the last exactly the end. -/
example : ∃ a b c, DtGrid.generate ⟨D 2023 1 2, 0, by decide⟩ ⟨D 2023 1 1, 0, by decide⟩ (.timedelta (-43200000000)) 1000 =
    .ok [a, b, c] ∧ c = ⟨D 2023 1 1, 0, by decide⟩ := by
  refine ⟨⟨D 2023 1 2, 0, by decide⟩, ⟨D 2023 1 1, 43200000000, by decide⟩, ⟨D 2023 1 1, 0, by decide⟩, ?_, rfl⟩
  decide +kernel

end Verif.Props
