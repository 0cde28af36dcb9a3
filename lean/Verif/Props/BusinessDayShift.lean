/- C108: shifting dates by business days is compatible with addition and with the order of dates. -/
import Verif.Props.Scheduling
import Verif.Props.Holidays

namespace Verif.Props
open Verif Verif.Spec Verif.Scheduler

/-- The result of a shift is a business day that the calendar can tell. -/
theorem shift_business {cal : HolidayCalendar} {d r : PyDate} {i : Int} (h : addBusinessDays cal d i = .ok r) :
    isBusinessDay cal r = .ok true := by
  unfold addBusinessDays at h
  rw [bind_ok] at h
  obtain ⟨r0, hr0, h⟩ := h
  split_ifs at h
  · exact (iterAdd_spec (roll_result_bd hr0) h).1
  · exact (iterSub_spec (roll_result_bd hr0) h).1

/-- Shifting by `i` is adjusting first and shifting then. -/
theorem shift_adjusted (cal : HolidayCalendar) (d r0 : PyDate) (i : Int) (h : addBusinessDays cal d 0 = .ok r0) :
    addBusinessDays cal d i = addBusinessDays cal r0 i := by
  have hroll : roll cal 1 loopFuel d = .ok r0 := by
    unfold addBusinessDays at h
    rw [bind_ok] at h
    obtain ⟨x, hx, h⟩ := h
    rw [if_pos (by omega)] at h
    have : iterSteps (addSingleBusinessDay cal) (0 : Int).toNat x = .ok x := rfl
    rw [this] at h
    injection h with h
    subst h
    exact hx
  have hb := roll_result_bd hroll
  unfold addBusinessDays
  rw [hroll, roll_of_bd hb]

/-- Going back `n` and then `m` business days is going back `n + m`, including the exceptions. -/
theorem back_compose (cal : HolidayCalendar) (d : PyDate) (n m : Nat) :
    (addBusinessDays cal d (-(n : Int)) >>= fun r => addBusinessDays cal r (-(m : Int))) =
      addBusinessDays cal d (-((n : Int) + (m : Int))) := by
  have hz : ∀ (x : PyDate) (k : Nat), addBusinessDays cal x (-(k : Int)) =
      (roll cal 1 loopFuel x >>= iterSteps (subtractSingleBusinessDay cal) k) := by
    intro x k
    rcases Nat.eq_zero_or_pos k with rfl | hk
    · have := addBusinessDays_nonneg_eq cal x 0
      rw [show -((0 : Nat) : Int) = ((0 : Nat) : Int) from rfl, this]
      rfl
    · exact addBusinessDays_neg_eq cal x k hk
  rw [show -((n : Int) + (m : Int)) = -((n + m : Nat) : Int) by push_cast; omega, hz, hz]
  cases h : roll cal 1 loopFuel d with
  | error e => rfl
  | ok r0 =>
    simp only [ok_bind]
    rw [iterSteps_add]
    cases h2 : iterSteps (subtractSingleBusinessDay cal) n r0 with
    | error e => rfl
    | ok r =>
      simp only [ok_bind]
      rw [hz, roll_of_bd (iterSub_spec (roll_result_bd h) h2).1]
      rfl

/-- C108. Shifting by `i` and then by `j` business days is shifting by `i + j`, for all integers, forward or backward, in any mixture:
once the first shift has returned a date, the second returns, or raises, exactly what the single shift does. -/
theorem C108_compose (cal : HolidayCalendar) (d r : PyDate) (i j : Int) (h : addBusinessDays cal d i = .ok r) :
    addBusinessDays cal r j = addBusinessDays cal d (i + j) := by
  have hr0 : ∃ r0, addBusinessDays cal d 0 = .ok r0 := by
    have h' := h
    unfold addBusinessDays at h'
    rw [bind_ok] at h'
    obtain ⟨r0, hr0, -⟩ := h'
    exact ⟨r0, by
      have := addBusinessDays_nonneg_eq cal d 0
      rw [hr0] at this; exact this⟩
  obtain ⟨r0, hr0⟩ := hr0
  have hbr0 : BusinessDay cal r0 := isBusinessDay_true' (shift_business hr0)
  rw [shift_adjusted cal d r0 _ hr0] at h ⊢
  -- from the business day r0
  rcases Int.eq_nat_or_neg i with ⟨n, rfl | rfl⟩ <;> rcases Int.eq_nat_or_neg j with ⟨m, rfl | rfl⟩
  · rw [← C03_add_compose, h]; rfl
  · rcases Nat.le_total n m with hnm | hnm
    · obtain ⟨k, rfl⟩ := Nat.exists_eq_add_of_le hnm
      have hb := C04_forward_back cal r0 r n hbr0 h
      have hc := back_compose cal r n k
      rw [hb, ok_bind] at hc
      push_cast at hc ⊢
      rw [← hc]
      congr 1; omega
    · obtain ⟨k, rfl⟩ := Nat.exists_eq_add_of_le hnm
      have hc := C03_add_compose cal r0 k m
      rw [show (k : Int) + (m : Int) = ((m + k : Nat) : Int) by push_cast; omega, h, bind_ok] at hc
      obtain ⟨b, hb, hbr⟩ := hc
      rw [C04_forward_back cal b r m (isBusinessDay_true' (shift_business hb)) hbr, ← hb]
      congr 1; push_cast; omega
  · rcases Nat.le_total n m with hnm | hnm
    · obtain ⟨k, rfl⟩ := Nat.exists_eq_add_of_le hnm
      have hb := C04_back_forward cal r0 r n hbr0 h
      have hc := C03_add_compose cal r n k
      rw [hb, ok_bind] at hc
      push_cast at hc ⊢
      rw [← hc]
      congr 1; omega
    · obtain ⟨k, rfl⟩ := Nat.exists_eq_add_of_le hnm
      have hc := back_compose cal r0 k m
      rw [show -((k : Int) + (m : Int)) = -((m + k : Nat) : Int) by push_cast; omega, h, bind_ok] at hc
      obtain ⟨b, hb, hbr⟩ := hc
      rw [C04_back_forward cal b r m (isBusinessDay_true' (shift_business hb)) hbr, ← hb]
      congr 1; push_cast; omega
  · have hc := back_compose cal r0 n m
    rw [h, ok_bind] at hc
    rw [hc]
    congr 1; omega

/-- C108. A shift can be undone: from the business day reached, the opposite shift leads back to the first business day on or after the
start, hence to the start itself when that is a business day. -/
theorem C108_inverse (cal : HolidayCalendar) (d r : PyDate) (i : Int) (h : addBusinessDays cal d i = .ok r) :
    addBusinessDays cal r (-i) = followingDateAdjustment cal d ∧ (BusinessDay cal d → addBusinessDays cal r (-i) = .ok d) := by
  have h1 := C108_compose cal d r i (-i) h
  rw [Int.add_right_neg] at h1
  refine ⟨h1, fun hb => ?_⟩
  rw [h1]
  refine C02_following_fixpoint cal d hb ?_
  have h' := h
  unfold addBusinessDays at h'
  rw [bind_ok] at h'
  obtain ⟨r0, hr0, -⟩ := h'
  have := rollFwd_iff.1 hr0
  exact this.2 d (le_refl _) this.1.1

/-- C108. Shifting by more business days gives a later date: the order of two shifts of one date is the order of the numbers. -/
theorem C108_order_of_shifts (cal : HolidayCalendar) (d r s : PyDate) (i j : Int) (hr : addBusinessDays cal d i = .ok r)
    (hs : addBusinessDays cal d j = .ok s) : r < s ↔ i < j := by
  have key : ∀ (i j : Int) (r s : PyDate), addBusinessDays cal d i = .ok r → addBusinessDays cal d j = .ok s → i < j → r < s := by
    intro i j r s hr hs hij
    have h1 := C108_compose cal d r i (j - i) hr
    rw [show i + (j - i) = j by omega, hs] at h1
    have h0 := C108_compose cal d r i 0 hr
    rw [Int.add_zero, hr] at h0
    obtain ⟨n, hn⟩ := Int.eq_ofNat_of_zero_le (show 0 ≤ j - i by omega)
    rw [hn] at h1
    exact C03_strict_mono cal r r s 0 n (by omega) h0 h1
  refine ⟨fun h => ?_, key i j r s hr hs⟩
  by_contra hc
  rcases lt_or_eq_of_le (not_lt.1 hc) with hji | hji
  · exact lt_asymm h (key j i s r hs hr hji)
  · subst hji
    rw [hr] at hs; injection hs with hs; subst hs
    exact lt_irrefl _ h

theorem length_lt_of_subset {L M : List PyDate} {x : PyDate} (hL : L.Pairwise (· < ·)) (h : L ⊆ M) (hx : x ∈ M) (hx' : x ∉ L) :
    L.length < M.length := by
  have hnd : (x :: L).Nodup := List.nodup_cons.2 ⟨hx', hL.imp (fun h => ne_of_lt h)⟩
  have := (hnd.subperm (List.cons_subset.2 ⟨hx, h⟩)).length_le
  exact Nat.lt_of_succ_le (by simpa using this)

/-- C108. Shifting never reverses the order of two dates, and it keeps business days apart. -/
theorem C108_monotone (cal : HolidayCalendar) (d e r s : PyDate) (i : Int) (hde : d ≤ e)
    (hr : addBusinessDays cal d i = .ok r) (hs : addBusinessDays cal e i = .ok s) :
    r ≤ s ∧ (BusinessDay cal d → d < e → r < s) := by
  have hle : r ≤ s := by
    rcases Int.eq_nat_or_neg i with ⟨n, rfl | rfl⟩
    · obtain ⟨r0, L, hf, h2, h1, h4, h5, -⟩ := (C03_add_business_days_iff cal d r n).1 hr
      obtain ⟨s0, M, gf, g2, g1, g4, g5, -⟩ := (C03_add_business_days_iff cal e s n).1 hs
      have h00 : r0 ≤ s0 := by
        by_contra hc
        exact hf.2.2 s0 (le_trans hde gf.1) (not_le.1 hc) gf.2.1
      by_contra hc
      have hsr := not_le.1 hc
      have := length_lt_of_subset (L := M) (M := L) (x := s) g4.1 (fun x hx => by
        have := (g4.2 x).1 hx
        exact (h4.2 x).2 ⟨le_trans h00 this.1, lt_trans this.2.1 hsr, this.2.2⟩)
        ((h4.2 s).2 ⟨le_trans h00 g2, hsr, g1⟩) (fun hx => lt_irrefl _ ((g4.2 s).1 hx).2.1)
      omega
    · obtain ⟨r0, L, hf, h2, h1, h4, h5, -⟩ := (C04_subtract_business_days_iff cal d r n).1 hr
      obtain ⟨s0, M, gf, g2, g1, g4, g5, -⟩ := (C04_subtract_business_days_iff cal e s n).1 hs
      have h00 : r0 ≤ s0 := by
        by_contra hc
        exact hf.2.2 s0 (le_trans hde gf.1) (not_le.1 hc) gf.2.1
      by_contra hc
      have hsr := not_le.1 hc
      have := length_lt_of_subset (L := L) (M := M) (x := s) h4.1 (fun x hx => by
        have := (h4.2 x).1 hx
        exact (g4.2 x).2 ⟨le_trans hsr.le this.1, lt_of_lt_of_le this.2.1 h00, this.2.2⟩)
        ((g4.2 s).2 ⟨le_refl _, lt_of_lt_of_le hsr (le_trans h2 h00), g1⟩) (fun hx => absurd ((h4.2 s).1 hx).1 (not_le.2 hsr))
      omega
  refine ⟨hle, fun hb hlt => lt_of_le_of_ne hle fun heq => ?_⟩
  subst heq
  have h1 := (C108_inverse cal d r i hr).2 hb
  have h2 := (C108_inverse cal e r i hs).1
  rw [h1] at h2
  have := ((C02_following_iff cal e d).1 h2.symm).1.1
  exact absurd hlt (not_lt.2 this)

/-- C108. Settlement never reverses the order of two trades, whatever the convention. -/
theorem C108_settlement_monotone (cal : HolidayCalendar) (d e r s : PyDate) (c : SettlementConvention) (hde : d ≤ e)
    (hr : calculateSettlementDate cal d c = .ok r) (hs : calculateSettlementDate cal e c = .ok s) : r ≤ s := by
  by_cases hc : c = .tMinusZeroBusiness
  · subst hc
    obtain ⟨h1, h2, h3⟩ := C06_settlement_minus_zero cal d r hr
    obtain ⟨g1, g2, g3⟩ := C06_settlement_minus_zero cal e s hs
    by_contra hlt
    exact g3 r (not_le.1 hlt) (le_trans h1 hde) h2
  · cases c <;> simp only [calculateSettlementDate] at hr hs <;>
      first
      | exact absurd rfl hc
      | exact (C108_monotone cal d e r s _ hde hr hs).1
      | cases hr

/-- C108. Adjusting by modified following twice is adjusting once. -/
theorem C108_modified_idempotent (cal : HolidayCalendar) (d r : PyDate) (h : modifiedFollowingDateAdjustment cal d = .ok r) :
    modifiedFollowingDateAdjustment cal r = .ok r := by
  have hb : isBusinessDay cal r = .ok true := by
    unfold modifiedFollowingDateAdjustment at h
    rw [bind_ok] at h
    obtain ⟨c, hc, h⟩ := h
    split_ifs at h
    · injection h with h; subst h; exact shift_business hc
    · exact shift_business h
  have hf := C02_following_fixpoint cal r (isBusinessDay_true' hb) (evaluable_of_ok hb)
  unfold followingDateAdjustment at hf
  unfold modifiedFollowingDateAdjustment
  rw [hf, ok_bind, if_pos rfl]

/-- C108. Modified following never reverses the order of two dates, provided the next business day of a date is not found in the
same month of a later year. -/
theorem C108_modified_monotone (cal : HolidayCalendar) (d e r s : PyDate) (hde : d ≤ e)
    (hr : modifiedFollowingDateAdjustment cal d = .ok r) (hs : modifiedFollowingDateAdjustment cal e = .ok s)
    (hyr : ∀ f, FirstOnOrAfter cal d f → f.month = d.month → f.year = d.year) : r ≤ s := by
  obtain ⟨hrb, f, hf, h1, h2⟩ := C05_modified_following cal d r hr
  obtain ⟨hsb, g, hg, g1, g2⟩ := C05_modified_following cal e s hs
  have hfg : f ≤ g := by
    by_contra hc
    exact hf.2.2 g (le_trans hde hg.1) (not_le.1 hc) hg.2.1
  by_cases hm : f.month = d.month <;> by_cases hm' : g.month = e.month
  · rw [h1 hm, g1 hm']; exact hfg
  · rw [h1 hm]
    have hl := g2 hm'
    by_cases hfe : f < e
    · by_contra hc
      exact hl.2.2 f (not_le.1 hc) hfe hf.2.1
    · exfalso
      have hef := not_lt.1 hfe
      have : g = f := le_antisymm (by
        by_contra hc
        exact hg.2.2 f hef (not_le.1 hc) hf.2.1) hfg
      subst this
      have := same_month_between hde hef (hyr g hf hm).symm hm.symm
      exact hm' (hm.trans this.2.symm)
  · rw [g1 hm']
    exact le_trans (h2 hm).1.le (le_trans hde hg.1)
  · have hl := h2 hm
    have hl' := g2 hm'
    by_contra hc
    exact hl'.2.2 r (not_le.1 hc) (lt_of_lt_of_le hl.1 hde) hrb

/-- Two dates at most three days apart in months of the same number are in the same year. -/
theorem year_of_near {d f : PyDate} (hm : f.month = d.month) (h1 : d.ord ≤ f.ord) (h2 : f.ord ≤ d.ord + 3) : f.year = d.year := by
  have hd := d.bounds
  have hf := f.bounds
  have bd := daysInMonth_bounds d.year d.month
  have bf := daysInMonth_bounds f.year f.month
  have ld := leapDay_eq_zero_or_one d.year
  have lf := leapDay_eq_zero_or_one f.year
  unfold PyDate.ord at h1 h2
  rw [hm, daysBeforeMonth_eq, daysBeforeMonth_eq] at h1 h2
  rcases lt_trichotomy f.year d.year with h | h | h
  · have := daysBeforeYear_mono h.le
    split_ifs at h1 h2 <;> omega
  · exact h
  · have := daysBeforeYear_mono h.le
    split_ifs at h1 h2 <;> omega

/-- C108. On the US calendar modified following never reverses the order of two dates. -/
theorem C108_modified_monotone_us (d e r s : PyDate) (hde : d ≤ e)
    (hr : modifiedFollowingDateAdjustment usFederalHolidays d = .ok r)
    (hs : modifiedFollowingDateAdjustment usFederalHolidays e = .ok s) : r ≤ s := by
  refine C108_modified_monotone _ d e r s hde hr hs fun f hf hm => ?_
  obtain ⟨f', h1, h2, h3⟩ := C09_following_total d
  have : f = f' := FirstOnOrAfter.unique hf ((C02_following_iff _ _ _).1 h1).1
  subst this
  exact year_of_near hm h2 h3

/-- Five business days forward and eight back are three back. -/
example : addBusinessDays usFederalHolidays (D 2024 7 3) 5 = .ok (D 2024 7 11) ∧
    addBusinessDays usFederalHolidays (D 2024 7 11) (-8) = .ok (D 2024 6 28) ∧
    addBusinessDays usFederalHolidays (D 2024 7 3) (-3) = .ok (D 2024 6 28) := by decide +kernel

end Verif.Props
