/- C112: how many business days there are, and when they can be listed. -/
import Verif.Props.Holidays
import Mathlib.Data.Int.Interval
import Mathlib.Data.Finset.Card
import Mathlib.Data.Finset.Image
import Mathlib.Tactic.Ring

namespace Verif.Props
open Verif Verif.Spec Verif.Scheduler

/-! ## When the business days of an interval can be listed -/

/-- `r` is the first business day that is on or after `a` and after `b`. -/
def FirstBeyond (cal : HolidayCalendar) (a b r : PyDate) : Prop :=
  a ≤ r ∧ b < r ∧ BusinessDay cal r ∧ ∀ e, a ≤ e → b < e → e < r → ¬ BusinessDay cal e

theorem businessDayLoop_total {cal : HolidayCalendar} {b r : PyDate} {n : Nat} {d : PyDate} (hd : BusinessDay cal d)
    (hr : FirstBeyond cal d b r) (he : ∀ e, d ≤ e → e ≤ r → Evaluable cal e.year) (hn : (r.ord - d.ord).toNat < n) :
    ∃ L, businessDayLoop cal b n d = .ok L := by
  induction n generalizing d with
  | zero => omega
  | succ n ih =>
    obtain ⟨h1, h2, h3, h4⟩ := hr
    simp only [businessDayLoop]
    split_ifs with hdb
    · have hdr : d < r := lt_of_le_of_lt hdb h2
      have hdr' := hdr
      rw [PyDate.lt_iff] at hdr'
      obtain ⟨x, -, hx⟩ := PyDate.ofOrd?_some (d.ord + 1) (by have := d.ord_bounds; omega) (by have := r.ord_bounds; omega)
      obtain ⟨f, ⟨f1, f2, f3⟩, hfr⟩ := exists_first _ x r (Nat.le_refl _) (PyDate.le_iff.2 (by omega)) h3
      rw [PyDate.le_iff] at f1
      have hdf : d < f := PyDate.lt_iff.2 (by omega)
      have hone : addSingleBusinessDay cal d = .ok f := by
        refine addSingle_iff.2 ⟨hd, ⟨hdf, f2, ?_⟩, fun e x y => he e x (le_trans y hfr)⟩
        intro e e1 e2
        rw [PyDate.lt_iff] at e1
        exact f3 e (PyDate.le_iff.2 (by omega)) e2
      obtain ⟨L, hL⟩ := ih f2 ⟨hfr, h2, h3, fun e x y z => h4 e (le_trans hdf.le x) y z⟩
        (fun e x y => he e (le_trans hdf.le x) y) (by rw [PyDate.lt_iff] at hdf; omega)
      exact ⟨d :: L, by rw [hone, ok_bind, hL, ok_bind]⟩
    · exact ⟨[], rfl⟩

theorem businessDayLoop_beyond {cal : HolidayCalendar} {b : PyDate} {n : Nat} {d : PyDate} {L : List PyDate}
    (hd : BusinessDay cal d) (hev : Evaluable cal d.year) (h : businessDayLoop cal b n d = .ok L) :
    ∃ r, FirstBeyond cal d b r ∧ ∀ e, d ≤ e → e ≤ r → Evaluable cal e.year := by
  induction n generalizing d L with
  | zero => cases h
  | succ n ih =>
    simp only [businessDayLoop] at h
    split_ifs at h with hdb
    · simp only [bind_ok] at h
      obtain ⟨d', hd', rest, hrest, -⟩ := h
      obtain ⟨_, ⟨h1, h2, h3⟩, h4⟩ := addSingle_iff.1 hd'
      obtain ⟨r, ⟨r1, r2, r3, r4⟩, r5⟩ := ih h2 (h4 d' h1.le le_rfl) hrest
      refine ⟨r, ⟨le_trans h1.le r1, r2, r3, ?_⟩, ?_⟩
      · intro e e1 e2 e3
        by_cases hed : d' ≤ e
        · exact r4 e hed e2 e3
        · exact h3 e (lt_of_le_of_lt hdb e2) (not_le.1 hed)
      · intro e e1 e2
        by_cases hed : d' ≤ e
        · exact r5 e hed e2
        · exact h4 e e1 (not_le.1 hed).le
    · refine ⟨d, ⟨le_rfl, not_le.1 hdb, hd, fun e e1 _ e3 => absurd e1 (not_le.2 e3)⟩, ?_⟩
      intro e e1 e2
      rw [le_antisymm e2 e1]; exact hev

/-- C112. The business days between two dates can be listed exactly when there is a business day beyond the end (the loop steps onto
it) and the calendar can be evaluated on every date up to it. -/
theorem C112_listable_iff (cal : HolidayCalendar) (a b : PyDate) :
    (∃ L, generateBusinessDays cal a b = .ok L) ↔
      ∃ r, FirstBeyond cal a b r ∧ ∀ e, a ≤ e → e ≤ r → Evaluable cal e.year := by
  constructor
  · rintro ⟨L, h⟩
    unfold generateBusinessDays at h
    rw [bind_ok] at h
    obtain ⟨d, hd, h⟩ := h
    obtain ⟨⟨h1, h2, h3⟩, h4⟩ := (C02_following_iff cal a d).1 hd
    obtain ⟨r, ⟨r1, r2, r3, r4⟩, r5⟩ := businessDayLoop_beyond h2 (h4 d h1 le_rfl) h
    refine ⟨r, ⟨le_trans h1 r1, r2, r3, ?_⟩, ?_⟩
    · intro e e1 e2 e3
      by_cases hed : d ≤ e
      · exact r4 e hed e2 e3
      · exact h3 e e1 (not_le.1 hed)
    · intro e e1 e2
      by_cases hed : d ≤ e
      · exact r5 e hed e2
      · exact h4 e e1 (not_le.1 hed).le
  · rintro ⟨r, ⟨r1, r2, r3, r4⟩, r5⟩
    obtain ⟨f, ⟨f1, f2, f3⟩, hfr⟩ := exists_first _ a r (Nat.le_refl _) r1 r3
    have hf : addBusinessDays cal a 0 = .ok f :=
      (C02_following_iff cal a f).2 ⟨⟨f1, f2, f3⟩, fun e x y => r5 e x (le_trans y hfr)⟩
    obtain ⟨L, hL⟩ := businessDayLoop_total (n := loopFuel) f2 ⟨hfr, r2, r3, fun e x y z => r4 e (le_trans f1 x) y z⟩
      (fun e x y => r5 e (le_trans f1 x) y) (fuel_enough r f)
    exact ⟨L, by unfold generateBusinessDays; rw [hf, ok_bind, hL]⟩

/-- C112. On the US calendar every interval that ends before 31 December 9999 can be listed, and none that ends on it. -/
theorem C112_us_listable (a b : PyDate) (hab : a ≤ b) :
    (∃ L, generateBusinessDays usFederalHolidays a b = .ok L) ↔ b.ord < PyDate.maxOrd := by
  rw [C112_listable_iff]
  constructor
  · rintro ⟨r, ⟨-, h, -, -⟩, -⟩
    rw [PyDate.lt_iff] at h
    have := r.ord_bounds
    omega
  · intro hb
    obtain ⟨x, -, hx⟩ := PyDate.ofOrd?_some (b.ord + 1) (by have := b.ord_bounds; omega) (by omega)
    obtain ⟨s, s1, s2, s3⟩ := us_business_day_near x
    obtain ⟨f, ⟨f1, f2, f3⟩, -⟩ := exists_first _ x s (Nat.le_refl _) s1 s3
    rw [PyDate.le_iff] at f1
    have hbf : b < f := PyDate.lt_iff.2 (by omega)
    refine ⟨f, ⟨le_trans hab hbf.le, hbf, f2, ?_⟩, fun e _ _ => us_evaluable' e⟩
    intro e _ e2 e3
    rw [PyDate.lt_iff] at e2
    exact f3 e (PyDate.le_iff.2 (by omega)) e3

/-! ## Counting by ordinals -/

/-- The ordinals of the business days from `m` up to, not including, `n`. -/
noncomputable def businessOrds (cal : HolidayCalendar) (m n : Int) : Finset Int :=
  haveI := Classical.decPred (fun k : Int => ∃ e : PyDate, e.ord = k ∧ BusinessDay cal e)
  (Finset.Ico m n).filter (fun k : Int => ∃ e : PyDate, e.ord = k ∧ BusinessDay cal e)

theorem mem_businessOrds {cal : HolidayCalendar} {m n k : Int} :
    k ∈ businessOrds cal m n ↔ (m ≤ k ∧ k < n) ∧ ∃ e : PyDate, e.ord = k ∧ BusinessDay cal e := by
  unfold businessOrds; simp only [Finset.mem_filter, Finset.mem_Ico]

theorem length_businessOrds {cal : HolidayCalendar} {m n : Int} {L : List PyDate} (hs : L.Pairwise (· < ·))
    (hm : ∀ e, e ∈ L ↔ m ≤ e.ord ∧ e.ord < n ∧ BusinessDay cal e) : L.length = (businessOrds cal m n).card := by
  have hnd : (L.map PyDate.ord).Nodup :=
    List.Pairwise.map _ (fun a b h => ne_of_lt (PyDate.lt_iff.1 h)) hs
  rw [← List.length_map (f := PyDate.ord), ← List.toFinset_card_of_nodup hnd]
  congr 1
  ext k
  rw [List.mem_toFinset, List.mem_map, mem_businessOrds]
  constructor
  · rintro ⟨e, he, rfl⟩
    obtain ⟨h1, h2, h3⟩ := (hm e).1 he
    exact ⟨⟨h1, h2⟩, e, rfl, h3⟩
  · rintro ⟨⟨h1, h2⟩, e, rfl, h3⟩
    exact ⟨e, (hm e).2 ⟨h1, h2, h3⟩, rfl⟩

theorem businessOrds_split {cal : HolidayCalendar} {m k n : Int} (h1 : m ≤ k) (h2 : k ≤ n) :
    (businessOrds cal m n).card = (businessOrds cal m k).card + (businessOrds cal k n).card := by
  rw [← Finset.card_union_of_disjoint]
  · congr 1
    ext x
    simp only [Finset.mem_union, mem_businessOrds]
    constructor
    · rintro ⟨⟨a, b⟩, c⟩
      by_cases h : x < k
      · exact Or.inl ⟨⟨a, h⟩, c⟩
      · exact Or.inr ⟨⟨not_lt.1 h, b⟩, c⟩
    · rintro (⟨⟨a, b⟩, c⟩ | ⟨⟨a, b⟩, c⟩)
      · exact ⟨⟨a, by omega⟩, c⟩
      · exact ⟨⟨by omega, b⟩, c⟩
  · rw [Finset.disjoint_left]
    intro x hx hy
    have a := (mem_businessOrds.1 hx).1.2
    have b := (mem_businessOrds.1 hy).1.1
    omega

/-- A later end makes listing harder, a later start easier. -/
theorem listable_mono {cal : HolidayCalendar} {a a' b c : PyDate} (haa : a ≤ a') (hbc : b ≤ c)
    (h : ∃ r, FirstBeyond cal a c r ∧ ∀ e, a ≤ e → e ≤ r → Evaluable cal e.year) (hx : ∀ r, c < r → a' ≤ r) :
    ∃ r, FirstBeyond cal a' b r ∧ ∀ e, a' ≤ e → e ≤ r → Evaluable cal e.year := by
  obtain ⟨r, ⟨h1, h2, h3, h4⟩, h5⟩ := h
  have hbr : b < r := lt_of_le_of_lt hbc h2
  have har := hx r h2
  obtain ⟨x, -, hxo⟩ := PyDate.ofOrd?_some (max a'.ord (b.ord + 1)) (by have := a'.ord_bounds; omega) (by
    have := r.ord_bounds; rw [PyDate.lt_iff] at hbr; rw [PyDate.le_iff] at har; omega)
  have hxr : x ≤ r := by rw [PyDate.lt_iff] at hbr; rw [PyDate.le_iff] at har ⊢; omega
  obtain ⟨f, ⟨f1, f2, f3⟩, hfr⟩ := exists_first _ x r (Nat.le_refl _) hxr h3
  rw [PyDate.le_iff] at f1
  refine ⟨f, ⟨PyDate.le_iff.2 (by omega), PyDate.lt_iff.2 (by omega), f2, ?_⟩, fun e e1 e2 => h5 e (le_trans haa e1) (le_trans e2 hfr)⟩
  intro e e1 e2 e3
  rw [PyDate.le_iff] at e1
  rw [PyDate.lt_iff] at e2
  exact f3 e (PyDate.le_iff.2 (by omega)) e3

/-- C112. A list of business days can be split at any date: it is the list up to that date followed by the list from the day after,
and both can be generated. -/
theorem C112_split (cal : HolidayCalendar) (a b c : PyDate) (hab : a ≤ b) (hbc : b ≤ c) (L : List PyDate)
    (h : generateBusinessDays cal a c = .ok L) :
    ∃ b' L₁ L₂, b.addDays 1 = .ok b' ∧ generateBusinessDays cal a b = .ok L₁ ∧ generateBusinessDays cal b' c = .ok L₂ ∧
      L = L₁ ++ L₂ := by
  have hl := (C112_listable_iff cal a c).1 ⟨L, h⟩
  obtain ⟨b', -, hb'⟩ := PyDate.ofOrd?_some (b.ord + 1) (by have := b.ord_bounds; omega) (by
    obtain ⟨r, ⟨-, h2, -⟩, -⟩ := hl
    have := r.ord_bounds
    rw [PyDate.lt_iff] at h2; rw [PyDate.le_iff] at hbc; omega)
  obtain ⟨L₁, h₁⟩ := (C112_listable_iff cal a b).2 (listable_mono le_rfl hbc hl (fun r hr => le_trans hab (le_trans hbc hr.le)))
  obtain ⟨L₂, h₂⟩ := (C112_listable_iff cal b' c).2 (listable_mono (by rw [PyDate.le_iff] at hab ⊢; omega) le_rfl hl (fun r hr => by
    rw [PyDate.lt_iff] at hr; rw [PyDate.le_iff] at hbc ⊢; omega))
  refine ⟨b', L₁, L₂, PyDate.addDays_ok.2 hb', h₁, h₂, ?_⟩
  obtain ⟨s, m⟩ := C07_generate_business_days cal a c L h
  obtain ⟨s₁, m₁⟩ := C07_generate_business_days cal a b L₁ h₁
  obtain ⟨s₂, m₂⟩ := C07_generate_business_days cal b' c L₂ h₂
  have hs : (L₁ ++ L₂).Pairwise (· < ·) := by
    refine List.pairwise_append.2 ⟨s₁, s₂, ?_⟩
    intro x hx y hy
    have a1 := ((m₁ x).1 hx).2.1
    have a2 := ((m₂ y).1 hy).1
    rw [PyDate.le_iff] at a1 a2
    exact PyDate.lt_iff.2 (by omega)
  refine List.Perm.eq_of_pairwise (fun a b _ _ h1 h2 => absurd h1 (lt_asymm h2)) s hs ?_
  refine (List.perm_ext_iff_of_nodup (s.imp ne_of_lt) (hs.imp ne_of_lt)).2 (fun e => ?_)
  rw [List.mem_append, m, m₁, m₂]
  simp only [PyDate.le_iff] at *
  constructor
  · rintro ⟨x, y, z⟩
    by_cases h : e.ord ≤ b.ord
    · exact Or.inl ⟨x, h, z⟩
    · exact Or.inr ⟨by omega, y, z⟩
  · rintro (⟨x, y, z⟩ | ⟨x, y, z⟩)
    · exact ⟨x, by omega, z⟩
    · exact ⟨by omega, y, z⟩

/-! ## Weeks -/

/-- Two different observed US holidays of their own years are at least a week apart. -/
theorem us_week_apart {a b : PyDate} (ha : ObservedIn usFederalHolidays a.year a)
    (hb : ObservedIn usFederalHolidays b.year b) (hab : a.ord < b.ord) : a.ord + 7 ≤ b.ord := by
  obtain ⟨ya, _, i, o, ho, wa⟩ := us_windows _ _ ha
  obtain ⟨yb, _, j, p, hp, wb⟩ := us_windows _ _ hb
  have oa := a.ord_year_bounds
  have ob := b.ord_year_bounds
  have sa := daysBeforeYear_succ a.year
  have la := leapDay_eq_zero_or_one a.year
  have lb := leapDay_eq_zero_or_one b.year
  rcases lt_trichotomy a.year b.year with hlt | heq | hgt
  · by_cases hnext : b.year = a.year + 1
    · rw [hnext] at hp wb ob lb
      split_ifs at ho with hi
      · by_cases hi11 : i = 11
        · by_cases hj : j = 1
          · subst hi11 hj
            simp at wa wb
            obtain ⟨-, -, e1⟩ := wa
            obtain ⟨-, -, e2⟩ := wb
            unfold adjOrd at e1 e2
            split_ifs at e1 e2 <;> omega
          · have : 16 ≤ p := by omega
            split_ifs at hp <;> omega
        · have : o ≤ 332 := by omega
          have : 0 ≤ p := by omega
          split_ifs at hp <;> omega
      · have : o ≤ 52 := by omega
        omega
    · have := daysBeforeYear_mono (y := a.year + 1) (z := b.year) (by omega)
      have ho360 : o ≤ 360 := by omega
      split_ifs at ho with hi
      · omega
      · have : o ≤ 52 := by omega
        omega
  · rw [← heq] at hp wb lb
    have hij : i ≤ j := by
      by_contra hc
      split_ifs at ho hp <;>
      rcases wa with h | h | h | h | h | h | h | h | h | h | h <;> omega
    by_cases he : i = j
    · subst he
      exfalso
      rcases wa with h | h | h | h | h | h | h | h | h | h | h <;> obtain ⟨hi, h1, h2, h3⟩ := h <;> subst hi <;>
        simp at wb <;> omega
    · split_ifs at ho hp <;>
      rcases wa with h | h | h | h | h | h | h | h | h | h | h <;> omega
  · have := daysBeforeYear_mono (y := b.year + 1) (z := a.year) (by omega)
    omega

/-- Of at most seven consecutive days no more than two are Saturdays or Sundays. -/
theorem weekend_card (m : Int) (j : Nat) (hj : j ≤ 7) :
    ((Finset.Ico m (m + j)).filter (fun k => 5 ≤ (k + 6) % 7)).card ≤ 2 := by
  have key : ∀ r ∈ Finset.range 7, ∀ j ∈ Finset.range 8,
      ((Finset.range j).filter (fun k => 5 ≤ (r + k + 6) % 7)).card ≤ 2 := by decide +kernel
  have := key (m % 7).toNat (by rw [Finset.mem_range]; omega) j (by rw [Finset.mem_range]; omega)
  refine le_trans ?_ this
  refine Finset.card_le_card_of_injOn (fun k => (k - m).toNat) ?_ ?_
  · intro k hk
    simp only [Finset.coe_filter, Finset.mem_Ico, Set.mem_ofPred_eq] at hk
    simp only [Finset.coe_filter, Finset.mem_range, Set.mem_ofPred_eq]
    omega
  · intro k hk l hl h
    simp only [Finset.coe_filter, Finset.mem_Ico, Set.mem_ofPred_eq] at hk hl
    simp only at h
    omega

/-- Of at most seven consecutive days at most three are not US business days. -/
theorem us_window (m : Int) (j : Nat) (hj : j ≤ 7) (h1 : 1 ≤ m) (h2 : m + j ≤ PyDate.maxOrd + 1) :
    j ≤ (businessOrds usFederalHolidays m (m + j)).card + 3 := by
  classical
  let H := (Finset.Ico m (m + j)).filter (fun k : Int => ∃ e : PyDate, e.ord = k ∧ ObservedIn usFederalHolidays e.year e)
  let W := (Finset.Ico m (m + j)).filter (fun k : Int => 5 ≤ (k + 6) % 7)
  have hH : H.card ≤ 1 := by
    refine Finset.card_le_one.2 (fun x hx y hy => ?_)
    obtain ⟨hx1, e, rfl, he⟩ := Finset.mem_filter.1 hx
    obtain ⟨hy1, f, rfl, hf⟩ := Finset.mem_filter.1 hy
    rw [Finset.mem_Ico] at hx1 hy1
    rcases lt_trichotomy e.ord f.ord with h | h | h
    · have := us_week_apart he hf h; omega
    · exact h
    · have := us_week_apart hf he h; omega
  have hW : W.card ≤ 2 := weekend_card m j hj
  have hsub : Finset.Ico m (m + j) ⊆ businessOrds usFederalHolidays m (m + j) ∪ (H ∪ W) := by
    intro k hk
    have hk' := Finset.mem_Ico.1 hk
    obtain ⟨e, -, he⟩ := PyDate.ofOrd?_some k (by omega) (by omega)
    by_cases hw : 5 ≤ (k + 6) % 7
    · exact Finset.mem_union_right _ (Finset.mem_union_right _ (Finset.mem_filter.2 ⟨hk, hw⟩))
    · by_cases hh : ObservedIn usFederalHolidays e.year e
      · exact Finset.mem_union_right _ (Finset.mem_union_left _ (Finset.mem_filter.2 ⟨hk, e, he, hh⟩))
      · refine Finset.mem_union_left _ (mem_businessOrds.2 ⟨hk', e, he, ?_, hh⟩)
        unfold IsWeekend PyDate.weekday
        omega
  have c1 := Finset.card_le_card hsub
  have c2 := Finset.card_union_le (businessOrds usFederalHolidays m (m + j)) (H ∪ W)
  have c3 := Finset.card_union_le H W
  rw [Int.card_Ico] at c1
  have : (m + (j : Int) - m).toNat = j := by omega
  omega

/-- Of seven consecutive days at most five are business days, on any calendar. -/
theorem any_week (cal : HolidayCalendar) (m : Int) : (businessOrds cal m (m + 7)).card ≤ 5 := by
  have key : ∀ r ∈ Finset.range 7, ((Finset.range 7).filter (fun k => (r + k + 6) % 7 ≤ 4)).card = 5 := by decide +kernel
  have := key (m % 7).toNat (by rw [Finset.mem_range]; omega)
  rw [← this]
  refine Finset.card_le_card_of_injOn (fun k => (k - m).toNat) ?_ ?_
  · intro k hk
    have hk' := mem_businessOrds.1 (Finset.mem_coe.1 hk)
    obtain ⟨hk1, e, rfl, hw, -⟩ := hk'
    unfold IsWeekend PyDate.weekday at hw
    simp only [Finset.coe_filter, Finset.mem_range, Set.mem_ofPred_eq]
    omega
  · intro k hk l hl h
    have hk' := (mem_businessOrds.1 (Finset.mem_coe.1 hk)).1
    have hl' := (mem_businessOrds.1 (Finset.mem_coe.1 hl)).1
    simp only at h
    omega

theorem us_weeks (m : Int) (w : Nat) (h1 : 1 ≤ m) (h2 : m + 7 * w ≤ PyDate.maxOrd + 1) :
    4 * w ≤ (businessOrds usFederalHolidays m (m + 7 * w)).card := by
  induction w with
  | zero => omega
  | succ w ih =>
    push_cast at h2 ⊢
    rw [businessOrds_split (k := m + 7 * w) (by omega) (by omega)]
    have a := ih (by omega)
    have b := us_window (m + 7 * w) 7 le_rfl (by omega) (by omega)
    rw [show m + 7 * ((w : Int) + 1) = m + 7 * w + (7 : Nat) by push_cast; ring]
    omega

theorem any_weeks (cal : HolidayCalendar) (m : Int) (w : Nat) : (businessOrds cal m (m + 7 * w)).card ≤ 5 * w := by
  induction w with
  | zero =>
    have : businessOrds cal m (m + 7 * (0 : Nat)) = ∅ := by
      ext k; rw [mem_businessOrds]; simp
    rw [this]; simp
  | succ w ih =>
    push_cast
    rw [businessOrds_split (k := m + 7 * w) (by omega) (by omega)]
    have b := any_week cal (m + 7 * w)
    rw [show m + 7 * ((w : Int) + 1) = m + 7 * w + 7 by ring]
    omega

theorem businessOrds_mono {cal : HolidayCalendar} {m n n' : Int} (h : n ≤ n') :
    (businessOrds cal m n).card ≤ (businessOrds cal m n').card :=
  Finset.card_le_card (fun k hk => mem_businessOrds.2 (by
    obtain ⟨⟨a, b⟩, c⟩ := mem_businessOrds.1 hk; exact ⟨⟨a, by omega⟩, c⟩))

/-- A shift by `n` business days passes exactly `n` of them. -/
theorem shift_card {cal : HolidayCalendar} {d r : PyDate} {n : Nat} (h : addBusinessDays cal d (n : Int) = .ok r) :
    d ≤ r ∧ (businessOrds cal d.ord r.ord).card = n ∧ (businessOrds cal d.ord (r.ord + 1)).card = n + 1 := by
  obtain ⟨r0, L, ⟨f1, f2, f3⟩, h2, h3, ⟨h4, h5⟩, h6, -⟩ := (C03_add_business_days_iff cal d r n).1 h
  have hdr := le_trans f1 h2
  have e : (businessOrds cal d.ord r.ord).card = n := by
    rw [← h6]
    refine (length_businessOrds h4 (fun e => ?_)).symm
    rw [h5]
    constructor
    · rintro ⟨x, y, z⟩
      exact ⟨PyDate.le_iff.1 (le_trans f1 x), PyDate.lt_iff.1 y, z⟩
    · rintro ⟨x, y, z⟩
      refine ⟨?_, PyDate.lt_iff.2 y, z⟩
      by_contra hc
      exact f3 e (PyDate.le_iff.2 x) (not_le.1 hc) z
  refine ⟨hdr, e, ?_⟩
  rw [PyDate.le_iff] at hdr
  rw [businessOrds_split (k := r.ord) hdr (by omega), e]
  congr 1
  refine Finset.card_eq_one.2 ⟨r.ord, ?_⟩
  ext k
  rw [mem_businessOrds, Finset.mem_singleton]
  constructor
  · rintro ⟨⟨a, b⟩, -⟩; omega
  · rintro rfl; exact ⟨⟨le_rfl, by omega⟩, r, rfl, h3⟩

/-- C112. On any calendar `n` business days take at least `7` days for every five of them. -/
theorem C112_shift_lower (cal : HolidayCalendar) (d r : PyDate) (n : Nat) (h : addBusinessDays cal d (n : Int) = .ok r) :
    d.ord + 7 * (n / 5 : Nat) ≤ r.ord := by
  obtain ⟨h1, -, h2⟩ := shift_card h
  by_contra hc
  have a := businessOrds_mono (cal := cal) (m := d.ord) (n := r.ord + 1) (n' := d.ord + 7 * (n / 5 : Nat)) (by omega)
  have b := any_weeks cal d.ord (n / 5)
  omega

/-- C112. On the US calendar `n` business days take less than a week for every four of them, plus one week; up to three of them take
at most three days more than their number. -/
theorem C112_shift_upper (d r : PyDate) (n : Nat) (h : addBusinessDays usFederalHolidays d (n : Int) = .ok r) :
    r.ord ≤ d.ord + 7 * (n / 4 : Nat) + 6 ∧ (n ≤ 3 → r.ord ≤ d.ord + n + 3) := by
  obtain ⟨h1, h2, -⟩ := shift_card h
  have hd := d.ord_bounds
  have hr := r.ord_bounds
  constructor
  · by_contra hc
    have a := us_weeks d.ord (n / 4 + 1) (by omega) (by push_cast; omega)
    have b := businessOrds_mono (cal := usFederalHolidays) (m := d.ord) (n := d.ord + 7 * (n / 4 + 1 : Nat)) (n' := r.ord)
      (by push_cast; omega)
    omega
  · intro hn
    by_contra hc
    have a := us_window d.ord (n + 4) (by omega) (by omega) (by push_cast; omega)
    have b := businessOrds_mono (cal := usFederalHolidays) (m := d.ord) (n := d.ord + (n + 4 : Nat)) (n' := r.ord)
      (by push_cast; omega)
    omega

/-- C112. A US trade under a T+k convention settles on a business day between `k` and `k + 3` days after the purchase. -/
theorem C112_settlement_window (purchase r : PyDate) (c : SettlementConvention) (k : Nat)
    (hk : settlementOffset c = some (k : Int)) (h : calculateSettlementDate usFederalHolidays purchase c = .ok r) :
    BusinessDay usFederalHolidays r ∧ purchase.ord + k ≤ r.ord ∧ r.ord ≤ purchase.ord + k + 3 := by
  have hc : calculateSettlementDate usFederalHolidays purchase c = addBusinessDays usFederalHolidays purchase (k : Int) ∧ k ≤ 3 := by
    cases c <;> simp only [settlementOffset, Option.some.injEq, reduceCtorEq] at hk <;>
      first | (exfalso; omega) | exact ⟨by rw [← hk]; rfl, by omega⟩
  rw [hc.1] at h
  obtain ⟨r0, L, -, -, hb, -⟩ := (C03_add_business_days_iff _ _ _ _).1 h
  obtain ⟨h1, h2, -⟩ := shift_card h
  refine ⟨hb, ?_, (C112_shift_upper purchase r k h).2 hc.2⟩
  by_contra hlt
  have : (businessOrds usFederalHolidays purchase.ord r.ord).card ≤ (Finset.Ico purchase.ord r.ord).card :=
    Finset.card_le_card (fun x hx => Finset.mem_Ico.2 (mem_businessOrds.1 hx).1)
  rw [Int.card_Ico] at this
  rw [PyDate.le_iff] at h1
  omega

/-- C112. Any `w` weeks of the US calendar hold between `4 w` and `5 w` business days. -/
theorem C112_weeks (a b : PyDate) (w : Nat) (hb : b.ord + 1 = a.ord + 7 * w) (L : List PyDate)
    (h : generateBusinessDays usFederalHolidays a b = .ok L) : 4 * w ≤ L.length ∧ L.length ≤ 5 * w := by
  obtain ⟨s, m⟩ := C07_generate_business_days _ a b L h
  have e := length_businessOrds (m := a.ord) (n := a.ord + 7 * w) s (fun e => by
    rw [m]; simp only [PyDate.le_iff]
    exact ⟨fun ⟨x, y, z⟩ => ⟨x, by omega, z⟩, fun ⟨x, y, z⟩ => ⟨x, by omega, z⟩⟩)
  have := a.ord_bounds
  have := b.ord_bounds
  rw [e]
  exact ⟨us_weeks _ _ (by omega) (by omega), any_weeks _ _ _⟩

/-! ## Years -/

/-- Whether day `k` of a year is a US business day, from the weekday of 1 January (`r` is the ordinal of the day before it modulo
seven) and the length of the year (`l` is 1 in leap years). -/
def yearTest (r l k : Int) : Bool :=
  decide ((r + k + 6) % 7 ≤ 4) && !([adjOrd (r + 1), adjOrd (r + 17), nextOrd (r + 46) 0, adjOrd (r + (150 + l)),
    adjOrd (r + (170 + l)), adjOrd (r + (185 + l)), nextOrd (r + (244 + l)) 0, nextOrd (r + (281 + l)) 0, adjOrd (r + (315 + l)),
    nextOrd (r + (326 + l)) 3, adjOrd (r + (359 + l))].elem (r + k))

theorem adjOrd_shift (q n : Int) : adjOrd (7 * q + n) = 7 * q + adjOrd n := by
  unfold adjOrd
  have : (7 * q + n + 6) % 7 = (n + 6) % 7 := by omega
  rw [this]
  split_ifs <;> ring

theorem nextOrd_shift (q n wd : Int) : nextOrd (7 * q + n) wd = 7 * q + nextOrd n wd := by
  unfold nextOrd
  have : (7 * q + n + 6) % 7 = (n + 6) % 7 := by omega
  rw [this]; ring

theorem yearTest_iff (e : PyDate) (k : Int) (hk : e.ord = daysBeforeYear e.year + k) :
    BusinessDay usFederalHolidays e ↔ yearTest (daysBeforeYear e.year % 7) (PyDate.leapDay e.year) k = true := by
  have hy : 1 ≤ e.year ∧ e.year ≤ 9999 := ⟨e.bounds.1, e.bounds.2.1⟩
  unfold BusinessDay
  rw [us_observed_iff]
  generalize PyDate.leapDay e.year = l
  generalize hJ : daysBeforeYear e.year = J
  rw [hJ] at hk
  have hJ7 : J = 7 * (J / 7) + J % 7 := by omega
  generalize hq : J / 7 = q
  generalize hr : J % 7 = r
  rw [hq, hr] at hJ7
  clear hq hr hJ
  subst hJ7
  unfold yearTest
  simp only [Bool.and_eq_true, decide_eq_true_eq, Bool.not_eq_true', List.elem_eq_mem, List.mem_cons, List.not_mem_nil, or_false,
    decide_eq_false_iff_not]
  simp only [hk, add_assoc, adjOrd_shift, nextOrd_shift, add_right_inj]
  have hw : ¬ IsWeekend e ↔ (r + (k + 6)) % 7 ≤ 4 := by
    unfold IsWeekend PyDate.weekday
    rw [hk]; omega
  rw [hw]
  have : ∀ C D : Prop, (C ∧ ¬ ((1 ≤ e.year ∧ e.year ≤ 9999) ∧ D)) ↔ (C ∧ ¬ D) := by
    intro C D
    exact ⟨fun h => ⟨h.1, fun d => h.2 ⟨hy, d⟩⟩, fun h => ⟨h.1, fun d => h.2 d.2⟩⟩
  exact this _ _

/-- The number of US business days of a year, from the weekday of 1 January (0 is Monday) and the kind of year. -/
def yearCount (firstWeekday : Int) (leap : Bool) : Nat :=
  if leap then (if firstWeekday ≤ 3 then 251 else 250)
  else (if firstWeekday = 6 then 249 else 250)

theorem yearTest_count (r l : Nat) (hr : r < 7) (hl : l < 2) :
    (((List.range (365 + l)).filter (fun k : Nat => yearTest r l (k + 1))).length) = yearCount (r % 7) (l == 1) := by
  have key : ∀ r ∈ List.range 7, ∀ l ∈ List.range 2,
      (((List.range (365 + l)).filter (fun k : Nat => yearTest r l (k + 1))).length) = yearCount (r % 7) (l == 1) := by
    decide +kernel
  exact key r (List.mem_range.2 hr) l (List.mem_range.2 hl)

/-- C112. The US calendar has 249, 250 or 251 business days a year: 251 in leap years that begin on a Monday to Thursday, 249 in
common years that begin on a Sunday, 250 in all others. -/
theorem C112_year (a b : PyDate) (ha : a.month = 1 ∧ a.day = 1) (hb : b.month = 12 ∧ b.day = 31) (hab : a.year = b.year)
    (L : List PyDate) (h : generateBusinessDays usFederalHolidays a b = .ok L) :
    L.length = yearCount a.weekday (isLeap a.year) ∧ 249 ≤ L.length ∧ L.length ≤ 251 := by
  obtain ⟨s, m⟩ := C07_generate_business_days _ a b L h
  have hla := leapDay_eq_zero_or_one a.year
  have hao : a.ord = daysBeforeYear a.year + 1 := by
    unfold PyDate.ord; rw [ha.1, ha.2]
    have : daysBeforeMonth a.year 1 = 0 := by unfold daysBeforeMonth cumDays; simp
    omega
  have hbo : b.ord = daysBeforeYear a.year + 365 + PyDate.leapDay a.year := by
    unfold PyDate.ord; rw [hb.1, hb.2, ← hab]
    have h1 := dec_end a.year
    have h2 : daysInMonth a.year 12 = 31 := by unfold daysInMonth; simp
    omega
  have hyear : ∀ e : PyDate, a ≤ e → e ≤ b → e.year = a.year := by
    intro e h1 h2
    rw [PyDate.le_iff] at h1 h2
    have hs := daysBeforeYear_succ a.year
    have he := e.ord_year_bounds
    have hu := year_unique (n := e.ord) (y := a.year) (by omega) (by
      rw [hs]; omega)
    have hv := e.year_eq
    omega
  have hperm : (L.map (fun e => (e.ord - a.ord).toNat)).Perm ((List.range (365 + (PyDate.leapDay a.year).toNat)).filter
      (fun k : Nat => yearTest (daysBeforeYear a.year % 7) (PyDate.leapDay a.year) (k + 1))) := by
    refine (List.perm_ext_iff_of_nodup ?_ (List.nodup_range.filter _)).2 (fun k => ?_)
    · refine (List.nodup_map_iff_inj_on (s.imp ne_of_lt)).2 ?_
      intro x hx y hy hxy
      have h1 := PyDate.le_iff.1 ((m x).1 hx).1
      have h2 := PyDate.le_iff.1 ((m y).1 hy).1
      exact PyDate.ord_inj.1 (by omega)
    · rw [List.mem_map, List.mem_filter, List.mem_range]
      constructor
      · rintro ⟨e, he, rfl⟩
        obtain ⟨h1, h2, h3⟩ := (m e).1 he
        have hye := hyear e h1 h2
        rw [PyDate.le_iff] at h1 h2
        refine ⟨by omega, ?_⟩
        have := (yearTest_iff e (((e.ord - a.ord).toNat : Int) + 1) (by rw [hye]; omega)).1 h3
        rwa [hye] at this
      · rintro ⟨hk, ht⟩
        have hbb := b.ord_bounds
        have hab' := a.ord_bounds
        obtain ⟨e, -, he⟩ := PyDate.ofOrd?_some (a.ord + k) (by omega) (by omega)
        have h1 : a ≤ e := PyDate.le_iff.2 (by omega)
        have h2 : e ≤ b := PyDate.le_iff.2 (by omega)
        have hye := hyear e h1 h2
        refine ⟨e, (m e).2 ⟨h1, h2, (yearTest_iff e (k + 1) (by rw [hye]; omega)).2 (by rw [hye]; exact ht)⟩, by omega⟩
  have hlen := hperm.length_eq
  rw [List.length_map] at hlen
  have hcount : L.length = yearCount a.weekday (isLeap a.year) := by
    rw [hlen]
    have key := yearTest_count (daysBeforeYear a.year % 7).toNat (PyDate.leapDay a.year).toNat (by omega) (by omega)
    have e1 : (((daysBeforeYear a.year % 7).toNat : Nat) : Int) = daysBeforeYear a.year % 7 := by omega
    have e2 : (((PyDate.leapDay a.year).toNat : Nat) : Int) = PyDate.leapDay a.year := by omega
    rw [e1, e2] at key
    rw [key]
    have hw : a.weekday = daysBeforeYear a.year % 7 % 7 := by
      unfold PyDate.weekday; rw [hao]; omega
    have hl : ((PyDate.leapDay a.year).toNat == 1) = isLeap a.year := by
      unfold PyDate.leapDay
      cases isLeap a.year <;> rfl
    rw [hw, hl]
  refine ⟨hcount, ?_⟩
  rw [hcount]
  unfold yearCount
  split_ifs <;> omega

/-- Concrete cases for C112_year: 2024 has 251 business days, 2023 has 249, 2022 (whose New Year's Day was observed, unseen by the
code, on 31 December 2021) has 250. -/
example : (∃ L, generateBusinessDays usFederalHolidays (D 2024 1 1) (D 2024 12 31) = .ok L ∧ L.length = 251) ∧
    (∃ L, generateBusinessDays usFederalHolidays (D 2023 1 1) (D 2023 12 31) = .ok L ∧ L.length = 249) ∧
    (∃ L, generateBusinessDays usFederalHolidays (D 2022 1 1) (D 2022 12 31) = .ok L ∧ L.length = 250) := by
  refine ⟨?_, ?_, ?_⟩
  · obtain ⟨L, hL⟩ := (C112_us_listable (D 2024 1 1) (D 2024 12 31) (by decide +kernel)).2 (by decide +kernel)
    refine ⟨L, hL, ?_⟩
    rw [(C112_year _ _ (by decide +kernel) (by decide +kernel) (by decide +kernel) L hL).1]
    decide +kernel
  · obtain ⟨L, hL⟩ := (C112_us_listable (D 2023 1 1) (D 2023 12 31) (by decide +kernel)).2 (by decide +kernel)
    refine ⟨L, hL, ?_⟩
    rw [(C112_year _ _ (by decide +kernel) (by decide +kernel) (by decide +kernel) L hL).1]
    decide +kernel
  · obtain ⟨L, hL⟩ := (C112_us_listable (D 2022 1 1) (D 2022 12 31) (by decide +kernel)).2 (by decide +kernel)
    refine ⟨L, hL, ?_⟩
    rw [(C112_year _ _ (by decide +kernel) (by decide +kernel) (by decide +kernel) L hL).1]
    decide +kernel

/-- The year 9999 cannot be listed. -/
example : ¬ ∃ L, generateBusinessDays usFederalHolidays (D 9999 1 1) (D 9999 12 31) = .ok L := by
  rw [C112_us_listable _ _ (by decide +kernel)]
  decide +kernel

/-- The bounds of C112_shift_lower, C112_shift_upper and C112_settlement_window are attained: a trade on Wednesday 22 November 2023
settles T+3 on Tuesday the 28th, six days later; five business days from Monday 6 March 2023 are seven days. -/
example : calculateSettlementDate usFederalHolidays (D 2023 11 22) .tPlusThreeBusiness = .ok (D 2023 11 28) ∧
    (D 2023 11 28).ord = (D 2023 11 22).ord + 3 + 3 ∧
    addBusinessDays usFederalHolidays (D 2023 3 6) ((5 : Nat) : Int) = .ok (D 2023 3 13) ∧
    (D 2023 3 13).ord = (D 2023 3 6).ord + 7 * (5 / 5 : Nat) := by decide +kernel

/-- Concrete case for C112_split and C112_weeks: two weeks around Thanksgiving 2023, split after the holiday. -/
example : ∃ L L₁ L₂, generateBusinessDays usFederalHolidays (D 2023 11 20) (D 2023 12 3) = .ok L ∧
    generateBusinessDays usFederalHolidays (D 2023 11 20) (D 2023 11 23) = .ok L₁ ∧
    generateBusinessDays usFederalHolidays (D 2023 11 24) (D 2023 12 3) = .ok L₂ ∧ L = L₁ ++ L₂ ∧ 8 ≤ L.length ∧ L.length ≤ 10 := by
  obtain ⟨L, hL⟩ := (C112_us_listable (D 2023 11 20) (D 2023 12 3) (by decide +kernel)).2 (by decide +kernel)
  obtain ⟨b', L₁, L₂, hb, h₁, h₂, e⟩ := C112_split _ _ (D 2023 11 23) _ (by decide +kernel) (by decide +kernel) L hL
  have : b' = D 2023 11 24 := by
    have h := (show (D 2023 11 23).addDays 1 = .ok (D 2023 11 24) by decide +kernel)
    rw [h] at hb; injection hb with hb; exact hb.symm
  subst this
  obtain ⟨w1, w2⟩ := C112_weeks (D 2023 11 20) (D 2023 12 3) 2 (by decide +kernel) L hL
  exact ⟨L, L₁, L₂, hL, h₁, h₂, e, w1, w2⟩

end Verif.Props
