/- Properties C22-C26: key rates and key-rate collections. -/
import Verif.Spec.KeyRate
import Verif.Lemmas.KeyRate
import Verif.Lemmas.DayCount
import Verif.Props.Scheduling
import Verif.Props.Cashflow

namespace Verif.Props
open Verif Verif.Spec Verif.DayCount Verif.KeyRateCollection

/-! ## C22 -/

/-- C22. A key rate with both neighbours is its bump times the triangular weight. -/
theorem C22_hat (dcc : DayCountConvention) (τ : PyDate → ℚ) (hτ : timeAxis dcc = some τ) (p m n : PyDate) (hpm : p < m)
    (hmn : m < n) (hp : AxisOk dcc p) (b : ℚ) (d : PyDate) :
    (KeyRate.mk dcc m (some p) (some n) b).call d = .ok (b * hat τ p m n d) := by
  have t1 := axis_strictMono hτ hpm
  have t2 := axis_strictMono hτ hmn
  simp only [KeyRate.call, hat]
  by_cases h1 : n ≤ d ∨ d ≤ p
  · rw [if_pos h1, if_pos (Or.symm h1)]; simp
  · rw [if_neg h1, if_neg (fun h => h1 (Or.symm h))]
    push Not at h1
    split_ifs with h2
    · rw [accrual_axis hτ (le_of_lt h1.2) hp, accrual_axis hτ (le_of_lt hpm) hp, ok_bind, ok_bind,
        pyDiv_of_ne (by linarith), ok_bind, mul_comm]
    · push Not at h2
      rw [accrual_axis hτ (le_of_lt h1.1) (AxisOk_mono (le_of_lt h1.2) hp),
        accrual_axis hτ (le_of_lt hmn) (AxisOk_mono (le_of_lt hpm) hp), ok_bind, ok_bind,
        pyDiv_of_ne (by linarith), ok_bind, mul_comm]

/-- C22. The last key rate (no next date). -/
theorem C22_no_next (dcc : DayCountConvention) (τ : PyDate → ℚ) (hτ : timeAxis dcc = some τ) (p m : PyDate) (hpm : p < m)
    (hp : AxisOk dcc p) (b : ℚ) (d : PyDate) :
    (KeyRate.mk dcc m (some p) none b).call d = .ok (b * rampUp τ p m d) := by
  have t1 := axis_strictMono hτ hpm
  simp only [KeyRate.call, rampUp]
  by_cases h1 : m ≤ d
  · rw [if_pos h1, if_neg (not_le.2 (lt_of_lt_of_le hpm h1)), if_pos h1]; simp
  · rw [if_neg h1]
    by_cases h2 : d ≤ p
    · rw [if_pos h2, if_pos h2]; simp
    · rw [if_neg h2, if_neg h2, if_neg h1]
      push Not at h1 h2
      rw [accrual_axis hτ (le_of_lt h2) hp, accrual_axis hτ (le_of_lt hpm) hp, ok_bind, ok_bind,
        pyDiv_of_ne (by linarith), ok_bind, mul_comm]

/-- C22. The first key rate (no prior date). -/
theorem C22_no_prior (dcc : DayCountConvention) (τ : PyDate → ℚ) (hτ : timeAxis dcc = some τ) (m n : PyDate) (hmn : m < n)
    (hm : AxisOk dcc m) (b : ℚ) (d : PyDate) :
    (KeyRate.mk dcc m none (some n) b).call d = .ok (b * rampDown τ m n d) := by
  have t1 := axis_strictMono hτ hmn
  simp only [KeyRate.call, rampDown]
  by_cases h1 : d ≤ m
  · rw [if_pos h1, if_pos h1]; simp
  · rw [if_neg h1, if_neg h1]
    by_cases h2 : n ≤ d
    · rw [if_pos h2, if_pos h2]; simp
    · rw [if_neg h2, if_neg h2]
      push Not at h1 h2
      rw [accrual_axis hτ (le_of_lt h2) (AxisOk_mono (le_of_lt h1) hm), accrual_axis hτ (le_of_lt hmn) hm, ok_bind,
        ok_bind, pyDiv_of_ne (by linarith), ok_bind]

/-- C22. The shape of the bump function: zero outside `(p, n)`, the bump at the key date, between 0 and the bump
everywhere, strictly rising on `[p, m]` and strictly falling on `[m, n]` (for a positive bump). -/
theorem C22_shape (dcc : DayCountConvention) (hdcc : dcc ≠ .thirty360 ∧ dcc ≠ .unknown) (p m n : PyDate) (hpm : p < m)
    (hmn : m < n) (hp : AxisOk dcc p) (b : ℚ) (hb : 0 < b) :
    ∃ f : PyDate → ℚ, (∀ d, (KeyRate.mk dcc m (some p) (some n) b).call d = .ok (f d)) ∧
      (∀ d, d ≤ p → f d = 0) ∧ (∀ d, n ≤ d → f d = 0) ∧ f m = b ∧ (∀ d, 0 ≤ f d ∧ f d ≤ b) ∧
      (∀ d e, p ≤ d → d < e → e ≤ m → f d < f e) ∧ (∀ d e, m ≤ d → d < e → e ≤ n → f e < f d) := by
  obtain ⟨τ, hτ⟩ : ∃ τ, timeAxis dcc = some τ := by
    cases dcc <;> simp [timeAxis] at hdcc ⊢
  have t1 := axis_strictMono hτ hpm
  have t2 := axis_strictMono hτ hmn
  have p1 : 0 < τ m - τ p := by linarith
  have p2 : 0 < τ n - τ m := by linarith
  refine ⟨fun d => b * hat τ p m n d, fun d => C22_hat dcc τ hτ p m n hpm hmn hp b d, ?_, ?_, ?_, ?_, ?_, ?_⟩
  · intro d hd; simp [hat, hd]
  · intro d hd; simp [hat, hd]
  · simp only [hat]
    rw [if_neg (by push Not; exact ⟨hpm, hmn⟩), if_pos (le_refl m), div_self (by linarith), mul_one]
  · intro d
    have hw : 0 ≤ hat τ p m n d ∧ hat τ p m n d ≤ 1 := by
      simp only [hat]
      split_ifs with h1 h2
      · exact ⟨le_refl _, by norm_num⟩
      · push Not at h1
        have a1 := axis_strictMono hτ h1.1
        have a2 := axis_mono hτ h2
        exact ⟨div_nonneg (by linarith) (by linarith), (div_le_one p1).2 (by linarith)⟩
      · push Not at h1 h2
        have a1 := axis_strictMono hτ h1.2
        have a2 := axis_strictMono hτ h2
        exact ⟨div_nonneg (by linarith) (by linarith), (div_le_one p2).2 (by linarith)⟩
    constructor
    · exact mul_nonneg (le_of_lt hb) hw.1
    · nlinarith [hw.2]
  · intro d e hd hde hem
    apply mul_lt_mul_of_pos_left _ hb
    have hpe := lt_of_le_of_lt hd hde
    have he : hat τ p m n e = (τ e - τ p) / (τ m - τ p) := by
      simp only [hat]
      rw [if_neg (by push Not; exact ⟨hpe, lt_of_le_of_lt hem hmn⟩), if_pos hem]
    have hdv : hat τ p m n d = (τ d - τ p) / (τ m - τ p) := by
      rcases lt_or_eq_of_le hd with hd | rfl
      · simp only [hat]
        rw [if_neg (by push Not; exact ⟨hd, lt_trans (lt_of_lt_of_le hde hem) hmn⟩),
          if_pos (le_of_lt (lt_of_lt_of_le hde hem))]
      · simp [hat]
    rw [he, hdv]
    exact div_lt_div_of_pos_right (by linarith [axis_strictMono hτ hde]) p1
  · intro d e hd hde hen
    apply mul_lt_mul_of_pos_left _ hb
    have hdv : hat τ p m n d = (τ n - τ d) / (τ n - τ m) := by
      rcases lt_or_eq_of_le hd with hd | rfl
      · simp only [hat]
        rw [if_neg (by push Not; exact ⟨lt_trans hpm hd, lt_of_lt_of_le hde hen⟩), if_neg (not_le.2 hd)]
      · simp only [hat]
        rw [if_neg (by push Not; exact ⟨hpm, hmn⟩), if_pos (le_refl m), div_self (by linarith), div_self (by linarith)]
    have he : hat τ p m n e = (τ n - τ e) / (τ n - τ m) := by
      rcases lt_or_eq_of_le hen with hen | rfl
      · simp only [hat]
        rw [if_neg (by push Not; exact ⟨lt_trans hpm (lt_of_le_of_lt hd hde), hen⟩),
          if_neg (not_le.2 (lt_of_le_of_lt hd hde))]
      · simp [hat]
    rw [he, hdv]
    exact div_lt_div_of_pos_right (by linarith [axis_strictMono hτ hde]) p2

/-- C22. The same through the public constructor and setters: `KeyRate(dcc, m, p, n)` bumps by one basis point, `set_bump_val(b)`
rescales it, `set_prior_date` and `set_next_date` move a neighbour, and raise ValueError (changing nothing) exactly for a
neighbour on the wrong side of the key date. -/
theorem C22_constructor (dcc : DayCountConvention) (τ : PyDate → ℚ) (hτ : timeAxis dcc = some τ) (p m n : PyDate)
    (hpm : p < m) (hmn : m < n) (hp : AxisOk dcc p) (d : PyDate) :
    (KeyRate.create dcc m (some p) (some n)).call d = .ok (1 / 10000 * hat τ p m n d) ∧
    (KeyRate.create dcc m (some p) none).call d = .ok (1 / 10000 * rampUp τ p m d) ∧
    (KeyRate.create dcc m none (some n)).call d = .ok (1 / 10000 * rampDown τ m n d) ∧
    (∀ b, ((KeyRate.create dcc m (some p) (some n)).setBumpVal b).call d = .ok (b * hat τ p m n d)) ∧
    (∀ prior next, ∃ k, (KeyRate.create dcc m prior next).setPriorDate (some p) = .ok k ∧
      ∃ k', k.setNextDate (some n) = .ok k' ∧ k'.call d = .ok (1 / 10000 * hat τ p m n d)) ∧
    (∀ prior next x, (KeyRate.create dcc m prior next).setPriorDate (some x) = .error .valueError ↔ m ≤ x) ∧
    (∀ prior next x, (KeyRate.create dcc m prior next).setNextDate (some x) = .error .valueError ↔ x ≤ m) := by
  refine ⟨C22_hat dcc τ hτ p m n hpm hmn hp _ d, C22_no_next dcc τ hτ p m hpm hp _ d,
    C22_no_prior dcc τ hτ m n hmn (AxisOk_mono (le_of_lt hpm) hp) _ d,
    fun b => C22_hat dcc τ hτ p m n hpm hmn hp b d, ?_, ?_, ?_⟩
  · intro prior next
    refine ⟨⟨dcc, m, some p, next, oneBasisPoint⟩, ?_, ⟨dcc, m, some p, some n, oneBasisPoint⟩, ?_,
      C22_hat dcc τ hτ p m n hpm hmn hp _ d⟩
    · simp [KeyRate.setPriorDate, KeyRate.create, not_le.2 hpm]
    · simp [KeyRate.setNextDate, not_le.2 hmn]
  · intro prior next x
    simp only [KeyRate.setPriorDate, KeyRate.create]
    split_ifs with h <;> simp [h]
  · intro prior next x
    simp only [KeyRate.setNextDate, KeyRate.create]
    split_ifs with h <;> simp [h]

example : (KeyRate.create .act365 (D 2024 1 1) (some (D 2023 1 1)) (some (D 2025 1 1))).call (D 2023 7 1) =
    .ok (1 / 10000 * (181 / 365)) := by decide +kernel

/-- C22. A key rate without neighbours is the bump up to its key date and raises TypeError after it, although the last
`match` case and the setter's docstring promise a constant. -/
theorem C22_alone (dcc : DayCountConvention) (m : PyDate) (b : ℚ) (d : PyDate) :
    (d ≤ m → (KeyRate.mk dcc m none none b).call d = .ok b) ∧
    (m < d → (KeyRate.mk dcc m none none b).call d = .error .typeError) := by
  constructor
  · intro h; simp [KeyRate.call, h]
  · intro h; simp [KeyRate.call, not_le.2 h]

/-- C22. Under 30/360 the bump at the key date itself can fail: nothing accrues from the 30th to the 31st. -/
theorem C22_thirty360_raises (b : ℚ) :
    (KeyRate.mk .thirty360 (D 2023 1 31) (some (D 2023 1 30)) (some (D 2023 3 1)) b).call (D 2023 1 31) =
      .error .zeroDivisionError := by
  have h1 : ¬ (D 2023 3 1 ≤ D 2023 1 31 ∨ D 2023 1 31 ≤ D 2023 1 30) := by decide +kernel
  simp only [KeyRate.call]
  rw [if_neg h1, if_pos (le_refl _), accrual_eq (by decide +kernel)]
  simp only [thirty360, show thirty360Days (D 2023 1 30) (D 2023 1 31) = 0 by decide +kernel, ok_bind]
  simp [pyDiv]

example : D 2024 1 1 < D 2025 1 1 ∧ D 2025 1 1 < D 2027 1 1 ∧ AxisOk .actAct (D 2024 1 1) := by decide +kernel
/-- Half of a one-basis-point bump half way to the next key date. -/
example : (KeyRate.create .act360 (D 2023 1 1) (some (D 2022 1 1)) (some (D 2023 1 11))).call (D 2023 1 6) =
    .ok (1 / 20000) := by
  unfold KeyRate.create
  rw [C22_hat .act360 _ rfl _ _ _ (by decide +kernel) (by decide +kernel) (by decide +kernel)]
  simp only [hat]
  rw [if_neg (by decide +kernel), if_neg (by decide +kernel),
    show (D 2023 1 11).ord = 738531 by decide +kernel, show (D 2023 1 6).ord = 738526 by decide +kernel,
    show (D 2023 1 1).ord = 738521 by decide +kernel]
  norm_num [oneBasisPoint]

/-! ## C23 -/

/-- Convention and key date of the object at an address. -/
def rateId (h : KRHeap) (i : Nat) : RateId := ((h i).dcc, (h i).keyDate)

/-- Every key rate of the collection has the key dates of its neighbours as prior and next dates. -/
def Wired (h : KRHeap) (ids : List Nat) : Prop :=
  ∀ (k i : Nat), ids[k]? = some i →
    (h i).prior = (if k = 0 then none else (ids[k - 1]?).map (fun j => (h j).keyDate)) ∧
    (h i).next = (ids[k + 1]?).map (fun j => (h j).keyDate)

/-- Strictly increasing key dates. -/
def Sorted (h : KRHeap) (ids : List Nat) : Prop := ids.Pairwise (fun a b => (h a).keyDate < (h b).keyDate)

theorem create_spec (h : KRHeap) (ids : List Nat) :
    (ids ≠ [] ∧ DateSorted (fun j => (h j).keyDate) (pySorted (fun i => (h i).keyDate) ids) ∧
      ∃ h', create h ids = (.ok ⟨pySorted (fun i => (h i).keyDate) ids, 0⟩, h') ∧ SameRates h h' ∧
        (∀ j, j ∉ ids → h' j = h j) ∧ Wired h' (pySorted (fun i => (h i).keyDate) ids)) ∨
    (¬ (ids ≠ [] ∧ DateSorted (fun j => (h j).keyDate) (pySorted (fun i => (h i).keyDate) ids)) ∧
      ∃ h', create h ids = (.error .valueError, h') ∧ SameRates h h' ∧ (∀ j, j ∉ ids → h' j = h j)) := by
  have hperm := pySorted_perm (fun i => (h i).keyDate) ids
  have hnil : pySorted (fun i => (h i).keyDate) ids ≠ [] ↔ ids ≠ [] := by
    constructor
    · rintro h1 rfl; exact h1 rfl
    · intro h1 h2; rw [h2] at hperm; exact h1 (List.Perm.eq_nil hperm.symm)
  unfold create
  rcases setDates_spec h (pySorted (fun i => (h i).keyDate) ids) with ⟨hne, hds, h1, e1, s1, n1, _⟩ | ⟨hbad, h1, e1, s1, n1⟩
  · left
    refine ⟨hnil.1 hne, hds, ?_⟩
    have hdate : ∀ j, (h1 j).keyDate = (h j).keyDate := fun j => (s1 j).1
    rcases setDates_spec h1 (pySorted (fun i => (h i).keyDate) ids) with
      ⟨_, _, h2, e2, s2, n2, w2⟩ | ⟨hbad, _⟩
    · refine ⟨h2, ?_, s1.trans s2, ?_, ?_⟩
      · simp only [e1, KROutcome.andThen, e2]
      · intro j hj
        rw [n2 j (fun hm => hj (hperm.mem_iff.1 hm)), n1 j (fun hm => hj (hperm.mem_iff.1 hm))]
      · intro k i hk
        rw [w2 k i hk]
        have hf : (fun j => (h2 j).keyDate) = (fun j => (h1 j).keyDate) := funext fun j => (s2 j).1
        rw [hf]
        exact ⟨rfl, rfl⟩
    · exact absurd ⟨hne, by simpa only [hdate] using hds⟩ hbad
  · right
    refine ⟨fun hh => hbad ⟨hnil.2 hh.1, hh.2⟩, h1, ?_, s1, ?_⟩
    · simp only [e1, KROutcome.andThen]
    · intro j hj; exact n1 j (fun hm => hj (hperm.mem_iff.1 hm))

theorem dateSorted_pySorted (h : KRHeap) (ids : List Nat) :
    DateSorted (fun j => (h j).keyDate) (pySorted (fun i => (h i).keyDate) ids) ↔
      (ids.map (fun i => (h i).keyDate)).Nodup := by
  have hp := (pySorted_perm (fun i => (h i).keyDate) ids).map (fun i => (h i).keyDate)
  rw [← hp.nodup_iff, List.nodup_iff_pairwise_ne, List.pairwise_map]
  have hs : List.Pairwise (fun a b => (h a).keyDate ≤ (h b).keyDate) (pySorted (fun i => (h i).keyDate) ids) :=
    pySorted_sorted (fun i => (h i).keyDate) ids
  unfold DateSorted
  constructor
  · intro hh; exact hh.imp (fun hab => ne_of_lt hab)
  · intro hh; exact (hs.and hh).imp (fun hab => lt_of_le_of_ne hab.1 hab.2)

/-- C23. The constructor raises (ValueError) exactly when there is no key rate or two share a key date. -/
theorem C23_raises_iff (h : KRHeap) (ids : List Nat) :
    ((create h ids).1 = .error .valueError ↔ ids = [] ∨ ¬ (ids.map (fun i => (h i).keyDate)).Nodup) ∧
    ((∃ c, (create h ids).1 = .ok c) ↔ ids ≠ [] ∧ (ids.map (fun i => (h i).keyDate)).Nodup) := by
  rcases create_spec h ids with ⟨hne, hds, h', e, _⟩ | ⟨hbad, h', e, _⟩
  · rw [dateSorted_pySorted] at hds
    rw [e]; simp [hne, hds]
  · rw [dateSorted_pySorted] at hbad
    rw [e]
    by_cases hn : ids = []
    · simp [hn]
    · simp only [ne_eq, hn, not_false_eq_true, true_and] at hbad
      simp [hbad]

/-- C23. A successfully built collection holds the given key rates (the same objects), sorted by date, each wired to its
neighbours; conventions, key dates and bumps are untouched, as are all other key rates. -/
theorem C23_construction (h : KRHeap) (ids : List Nat) (c : KeyRateCollection) (h' : KRHeap)
    (hc : create h ids = (.ok c, h')) :
    c.keyRates.Perm ids ∧ Sorted h' c.keyRates ∧ Wired h' c.keyRates ∧
    (∀ j, (h' j).keyDate = (h j).keyDate ∧ (h' j).dcc = (h j).dcc ∧ (h' j).bump = (h j).bump) ∧
    (∀ j, j ∉ ids → h' j = h j) := by
  rcases create_spec h ids with ⟨_, hds, h1, e, hs, hn, hw⟩ | ⟨_, h1, e, _⟩
  · rw [hc] at e; cases e
    refine ⟨pySorted_perm _ _, ?_, hw, hs, hn⟩
    have hf : (fun j => (h' j).keyDate) = (fun j => (h j).keyDate) := funext fun j => (hs j).1
    have : Sorted h' (pySorted (fun i => (h i).keyDate) ids) ↔
        DateSorted (fun j => (h' j).keyDate) (pySorted (fun i => (h i).keyDate) ids) := Iff.rfl
    rw [this, hf]; exact hds
  · rw [hc] at e; cases e

/-- C23. The order in which the key rates are supplied does not matter. -/
theorem C23_order_independent (h : KRHeap) (ids ids' : List Nat) (hp : ids.Perm ids') (c : KeyRateCollection)
    (h' : KRHeap) (hc : create h ids = (.ok c, h')) : create h ids' = (.ok c, h') := by
  have hds : (ids.map (fun i => (h i).keyDate)).Nodup := ((C23_raises_iff h ids).2.1 ⟨c, by rw [hc]⟩).2
  have hinj : ∀ a ∈ ids, ∀ b ∈ ids, (h a).keyDate = (h b).keyDate → a = b := fun a ha b hb hab =>
    List.inj_on_of_nodup_map hds ha hb hab
  have : pySorted (fun i => (h i).keyDate) ids = pySorted (fun i => (h i).keyDate) ids' := by
    have hs1 := (dateSorted_pySorted h ids).2 hds
    have hs2 := (dateSorted_pySorted h ids').2 ((hp.map _).nodup_iff.1 hds)
    refine List.Perm.eq_of_pairwise (le := fun a b => (h a).keyDate < (h b).keyDate) ?_ hs1 hs2
      ((pySorted_perm _ ids).trans (hp.trans (pySorted_perm _ ids').symm))
    intro a b _ _ h1 h2
    exact absurd h1 (lt_asymm h2)
  unfold create at hc ⊢
  rw [← this]; exact hc

/-- Three one-basis-point key rates, two of them after the first. -/
def exampleHeap : KRHeap := fun i =>
  match i with
  | 0 => KeyRate.create .act360 (D 2025 1 1) none none
  | 1 => KeyRate.create .act360 (D 2030 1 1) none none
  | _ => KeyRate.create .act360 (D 2024 1 1) none none

example : ∃ c h', create exampleHeap [0, 1, 2] = (.ok c, h') := by
  obtain ⟨c, hc⟩ := (C23_raises_iff exampleHeap [0, 1, 2]).2.2 (by decide +kernel)
  exact ⟨c, _, Prod.ext hc rfl⟩
example : (create exampleHeap [0, 1, 3, 2]).1 = .error .valueError :=
  (C23_raises_iff exampleHeap [0, 1, 3, 2]).1.2 (by decide +kernel)

/-! ## C24 -/

/-- Share of the bump carried by positions `k, k+1, …`. -/
def tailWeight (τ : PyDate → ℚ) (dates : List PyDate) (d : PyDate) (k : Nat) : ℚ :=
  if k = 0 then 1
  else match dates[k - 1]?, dates[k]? with
    | some p, some m => rampUp τ p m d
    | _, _ => 0

theorem hat_eq_ramps (τ : PyDate → ℚ) (p m n : PyDate) (hpm : p < m) (hmn : m < n) (hτ' : τ p < τ m) (hτ : τ m < τ n)
    (d : PyDate) : hat τ p m n d = rampUp τ p m d - rampUp τ m n d := by
  have hne : τ n - τ m ≠ 0 := by linarith
  simp only [hat, rampUp]
  by_cases h1 : d ≤ p
  · have h2 : d ≤ m := le_trans h1 (le_of_lt hpm)
    simp [h1, h2]
  · by_cases h2 : n ≤ d
    · have h3 : ¬ d ≤ m := not_le.2 (lt_of_lt_of_le hmn h2)
      have h4 : m ≤ d := le_trans (le_of_lt hmn) h2
      simp [h1, h2, h3, h4]
    · rw [if_neg (by tauto), if_neg h1]
      by_cases h3 : d ≤ m
      · rw [if_pos h3, if_pos h3]
        by_cases h4 : m ≤ d
        · have : d = m := le_antisymm h3 h4
          subst this
          rw [if_pos (le_refl d), div_self (by linarith)]; norm_num
        · rw [if_neg h4]; ring
      · rw [if_neg h3, if_neg h3, if_neg h2, if_pos (le_of_lt (not_le.1 h3))]
        field_simp
        ring

theorem rampDown_eq (τ : PyDate → ℚ) (m n : PyDate) (hmn : m < n) (hτ : τ m < τ n) (d : PyDate) :
    rampDown τ m n d = 1 - rampUp τ m n d := by
  have hne : τ n - τ m ≠ 0 := by linarith
  simp only [rampDown, rampUp]
  by_cases h1 : d ≤ m
  · simp [h1]
  · rw [if_neg h1, if_neg h1]
    by_cases h2 : n ≤ d
    · simp [h2]
    · rw [if_neg h2, if_neg h2]; field_simp; ring

theorem call_weight (h : KRHeap) (ids : List Nat) (hs : Sorted h ids) (hw : Wired h ids) (hlen : 2 ≤ ids.length)
    (dcc : DayCountConvention) (τ : PyDate → ℚ) (hτ : timeAxis dcc = some τ) (b : ℚ)
    (hall : ∀ i ∈ ids, (h i).dcc = dcc ∧ (h i).bump = b ∧ AxisOk dcc (h i).keyDate) (d : PyDate) (k i : Nat)
    (hk : ids[k]? = some i) :
    (h i).call d = .ok (b * (tailWeight τ (ids.map (fun j => (h j).keyDate)) d k -
      tailWeight τ (ids.map (fun j => (h j).keyDate)) d (k + 1))) := by
  obtain ⟨hp, hn⟩ := hw k i hk
  have hi := hall i (List.mem_of_getElem? hk)
  have hklt : k < ids.length := by
    rcases Nat.lt_or_ge k ids.length with h | h
    · exact h
    · rw [List.getElem?_eq_none h] at hk; cases hk
  have hgood := dateSorted_iff.1 (show DateSorted (fun j => (h j).keyDate) ids from hs) k hklt
  have hrec : h i = KeyRate.mk dcc (h i).keyDate (h i).prior (h i).next b := by
    have := hi.1; have := hi.2.1
    cases hri : h i; simp_all
  have hsucc : tailWeight τ (ids.map (fun j => (h j).keyDate)) d (k + 1) =
      match (h i).next with
      | some n => rampUp τ (h i).keyDate n d
      | none => 0 := by
    simp only [tailWeight, Nat.add_one_ne_zero, if_false, Nat.add_sub_cancel, List.getElem?_map, hk, Option.map_some]
    rw [hn]
    cases ids[k + 1]? <;> rfl
  have hcur : tailWeight τ (ids.map (fun j => (h j).keyDate)) d k =
      match (h i).prior with
      | some p => rampUp τ p (h i).keyDate d
      | none => 1 := by
    rw [hp]
    by_cases h0 : k = 0
    · simp [tailWeight, h0]
    · obtain ⟨a, ha⟩ : ∃ a, ids[k - 1]? = some a := ⟨_, List.getElem?_eq_getElem (by omega)⟩
      simp [tailWeight, h0, List.getElem?_map, hk, ha]
  rw [hsucc, hcur, hrec]
  simp only
  by_cases h0 : k = 0
  · subst h0
    rw [if_pos rfl] at hp
    obtain ⟨a, ha⟩ : ∃ a, ids[0 + 1]? = some a := ⟨_, List.getElem?_eq_getElem (by omega)⟩
    rw [ha] at hn
    simp only [Option.map_some] at hn
    have hlt := hgood.1 i a hk ha
    simp only [hp, hn]
    rw [C22_no_prior dcc τ hτ _ _ hlt hi.2.2, rampDown_eq τ _ _ hlt (axis_strictMono hτ hlt)]
  · rw [if_neg h0] at hp
    obtain ⟨a, ha⟩ : ∃ a, ids[k - 1]? = some a := ⟨_, List.getElem?_eq_getElem (by omega)⟩
    rw [ha] at hp
    simp only [Option.map_some] at hp
    have hlt := hgood.2 a i (by omega) ha hk
    have hax := (hall a (List.mem_of_getElem? ha)).2.2
    rcases hb : ids[k + 1]? with _ | c
    · rw [hb] at hn
      simp only [Option.map_none] at hn
      simp only [hp, hn]
      rw [C22_no_next dcc τ hτ _ _ hlt hax, sub_zero]
    · rw [hb] at hn
      simp only [Option.map_some] at hn
      have hlt2 := hgood.1 i c hk hb
      simp only [hp, hn]
      rw [C22_hat dcc τ hτ _ _ _ hlt hlt2 hax,
        hat_eq_ramps τ _ _ _ hlt hlt2 (axis_strictMono hτ hlt) (axis_strictMono hτ hlt2)]

theorem combined_eq (h : KRHeap) (ids : List Nat) (hs : Sorted h ids) (hw : Wired h ids) (hlen : 2 ≤ ids.length)
    (dcc : DayCountConvention) (hdcc : dcc ≠ .thirty360 ∧ dcc ≠ .unknown) (b : ℚ)
    (hall : ∀ i ∈ ids, (h i).dcc = dcc ∧ (h i).bump = b ∧ AxisOk dcc (h i).keyDate) (d : PyDate) (it : Nat) :
    KeyRateCollection.call h ⟨ids, it⟩ d = .ok b := by
  obtain ⟨τ, hτ⟩ : ∃ τ, timeAxis dcc = some τ := by
    cases dcc <;> simp [timeAxis] at hdcc ⊢
  have hdrop : ∀ j k, k + j = ids.length →
      pySum (fun i => (h i).call d) (ids.drop k) = .ok (b * tailWeight τ (ids.map (fun j => (h j).keyDate)) d k) := by
    intro j
    induction j with
    | zero =>
      intro k hk
      rw [List.drop_eq_nil_of_le (by omega)]
      have : tailWeight τ (ids.map (fun j => (h j).keyDate)) d k = 0 := by
        have h1 : (ids.map (fun j => (h j).keyDate))[k]? = none := List.getElem?_eq_none (by simp; omega)
        unfold tailWeight
        rw [if_neg (by omega), h1]
        cases (ids.map (fun j => (h j).keyDate))[k - 1]? <;> rfl
      rw [this, mul_zero]; rfl
    | succ j ih =>
      intro k hk
      have hklt : k < ids.length := by omega
      rw [List.drop_eq_getElem_cons hklt]
      have h1 := ih (k + 1) (by omega)
      have h2 := call_weight h ids hs hw hlen dcc τ hτ b hall d k _ (List.getElem?_eq_getElem hklt)
      unfold pySum at h1 ⊢
      rw [bind_ok] at h1
      obtain ⟨xs, hx, hsum⟩ := h1
      simp only [collect, h2, hx, ok_bind, List.sum_cons]
      have hsum' : xs.sum = b * tailWeight τ (ids.map (fun j => (h j).keyDate)) d (k + 1) := by
        injection hsum
      congr 1
      rw [hsum']
      ring
  have := hdrop ids.length 0 (by omega)
  rw [List.drop_zero] at this
  unfold KeyRateCollection.call
  rw [this]
  simp [tailWeight]

/-- C24. The key rates of a collection of two or more (one convention, one bump, not 30/360) sum to a parallel shift: the
combined adjustment is the bump at every date. -/
theorem C24_parallel_shift_partial (h : KRHeap) (ids : List Nat) (c : KeyRateCollection) (h' : KRHeap)
    (hc : create h ids = (.ok c, h')) (hlen : 2 ≤ ids.length) (dcc : DayCountConvention)
    (hdcc : dcc ≠ .thirty360 ∧ dcc ≠ .unknown) (b : ℚ)
    (hall : ∀ i ∈ ids, (h i).dcc = dcc ∧ (h i).bump = b ∧ AxisOk dcc (h i).keyDate) (d : PyDate) :
    KeyRateCollection.call h' c d = .ok b := by
  obtain ⟨hp, hs, hw, hsame, _⟩ := C23_construction h ids c h' hc
  refine combined_eq h' c.keyRates hs hw (by rw [hp.length_eq]; exact hlen) dcc hdcc b ?_ d c.iterIndex
  intro i hi
  have := hall i (hp.mem_iff.1 hi)
  rw [(hsame i).1, (hsame i).2.1, (hsame i).2.2]
  exact this

theorem setBumpLoop_get (b : ℚ) : ∀ (ids : List Nat) (h : KRHeap) (j : Nat),
    setBumpLoop h b ids j = if j ∈ ids then (h j).setBumpVal b else h j
  | [], h, j => by simp [setBumpLoop]
  | i :: ids, h, j => by
    have ih := setBumpLoop_get b ids (Function.update h i ((h i).setBumpVal b)) j
    have : setBumpLoop h b (i :: ids) j = setBumpLoop (Function.update h i ((h i).setBumpVal b)) b ids j := rfl
    rw [this, ih]
    by_cases hji : j = i
    · subst hji; simp [KeyRate.setBumpVal]
    · simp [Function.update_of_ne hji, hji]

/-- C24. Setting the bump of such a collection to any value makes the combined adjustment that value everywhere. -/
theorem C24_set_bump_partial (h : KRHeap) (ids : List Nat) (c : KeyRateCollection) (h' : KRHeap)
    (hc : create h ids = (.ok c, h')) (hlen : 2 ≤ ids.length) (dcc : DayCountConvention)
    (hdcc : dcc ≠ .thirty360 ∧ dcc ≠ .unknown) (hall : ∀ i ∈ ids, (h i).dcc = dcc ∧ AxisOk dcc (h i).keyDate) (b : ℚ) :
    ∃ h'', KeyRateCollection.setBumpVal h' c b = (.ok (), h'') ∧ ∀ d, KeyRateCollection.call h'' c d = .ok b := by
  obtain ⟨hp, hs, hw, hsame, _⟩ := C23_construction h ids c h' hc
  have hdate : (fun j => (setBumpLoop h' b c.keyRates j).keyDate) = (fun j => (h' j).keyDate) := by
    funext j; rw [setBumpLoop_get]; split_ifs <;> rfl
  unfold KeyRateCollection.setBumpVal
  rcases setDates_spec (setBumpLoop h' b c.keyRates) c.keyRates with ⟨_, hds, h2, e, s2, _, w2⟩ | ⟨hbad, _⟩
  · refine ⟨h2, e, fun d => ?_⟩
    have hf : (fun j => (h2 j).keyDate) = (fun j => (setBumpLoop h' b c.keyRates j).keyDate) :=
      funext fun j => (s2 j).1
    refine combined_eq h2 c.keyRates ?_ ?_ (by rw [hp.length_eq]; exact hlen) dcc hdcc b ?_ d c.iterIndex
    · have : Sorted h2 c.keyRates ↔ DateSorted (fun j => (h2 j).keyDate) c.keyRates := Iff.rfl
      rw [this, hf]; exact hds
    · intro k i hk
      rw [w2 k i hk, hf]
      exact ⟨rfl, rfl⟩
    · intro i hi
      rw [(s2 i).1, (s2 i).2.1, (s2 i).2.2, setBumpLoop_get, if_pos hi]
      have := hall i (hp.mem_iff.1 hi)
      simp only [KeyRate.setBumpVal]
      rw [(hsame i).1, (hsame i).2.1]
      simpa using this
  · exfalso
    apply hbad
    rw [hdate]
    refine ⟨fun hn => ?_, hs⟩
    rw [hn] at hp
    have := hp.length_eq
    simp at this; omega

/-- C24 fails for a single key rate: past its key date the combined adjustment raises TypeError. -/
theorem C24_single_raises (h : KRHeap) (i : Nat) (d : PyDate) (hd : (h i).keyDate < d) :
    ∃ c h', create h [i] = (.ok c, h') ∧ KeyRateCollection.call h' c d = .error .typeError := by
  obtain ⟨c, hc⟩ := (C23_raises_iff h [i]).2.2 (by simp)
  have hcr : create h [i] = (.ok c, (create h [i]).2) := Prod.ext hc rfl
  refine ⟨c, _, hcr, ?_⟩
  obtain ⟨hp, _, hw, hsame, _⟩ := C23_construction h [i] c _ hcr
  have hk : c.keyRates = [i] := List.perm_singleton.1 hp
  obtain ⟨h1, h2⟩ := hw 0 i (by rw [hk]; rfl)
  rw [hk] at h2
  simp at h1 h2
  have hdate := (hsame i).1
  unfold KeyRateCollection.call
  rw [hk]
  have : ((create h [i]).2 i).call d = .error .typeError := by
    have hlt : ((create h [i]).2 i).keyDate < d := by rw [hdate]; exact hd
    simp [KeyRate.call, h1, h2, not_le.2 hlt]
  simp [pySum, collect, this]

/-- Two key rates under 30/360. -/
def thirty360Heap : KRHeap := fun i =>
  if i = 0 then KeyRate.create .thirty360 (D 2023 1 30) none none
  else KeyRate.create .thirty360 (D 2023 3 31) none none

/-- C24 fails under 30/360: between 30 January and 31 March 2023, on 28 February the two weights sum to 58/60. -/
theorem C24_thirty360_fails :
    ∃ c h', create thirty360Heap [0, 1] = (.ok c, h') ∧
      KeyRateCollection.call h' c (D 2023 2 28) = .ok (58 / 60 * oneBasisPoint) := by
  have hd : pySorted (fun i => (thirty360Heap i).keyDate) [0, 1] = [0, 1] := by
    show pySorted _ _ = _
    simp only [pySorted, List.foldr, pyInsert]
    rw [if_pos (by decide +kernel)]
  obtain ⟨c, hc⟩ := (C23_raises_iff thirty360Heap [0, 1]).2.2 (by decide +kernel)
  have hcr : create thirty360Heap [0, 1] = (.ok c, (create thirty360Heap [0, 1]).2) := Prod.ext hc rfl
  refine ⟨c, _, hcr, ?_⟩
  obtain ⟨_, _, hw, hsame, _⟩ := C23_construction _ _ c _ hcr
  have hk : c.keyRates = [0, 1] := by
    rcases create_spec thirty360Heap [0, 1] with ⟨_, _, h1, e, _⟩ | ⟨_, h1, e, _⟩
    · rw [hcr] at e; cases e; exact hd
    · rw [hcr] at e; cases e
  rw [hk] at hw
  have w0 := hw 0 0 rfl
  have w1 := hw 1 1 rfl
  simp at w0 w1
  have s0 := hsame 0
  have s1 := hsame 1
  generalize (create thirty360Heap [0, 1]).2 = h' at *
  have k0 : h' 0 = KeyRate.mk .thirty360 (D 2023 1 30) none (some (D 2023 3 31)) oneBasisPoint := by
    rw [s1.1] at w0
    cases hr : h' 0; simp_all [thirty360Heap, KeyRate.create]
  have k1 : h' 1 = KeyRate.mk .thirty360 (D 2023 3 31) (some (D 2023 1 30)) none oneBasisPoint := by
    rw [s0.1] at w1
    cases hr : h' 1; simp_all [thirty360Heap, KeyRate.create]
  have c0 : (h' 0).call (D 2023 2 28) = .ok (oneBasisPoint * (30 / 60)) := by
    rw [k0]
    simp only [KeyRate.call]
    rw [if_neg (by decide +kernel), if_neg (by decide +kernel), accrual_eq (by decide +kernel),
      accrual_eq (by decide +kernel)]
    simp only [thirty360, show thirty360Days (D 2023 2 28) (D 2023 3 31) = 30 by decide +kernel,
      show thirty360Days (D 2023 1 30) (D 2023 3 31) = 60 by decide +kernel, ok_bind]
    rw [pyDiv_of_ne (by norm_num), ok_bind]
    norm_num
  have c1 : (h' 1).call (D 2023 2 28) = .ok (28 / 60 * oneBasisPoint) := by
    rw [k1]
    simp only [KeyRate.call]
    rw [if_neg (by decide +kernel), if_neg (by decide +kernel), accrual_eq (by decide +kernel),
      accrual_eq (by decide +kernel)]
    simp only [thirty360, show thirty360Days (D 2023 1 30) (D 2023 2 28) = 28 by decide +kernel,
      show thirty360Days (D 2023 1 30) (D 2023 3 31) = 60 by decide +kernel, ok_bind]
    rw [pyDiv_of_ne (by norm_num), ok_bind]
    norm_num
  unfold KeyRateCollection.call
  rw [hk]
  simp only [pySum, collect, c0, c1, ok_bind]
  congr 1
  simp
  ring

example : (∀ i ∈ [0, 1, 2], (exampleHeap i).dcc = .act360 ∧ (exampleHeap i).bump = oneBasisPoint ∧
    AxisOk .act360 (exampleHeap i).keyDate) ∧ (exampleHeap 0).keyDate < D 2026 1 1 := by decide +kernel

end Verif.Props
