/-
Property theorems C97: resetting the values of a curve is the same as building a new curve, and what a failed reset leaves
behind.
-/
import Verif.Props.Curve

namespace Verif.Props
open Verif Verif.Spec

/-- C97. `reset_interpolation_values(values)` turns the curve into the one the constructor builds from these values (same
method, convention, reference date and end behaviours), and raises the constructor's exception when there is one. -/
theorem C97_reset_values (c : Curve) (values : List Knot) :
    match Curve.create values c.method c.dcc (some c.referenceDate) c.left c.right with
    | .ok fresh => c.resetValues values = (.ok (), fresh)
    | .error e => (c.resetValues values).1 = .error e := by
  unfold Curve.create Curve.resetValues
  simp only [ok_bind]
  cases h : Curve.makeGrid c.referenceDate c.dcc (pySorted Knot.date values) with
  | ok g => simp [ok_bind]
  | error e => simp [error_bind]

theorem resetValues_attrs (c : Curve) (values : List Knot) :
    ∃ knots g, (c.resetValues values).2 = ⟨knots, c.method, c.dcc, c.referenceDate, c.left, c.right, g⟩ := by
  unfold Curve.resetValues
  cases h1 : Curve.makeGrid c.referenceDate c.dcc (pySorted Knot.date values) with
  | ok g => simp only [h1]; exact ⟨_, _, rfl⟩
  | error e => simp only [h1]; exact ⟨_, _, rfl⟩

/-- C97. Hence every history of resets, failed ones included, is forgotten: a successful reset makes the curve what that
reset alone would have made it. -/
theorem C97_reset_twice (c : Curve) (values values' : List Knot) (h : (c.resetValues values').1 = .ok ()) :
    (c.resetValues values).2.resetValues values' = c.resetValues values' := by
  obtain ⟨knots, g, hk⟩ := resetValues_attrs c values
  rw [hk]
  unfold Curve.resetValues at *
  cases h2 : Curve.makeGrid c.referenceDate c.dcc (pySorted Knot.date values') with
  | ok g' => simp only [h2]
  | error e => simp only [h2] at h; cases h

/-- The position a python index denotes. -/
theorem pyIndex_spec (n : Nat) (i : Int) (j : Nat) :
    KeyRateCollection.pyIndex n i = some j ↔ j < n ∧ ((j : Int) = i ∨ (j : Int) = n + i) ∧ (i < 0 → (j : Int) = n + i) ∧
      (0 ≤ i → (j : Int) = i) := by
  unfold KeyRateCollection.pyIndex
  split_ifs with h1 h2
  · simp only [Option.some.injEq]; omega
  · simp only [Option.some.injEq]; omega
  · simp only [reduceCtorEq, false_iff]; omega

/-- C97 (partial). `reset_interpolation_value(knot, index)` turns the curve into the one the constructor builds from the
values with that one replaced, provided the new date stays strictly between its neighbours' dates (the last hypothesis).
Missing: a new date out of order, which is neither rejected nor sorted (`C97_reset_value_false`). -/
theorem C97_reset_value_partial (values : List Knot) (m : InterpolationMethod) (dcc : DayCountConvention) (ref : PyDate)
    (l r : EndBehavior) (c : Curve) (hc : Curve.create values m dcc (some ref) l r = .ok c)
    (new : Knot) (index : Int) (i : Nat) (hi : i < c.knots.length)
    (hidx : index = i ∨ index = (i : Int) - c.knots.length)
    (hord : (c.knots.set i new).Pairwise (fun a b => a.date < b.date)) :
    match Curve.create (c.knots.set i new) m dcc (some ref) l r with
    | .ok fresh => c.resetValueAt new index = (.ok (), fresh)
    | .error e => (c.resetValueAt new index).1 = .error e := by
  have hattr : c.method = m ∧ c.dcc = dcc ∧ c.referenceDate = ref ∧ c.left = l ∧ c.right = r := by
    unfold Curve.create at hc
    simp only [ok_bind] at hc
    cases hg : Curve.makeGrid ref dcc (pySorted Knot.date values) with
    | ok g => rw [hg, ok_bind] at hc; injection hc with hc; subst hc; exact ⟨rfl, rfl, rfl, rfl, rfl⟩
    | error e => rw [hg] at hc; cases hc
  obtain ⟨rfl, rfl, rfl, rfl, rfl⟩ := hattr
  have hsort : pySorted Knot.date (c.knots.set i new) = c.knots.set i new :=
    pySorted_of_sorted _ (hord.imp (fun h => le_of_lt h))
  have hpos : KeyRateCollection.pyIndex c.knots.length index = some i := by
    rw [pyIndex_spec]; omega
  unfold Curve.resetValueAt
  simp only [hpos]
  unfold Curve.resetValue Curve.create
  simp only [hi, if_true, ok_bind, hsort]
  cases hg : Curve.makeGrid c.referenceDate c.dcc (c.knots.set i new) with
  | ok g => simp [ok_bind]
  | error e => simp [error_bind]

/-- C97. Calibration's use of it: after replacing the value of a knot (keeping its date) the curve takes the new value there
and keeps its values at every other knot. -/
theorem C97_replace_value (values : List Knot) (m : InterpolationMethod) (hm : Interpolates m values.length)
    (dcc : DayCountConvention) (ref : PyDate) (l r : EndBehavior) (h : CurveInput values dcc ref) (c : Curve)
    (hc : Curve.create values m dcc (some ref) l r = .ok c) (i : Nat) (k : Knot) (hk : c.knots[i]? = some k) (v : ℚ) :
    ∃ c', c.resetValueAt ⟨k.date, v⟩ i = (.ok (), c') ∧ c'.call k.date = .ok v ∧
      ∀ x ∈ values, x.date ≠ k.date → c'.call x.date = .ok x.value := by
  obtain ⟨τ, hτ⟩ := h.axis
  have hc' := hc
  rw [create_curve hτ h.refOk h.notBefore] at hc'
  have hp := pySorted_perm Knot.date values
  have hs : (pySorted Knot.date values).Pairwise (fun a b : Knot => a.date < b.date) := knotSorted_pySorted h.distinct
  have hkn : c.knots = pySorted Knot.date values := by injection hc' with hc'; subst hc'; rfl
  obtain ⟨hi, hki⟩ := List.getElem?_eq_some_iff.1 hk
  have hdates : (c.knots.set i ⟨k.date, v⟩).map Knot.date = c.knots.map Knot.date := by
    rw [List.map_set]
    apply List.ext_getElem?
    intro j
    rw [List.getElem?_set]
    split_ifs with h1 h2
    · subst h1; simp [hk]
    · subst h1; simp at h2; simp [List.getElem?_eq_none (by simpa using h2)]
    · rfl
  have hord : (c.knots.set i ⟨k.date, v⟩).Pairwise (fun a b => a.date < b.date) := by
    rw [← List.pairwise_map (f := Knot.date) (R := (· < ·)), hdates, List.pairwise_map, hkn]; exact hs
  have hmemd : ∀ x ∈ c.knots.set i ⟨k.date, v⟩, ∃ y ∈ values, y.date = x.date := by
    intro x hx
    have : x.date ∈ (c.knots.set i ⟨k.date, v⟩).map Knot.date := List.mem_map_of_mem hx
    rw [hdates, hkn] at this
    obtain ⟨y, hy, e⟩ := List.mem_map.1 this
    exact ⟨y, hp.mem_iff.1 hy, e⟩
  have hin : CurveInput (c.knots.set i ⟨k.date, v⟩) dcc ref := by
    refine ⟨h.convention, h.refOk, ?_, ?_, ?_⟩
    · intro he
      have := congrArg List.length he
      simp at this
      rw [this] at hi; simp at hi
    · rw [hdates, hkn]; exact ((hp.map Knot.date).nodup_iff).2 h.distinct
    · intro x hx
      obtain ⟨y, hy, e⟩ := hmemd x hx
      rw [← e]; exact h.notBefore y hy
  have key := C97_reset_value_partial values m dcc ref l r c hc ⟨k.date, v⟩ i i hi (Or.inl rfl) hord
  obtain ⟨fresh, hf, _⟩ := (C27_builds (c.knots.set i ⟨k.date, v⟩) m dcc l r).1 ref hin
  have hm' : Interpolates m (c.knots.set i ⟨k.date, v⟩).length :=
    hm.congr (by rw [List.length_set, hkn, hp.length_eq])
  rw [hf] at key
  refine ⟨fresh, key, ?_, ?_⟩
  · exact C27_knots _ m hm' dcc ref l r hin fresh hf ⟨k.date, v⟩ (List.mem_set hi _)
  · intro x hx hne
    refine C27_knots _ m hm' dcc ref l r hin fresh hf x ?_
    have hx' : x ∈ c.knots := by rw [hkn]; exact hp.mem_iff.2 hx
    obtain ⟨j, hj, rfl⟩ := List.mem_iff_getElem.1 hx'
    have hij : i ≠ j := by rintro rfl; exact hne (by rw [hki])
    exact List.mem_iff_getElem.2 ⟨j, by simpa using hj, by simp [List.getElem_set, hij]⟩

theorem accrual_bad_order {ref d : PyDate} {dcc : DayCountConvention} (h : d < ref) :
    Curve.axis ref dcc d = .error .valueError := DayCount.accrual_gt h dcc

/-- C97 fails: a replacement dated after the last knot is accepted at any other position but not sorted in; the curve (with
end behaviour ERROR) then raises ValueError at the very date of the knot just set, where a newly built curve returns its
value. -/
theorem C97_reset_value_false (c : Curve) (hright : c.right = .error) (hleft : c.left = .error) (last : Knot)
    (hlast : c.knots.getLast? = some last) (new : Knot) (i : Nat) (hi : i + 1 < c.knots.length)
    (hnew : last.date < new.date) :
    ((c.resetValueAt new i).1 = .ok () → (c.resetValueAt new i).2.call new.date = .error .valueError) ∧
    (∀ fresh, CurveInput (c.knots.set i new) c.dcc c.referenceDate → Interpolates c.method c.knots.length →
      Curve.create (c.knots.set i new) c.method c.dcc (some c.referenceDate) c.left c.right = .ok fresh →
      fresh.call new.date = .ok new.value) := by
  constructor
  · intro hok
    have hpos : KeyRateCollection.pyIndex c.knots.length (i : Int) = some i := by rw [pyIndex_spec]; omega
    have hlast' : (c.knots.set i new).getLast? = some last := by
      rw [List.getLast?_eq_getElem?] at hlast ⊢
      rw [List.length_set, List.getElem?_set, if_neg (by omega)]; exact hlast
    have hres : ∃ g, (c.resetValueAt new i).2 = ⟨c.knots.set i new, c.method, c.dcc, c.referenceDate, c.left, c.right, g⟩ := by
      unfold Curve.resetValueAt Curve.resetValue
      simp only [hpos, show i < c.knots.length by omega, if_true]
      cases hg : Curve.makeGrid c.referenceDate c.dcc (c.knots.set i new) with
      | ok g => exact ⟨_, rfl⟩
      | error e => exact ⟨_, rfl⟩
    obtain ⟨g, hg⟩ := hres
    rw [hg]
    unfold Curve.call Curve.interpolate
    have hne : ∃ first, (c.knots.set i new).head? = some first := by
      cases hh : c.knots.set i new with
      | nil => rw [hh] at hlast'; simp at hlast'
      | cons a t => exact ⟨a, rfl⟩
    obtain ⟨first, hfirst⟩ := hne
    simp only [hfirst, hlast', hleft, hright]
    split_ifs <;> rfl
  · intro fresh hin hm hf
    exact C27_knots _ c.method (hm.congr List.length_set) _ _ _ _ hin fresh hf new (List.mem_set (by omega) _)

/-- C97 fails for resets that raise: a reset with a knot before the reference date raises ValueError, but the old values are
gone: the curve (with end behaviour ERROR) then raises at every date from the reference date on. -/
theorem C97_failed_reset_false (c : Curve) (hright : c.right = .error) (hleft : c.left = .error) (k : Knot)
    (hk : k.date < c.referenceDate) :
    (c.resetValues [k]).1 = .error .valueError ∧
    ∀ d, c.referenceDate ≤ d → (c.resetValues [k]).2.call d = .error .valueError := by
  have hs : pySorted Knot.date [k] = [k] := rfl
  have hg : Curve.makeGrid c.referenceDate c.dcc [k] = .error .valueError := by
    simp only [Curve.makeGrid, collect]
    rw [accrual_bad_order hk]; rfl
  constructor
  · unfold Curve.resetValues; rw [hs]; simp only [hg]
  · intro d hd
    have : (c.resetValues [k]).2 = ⟨[k], c.method, c.dcc, c.referenceDate, c.left, c.right, c.grid⟩ := by
      unfold Curve.resetValues; rw [hs]; simp only [hg]
    rw [this]
    unfold Curve.call Curve.interpolate
    have h1 : ¬ d < k.date := not_lt.2 (le_of_lt (lt_of_lt_of_le hk hd))
    have h2 : k.date < d := lt_of_lt_of_le hk hd
    simp only [List.head?_cons, List.getLast?_singleton, h1, h2, if_false, if_true, hright]

/-- A curve meeting the hypotheses above, before and after. -/
def resetExample : Except PyErr Curve :=
  Curve.create [⟨D 2023 1 1, 1⟩, ⟨D 2023 1 11, 2⟩, ⟨D 2023 1 21, 3⟩] .linear .act365 (some (D 2023 1 1)) .error .error

example : resetExample.bind (fun c => c.call (D 2023 1 16)) = .ok (5 / 2) := by decide +kernel
example : resetExample.bind (fun c => (c.resetValueAt ⟨D 2023 1 11, 4⟩ (-2)).2.call (D 2023 1 16)) = .ok (7 / 2) := by
  decide +kernel
example : resetExample.bind (fun c => (c.resetValueAt ⟨D 2023 1 13, 4⟩ 1).2.call (D 2023 1 17)) = .ok (7 / 2) := by
  decide +kernel
example : resetExample.bind (fun c => (c.resetValueAt ⟨D 2023 2 10, 5⟩ 1).1) = .ok () ∧
    resetExample.bind (fun c => (c.resetValueAt ⟨D 2023 2 10, 5⟩ 1).2.call (D 2023 2 10)) = .error .valueError := by
  decide +kernel
example : resetExample.bind (fun c => (c.resetValueAt ⟨D 2023 1 11, 4⟩ 3).1) = .error .indexError := by decide +kernel
example : resetExample.bind (fun c => (c.resetValues [⟨D 2022 12 1, 7⟩]).2.call (D 2023 1 16)) = .error .valueError := by
  decide +kernel

end Verif.Props
