/- Helper lemmas for curves. -/
import Verif.Model.Curve
import Verif.Lemmas.PyList
import Verif.Lemmas.DayCount

namespace Verif
open Spec DayCount

theorem makeGrid_axis {dcc : DayCountConvention} {τ : PyDate → ℚ} (hτ : timeAxis dcc = some τ) {ref : PyDate}
    (href : AxisOk dcc ref) : ∀ {knots : List Knot}, (∀ k ∈ knots, ref ≤ k.date) →
      Curve.makeGrid ref dcc knots = .ok (knots.map (fun k => (τ k.date - τ ref, k.value)))
  | [], _ => rfl
  | k :: ks, h => by
    have ih := makeGrid_axis hτ href (knots := ks) (fun a ha => h a (by simp [ha]))
    unfold Curve.makeGrid at ih ⊢
    simp only [collect, Curve.axis]
    rw [accrual_axis hτ (h k (by simp)) href, ok_bind, ok_bind]
    simp only [Curve.axis] at ih
    rw [ih]; rfl

/-- Knots in strictly increasing date order. -/
def KnotSorted (l : List Knot) : Prop := l.Pairwise (fun a b => a.date < b.date)

theorem interpLinear_adjacent (f : PyDate → ℚ) (hf : ∀ {a b : PyDate}, a < b → f a < f b) :
    ∀ (l : List Knot), KnotSorted l → ∀ (a b : Knot) (d : PyDate), a ∈ l → b ∈ l → a.date ≤ d → d < b.date →
      (∀ c ∈ l, c.date ≤ a.date ∨ b.date ≤ c.date) →
      interpLinear (l.map (fun k => (f k.date, k.value))) (f d) =
        .ok (a.value + (f d - f a.date) * ((b.value - a.value) / (f b.date - f a.date)))
  | [], _, a, _, _, ha, _, _, _, _ => by simp at ha
  | [x], _, a, b, d, ha, hb, h1, h2, _ => by
    simp at ha hb; subst ha; subst hb
    exact absurd h2 (not_lt.2 h1)
  | x :: y :: rest, hs, a, b, d, ha, hb, h1, h2, hadj => by
    have hxy : x.date < y.date := (List.pairwise_cons.1 hs).1 y (by simp)
    have hs' := (List.pairwise_cons.1 hs).2
    have hyr : ∀ c ∈ rest, y.date < c.date := (List.pairwise_cons.1 hs').1
    have mono : ∀ {a b : PyDate}, a ≤ b → f a ≤ f b := by
      intro a b hab
      rcases lt_or_eq_of_le hab with hab | rfl
      · exact le_of_lt (hf hab)
      · exact le_refl _
    have hxa : x.date ≤ a.date := by
      rcases List.mem_cons.1 ha with rfl | ha
      · exact le_refl _
      · exact le_of_lt ((List.pairwise_cons.1 hs).1 a ha)
    simp only [List.map_cons, interpLinear]
    rw [if_neg (not_lt.2 (mono (le_trans hxa h1)))]
    by_cases hd : d < y.date
    · rw [if_pos (hf hd)]
      have ha' : a = x := by
        rcases List.mem_cons.1 ha with rfl | ha
        · rfl
        · rcases List.mem_cons.1 ha with rfl | ha
          · exact absurd hd (not_lt.2 h1)
          · exact absurd hd (not_lt.2 (le_trans (le_of_lt (hyr a ha)) h1))
      have hb' : b = y := by
        rcases List.mem_cons.1 hb with rfl | hb
        · rw [ha'] at h1; exact absurd h2 (not_lt.2 h1)
        · rcases List.mem_cons.1 hb with rfl | hb
          · rfl
          · rcases hadj y (by simp) with h | h
            · rw [ha'] at h; exact absurd hxy (not_lt.2 h)
            · exact absurd (hyr b hb) (not_lt.2 h)
      rw [ha', hb']
    · rw [if_neg (not_lt.2 (mono (not_lt.1 hd)))]
      have hmem : a ∈ y :: rest := by
        rcases List.mem_cons.1 ha with rfl | ha
        · rcases hadj y (by simp) with h | h
          · exact absurd hxy (not_lt.2 h)
          · exact absurd (lt_of_lt_of_le h2 h) hd
        · exact ha
      have hbm : b ∈ y :: rest := by
        rcases List.mem_cons.1 hb with rfl | hb
        · exact absurd (lt_of_le_of_lt h1 h2) (not_lt.2 hxa)
        · exact hb
      have := interpLinear_adjacent f hf (y :: rest) hs' a b d hmem hbm h1 h2 (fun c hc => hadj c (by simp at hc ⊢; tauto))
      simpa using this

theorem interpLinear_knot (f : PyDate → ℚ) (hf : ∀ {a b : PyDate}, a < b → f a < f b) :
    ∀ (l : List Knot), KnotSorted l → ∀ a ∈ l,
      interpLinear (l.map (fun k => (f k.date, k.value))) (f a.date) = .ok a.value
  | [], _, a, ha => by simp at ha
  | [x], _, a, ha => by simp at ha; subst ha; simp [interpLinear]
  | x :: y :: rest, hs, a, ha => by
    have hxy : x.date < y.date := (List.pairwise_cons.1 hs).1 y (by simp)
    have hs' := (List.pairwise_cons.1 hs).2
    have hyr : ∀ c ∈ rest, y.date < c.date := (List.pairwise_cons.1 hs').1
    simp only [List.map_cons, interpLinear]
    rcases List.mem_cons.1 ha with rfl | ha
    · rw [if_neg (lt_irrefl _), if_pos (hf hxy)]; simp
    · have hya : y.date ≤ a.date := by
        rcases List.mem_cons.1 ha with rfl | ha
        · exact le_refl _
        · exact le_of_lt (hyr a ha)
      have h1 : ¬ f a.date < f y.date := by
        rcases lt_or_eq_of_le hya with h | h
        · exact lt_asymm (hf h)
        · rw [h]; exact lt_irrefl _
      have h2 : ¬ f a.date < f x.date := lt_asymm (hf (lt_of_lt_of_le hxy hya))
      rw [if_neg h2, if_neg h1]
      simpa using interpLinear_knot f hf (y :: rest) hs' a ha

theorem interpPrevious_adjacent (f : PyDate → ℚ) (hf : ∀ {a b : PyDate}, a < b → f a < f b) :
    ∀ (l : List Knot), KnotSorted l → ∀ (a b : Knot) (d : PyDate), a ∈ l → b ∈ l → a.date ≤ d → d < b.date →
      (∀ c ∈ l, c.date ≤ a.date ∨ b.date ≤ c.date) →
      interpPrevious (l.map (fun k => (f k.date, k.value))) (f d) = .ok a.value
  | [], _, a, _, _, ha, _, _, _, _ => by simp at ha
  | [x], _, a, b, d, ha, hb, h1, h2, _ => by
    simp at ha hb; subst ha; subst hb
    exact absurd h2 (not_lt.2 h1)
  | x :: y :: rest, hs, a, b, d, ha, hb, h1, h2, hadj => by
    have hxy : x.date < y.date := (List.pairwise_cons.1 hs).1 y (by simp)
    have hs' := (List.pairwise_cons.1 hs).2
    have hyr : ∀ c ∈ rest, y.date < c.date := (List.pairwise_cons.1 hs').1
    have mono : ∀ {a b : PyDate}, a ≤ b → f a ≤ f b := by
      intro a b hab
      rcases lt_or_eq_of_le hab with hab | rfl
      · exact le_of_lt (hf hab)
      · exact le_refl _
    have hxa : x.date ≤ a.date := by
      rcases List.mem_cons.1 ha with rfl | ha
      · exact le_refl _
      · exact le_of_lt ((List.pairwise_cons.1 hs).1 a ha)
    simp only [List.map_cons, interpPrevious]
    rw [if_neg (not_lt.2 (mono (le_trans hxa h1)))]
    by_cases hd : d < y.date
    · rw [if_pos (hf hd)]
      have ha' : a = x := by
        rcases List.mem_cons.1 ha with rfl | ha
        · rfl
        · rcases List.mem_cons.1 ha with rfl | ha
          · exact absurd hd (not_lt.2 h1)
          · exact absurd hd (not_lt.2 (le_trans (le_of_lt (hyr a ha)) h1))
      rw [ha']
    · rw [if_neg (not_lt.2 (mono (not_lt.1 hd)))]
      have hmem : a ∈ y :: rest := by
        rcases List.mem_cons.1 ha with rfl | ha
        · rcases hadj y (by simp) with h | h
          · exact absurd hxy (not_lt.2 h)
          · exact absurd (lt_of_lt_of_le h2 h) hd
        · exact ha
      have hbm : b ∈ y :: rest := by
        rcases List.mem_cons.1 hb with rfl | hb
        · exact absurd (lt_of_le_of_lt h1 h2) (not_lt.2 hxa)
        · exact hb
      have := interpPrevious_adjacent f hf (y :: rest) hs' a b d hmem hbm h1 h2 (fun c hc => hadj c (by simp at hc ⊢; tauto))
      simpa using this

theorem interpPrevious_knot (f : PyDate → ℚ) (hf : ∀ {a b : PyDate}, a < b → f a < f b) :
    ∀ (l : List Knot), KnotSorted l → ∀ a ∈ l,
      interpPrevious (l.map (fun k => (f k.date, k.value))) (f a.date) = .ok a.value
  | [], _, a, ha => by simp at ha
  | [x], _, a, ha => by simp at ha; subst ha; simp [interpPrevious]
  | x :: y :: rest, hs, a, ha => by
    have hxy : x.date < y.date := (List.pairwise_cons.1 hs).1 y (by simp)
    have hs' := (List.pairwise_cons.1 hs).2
    have hyr : ∀ c ∈ rest, y.date < c.date := (List.pairwise_cons.1 hs').1
    simp only [List.map_cons, interpPrevious]
    rcases List.mem_cons.1 ha with rfl | ha
    · rw [if_neg (lt_irrefl _), if_pos (hf hxy)]
    · have hya : y.date ≤ a.date := by
        rcases List.mem_cons.1 ha with rfl | ha
        · exact le_refl _
        · exact le_of_lt (hyr a ha)
      have h1 : ¬ f a.date < f y.date := by
        rcases lt_or_eq_of_le hya with h | h
        · exact lt_asymm (hf h)
        · rw [h]; exact lt_irrefl _
      have h2 : ¬ f a.date < f x.date := lt_asymm (hf (lt_of_lt_of_le hxy hya))
      rw [if_neg h2, if_neg h1]
      simpa using interpPrevious_knot f hf (y :: rest) hs' a ha

theorem knotSorted_pySorted {values : List Knot} (h : (values.map Knot.date).Nodup) :
    KnotSorted (pySorted Knot.date values) := by
  have hp := (pySorted_perm Knot.date values).map Knot.date
  rw [← hp.nodup_iff, List.nodup_iff_pairwise_ne, List.pairwise_map] at h
  have hs : List.Pairwise (fun a b : Knot => a.date ≤ b.date) (pySorted Knot.date values) :=
    pySorted_sorted Knot.date values
  exact (hs.and h).imp (fun hab => lt_of_le_of_ne hab.1 hab.2)

theorem head_le {l : List Knot} (hs : KnotSorted l) {x : Knot} (hx : l.head? = some x) : x ∈ l ∧ ∀ k ∈ l, x.date ≤ k.date := by
  match l, hx with
  | y :: rest, hx =>
    simp at hx; subst hx
    refine ⟨by simp, fun k hk => ?_⟩
    rcases List.mem_cons.1 hk with rfl | hk
    · exact le_refl _
    · exact le_of_lt ((List.pairwise_cons.1 hs).1 k hk)

theorem le_last {l : List Knot} (hs : KnotSorted l) {x : Knot} (hx : l.getLast? = some x) :
    x ∈ l ∧ ∀ k ∈ l, k.date ≤ x.date := by
  rw [List.getLast?_eq_some_iff] at hx
  obtain ⟨ys, rfl⟩ := hx
  refine ⟨by simp, fun k hk => ?_⟩
  rcases List.mem_append.1 hk with hk | hk
  · exact le_of_lt ((List.pairwise_append.1 hs).2.2 k hk x (by simp))
  · simp at hk; rw [hk]

/-- A built curve: its knots are the sorted values and its grid their time-axis positions. -/
theorem create_curve {dcc : DayCountConvention} {τ : PyDate → ℚ} (hτ : timeAxis dcc = some τ) {ref : PyDate}
    (href : AxisOk dcc ref) {values : List Knot} (hv : ∀ k ∈ values, ref ≤ k.date) (m : InterpolationMethod)
    (l r : EndBehavior) :
    Curve.create values m dcc (some ref) l r = .ok ⟨pySorted Knot.date values, m, dcc, ref, l, r,
      (pySorted Knot.date values).map (fun k => (τ k.date - τ ref, k.value))⟩ := by
  unfold Curve.create
  simp only [ok_bind]
  rw [makeGrid_axis hτ href (fun k hk => hv k ((pySorted_perm Knot.date values).mem_iff.1 hk)), ok_bind]

end Verif
