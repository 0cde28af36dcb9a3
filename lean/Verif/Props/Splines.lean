/- Property C126: curves interpolated with splines. -/
import Verif.Props.CurveHistory
import Mathlib.Tactic.ComputeDegree

namespace Verif.Props
open Verif Verif.Spec Verif.DayCount Polynomial

/-! ## C126 -/

/-- The times of knots in date order, counted from the reference date. -/
def knotTime (τ : PyDate → ℚ) (ref : PyDate) (ks : List Knot) (i : ℕ) : ℚ := τ (ks.getD i ⟨ref, 0⟩).date - τ ref

/-- The values of knots in date order. -/
def knotValue (ks : List Knot) (i : ℕ) : ℚ := (ks.map Knot.value).getD i 0

theorem knotTime_get (τ : PyDate → ℚ) (ref : PyDate) {ks : List Knot} {i : ℕ} (hi : i < ks.length) :
    knotTime τ ref ks i = τ ks[i].date - τ ref := by
  simp [knotTime, List.getD_eq_getElem?_getD, hi]

theorem knotValue_get {ks : List Knot} {i : ℕ} (hi : i < ks.length) : knotValue ks i = ks[i].value := by
  simp [knotValue, List.getD_eq_getElem?_getD, hi]

theorem knotTime_increasing {τ : PyDate → ℚ} {dcc : DayCountConvention} (hτ : timeAxis dcc = some τ) (ref : PyDate)
    {ks : List Knot} (hs : ks.Pairwise (fun a b => a.date < b.date)) : Increasing (ks.length - 1) (knotTime τ ref ks) := by
  intro i hi
  rw [knotTime_get τ ref (by omega), knotTime_get τ ref (by omega)]
  have := axis_strictMono hτ (List.pairwise_iff_getElem.1 hs i (i + 1) (by omega) (by omega) (by omega))
  linarith

/-- What a curve with a spline method gives at a date between its first and its last knot. -/
theorem spline_call (kind : SplineKind) {values ks : List Knot} (hlen : kind.degree < values.length) {dcc : DayCountConvention}
    {ref : PyDate} {l r : EndBehavior} (h : CurveInput values dcc ref) {τ : PyDate → ℚ} (hτ : timeAxis dcc = some τ)
    (hperm : ks.Perm values) (hs : ks.Pairwise (fun a b => a.date < b.date)) {c : Curve}
    (hc : Curve.create values (.spline kind.fn) dcc (some ref) l r = .ok c) {s : ℚ → ℚ}
    (hsp : kind.IsSpline (ks.length - 1) (knotTime τ ref ks) (knotValue ks) s) {d : PyDate} (h1 : ∃ k ∈ values, k.date ≤ d)
    (h2 : ∃ k ∈ values, d ≤ k.date) : c.call d = .ok (s (τ d - τ ref)) := by
  have hl : ks.length = values.length := hperm.length_eq
  unfold Curve.call
  rw [call_inside h hτ hc h1 h2]
  rw [create_curve hτ h.refOk h.notBefore, sorted_unique hperm hs] at hc
  cases hc
  have hv := splineGrid_value kind (ks := ks) hs (X := fun d => τ d - τ ref)
    (fun {a b} hab => by have := axis_strictMono hτ hab; linarith) (by omega) (s := s)
    (spline_congr_y (spline_congr_x (by omega) hsp (fun i hi => by
      rw [gridX_map ks (fun d => τ d - τ ref) (by omega), knotTime_get τ ref (by omega)])) (fun i hi => by
      rw [gridY_map ks (fun d => τ d - τ ref) (by omega), knotValue_get (by omega)]))
    (d := d) (by obtain ⟨k, hk, hkd⟩ := h1; exact ⟨k, hperm.mem_iff.2 hk, hkd⟩)
    (by obtain ⟨k, hk, hkd⟩ := h2; exact ⟨k, hperm.mem_iff.2 hk, hkd⟩)
  unfold Curve.interpolator
  simp only at hv ⊢
  rw [hv]; simp [noAdjustment]

/-- Building a curve with a spline method. -/
theorem createSpline_ok (kind : SplineKind) {values : List Knot} {dcc : DayCountConvention} {ref : PyDate} (l r : EndBehavior)
    (h : CurveInput values dcc ref) (hlen : kind.degree < values.length) :
    ∃ c, Curve.createSpline values kind dcc (some ref) l r = .ok c ∧
      Curve.create values (.spline kind.fn) dcc (some ref) l r = .ok c := by
  obtain ⟨τ, hτ⟩ := h.axis
  have hs := knotSorted_pySorted h.distinct
  refine ⟨_, ?_, create_curve hτ h.refOk h.notBefore _ l r⟩
  unfold Curve.createSpline
  rw [SplineKind.method_eq, create_curve hτ h.refOk h.notBefore, ok_bind]
  refine if_pos ?_
  exact splineGrid_ok hs (X := fun d => τ d - τ ref) (fun {a b} hab => by have := axis_strictMono hτ hab; linarith)
    (by rw [(pySorted_perm Knot.date values).length_eq]; exact hlen)

/-- C126. A curve with method CUBIC_SPLINE is the cubic spline through its knots: there is one, and every one gives the curve's value
at each date from the first to the last knot, as a function of the time from the reference date.  The knots may be given in any
order. -/
theorem C126_cubic (values ks : List Knot) (hlen : 4 ≤ values.length) (dcc : DayCountConvention) (ref : PyDate)
    (l r : EndBehavior) (h : CurveInput values dcc ref) (τ : PyDate → ℚ) (hτ : timeAxis dcc = some τ)
    (hperm : ks.Perm values) (hs : ks.Pairwise (fun a b => a.date < b.date)) :
    (∃ s, IsCubicSpline (ks.length - 1) (knotTime τ ref ks) (knotValue ks) s) ∧
    ∃ c, Curve.createSpline values .cubic dcc (some ref) l r = .ok c ∧
      ∀ s, IsCubicSpline (ks.length - 1) (knotTime τ ref ks) (knotValue ks) s → ∀ d, (∃ k ∈ values, k.date ≤ d) →
        (∃ k ∈ values, d ≤ k.date) → c.call d = .ok (s (τ d - τ ref)) := by
  have hl := hperm.length_eq
  obtain ⟨c, h1, h2⟩ := createSpline_ok .cubic l r h hlen
  exact ⟨spline_exists .cubic (show 3 ≤ ks.length - 1 by omega) (knotTime_increasing hτ ref hs) _, c, h1,
    fun s hsp d hd1 hd2 => spline_call .cubic hlen h hτ hperm hs h2 hsp hd1 hd2⟩

/-- C126. A curve with method QUADRATIC_SPLINE is the quadratic spline through its knots. -/
theorem C126_quadratic (values ks : List Knot) (hlen : 3 ≤ values.length) (dcc : DayCountConvention) (ref : PyDate)
    (l r : EndBehavior) (h : CurveInput values dcc ref) (τ : PyDate → ℚ) (hτ : timeAxis dcc = some τ)
    (hperm : ks.Perm values) (hs : ks.Pairwise (fun a b => a.date < b.date)) :
    (∃ s, IsQuadraticSpline (ks.length - 1) (knotTime τ ref ks) (knotValue ks) s) ∧
    ∃ c, Curve.createSpline values .quadratic dcc (some ref) l r = .ok c ∧
      ∀ s, IsQuadraticSpline (ks.length - 1) (knotTime τ ref ks) (knotValue ks) s → ∀ d, (∃ k ∈ values, k.date ≤ d) →
        (∃ k ∈ values, d ≤ k.date) → c.call d = .ok (s (τ d - τ ref)) := by
  have hl := hperm.length_eq
  obtain ⟨c, h1, h2⟩ := createSpline_ok .quadratic l r h hlen
  exact ⟨spline_exists .quadratic (show 2 ≤ ks.length - 1 by omega) (knotTime_increasing hτ ref hs) _, c, h1,
    fun s hsp d hd1 hd2 => spline_call .quadratic hlen h hτ hperm hs h2 hsp hd1 hd2⟩

/-- C126. A spline curve can be built exactly from enough knots at distinct dates (three for a quadratic, four for a cubic spline);
anything else raises ValueError, as does a knot before the reference date. -/
theorem C126_builds (kind : SplineKind) (values : List Knot) (dcc : DayCountConvention) (hdcc : dcc ≠ .thirty360 ∧ dcc ≠ .unknown)
    (ref : PyDate) (href : AxisOk dcc ref) (l r : EndBehavior) :
    ((∀ k ∈ values, ref ≤ k.date) → ((∃ c, Curve.createSpline values kind dcc (some ref) l r = .ok c) ↔
      (match kind with | .quadratic => 3 | .cubic => 4) ≤ values.length ∧ (values.map Knot.date).Nodup)) ∧
    (¬ ((∀ k ∈ values, ref ≤ k.date) ∧ (match kind with | .quadratic => 3 | .cubic => 4) ≤ values.length ∧
        (values.map Knot.date).Nodup) → Curve.createSpline values kind dcc (some ref) l r = .error .valueError) := by
  have hdeg : (match kind with | .quadratic => 3 | .cubic => 4) = kind.degree + 1 := by cases kind <;> rfl
  rw [hdeg]
  have hbad : ¬ ((∀ k ∈ values, ref ≤ k.date) ∧ kind.degree + 1 ≤ values.length ∧ (values.map Knot.date).Nodup) →
      Curve.createSpline values kind dcc (some ref) l r = .error .valueError := by
    intro hno
    by_cases hv : ∀ k ∈ values, ref ≤ k.date
    · obtain ⟨τ, hτ⟩ : ∃ τ, timeAxis dcc = some τ := by cases dcc <;> simp [timeAxis] at hdcc ⊢
      unfold Curve.createSpline
      rw [create_curve hτ href hv, ok_bind]
      refine if_neg ?_
      rintro ⟨h1, h2⟩
      refine hno ⟨hv, ?_, ?_⟩
      · simpa [(pySorted_perm Knot.date values).length_eq] using h1
      · have hp := pySorted_perm Knot.date values
        rw [← (hp.map Knot.date).nodup_iff, List.nodup_iff_pairwise_ne, List.pairwise_map, List.pairwise_iff_getElem]
        intro i j hi hj hij hd
        simp only [List.length_map] at h2
        have hmono : ∀ (a b : ℕ) (hab : a ≤ b) (hb : b < (pySorted Knot.date values).length),
            gridX ((pySorted Knot.date values).map (fun k => (τ k.date - τ ref, k.value))) a ≤
            gridX ((pySorted Knot.date values).map (fun k => (τ k.date - τ ref, k.value))) b := by
          intro a b hab
          induction b, hab using Nat.le_induction with
          | base => intro _; exact le_rfl
          | succ b hab ih => intro hb; exact (ih (by omega)).trans (h2 b hb).le
        have h3 := h2 i (by omega)
        have h4 := hmono (i + 1) j (by omega) hj
        rw [gridX_map _ (fun d => τ d - τ ref) hi] at h3
        rw [gridX_map _ (fun d => τ d - τ ref) hj] at h4
        rw [hd] at h3
        exact absurd (h3.trans_le h4) (lt_irrefl _)
    · push Not at hv
      obtain ⟨k, hk, hlt⟩ := hv
      unfold Curve.createSpline
      rw [(C27_builds values kind.method dcc l r).2.1 ref ⟨k, hk, hlt⟩]
      rfl
  refine ⟨fun hv => ⟨?_, ?_⟩, hbad⟩
  · rintro ⟨c, hc⟩
    by_contra hno
    rw [hbad (fun h => hno h.2)] at hc
    cases hc
  · rintro ⟨h1, h2⟩
    have hne : values ≠ [] := by rintro rfl; simp at h1
    obtain ⟨c, hc, -⟩ := createSpline_ok kind l r ⟨hdcc, href, hne, h2, hv⟩ (by omega)
    exact ⟨c, hc⟩

theorem sum_range_getD (l : List PyDate) (g : PyDate → ℚ) (z : PyDate) :
    (∑ i ∈ Finset.range l.length, g (l.getD i z)) = (l.map g).sum := by
  induction l with
  | nil => simp
  | cons a l ih =>
    rw [List.length_cons, Finset.sum_range_succ']
    simp only [List.getD_cons_succ, List.getD_cons_zero, List.map_cons, List.sum_cons]
    rw [ih]; ring

/-- C126. A spline curve is linear in its values: at every date from the first to the last knot it is a combination of the knot values
with weights that add up to one and do not depend on the values (but, unlike those of `C90_weights`, they may be negative). -/
theorem C126_weights (kind : SplineKind) (dates : List PyDate) (hlen : kind.degree < dates.length) (dcc : DayCountConvention)
    (ref : PyDate) (h : CurveInput (dates.map (fun x => ⟨x, 0⟩)) dcc ref) (d : PyDate) (h1 : ∃ x ∈ dates, x ≤ d)
    (h2 : ∃ x ∈ dates, d ≤ x) :
    ∃ ω : PyDate → ℚ, (dates.map ω).sum = 1 ∧
      ∀ (f : PyDate → ℚ) (values : List Knot) (l r : EndBehavior) (c : Curve), values.Perm (dates.map (fun x => ⟨x, f x⟩)) →
        Curve.create values kind.method dcc (some ref) l r = .ok c →
        c.call d = .ok (dates.map (fun x => ω x * f x)).sum := by
  obtain ⟨τ, hτ⟩ := h.axis
  have hn : dates.Nodup := by simpa [Function.comp_def] using h.distinct
  let sd : List PyDate := dates.mergeSort (fun a b => decide (a ≤ b))
  have hp : sd.Perm dates := List.mergeSort_perm _ _
  have hsd : sd.Pairwise (fun a b => a < b) := by
    have h1 : sd.Pairwise (fun a b => a ≤ b) := by
      have := List.pairwise_mergeSort (le := fun a b : PyDate => decide (a ≤ b)) (fun a b c hab hbc => by
        simp only [decide_eq_true_eq] at *; exact hab.trans hbc) (fun a b => by
        simp only [Bool.or_eq_true, decide_eq_true_eq]; exact le_total a b) dates
      simpa using this
    exact (h1.and (List.nodup_iff_pairwise_ne.1 (hp.nodup_iff.2 hn))).imp (fun h => lt_of_le_of_ne h.1 h.2)
  have hlen' : sd.length = dates.length := hp.length_eq
  let x : ℕ → ℚ := fun i => τ (sd.getD i ref) - τ ref
  have hxi : ∀ i (hi : i < sd.length), x i = τ sd[i] - τ ref := by
    intro i hi; simp [x, List.getD_eq_getElem?_getD, hi]
  have hx : Increasing (sd.length - 1) x := by
    intro i hi
    rw [hxi i (by omega), hxi (i + 1) (by omega)]
    have := axis_strictMono hτ (List.pairwise_iff_getElem.1 hsd i (i + 1) (by omega) (by omega) (by omega))
    linarith
  have hle : ∀ i j (hi : i < sd.length) (hj : j < sd.length), i ≤ j → sd[i] ≤ sd[j] := by
    intro i j hi hj hij
    rcases Nat.lt_or_eq_of_le hij with h | rfl
    · exact (List.pairwise_iff_getElem.1 hsd i j hi hj h).le
    · exact le_rfl
  have ht1 : x 0 ≤ τ d - τ ref := by
    obtain ⟨e, he, hed⟩ := h1
    obtain ⟨i, hi, rfl⟩ := List.getElem_of_mem (hp.mem_iff.2 he)
    rw [hxi 0 (by omega)]
    have := axis_mono hτ ((hle 0 i (by omega) hi (by omega)).trans hed)
    linarith
  have ht2 : τ d - τ ref ≤ x (sd.length - 1) := by
    obtain ⟨e, he, hed⟩ := h2
    obtain ⟨i, hi, rfl⟩ := List.getElem_of_mem (hp.mem_iff.2 he)
    rw [hxi (sd.length - 1) (by omega)]
    have := axis_mono hτ (hed.trans (hle i (sd.length - 1) hi (by omega) (by omega)))
    linarith
  obtain ⟨ω, hω1, hω⟩ := spline_weights kind (show kind.degree ≤ sd.length - 1 by omega) hx ht1 ht2
  have hidx : ∀ i (hi : i < sd.length), sd.idxOf (sd.getD i ref) = i := by
    intro i hi
    rw [show sd.getD i ref = sd[i] by simp [List.getD_eq_getElem?_getD, hi]]
    exact (hp.nodup_iff.2 hn).idxOf_getElem i hi
  have hsum : ∀ g : PyDate → ℚ, (dates.map (fun x => ω (sd.idxOf x) * g x)).sum =
      ∑ i ∈ Finset.range (sd.length - 1 + 1), ω i * g (sd.getD i ref) := by
    intro g
    rw [← (hp.map (fun x => ω (sd.idxOf x) * g x)).sum_eq, ← sum_range_getD sd (fun x => ω (sd.idxOf x) * g x) ref,
      show sd.length - 1 + 1 = sd.length by omega]
    refine Finset.sum_congr rfl (fun i hi => ?_)
    rw [hidx i (Finset.mem_range.1 hi)]
  refine ⟨fun x => ω (sd.idxOf x), ?_, ?_⟩
  · have := hsum (fun _ => 1)
    simp only [mul_one] at this
    rw [this, hω1]
  · intro f values l r c hperm hc
    rw [SplineKind.method_eq] at hc
    have hmem : ∀ k, k ∈ values ↔ k.date ∈ dates ∧ k.value = f k.date := by
      intro k
      rw [hperm.mem_iff, List.mem_map]
      constructor
      · rintro ⟨x, hx, rfl⟩; exact ⟨hx, rfl⟩
      · rintro ⟨hx, hv⟩; exact ⟨k.date, hx, by rw [← hv]⟩
    have hin : CurveInput values dcc ref := by
      refine ⟨h.convention, h.refOk, ?_, ?_, ?_⟩
      · intro e
        have := hperm.length_eq
        rw [e] at this
        simp at this
        omega
      · rw [(hperm.map Knot.date).nodup_iff, List.map_map]
        simpa [Function.comp_def] using hn
      · intro k hk
        exact h.notBefore ⟨k.date, 0⟩ (List.mem_map.2 ⟨k.date, ((hmem k).1 hk).1, rfl⟩)
    let ks : List Knot := sd.map (fun x => ⟨x, f x⟩)
    have hks : ks.Perm values := (hp.map _).trans hperm.symm
    have hkl : ks.length = sd.length := List.length_map _
    have hs : ks.Pairwise (fun a b => a.date < b.date) := by
      rw [List.pairwise_map]; exact hsd
    obtain ⟨s, hsp⟩ := spline_exists kind (show kind.degree ≤ sd.length - 1 by omega) hx (knotValue ks)
    have hsp' : kind.IsSpline (ks.length - 1) (knotTime τ ref ks) (knotValue ks) s := by
      rw [hkl]
      refine spline_congr_x (by omega) hsp (fun i hi => ?_)
      rw [knotTime_get τ ref (by omega), hxi i (by omega)]
      simp [ks]
    rw [spline_call kind (by rw [← hks.length_eq, hkl, hlen']; exact hlen) hin hτ hks hs hc hsp'
      (by obtain ⟨e, he, hed⟩ := h1; exact ⟨⟨e, f e⟩, (hmem _).2 ⟨he, rfl⟩, hed⟩)
      (by obtain ⟨e, he, hed⟩ := h2; exact ⟨⟨e, f e⟩, (hmem _).2 ⟨he, rfl⟩, hed⟩), hω _ _ hsp, hsum]
    congr 1
    refine Finset.sum_congr rfl (fun i hi => ?_)
    have hi' := Finset.mem_range.1 hi
    rw [knotValue_get (by omega)]
    simp [ks, List.getD_eq_getElem?_getD, show i < sd.length by omega]

theorem poly_call (kind : SplineKind) {values : List Knot} (hlen : kind.degree < values.length) {dcc : DayCountConvention}
    {ref : PyDate} {l r : EndBehavior} (h : CurveInput values dcc ref) {τ : PyDate → ℚ} (hτ : timeAxis dcc = some τ) {p : ℚ[X]}
    (hp : p.natDegree ≤ kind.degree) (hval : ∀ k ∈ values, k.value = p.eval (τ k.date - τ ref)) {c : Curve}
    (hc : Curve.create values (.spline kind.fn) dcc (some ref) l r = .ok c) {d : PyDate} (hd1 : ∃ k ∈ values, k.date ≤ d)
    (hd2 : ∃ k ∈ values, d ≤ k.date) : c.call d = .ok (p.eval (τ d - τ ref)) := by
  have hperm := pySorted_perm Knot.date values
  refine spline_call kind hlen h hτ hperm (knotSorted_pySorted h.distinct) hc (s := fun t => p.eval t) ?_ hd1 hd2
  refine spline_congr_y (spline_poly kind _ _ hp) (fun i hi => ?_)
  have hi' : i < (pySorted Knot.date values).length := by rw [hperm.length_eq] at hi ⊢; omega
  rw [knotTime_get τ ref hi', knotValue_get hi', hval _ (hperm.mem_iff.1 (List.getElem_mem hi'))]

/-- C126. Splines reproduce polynomials: when the knot values are those of a polynomial in time, of degree two for a quadratic and
three for a cubic spline, so is the curve.  In particular a flat set of knots gives a flat curve and a straight line a straight
line. -/
theorem C126_polynomials (kind : SplineKind) (values : List Knot)
    (hlen : (match kind with | .quadratic => 3 | .cubic => 4) ≤ values.length) (dcc : DayCountConvention)
    (ref : PyDate) (l r : EndBehavior) (h : CurveInput values dcc ref) (τ : PyDate → ℚ) (hτ : timeAxis dcc = some τ) (p : ℚ[X])
    (hp : p.natDegree ≤ (match kind with | .quadratic => 2 | .cubic => 3))
    (hval : ∀ k ∈ values, k.value = p.eval (τ k.date - τ ref)) :
    ∃ c, Curve.createSpline values kind dcc (some ref) l r = .ok c ∧ ∀ d, (∃ k ∈ values, k.date ≤ d) →
      (∃ k ∈ values, d ≤ k.date) → c.call d = .ok (p.eval (τ d - τ ref)) := by
  have hlen' : kind.degree < values.length := by cases kind <;> exact hlen
  have hp' : p.natDegree ≤ kind.degree := by cases kind <;> exact hp
  obtain ⟨c, h1, h2⟩ := createSpline_ok kind l r h hlen'
  exact ⟨c, h1, fun d hd1 hd2 => poly_call kind hlen' h hτ hp' hval h2 hd1 hd2⟩

end Verif.Props
