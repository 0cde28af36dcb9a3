/- Properties C27-C31, C32: curves, yield curves, key-rate risk and portfolios. -/
import Verif.Lemmas.SplineCurve
import Verif.Props.KeyRateOps

namespace Verif.Props
open Verif Verif.Spec Verif.DayCount

/-! ## C27 -/

/-- The inputs of a well-formed curve: a convention with a time axis, at least one knot, distinct knot dates, none before
the reference date. -/
structure CurveInput (values : List Knot) (dcc : DayCountConvention) (ref : PyDate) : Prop where
  convention : dcc ≠ .thirty360 ∧ dcc ≠ .unknown
  refOk : AxisOk dcc ref
  nonempty : values ≠ []
  distinct : (values.map Knot.date).Nodup
  notBefore : ∀ k ∈ values, ref ≤ k.date

theorem CurveInput.axis {values : List Knot} {dcc : DayCountConvention} {ref : PyDate} (h : CurveInput values dcc ref) :
    ∃ τ, timeAxis dcc = some τ := by
  have := h.convention
  cases dcc <;> simp [timeAxis] at this ⊢

/-- `b` is the knot following `a`. -/
def Adjacent (values : List Knot) (a b : Knot) : Prop :=
  a ∈ values ∧ b ∈ values ∧ a.date < b.date ∧ ∀ c ∈ values, c.date ≤ a.date ∨ b.date ≤ c.date

/-- C27. A curve can be built from every such input; it raises ValueError when a knot precedes the reference date; without
a reference date the earliest knot is used. -/
theorem C27_builds (values : List Knot) (m : InterpolationMethod) (dcc : DayCountConvention) (l r : EndBehavior) :
    (∀ ref, CurveInput values dcc ref → ∃ c, Curve.create values m dcc (some ref) l r = .ok c ∧ c.referenceDate = ref) ∧
    (∀ ref, (∃ k ∈ values, k.date < ref) → Curve.create values m dcc (some ref) l r = .error .valueError) ∧
    (values ≠ [] → ∃ first ∈ values, (∀ k ∈ values, first.date ≤ k.date) ∧
      Curve.create values m dcc none l r = Curve.create values m dcc (some first.date) l r) := by
  refine ⟨?_, ?_, ?_⟩
  · intro ref h
    obtain ⟨τ, hτ⟩ := h.axis
    exact ⟨_, create_curve hτ h.refOk h.notBefore m l r, rfl⟩
  · rintro ref ⟨k, hk, hlt⟩
    have hk' := (pySorted_perm Knot.date values).mem_iff.2 hk
    have hs : List.Pairwise (fun a b : Knot => a.date ≤ b.date) (pySorted Knot.date values) :=
      pySorted_sorted Knot.date values
    unfold Curve.create
    simp only [ok_bind]
    match hsv : pySorted Knot.date values with
    | [] => rw [hsv] at hk'; simp at hk'
    | x :: xs =>
      rw [hsv] at hs hk'
      have hx : x.date < ref := by
        rcases List.mem_cons.1 hk' with rfl | hk'
        · exact hlt
        · exact lt_of_le_of_lt ((List.pairwise_cons.1 hs).1 k hk') hlt
      simp only [Curve.makeGrid, collect, Curve.axis, accrual_gt hx, error_bind]
  · intro hne
    have hp := pySorted_perm Knot.date values
    have hs : List.Pairwise (fun a b : Knot => a.date ≤ b.date) (pySorted Knot.date values) :=
      pySorted_sorted Knot.date values
    match hsv : pySorted Knot.date values with
    | [] => rw [hsv] at hp; exact absurd (List.Perm.eq_nil hp.symm) hne
    | k :: ks =>
      rw [hsv] at hs hp
      refine ⟨k, hp.mem_iff.1 (by simp), ?_, ?_⟩
      · intro x hx
        rcases List.mem_cons.1 (hp.mem_iff.2 hx) with rfl | hx
        · exact le_refl _
        · exact (List.pairwise_cons.1 hs).1 x hx
      · unfold Curve.create
        simp only [hsv, ok_bind]

theorem call_inside {values : List Knot} {dcc : DayCountConvention} {ref : PyDate} (h : CurveInput values dcc ref)
    {τ : PyDate → ℚ} (hτ : timeAxis dcc = some τ) {m : InterpolationMethod} {l r : EndBehavior} {c : Curve}
    (hc : Curve.create values m dcc (some ref) l r = .ok c) {d : PyDate} (h1 : ∃ k ∈ values, k.date ≤ d)
    (h2 : ∃ k ∈ values, d ≤ k.date) (adj : Adjustment) :
    c.interpolate d adj = (do
      let y ← c.interpolator (τ d - τ ref)
      let a ← adj (.date d)
      .ok (y + a)) := by
  rw [create_curve hτ h.refOk h.notBefore] at hc
  have hp := pySorted_perm Knot.date values
  have hs := knotSorted_pySorted h.distinct
  cases hc
  obtain ⟨k, hk, hkd⟩ := h1
  obtain ⟨k', hk', hkd'⟩ := h2
  obtain ⟨first, hf⟩ : ∃ x, (pySorted Knot.date values).head? = some x := by
    cases hh : pySorted Knot.date values with
    | nil => rw [hh] at hp; exact absurd (List.Perm.eq_nil hp.symm) h.nonempty
    | cons x xs => exact ⟨x, rfl⟩
  obtain ⟨last, hl⟩ : ∃ x, (pySorted Knot.date values).getLast? = some x := by
    cases hh : (pySorted Knot.date values).getLast? with
    | none => rw [List.getLast?_eq_none_iff] at hh; rw [hh] at hp; exact absurd (List.Perm.eq_nil hp.symm) h.nonempty
    | some x => exact ⟨x, rfl⟩
  have a1 := (head_le hs hf).2 k (hp.mem_iff.2 hk)
  have a2 := (le_last hs hl).2 k' (hp.mem_iff.2 hk')
  unfold Curve.interpolate
  simp only [hf, hl]
  rw [if_neg (not_lt.2 (le_trans a1 hkd)), if_neg (not_lt.2 (le_trans hkd' a2))]
  simp only [Curve.axis]
  rw [accrual_axis hτ (le_trans (h.notBefore k hk) hkd) h.refOk, ok_bind]

/-- Every interpolation method of the library, given enough knots for it: scipy's quadratic spline needs three, the cubic one
four. -/
def Interpolates (m : InterpolationMethod) (n : Nat) : Prop :=
  m = .linear ∨ m = .previous ∨ (m = .spline quadraticSpline ∧ 3 ≤ n) ∨ (m = .spline cubicSpline ∧ 4 ≤ n)

theorem Interpolates.basic {m : InterpolationMethod} (h : m = .linear ∨ m = .previous) (n : Nat) : Interpolates m n := by
  rcases h with h | h
  · exact Or.inl h
  · exact Or.inr (Or.inl h)

theorem Interpolates.cases {m : InterpolationMethod} {n : Nat} (h : Interpolates m n) :
    (m = .linear ∨ m = .previous) ∨ ∃ kind : SplineKind, m = .spline kind.fn ∧ kind.degree < n := by
  rcases h with h | h | ⟨h, hn⟩ | ⟨h, hn⟩
  · exact Or.inl (Or.inl h)
  · exact Or.inl (Or.inr h)
  · exact Or.inr ⟨.quadratic, h, hn⟩
  · exact Or.inr ⟨.cubic, h, hn⟩

theorem Interpolates.congr {m : InterpolationMethod} {n n' : Nat} (h : Interpolates m n) (e : n' = n) : Interpolates m n' := by
  rw [e]; exact h

/-- C27. A curve, whatever its interpolation method, returns exactly the knot value at every knot. -/
theorem C27_knots (values : List Knot) (m : InterpolationMethod) (hm : Interpolates m values.length)
    (dcc : DayCountConvention) (ref : PyDate) (l r : EndBehavior) (h : CurveInput values dcc ref) (c : Curve)
    (hc : Curve.create values m dcc (some ref) l r = .ok c) (k : Knot) (hk : k ∈ values) :
    c.call k.date = .ok k.value := by
  obtain ⟨τ, hτ⟩ := h.axis
  unfold Curve.call
  rw [call_inside h hτ hc ⟨k, hk, le_refl _⟩ ⟨k, hk, le_refl _⟩]
  rw [create_curve hτ h.refOk h.notBefore] at hc
  have hk' := (pySorted_perm Knot.date values).mem_iff.2 hk
  have hs := knotSorted_pySorted h.distinct
  have hmono : ∀ {a b : PyDate}, a < b → (fun d => τ d - τ ref) a < (fun d => τ d - τ ref) b := by
    intro a b hab; have := axis_strictMono hτ hab; simp only; linarith
  cases hc
  unfold Curve.interpolator
  rcases hm.cases with (rfl | rfl) | ⟨kind, rfl, hlen⟩
  · have := interpLinear_knot (fun d => τ d - τ ref) hmono _ hs k hk'
    simp only at this ⊢
    rw [this]; simp [noAdjustment]
  · have := interpPrevious_knot (fun d => τ d - τ ref) hmono _ hs k hk'
    simp only at this ⊢
    rw [this]; simp [noAdjustment]
  · have := splineGrid_knot kind hs (X := fun d => τ d - τ ref) hmono
      (by rw [(pySorted_perm Knot.date values).length_eq]; exact hlen) hk'
    simp only at this ⊢
    rw [this]; simp [noAdjustment]

/-- C27. Between adjacent knots a linear curve follows the straight line in the time coordinate `τ` of its convention
(hence stays between the two values), and a "previous" curve stays at the earlier value. -/
theorem C27_between (values : List Knot) (dcc : DayCountConvention) (ref : PyDate) (l r : EndBehavior)
    (h : CurveInput values dcc ref) (τ : PyDate → ℚ) (hτ : timeAxis dcc = some τ) (a b : Knot)
    (hab : Adjacent values a b) (d : PyDate) (h1 : a.date ≤ d) (h2 : d < b.date) :
    (∀ c, Curve.create values .linear dcc (some ref) l r = .ok c →
      ∃ w, w = (τ d - τ a.date) / (τ b.date - τ a.date) ∧ 0 ≤ w ∧ w < 1 ∧
        c.call d = .ok ((1 - w) * a.value + w * b.value)) ∧
    (∀ c, Curve.create values .previous dcc (some ref) l r = .ok c → c.call d = .ok a.value) := by
  obtain ⟨ha, hb, hlt, hadj⟩ := hab
  have hp := pySorted_perm Knot.date values
  have hs := knotSorted_pySorted h.distinct
  have hmono : ∀ {a b : PyDate}, a < b → (fun d => τ d - τ ref) a < (fun d => τ d - τ ref) b := by
    intro a b hab; have := axis_strictMono hτ hab; simp only; linarith
  have t1 := axis_mono hτ h1
  have t2 := axis_strictMono hτ h2
  have t3 := axis_strictMono hτ hlt
  constructor
  · intro c hc
    refine ⟨_, rfl, div_nonneg (by linarith) (by linarith), (div_lt_one (by linarith)).2 (by linarith), ?_⟩
    unfold Curve.call
    rw [call_inside h hτ hc ⟨a, ha, h1⟩ ⟨b, hb, le_of_lt h2⟩]
    rw [create_curve hτ h.refOk h.notBefore] at hc
    cases hc
    unfold Curve.interpolator
    have := interpLinear_adjacent (fun d => τ d - τ ref) hmono _ hs a b d (hp.mem_iff.2 ha) (hp.mem_iff.2 hb) h1 h2
      (fun c hc => hadj c (hp.mem_iff.1 hc))
    simp only at this ⊢
    rw [this]
    simp only [ok_bind, noAdjustment]
    congr 1
    have hne : τ b.date - τ a.date ≠ 0 := by linarith
    have hne2 : τ b.date - τ ref - (τ a.date - τ ref) ≠ 0 := by
      intro h; apply hne; linarith
    rw [show τ b.date - τ ref - (τ a.date - τ ref) = τ b.date - τ a.date by ring]
    field_simp
    ring
  · intro c hc
    unfold Curve.call
    rw [call_inside h hτ hc ⟨a, ha, h1⟩ ⟨b, hb, le_of_lt h2⟩]
    rw [create_curve hτ h.refOk h.notBefore] at hc
    cases hc
    unfold Curve.interpolator
    have := interpPrevious_adjacent (fun d => τ d - τ ref) hmono _ hs a b d (hp.mem_iff.2 ha) (hp.mem_iff.2 hb) h1 h2
      (fun c hc => hadj c (hp.mem_iff.1 hc))
    simp only at this ⊢
    rw [this]; simp [noAdjustment]

/-- C27. Outside the knots: the end value with CONSTANT behaviour, ValueError with ERROR behaviour. -/
theorem C27_outside (values : List Knot) (m : InterpolationMethod) (dcc : DayCountConvention) (ref : PyDate)
    (l r : EndBehavior) (h : CurveInput values dcc ref) (c : Curve)
    (hc : Curve.create values m dcc (some ref) l r = .ok c) (k : Knot) (hk : k ∈ values) (d : PyDate) :
    ((∀ x ∈ values, k.date ≤ x.date) → d < k.date →
      c.call d = match l with
        | .constant => .ok k.value
        | .error => .error .valueError) ∧
    ((∀ x ∈ values, x.date ≤ k.date) → k.date < d →
      c.call d = match r with
        | .constant => .ok k.value
        | .error => .error .valueError) := by
  obtain ⟨τ, hτ⟩ := h.axis
  rw [create_curve hτ h.refOk h.notBefore] at hc
  have hp := pySorted_perm Knot.date values
  have hs := knotSorted_pySorted h.distinct
  cases hc
  obtain ⟨first, hf⟩ : ∃ x, (pySorted Knot.date values).head? = some x := by
    cases hh : pySorted Knot.date values with
    | nil => rw [hh] at hp; exact absurd (List.Perm.eq_nil hp.symm) h.nonempty
    | cons x xs => exact ⟨x, rfl⟩
  obtain ⟨last, hl⟩ : ∃ x, (pySorted Knot.date values).getLast? = some x := by
    cases hh : (pySorted Knot.date values).getLast? with
    | none => rw [List.getLast?_eq_none_iff] at hh; rw [hh] at hp; exact absurd (List.Perm.eq_nil hp.symm) h.nonempty
    | some x => exact ⟨x, rfl⟩
  have hinj : ∀ x ∈ values, x.date = k.date → x = k := fun x hx he => List.inj_on_of_nodup_map h.distinct hx hk he
  have hfm := hp.mem_iff.1 (head_le hs hf).1
  have hlm := hp.mem_iff.1 (le_last hs hl).1
  have hfirst := (head_le hs hf).2 k (hp.mem_iff.2 hk)
  have hlast := (le_last hs hl).2 k (hp.mem_iff.2 hk)
  unfold Curve.call Curve.interpolate
  simp only [hf, hl]
  constructor
  · intro hmin hd
    have : first = k := hinj first hfm (le_antisymm hfirst (hmin first hfm))
    subst this
    rw [if_pos hd]
    cases l <;> simp [noAdjustment]
  · intro hmax hd
    have : last = k := hinj last hlm (le_antisymm (hmax last hlm) hlast)
    subst this
    rw [if_neg (not_lt.2 (le_of_lt (lt_of_le_of_lt hfirst hd))), if_pos hd]
    cases r <;> simp [noAdjustment]

/-- C27. The order in which the knots are supplied does not matter. -/
theorem C27_order_independent (values values' : List Knot) (hp : values.Perm values')
    (hd : (values.map Knot.date).Nodup) (m : InterpolationMethod) (dcc : DayCountConvention) (ref : Option PyDate)
    (l r : EndBehavior) : Curve.create values m dcc ref l r = Curve.create values' m dcc ref l r := by
  have : pySorted Knot.date values = pySorted Knot.date values' := by
    refine List.Perm.eq_of_pairwise (le := fun a b : Knot => a.date < b.date) ?_ (knotSorted_pySorted hd)
      (knotSorted_pySorted ((hp.map _).nodup_iff.1 hd))
      ((pySorted_perm _ values).trans (hp.trans (pySorted_perm _ values').symm))
    intro a b _ _ h1 h2
    exact absurd h1 (lt_asymm h2)
  unfold Curve.create
  rw [this]

/-- C27. Up to the last knot, an adjustment function is added pointwise. -/
theorem C27_adjustment (values : List Knot) (m : InterpolationMethod) (dcc : DayCountConvention) (ref : PyDate)
    (l r : EndBehavior) (h : CurveInput values dcc ref) (c : Curve)
    (hc : Curve.create values m dcc (some ref) l r = .ok c) (d : PyDate) (hd : ∃ k ∈ values, d ≤ k.date)
    (adj : Adjustment) (y a : ℚ) (hy : c.call d = .ok y) (ha : adj (.date d) = .ok a) :
    c.interpolate d adj = .ok (y + a) := by
  obtain ⟨τ, hτ⟩ := h.axis
  by_cases h1 : ∃ k ∈ values, k.date ≤ d
  · unfold Curve.call at hy
    rw [call_inside h hτ hc h1 hd] at hy ⊢
    rw [bind_ok] at hy
    obtain ⟨v, hv, hy⟩ := hy
    simp [noAdjustment] at hy
    rw [hv, ok_bind, ha, ok_bind, hy]
  · rw [create_curve hτ h.refOk h.notBefore] at hc
    have hp := pySorted_perm Knot.date values
    have hs := knotSorted_pySorted h.distinct
    push Not at h1
    cases hc
    unfold Curve.call at hy
    unfold Curve.interpolate at hy ⊢
    cases hf : (pySorted Knot.date values).head? with
    | none => simp only [hf] at hy; cases hy
    | some first =>
      cases hl : (pySorted Knot.date values).getLast? with
      | none => simp only [hf, hl] at hy; cases hy
      | some last =>
        have hlt := h1 first (hp.mem_iff.1 (head_le hs hf).1)
        simp only [hf, hl] at hy ⊢
        rw [if_pos hlt] at hy ⊢
        cases l with
        | error => cases hy
        | constant =>
          simp [noAdjustment] at hy
          simp only [ha, ok_bind]
          rw [hy]

/-- A concrete curve input: three knots supplied out of order. -/
def exampleKnots : List Knot := [⟨D 2026 1 1, 3⟩, ⟨D 2024 1 1, 1⟩, ⟨D 2025 1 1, 2⟩]

example : CurveInput exampleKnots .act360 (D 2023 6 1) ∧
    Adjacent exampleKnots ⟨D 2024 1 1, 1⟩ ⟨D 2025 1 1, 2⟩ := by
  refine ⟨⟨by decide, by decide +kernel, by decide +kernel, by decide +kernel, by decide +kernel⟩, ?_⟩
  unfold Adjacent; decide +kernel

/-- C27. Without knots and without a reference date the constructor raises IndexError. -/
theorem C27_empty (m : InterpolationMethod) (dcc : DayCountConvention) (l r : EndBehavior) :
    Curve.create [] m dcc none l r = .error .indexError := rfl

/-! ## C28 -/

theorem interpolate_right {values : List Knot} {m : InterpolationMethod} {dcc : DayCountConvention} {ref : PyDate}
    {l : EndBehavior} (h : CurveInput values dcc ref) {c : Curve}
    (hc : Curve.create values m dcc (some ref) l .constant = .ok c) {k : Knot} (hk : k ∈ values)
    (hmax : ∀ x ∈ values, x.date ≤ k.date) {d : PyDate} (hd : k.date < d) (adj : Adjustment) :
    c.interpolate d adj = (do
      let a ← adj .dateClass
      .ok (k.value + a)) := by
  obtain ⟨τ, hτ⟩ := h.axis
  rw [create_curve hτ h.refOk h.notBefore] at hc
  have hp := pySorted_perm Knot.date values
  have hs := knotSorted_pySorted h.distinct
  cases hc
  obtain ⟨first, hf⟩ : ∃ x, (pySorted Knot.date values).head? = some x := by
    cases hh : pySorted Knot.date values with
    | nil => rw [hh] at hp; exact absurd (List.Perm.eq_nil hp.symm) h.nonempty
    | cons x xs => exact ⟨x, rfl⟩
  obtain ⟨last, hl⟩ : ∃ x, (pySorted Knot.date values).getLast? = some x := by
    cases hh : (pySorted Knot.date values).getLast? with
    | none => rw [List.getLast?_eq_none_iff] at hh; rw [hh] at hp; exact absurd (List.Perm.eq_nil hp.symm) h.nonempty
    | some x => exact ⟨x, rfl⟩
  have hlm := hp.mem_iff.1 (le_last hs hl).1
  have hfirst := (head_le hs hf).2 k (hp.mem_iff.2 hk)
  have hlast := (le_last hs hl).2 k (hp.mem_iff.2 hk)
  have : last = k := List.inj_on_of_nodup_map h.distinct hlm hk (le_antisymm (hmax last hlm) hlast)
  subst this
  unfold Curve.interpolate
  simp only [hf, hl]
  rw [if_neg (not_lt.2 (le_of_lt (lt_of_le_of_lt hfirst hd))), if_pos hd]

/-- C28. After the last knot of a right-constant curve, a constant adjustment is added as documented.  Missing: every
other adjustment, because the code calls it with the class `date` instead of the date. -/
theorem C28_constant_adjustment_partial (values : List Knot) (m : InterpolationMethod) (dcc : DayCountConvention)
    (ref : PyDate) (l : EndBehavior) (h : CurveInput values dcc ref) (c : Curve)
    (hc : Curve.create values m dcc (some ref) l .constant = .ok c) (k : Knot) (hk : k ∈ values)
    (hmax : ∀ x ∈ values, x.date ≤ k.date) (d : PyDate) (hd : k.date < d) (a : ℚ) :
    c.interpolate d (fun _ => .ok a) = .ok (k.value + a) := by
  rw [interpolate_right h hc hk hmax hd]; rfl

/-- C28 fails: a key rate, or a collection's key rates, used as the adjustment raise TypeError after the last knot, and no
adjustment function can make the result depend on the date. -/
theorem C28_key_rate_raises (values : List Knot) (m : InterpolationMethod) (dcc : DayCountConvention)
    (ref : PyDate) (l : EndBehavior) (h : CurveInput values dcc ref) (c : Curve)
    (hc : Curve.create values m dcc (some ref) l .constant = .ok c) (k : Knot) (hk : k ∈ values)
    (hmax : ∀ x ∈ values, x.date ≤ k.date) (d e : PyDate) (hd : k.date < d) (he : k.date < e) :
    (∀ kr : KeyRate, c.interpolate d kr.asAdjustment = .error .typeError) ∧
    (∀ adj : Adjustment, c.interpolate d adj = c.interpolate e adj) := by
  refine ⟨fun kr => ?_, fun adj => ?_⟩
  · rw [interpolate_right h hc hk hmax hd]; rfl
  · rw [interpolate_right h hc hk hmax hd, interpolate_right h hc hk hmax he]

example : ∀ x ∈ exampleKnots, x.date ≤ (⟨D 2026 1 1, 3⟩ : Knot).date := by decide +kernel

end Verif.Props
