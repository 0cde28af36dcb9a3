/- Property C90: interpolated curves keep the shape of their knots; discount factors without arbitrage. -/
import Verif.Props.YieldCurve
import Mathlib.Tactic.Linarith
import Mathlib.Tactic.LinearCombination
import Mathlib.Tactic.Positivity

namespace Verif.Props
open Verif Verif.Spec Verif.DayCount

/-! ## C90 -/

/-- Where a date lies relative to the knots, and what the curve is worth there. -/
theorem curve_cases {values : List Knot} {m : InterpolationMethod} (hm : m = .linear ∨ m = .previous)
    {dcc : DayCountConvention} {ref : PyDate} {l r : EndBehavior} (h : CurveInput values dcc ref) {τ : PyDate → ℚ}
    (hτ : timeAxis dcc = some τ) {c : Curve} (hc : Curve.create values m dcc (some ref) l r = .ok c) {d : PyDate} {v : ℚ}
    (hv : c.call d = .ok v) :
    (∃ k ∈ values, (∀ x ∈ values, k.date ≤ x.date) ∧ d < k.date ∧ v = k.value) ∨
    (∃ k ∈ values, (∀ x ∈ values, x.date ≤ k.date) ∧ k.date < d ∧ v = k.value) ∨
    (∃ k ∈ values, k.date = d ∧ v = k.value) ∨
    (∃ a b, Adjacent values a b ∧ a.date < d ∧ d < b.date ∧
      ((m = .linear ∧ v = a.value + (τ d - τ a.date) / (τ b.date - τ a.date) * (b.value - a.value)) ∨
        (m = .previous ∧ v = a.value))) := by
  have hne : values.toFinset.Nonempty := by
    obtain ⟨k, hk⟩ := List.exists_mem_of_ne_nil _ h.nonempty
    exact ⟨k, by simp [hk]⟩
  obtain ⟨first, hf, hfmin⟩ := Finset.exists_min_image values.toFinset Knot.date hne
  obtain ⟨last, hl, hlmax⟩ := Finset.exists_max_image values.toFinset Knot.date hne
  simp only [List.mem_toFinset] at hf hl hfmin hlmax
  rcases lt_or_ge d first.date with hlt | hge
  · left
    refine ⟨first, hf, hfmin, hlt, ?_⟩
    have := (C27_outside values m dcc ref l r h c hc first hf d).1 hfmin hlt
    rw [hv] at this
    cases l with
    | constant => injection this
    | error => simp at this
  rcases lt_or_ge last.date d with hlt | hge'
  · right; left
    refine ⟨last, hl, hlmax, hlt, ?_⟩
    have := (C27_outside values m dcc ref l r h c hc last hl d).2 hlmax hlt
    rw [hv] at this
    cases r with
    | constant => injection this
    | error => simp at this
  right; right
  rcases bracket ⟨first, hf, hge⟩ ⟨last, hl, hge'⟩ with ⟨k, hk, hkd⟩ | ⟨a, b, hab, h1, h2⟩
  · left
    refine ⟨k, hk, hkd, ?_⟩
    have := C27_knots values m (.basic hm _) dcc ref l r h c hc k hk
    rw [hkd, hv] at this
    injection this
  · rcases eq_or_lt_of_le h1 with he | h1
    · left
      refine ⟨a, hab.1, he, ?_⟩
      have := C27_knots values m (.basic hm _) dcc ref l r h c hc a hab.1
      rw [he, hv] at this
      injection this
    · right
      refine ⟨a, b, hab, h1, h2, ?_⟩
      have hb := C27_between values dcc ref l r h τ hτ a b hab d h1.le h2
      rcases hm with rfl | rfl
      · left
        obtain ⟨w, hw, _, _, hcall⟩ := hb.1 c hc
        rw [hv] at hcall
        injection hcall with hcall
        refine ⟨rfl, ?_⟩
        rw [hcall, ← hw]; ring
      · right
        have hcall := hb.2 c hc
        rw [hv] at hcall
        injection hcall with hcall
        exact ⟨rfl, hcall⟩

theorem weight_bounds {dcc : DayCountConvention} {τ : PyDate → ℚ} (hτ : timeAxis dcc = some τ) {a d b : PyDate} (h1 : a < d)
    (h2 : d < b) : 0 < (τ d - τ a) / (τ b - τ a) ∧ (τ d - τ a) / (τ b - τ a) < 1 := by
  have e1 := axis_strictMono hτ h1
  have e2 := axis_strictMono hτ h2
  constructor
  · apply div_pos <;> linarith
  · rw [div_lt_one (by linarith)]; linarith

/-- C90. The curve never leaves the range of its knot values, wherever it is defined. -/
theorem C90_bounds (values : List Knot) (m : InterpolationMethod) (hm : m = .linear ∨ m = .previous)
    (dcc : DayCountConvention) (ref : PyDate) (l r : EndBehavior) (h : CurveInput values dcc ref) (c : Curve)
    (hc : Curve.create values m dcc (some ref) l r = .ok c) (lo hi : ℚ) (hk : ∀ k ∈ values, lo ≤ k.value ∧ k.value ≤ hi)
    (d : PyDate) (v : ℚ) (hv : c.call d = .ok v) : lo ≤ v ∧ v ≤ hi := by
  obtain ⟨τ, hτ⟩ := h.axis
  rcases curve_cases hm h hτ hc hv with ⟨k, hkm, _, _, rfl⟩ | ⟨k, hkm, _, _, rfl⟩ | ⟨k, hkm, _, rfl⟩ | ⟨a, b, hab, h1, h2, hv'⟩
  · exact hk k hkm
  · exact hk k hkm
  · exact hk k hkm
  · have ha := hk a hab.1
    have hb := hk b hab.2.1
    rcases hv' with ⟨_, rfl⟩ | ⟨_, rfl⟩
    · obtain ⟨w0, w1⟩ := weight_bounds hτ h1 h2
      generalize (τ d - τ a.date) / (τ b.date - τ a.date) = w at w0 w1
      constructor <;> nlinarith
    · exact ha

/-- If knot values do not increase with the date (`s = 1`), no curve value exceeds an earlier knot or is below a later one; if they
do not decrease (`s = -1`), the other way round. -/
theorem curve_vs_knots_sign (s : ℚ) {values : List Knot} {m : InterpolationMethod} (hm : m = .linear ∨ m = .previous)
    {dcc : DayCountConvention} {ref : PyDate} {l r : EndBehavior} (h : CurveInput values dcc ref) {c : Curve}
    (hc : Curve.create values m dcc (some ref) l r = .ok c)
    (hanti : ∀ a ∈ values, ∀ b ∈ values, a.date ≤ b.date → s * b.value ≤ s * a.value) {d : PyDate} {v : ℚ} (hv : c.call d = .ok v)
    {k : Knot} (hk : k ∈ values) : (d ≤ k.date → s * k.value ≤ s * v) ∧ (k.date ≤ d → s * v ≤ s * k.value) := by
  obtain ⟨τ, hτ⟩ := h.axis
  rcases curve_cases hm h hτ hc hv with ⟨x, hx, hmin, hd, rfl⟩ | ⟨x, hx, hmax, hd, rfl⟩ | ⟨x, hx, hxd, rfl⟩ |
      ⟨a, b, hab, h1, h2, hv'⟩
  · exact ⟨fun _ => hanti x hx k hk (hmin k hk), fun hkd => absurd (lt_of_le_of_lt hkd hd) (not_lt.2 (hmin k hk))⟩
  · exact ⟨fun hkd => absurd (lt_of_lt_of_le hd hkd) (not_lt.2 (hmax k hk)), fun _ => hanti k hk x hx (hmax k hk)⟩
  · exact ⟨fun hkd => hanti x hx k hk (by rw [hxd]; exact hkd), fun hkd => hanti k hk x hx (by rw [hxd]; exact hkd)⟩
  · have hba := hanti a hab.1 b hab.2.1 hab.2.2.1.le
    have hbv : s * b.value ≤ s * v ∧ s * v ≤ s * a.value := by
      rcases hv' with ⟨_, rfl⟩ | ⟨_, rfl⟩
      · obtain ⟨w0, w1⟩ := weight_bounds hτ h1 h2
        generalize (τ d - τ a.date) / (τ b.date - τ a.date) = w at w0 w1
        constructor <;> nlinarith
      · exact ⟨hba, le_refl _⟩
    constructor
    · intro hkd
      rcases hab.2.2.2 k hk with h' | h'
      · exact absurd (lt_of_lt_of_le h1 hkd) (not_lt.2 h')
      · exact le_trans (hanti b hab.2.1 k hk h') hbv.1
    · intro hkd
      rcases hab.2.2.2 k hk with h' | h'
      · exact le_trans hbv.2 (hanti k hk a hab.1 h')
      · exact absurd (lt_of_le_of_lt hkd h2) (not_lt.2 h')

theorem curve_monotone_sign (s : ℚ) (values : List Knot) (m : InterpolationMethod) (hm : m = .linear ∨ m = .previous)
    (dcc : DayCountConvention) (ref : PyDate) (l r : EndBehavior) (h : CurveInput values dcc ref) (c : Curve)
    (hc : Curve.create values m dcc (some ref) l r = .ok c)
    (hanti : ∀ a ∈ values, ∀ b ∈ values, a.date ≤ b.date → s * b.value ≤ s * a.value)
    (d e : PyDate) (hde : d ≤ e) (v w : ℚ) (hv : c.call d = .ok v) (hw : c.call e = .ok w) : s * w ≤ s * v := by
  obtain ⟨τ, hτ⟩ := h.axis
  by_cases hk : ∃ k ∈ values, d ≤ k.date ∧ k.date ≤ e
  · obtain ⟨k, hk, h1, h2⟩ := hk
    exact le_trans ((curve_vs_knots_sign s hm h hc hanti hw hk).2 h2) ((curve_vs_knots_sign s hm h hc hanti hv hk).1 h1)
  · push Not at hk
    rcases curve_cases hm h hτ hc hv with ⟨x, hx, hmin, hd, rfl⟩ | ⟨x, hx, hmax, hd, rfl⟩ | ⟨x, hx, hxd, rfl⟩ |
        ⟨a, b, hab, h1, h2, hv'⟩
    · rcases curve_cases hm h hτ hc hw with ⟨y, hy, hmin', hd', rfl⟩ | ⟨y, hy, hmax', hd', rfl⟩ | ⟨y, hy, hyd, rfl⟩ |
        ⟨a, b, hab, h1, h2, hv'⟩
      · exact hanti x hx y hy (hmin y hy)
      · exact hanti x hx y hy (hmin y hy)
      · exact hanti x hx y hy (hmin y hy)
      · exact absurd (lt_of_lt_of_le hd (hmin a hab.1)) (fun hh => by
          have := hk a hab.1 hh.le
          exact absurd h1 (not_lt.2 this.le))
    · rw [(le_antisymm ((curve_vs_knots_sign s hm h hc hanti hw hx).2 (hd.le.trans hde)) ?_ : s * w = s * x.value)]
      rcases curve_cases hm h hτ hc hw with ⟨y, hy, hmin', hd', rfl⟩ | ⟨y, hy, hmax', hd', rfl⟩ | ⟨y, hy, hyd, rfl⟩ |
        ⟨a, b, hab, h1, h2, hv'⟩
      · exact hanti y hy x hx (hmax y hy)
      · exact hanti y hy x hx (hmax y hy)
      · exact hanti y hy x hx (hmax y hy)
      · exact absurd (lt_of_lt_of_le (hd.trans_le hde) h2.le) (not_lt.2 (hmax b hab.2.1))
    · exact absurd (hk x hx (by rw [hxd])) (not_lt.2 (by rw [hxd]; exact hde))
    · have heb : e < b.date := by
        by_contra hcon
        exact absurd (hk b hab.2.1 h2.le) (not_lt.2 (not_lt.1 hcon))
      have hw' : (m = .linear ∧ w = a.value + (τ e - τ a.date) / (τ b.date - τ a.date) * (b.value - a.value)) ∨
          (m = .previous ∧ w = a.value) := by
        have hb := C27_between values dcc ref l r h τ hτ a b hab e (h1.le.trans hde) heb
        rcases hm with rfl | rfl
        · left
          obtain ⟨u, hu, _, _, hcall⟩ := hb.1 c hc
          rw [hw] at hcall
          injection hcall with hcall
          exact ⟨rfl, by rw [hcall, ← hu]; ring⟩
        · right
          have hcall := hb.2 c hc
          rw [hw] at hcall
          injection hcall with hcall
          exact ⟨rfl, hcall⟩
      have hba := hanti a hab.1 b hab.2.1 hab.2.2.1.le
      have hpos : 0 < τ b.date - τ a.date := by have := axis_strictMono hτ hab.2.2.1; linarith
      have hmono : (τ d - τ a.date) / (τ b.date - τ a.date) ≤ (τ e - τ a.date) / (τ b.date - τ a.date) := by
        apply div_le_div_of_nonneg_right _ hpos.le
        rcases eq_or_lt_of_le hde with he | he
        · rw [he]
        · have := axis_strictMono hτ he; linarith
      rcases hv' with ⟨hl, rfl⟩ | ⟨hp, rfl⟩ <;> rcases hw' with ⟨hl', rfl⟩ | ⟨hp', rfl⟩
      · nlinarith
      · rw [hl] at hp'; cases hp'
      · rw [hp] at hl'; cases hl'
      · exact le_refl _

theorem curve_vs_knots {values : List Knot} {m : InterpolationMethod} (hm : m = .linear ∨ m = .previous)
    {dcc : DayCountConvention} {ref : PyDate} {l r : EndBehavior} (h : CurveInput values dcc ref) {c : Curve}
    (hc : Curve.create values m dcc (some ref) l r = .ok c)
    (hanti : ∀ a ∈ values, ∀ b ∈ values, a.date ≤ b.date → b.value ≤ a.value) {d : PyDate} {v : ℚ} (hv : c.call d = .ok v)
    {k : Knot} (hk : k ∈ values) : (d ≤ k.date → k.value ≤ v) ∧ (k.date ≤ d → v ≤ k.value) := by
  have := curve_vs_knots_sign 1 hm h hc (by simpa using hanti) hv hk
  simpa using this

/-- C90. If the knot values do not increase with the date, neither does the curve. -/
theorem C90_decreasing (values : List Knot) (m : InterpolationMethod) (hm : m = .linear ∨ m = .previous)
    (dcc : DayCountConvention) (ref : PyDate) (l r : EndBehavior) (h : CurveInput values dcc ref) (c : Curve)
    (hc : Curve.create values m dcc (some ref) l r = .ok c)
    (hanti : ∀ a ∈ values, ∀ b ∈ values, a.date ≤ b.date → b.value ≤ a.value)
    (d e : PyDate) (hde : d ≤ e) (v w : ℚ) (hv : c.call d = .ok v) (hw : c.call e = .ok w) : w ≤ v := by
  have := curve_monotone_sign 1 values m hm dcc ref l r h c hc (by simpa using hanti) d e hde v w hv hw
  simpa using this

/-- C90. If the knot values do not decrease with the date, neither does the curve. -/
theorem C90_increasing (values : List Knot) (m : InterpolationMethod) (hm : m = .linear ∨ m = .previous)
    (dcc : DayCountConvention) (ref : PyDate) (l r : EndBehavior) (h : CurveInput values dcc ref) (c : Curve)
    (hc : Curve.create values m dcc (some ref) l r = .ok c)
    (hmono : ∀ a ∈ values, ∀ b ∈ values, a.date ≤ b.date → a.value ≤ b.value)
    (d e : PyDate) (hde : d ≤ e) (v w : ℚ) (hv : c.call d = .ok v) (hw : c.call e = .ok w) : v ≤ w := by
  have := curve_monotone_sign (-1) values m hm dcc ref l r h c hc (by simpa using hmono) d e hde v w hv hw
  simpa using this

/-- Knots at the dates `dates` with the values `f`. -/
def knotsAt (dates : List PyDate) (f : PyDate → ℚ) : List Knot := dates.map (fun x => ⟨x, f x⟩)

theorem knotsAt_input {dates : List PyDate} {f g : PyDate → ℚ} {dcc : DayCountConvention} {ref : PyDate}
    (h : CurveInput (knotsAt dates f) dcc ref) : CurveInput (knotsAt dates g) dcc ref := by
  refine ⟨h.convention, h.refOk, ?_, ?_, ?_⟩
  · have := h.nonempty
    simpa [knotsAt] using this
  · have := h.distinct
    simpa [knotsAt, Function.comp_def] using this
  · have := h.notBefore
    simpa [knotsAt] using this

theorem mem_knotsAt {dates : List PyDate} {f : PyDate → ℚ} {k : Knot} : k ∈ knotsAt dates f ↔ k.date ∈ dates ∧ k.value = f k.date := by
  unfold knotsAt
  rw [List.mem_map]
  constructor
  · rintro ⟨x, hx, rfl⟩; exact ⟨hx, rfl⟩
  · rintro ⟨hx, hv⟩; exact ⟨k.date, hx, by rw [← hv]⟩

theorem sum_indicator {dates : List PyDate} (hn : dates.Nodup) (f : PyDate → ℚ) {x : PyDate} (hx : x ∈ dates) :
    (dates.map (fun y => (if y = x then 1 else 0) * f y)).sum = f x := by
  rw [← List.sum_toFinset _ hn, Finset.sum_eq_single x (fun y _ hy => by simp [hy]) (fun hh => by simp [hx] at hh)]
  simp

/-- C90. The curve is linear in its values: at every date it covers it is a weighted average of the knot values, with
nonnegative weights that add up to one and do not depend on the values. -/
theorem C90_weights (dates : List PyDate) (m : InterpolationMethod) (hm : m = .linear ∨ m = .previous)
    (dcc : DayCountConvention) (ref : PyDate) (l r : EndBehavior) (h : CurveInput (knotsAt dates (fun _ => 0)) dcc ref)
    (d : PyDate) (h1 : l = .constant ∨ ∃ x ∈ dates, x ≤ d) (h2 : r = .constant ∨ ∃ x ∈ dates, d ≤ x) :
    ∃ ω : PyDate → ℚ, (∀ x, 0 ≤ ω x) ∧ (dates.map ω).sum = 1 ∧
      ∀ (f : PyDate → ℚ) (c : Curve), Curve.create (knotsAt dates f) m dcc (some ref) l r = .ok c →
        c.call d = .ok (dates.map (fun x => ω x * f x)).sum := by
  obtain ⟨τ, hτ⟩ := h.axis
  have hn : dates.Nodup := by
    have := h.distinct
    simpa [knotsAt, Function.comp_def] using this
  have hne : dates.toFinset.Nonempty := by
    have : dates ≠ [] := by have := h.nonempty; simpa [knotsAt] using this
    obtain ⟨k, hk⟩ := List.exists_mem_of_ne_nil _ this
    exact ⟨k, by simp [hk]⟩
  -- a single knot
  have single : ∀ x ∈ dates, (∀ (f : PyDate → ℚ) (c : Curve), Curve.create (knotsAt dates f) m dcc (some ref) l r = .ok c →
      c.call d = .ok (f x)) → ∃ ω : PyDate → ℚ, (∀ x, 0 ≤ ω x) ∧ (dates.map ω).sum = 1 ∧
      ∀ (f : PyDate → ℚ) (c : Curve), Curve.create (knotsAt dates f) m dcc (some ref) l r = .ok c →
        c.call d = .ok (dates.map (fun x => ω x * f x)).sum := by
    intro x hx hcall
    refine ⟨fun y => if y = x then 1 else 0, fun y => by positivity, ?_, ?_⟩
    · have := sum_indicator hn (fun _ => 1) hx
      simpa using this
    · intro f c hc
      rw [sum_indicator hn f hx, hcall f c hc]
  obtain ⟨first, hf, hfmin⟩ := Finset.exists_min_image dates.toFinset id hne
  obtain ⟨last, hl, hlmax⟩ := Finset.exists_max_image dates.toFinset id hne
  simp only [List.mem_toFinset, id] at hf hl hfmin hlmax
  rcases lt_or_ge d first with hlt | hge
  · apply single first hf
    intro f c hc
    have hl' : l = .constant := by
      rcases h1 with h1 | ⟨x, hx, hxd⟩
      · exact h1
      · exact absurd (lt_of_le_of_lt hxd hlt) (not_lt.2 (hfmin x hx))
    have := (C27_outside _ m dcc ref l r (knotsAt_input h) c hc ⟨first, f first⟩ (mem_knotsAt.2 ⟨hf, rfl⟩) d).1
      (fun x hx => hfmin _ (mem_knotsAt.1 hx).1) hlt
    subst hl'
    rw [this]
  rcases lt_or_ge last d with hlt | hge'
  · apply single last hl
    intro f c hc
    have hr' : r = .constant := by
      rcases h2 with h2 | ⟨x, hx, hxd⟩
      · exact h2
      · exact absurd (lt_of_lt_of_le hlt hxd) (not_lt.2 (hlmax x hx))
    have := (C27_outside _ m dcc ref l r (knotsAt_input h) c hc ⟨last, f last⟩ (mem_knotsAt.2 ⟨hl, rfl⟩) d).2
      (fun x hx => hlmax _ (mem_knotsAt.1 hx).1) hlt
    subst hr'
    rw [this]
  rcases bracket (values := knotsAt dates (fun _ => 0)) ⟨⟨first, 0⟩, mem_knotsAt.2 ⟨hf, rfl⟩, hge⟩
      ⟨⟨last, 0⟩, mem_knotsAt.2 ⟨hl, rfl⟩, hge'⟩ with ⟨k, hk, hkd⟩ | ⟨a, b, hab, ha, hb⟩
  · apply single k.date (mem_knotsAt.1 hk).1
    intro f c hc
    have := C27_knots _ m (.basic hm _) dcc ref l r (knotsAt_input h) c hc ⟨k.date, f k.date⟩ (mem_knotsAt.2 ⟨(mem_knotsAt.1 hk).1, rfl⟩)
    rw [← hkd]; exact this
  · have ham := (mem_knotsAt.1 hab.1).1
    have hbm := (mem_knotsAt.1 hab.2.1).1
    have hadj : ∀ f : PyDate → ℚ, Adjacent (knotsAt dates f) ⟨a.date, f a.date⟩ ⟨b.date, f b.date⟩ := by
      intro f
      refine ⟨mem_knotsAt.2 ⟨ham, rfl⟩, mem_knotsAt.2 ⟨hbm, rfl⟩, hab.2.2.1, fun x hx => ?_⟩
      exact hab.2.2.2 ⟨x.date, 0⟩ (mem_knotsAt.2 ⟨(mem_knotsAt.1 hx).1, rfl⟩)
    rcases hm with rfl | rfl
    · have hab' := axis_strictMono hτ hab.2.2.1
      have hbd := axis_strictMono hτ hb
      have had : τ a.date ≤ τ d := by
        rcases eq_or_lt_of_le ha with he | he
        · rw [he]
        · exact (axis_strictMono hτ he).le
      have w0 : 0 ≤ (τ d - τ a.date) / (τ b.date - τ a.date) := by apply div_nonneg <;> linarith
      have w1 : (τ d - τ a.date) / (τ b.date - τ a.date) ≤ 1 := by rw [div_le_one (by linarith)]; linarith
      set w := (τ d - τ a.date) / (τ b.date - τ a.date) with hw
      have hsum : ∀ f : PyDate → ℚ,
          (dates.map (fun x => ((1 - w) * (if x = a.date then 1 else 0) + w * (if x = b.date then 1 else 0)) * f x)).sum =
          (1 - w) * f a.date + w * f b.date := by
        intro f
        have e : (fun x => ((1 - w) * (if x = a.date then 1 else 0) + w * (if x = b.date then 1 else 0)) * f x) =
            (fun x => (1 - w) * ((if x = a.date then 1 else 0) * f x) + w * ((if x = b.date then 1 else 0) * f x)) := by
          funext x; ring
        rw [e, List.sum_map_add, List.sum_map_mul_left, List.sum_map_mul_left, sum_indicator hn f ham, sum_indicator hn f hbm]
      refine ⟨fun x => (1 - w) * (if x = a.date then 1 else 0) + w * (if x = b.date then 1 else 0), ?_, ?_, ?_⟩
      · intro x
        have : 0 ≤ 1 - w := by linarith
        positivity
      · have := hsum (fun _ => 1)
        simp only [mul_one] at this
        rw [this]; ring
      · intro f c hc
        obtain ⟨u, hu, _, _, hcall⟩ := (C27_between _ dcc ref l r (knotsAt_input h) τ hτ _ _ (hadj f) d ha hb).1 c hc
        rw [hcall, hsum f, hu]
    · apply single a.date ham
      intro f c hc
      exact (C27_between _ dcc ref l r (knotsAt_input h) τ hτ _ _ (hadj f) d ha hb).2 c hc

/-! ### Yield curves in DISCOUNT_FACTOR space -/

/-- The discount curve behind a yield curve in DISCOUNT_FACTOR space: what an asset is priced with is the curve through the
same knots which raises outside them. -/
theorem discountFactor_value {exp : ℚ → ℚ} {bonds : List Knot} {m : InterpolationMethod}
    (hm : m = .linear ∨ m = .previous) {dcc : DayCountConvention} {ref : PyDate} {l r : EndBehavior}
    (h : CurveInput bonds dcc ref) {yc yc' : YieldCurve}
    (hyc : YieldCurve.create bonds [] m dcc .discountFactor ref l r = .ok yc) (hu : Used exp yc yc') :
    ∃ c, Curve.create bonds m dcc (some ref) .error .error = .ok c ∧ c.referenceDate = ref ∧
      ∀ asset : PresentValueable, (yc'.presentValue exp asset noAdjustment).1 = asset c.toDiscountFn := by
  obtain ⟨hs, base, hbase, rfl⟩ := settings_create (exp := exp) hyc
  obtain ⟨hs', hb', hsp'⟩ := used_inv hs hu
  obtain ⟨values', c, hto, hperm, hin, hc, href⟩ := discountFactor_curve (exp := exp) (.basic hm _) h hbase noAdjustment
    (fun _ => 0) (fun _ _ => rfl)
  have hsame : values'.Perm bonds := by
    refine hperm.trans ?_
    have : bonds.map (fun k => (⟨k.date, k.value + 0⟩ : Knot)) = bonds := by
      conv_rhs => rw [← List.map_id bonds]
      apply List.map_congr_left
      intro k _; cases k; simp
    rw [this]
  rw [C27_order_independent values' bonds hsame hin.distinct] at hc
  refine ⟨c, hc, href, fun asset => ?_⟩
  rw [(presentValue_eq hs' _ _).1, hb', hsp']
  unfold YieldCurve.presentValue
  simp only [hto]

/-- C90. On a yield curve built from zero-coupon prices every cashflow whose outstanding payments lie between the first and the
last of them is worth a fixed portfolio of the bonds: quantities that depend on the payments and on the bonds' dates, not on
the prices, and are nonnegative if the payments are. -/
theorem C90_replication (exp : ℚ → ℚ) (dates : List PyDate) (m : InterpolationMethod) (hm : m = .linear ∨ m = .previous)
    (dcc : DayCountConvention) (ref : PyDate) (l r : EndBehavior) (h : CurveInput (knotsAt dates (fun _ => 0)) dcc ref)
    (ps : List Payment)
    (hps : ∀ p ∈ ps, p.amount ≠ none → ref ≤ p.date → (∃ x ∈ dates, x ≤ p.date) ∧ ∃ x ∈ dates, p.date ≤ x) :
    ∃ n : PyDate → ℚ, ((∀ p ∈ ps, ∀ a, p.amount = some a → 0 ≤ a) → ∀ x, 0 ≤ n x) ∧
      ∀ (price : PyDate → ℚ) (yc yc' : YieldCurve),
        YieldCurve.create (knotsAt dates price) [] m dcc .discountFactor ref l r = .ok yc → Used exp yc yc' →
        (yc'.presentValue exp (Cashflow.presentValue (Cashflow.create ps)) noAdjustment).1 =
          .ok (dates.map (fun x => n x * price x)).sum := by
  have hw : ∀ d, ∃ ω : PyDate → ℚ, (∀ x, 0 ≤ ω x) ∧ ((∃ x ∈ dates, x ≤ d) → (∃ x ∈ dates, d ≤ x) →
      ∀ (f : PyDate → ℚ) (c : Curve), Curve.create (knotsAt dates f) m dcc (some ref) .error .error = .ok c →
        c.call d = .ok (dates.map (fun x => ω x * f x)).sum) := by
    intro d
    by_cases hd : (∃ x ∈ dates, x ≤ d) ∧ ∃ x ∈ dates, d ≤ x
    · obtain ⟨ω, h0, _, hω⟩ := C90_weights dates m hm dcc ref .error .error h d (Or.inr hd.1) (Or.inr hd.2)
      exact ⟨ω, h0, fun _ _ => hω⟩
    · exact ⟨fun _ => 0, fun _ => le_refl _, fun h1 h2 => absurd ⟨h1, h2⟩ hd⟩
  choose ω hω0 hω using hw
  refine ⟨fun x => (ps.map (contribution ref (fun d => ω d x))).sum, ?_, ?_⟩
  · intro hpos x
    apply List.sum_nonneg
    intro y hy
    obtain ⟨p, hp, rfl⟩ := List.mem_map.1 hy
    unfold contribution
    cases hpa : p.amount with
    | none => exact le_refl _
    | some a =>
      simp only
      have := hpos p hp a hpa
      split_ifs
      · have := hω0 p.date x
        positivity
      · exact le_refl _
  · intro price yc yc' hyc hu
    obtain ⟨c, hc, href, hpv⟩ := discountFactor_value hm (knotsAt_input h) hyc hu
    rw [hpv, C19_present_value ps c.toDiscountFn (fun d => (dates.map (fun x => ω d x * price x)).sum) ?_]
    · congr 1
      show (ps.map (contribution c.referenceDate _)).sum = _
      rw [href]
      clear hps hc hpv
      induction ps with
      | nil => simp
      | cons p ps ih =>
        simp only [List.map_cons, List.sum_cons, add_mul, List.sum_map_add]
        rw [ih]
        congr 1
        unfold contribution
        cases hpa : p.amount with
        | none => simp
        | some a =>
          simp only
          split_ifs
          · rw [← List.sum_map_mul_right]
            congr 1
            apply List.map_congr_left
            intro x _
            ring
          · simp
    · intro p hp hpa hpd
      have hpd' : ref ≤ p.date := by rw [← href]; exact hpd
      obtain ⟨e1, e2⟩ := hps p hp hpa hpd'
      exact hω p.date e1 e2 price c hc

/-- C90. With linear interpolation strictly decreasing knot values give a strictly decreasing curve between the first and the
last knot. -/
theorem C90_strictly_decreasing (values : List Knot) (dcc : DayCountConvention) (ref : PyDate) (l r : EndBehavior)
    (h : CurveInput values dcc ref) (c : Curve) (hc : Curve.create values .linear dcc (some ref) l r = .ok c)
    (hanti : ∀ a ∈ values, ∀ b ∈ values, a.date < b.date → b.value < a.value)
    (d e : PyDate) (hde : d < e) (hd : ∃ k ∈ values, k.date ≤ d) (he : ∃ k ∈ values, e ≤ k.date) :
    ∃ v w, c.call d = .ok v ∧ c.call e = .ok w ∧ w < v := by
  obtain ⟨τ, hτ⟩ := h.axis
  have hanti' : ∀ a ∈ values, ∀ b ∈ values, a.date ≤ b.date → b.value ≤ a.value := by
    intro a ha b hb hab
    rcases eq_or_lt_of_le hab with he | he
    · have : a = b := by
        by_contra hne
        exact absurd he (List.inj_on_of_nodup_map h.distinct ha hb |> fun hinj => fun h' => hne (hinj h'))
      rw [this]
    · exact (hanti a ha b hb he).le
  have hpos : ∀ {a b : Knot}, Adjacent values a b → 0 < τ b.date - τ a.date := by
    intro a b hab
    have := axis_strictMono hτ hab.2.2.1
    linarith
  obtain ⟨v, hv⟩ := curve_defined (m := .linear) (Or.inl rfl) h hc (d := d) (Or.inr hd)
    (by obtain ⟨k, hk, hke⟩ := he; exact ⟨k, hk, hde.le.trans hke⟩)
  obtain ⟨w, hw⟩ := curve_defined (m := .linear) (Or.inl rfl) h hc (d := e)
    (Or.inr (by obtain ⟨k, hk, hkd⟩ := hd; exact ⟨k, hk, hkd.trans hde.le⟩)) he
  refine ⟨v, w, hv, hw, ?_⟩
  -- the first knot after d
  have hd2 : ∃ k ∈ values, d ≤ k.date := by obtain ⟨k, hk, hke⟩ := he; exact ⟨k, hk, hde.le.trans hke⟩
  obtain ⟨k', hk', hke'⟩ := he
  obtain ⟨b, hb, hbmin⟩ := Finset.exists_min_image (values.toFinset.filter (fun x => d < x.date)) Knot.date
    ⟨k', by simp [hk']; exact lt_of_lt_of_le hde hke'⟩
  obtain ⟨k, hk, hkd⟩ := hd
  obtain ⟨a, ha, hamax⟩ := Finset.exists_max_image (values.toFinset.filter (fun x => x.date ≤ d)) Knot.date
    ⟨k, by simp [hk, hkd]⟩
  simp only [Finset.mem_filter, List.mem_toFinset] at ha hb hamax hbmin
  have hab : Adjacent values a b := ⟨ha.1, hb.1, lt_of_le_of_lt ha.2 hb.2, fun x hx => by
    rcases le_or_gt x.date d with h' | h'
    · exact Or.inl (hamax x ⟨hx, h'⟩)
    · exact Or.inr (hbmin x ⟨hx, h'⟩)⟩
  have hba := hanti a ha.1 b hb.1 hab.2.2.1
  have hp := hpos hab
  obtain ⟨u, hu, u0, u1, hcall⟩ := (C27_between values dcc ref l r h τ hτ a b hab d ha.2 hb.2).1 c hc
  rw [hv] at hcall
  injection hcall with hcall
  rcases lt_or_ge e b.date with heb | heb
  · obtain ⟨u', hu', u0', u1', hcall'⟩ := (C27_between values dcc ref l r h τ hτ a b hab e (ha.2.trans hde.le) heb).1 c hc
    rw [hw] at hcall'
    injection hcall' with hcall'
    have hlt : u < u' := by
      rw [hu, hu']
      apply div_lt_div_of_pos_right _ hp
      have := axis_strictMono hτ hde
      linarith
    rw [hcall, hcall']
    nlinarith
  · have hwb := (curve_vs_knots (Or.inl rfl) h hc hanti' hw hb.1).2 heb
    refine lt_of_le_of_lt hwb ?_
    rw [hcall]
    nlinarith

/-- C90. No arbitrage on a curve of zero-coupon prices: if the prices are positive, at most one, and do not increase with
maturity, then so are the values of unit payments on all dates in between. -/
theorem C90_no_arbitrage (exp : ℚ → ℚ) (bonds : List Knot) (m : InterpolationMethod) (hm : m = .linear ∨ m = .previous)
    (dcc : DayCountConvention) (ref : PyDate) (l r : EndBehavior) (h : CurveInput bonds dcc ref) (yc yc' : YieldCurve)
    (hyc : YieldCurve.create bonds [] m dcc .discountFactor ref l r = .ok yc) (hu : Used exp yc yc')
    (hpos : ∀ b ∈ bonds, 0 < b.value ∧ b.value ≤ 1)
    (hanti : ∀ a ∈ bonds, ∀ b ∈ bonds, a.date ≤ b.date → b.value ≤ a.value)
    (d e : PyDate) (hde : d ≤ e) (hd : ∃ k ∈ bonds, k.date ≤ d) (he : ∃ k ∈ bonds, e ≤ k.date) :
    ∃ v w, (yc'.presentValue exp (ZeroCoupon.presentValue d) noAdjustment).1 = .ok v ∧
      (yc'.presentValue exp (ZeroCoupon.presentValue e) noAdjustment).1 = .ok w ∧ 0 < w ∧ w ≤ v ∧ v ≤ 1 := by
  obtain ⟨c, hc, href, hpv⟩ := discountFactor_value hm h hyc hu
  obtain ⟨k, hk, hkd⟩ := hd
  obtain ⟨k', hk', hke⟩ := he
  obtain ⟨v, hv⟩ := curve_defined (.basic hm _) h hc (d := d) (Or.inr ⟨k, hk, hkd⟩) ⟨k', hk', hde.trans hke⟩
  obtain ⟨w, hw⟩ := curve_defined (.basic hm _) h hc (d := e) (Or.inr ⟨k, hk, hkd.trans hde⟩) ⟨k', hk', hke⟩
  have hrd : ref ≤ d := (h.notBefore k hk).trans hkd
  refine ⟨v, w, ?_, ?_, ?_, C90_decreasing bonds m hm dcc ref _ _ h c hc hanti d e hde v w hv hw,
    (C90_bounds bonds m hm dcc ref _ _ h c hc 0 1 (fun b hb => ⟨(hpos b hb).1.le, (hpos b hb).2⟩) d v hv).2⟩
  · rw [hpv]
    exact (C19_zero_coupon d c.toDiscountFn).1 (by show c.referenceDate ≤ d; rw [href]; exact hrd) v hv
  · rw [hpv]
    exact (C19_zero_coupon e c.toDiscountFn).1 (by show c.referenceDate ≤ e; rw [href]; exact hrd.trans hde) w hw
  · have : k'.value ≤ w := (curve_vs_knots hm h hc hanti hw hk').1 hke
    exact lt_of_lt_of_le (hpos k' hk').1 this

/-- Two bonds and a payment between them: the hypotheses are met. -/
def priceKnots : List Knot := [⟨D 2026 1 1, 9 / 10⟩, ⟨D 2024 1 1, 99 / 100⟩, ⟨D 2025 1 1, 19 / 20⟩]

example : CurveInput priceKnots .act360 (D 2023 6 1) ∧ (∀ b ∈ priceKnots, 0 < b.value ∧ b.value ≤ 1) ∧
    (∀ a ∈ priceKnots, ∀ b ∈ priceKnots, a.date < b.date → b.value < a.value) ∧
    (∀ a ∈ priceKnots, ∀ b ∈ priceKnots, a.date ≤ b.date → b.value ≤ a.value) ∧
    (∃ k ∈ priceKnots, k.date ≤ D 2024 5 1) ∧ (∃ k ∈ priceKnots, D 2025 7 1 ≤ k.date) ∧
    priceKnots = knotsAt [D 2026 1 1, D 2024 1 1, D 2025 1 1]
      (fun d => if d = D 2026 1 1 then 9 / 10 else if d = D 2024 1 1 then 99 / 100 else 19 / 20) := by
  refine ⟨⟨by decide, by decide +kernel, by decide +kernel, by decide +kernel, by decide +kernel⟩, ?_, ?_, ?_, ?_, ?_, ?_⟩
  · decide +kernel
  · decide +kernel
  · decide +kernel
  · decide +kernel
  · decide +kernel
  · decide +kernel

end Verif.Props
