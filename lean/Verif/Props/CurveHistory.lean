/- Property C97, continued: any history of resets. -/
import Verif.Props.CurveReset

namespace Verif.Props
open Verif Verif.Spec Verif.DayCount

/-- A call that changes a curve: `reset_curve_values(values)` or `reset_curve_value(new, index)`. -/
inductive CurveOp
  | reset (values : List Knot)
  | replace (new : Knot) (index : Int)

/-- The curve after the call, whether or not it raises. -/
def curveOp (c : Curve) : CurveOp → Curve
  | .reset values => (c.resetValues values).2
  | .replace new index => (c.resetValueAt new index).2

/-- What a call should do to the knots (kept in date order): a reset installs the given knots; a replacement at a position, which
may be counted from the end, exchanges one knot, provided the dates stay in order; at an impossible position it does nothing. -/
inductive KnotStep (dcc : DayCountConvention) (ref : PyDate) : List Knot → CurveOp → List Knot → Prop
  | reset (ks values ks' : List Knot) : CurveInput values dcc ref → ks'.Perm values → ks'.Pairwise (fun a b => a.date < b.date) →
      KnotStep dcc ref ks (.reset values) ks'
  | replace (ks : List Knot) (new : Knot) (i : Nat) (index : Int) : i < ks.length →
      (index = i ∨ index = (i : Int) - ks.length) → ref ≤ new.date → (ks.set i new).Pairwise (fun a b => a.date < b.date) →
      KnotStep dcc ref ks (.replace new index) (ks.set i new)
  | nowhere (ks : List Knot) (new : Knot) (index : Int) : (index < -(ks.length : Int) ∨ (ks.length : Int) ≤ index) →
      KnotStep dcc ref ks (.replace new index) ks

/-- A history of such calls. -/
inductive KnotHistory (dcc : DayCountConvention) (ref : PyDate) : List Knot → List CurveOp → List Knot → Prop
  | nil (ks : List Knot) : KnotHistory dcc ref ks [] ks
  | cons (ks ks' ks'' : List Knot) (op : CurveOp) (ops : List CurveOp) : KnotStep dcc ref ks op ks' →
      KnotHistory dcc ref ks' ops ks'' → KnotHistory dcc ref ks (op :: ops) ks''

/-- Knots in strict date order are what sorting returns. -/
theorem sorted_unique {ks values : List Knot} (hp : ks.Perm values) (hs : ks.Pairwise (fun a b => a.date < b.date)) :
    pySorted Knot.date values = ks := by
  have hnd : (values.map Knot.date).Nodup := by
    refine (hp.map Knot.date).nodup_iff.1 ?_
    rw [List.nodup_iff_pairwise_ne, List.pairwise_map]
    exact hs.imp (fun h => ne_of_lt h)
  have h1 : (pySorted Knot.date values).Pairwise (fun a b : Knot => a.date < b.date) := knotSorted_pySorted hnd
  exact ((pySorted_perm Knot.date values).trans hp.symm).eq_of_pairwise
    (fun a b _ _ hab hba => absurd hab (lt_asymm hba)) h1 hs

theorem curve_step {m : InterpolationMethod} {dcc : DayCountConvention} {ref : PyDate} {l r : EndBehavior} {ks ks' : List Knot}
    {op : CurveOp} {c : Curve} (hks : CurveInput ks dcc ref) (hord : ks.Pairwise (fun a b => a.date < b.date))
    (hc : Curve.create ks m dcc (some ref) l r = .ok c) (h : KnotStep dcc ref ks op ks') :
    CurveInput ks' dcc ref ∧ ks'.Pairwise (fun a b => a.date < b.date) ∧
      Curve.create ks' m dcc (some ref) l r = .ok (curveOp c op) := by
  have hkn : c.knots = ks ∧ c.method = m ∧ c.dcc = dcc ∧ c.referenceDate = ref ∧ c.left = l ∧ c.right = r := by
    obtain ⟨τ, hτ⟩ := hks.axis
    rw [create_curve hτ hks.refOk hks.notBefore] at hc
    injection hc with hc
    subst hc
    exact ⟨sorted_unique (List.Perm.refl _) hord, rfl, rfl, rfl, rfl, rfl⟩
  obtain ⟨k1, k2, k3, k4, k5, k6⟩ := hkn
  cases h with
  | reset values _ hv hp hs =>
    have hin : CurveInput ks' dcc ref := ⟨hv.convention, hv.refOk, fun e => hv.nonempty (by rw [e] at hp; exact hp.symm.eq_nil),
      (hp.map Knot.date).nodup_iff.2 hv.distinct, fun k hk => hv.notBefore k (hp.mem_iff.1 hk)⟩
    refine ⟨hin, hs, ?_⟩
    have hr := C97_reset_values c values
    rw [k2, k3, k4, k5, k6] at hr
    obtain ⟨τ, hτ⟩ := hin.axis
    have e : Curve.create ks' m dcc (some ref) l r = Curve.create values m dcc (some ref) l r := by
      unfold Curve.create
      rw [sorted_unique hp hs, sorted_unique (List.Perm.refl _) hs]
    rw [e]
    rw [create_curve hτ hv.refOk hv.notBefore] at hr ⊢
    simp only at hr
    simp only [curveOp, hr]
  | replace new i index hi hidx hnew hs =>
    have hin : CurveInput (ks.set i new) dcc ref := by
      refine ⟨hks.convention, hks.refOk, ?_, ?_, ?_⟩
      · intro e
        have := congrArg List.length e
        rw [List.length_set] at this
        simp only [List.length_nil] at this
        omega
      · rw [List.nodup_iff_pairwise_ne, List.pairwise_map]
        exact hs.imp (fun h => ne_of_lt h)
      · intro k hk
        rcases List.mem_or_eq_of_mem_set hk with hk | rfl
        · exact hks.notBefore k hk
        · exact hnew
    refine ⟨hin, hs, ?_⟩
    have hr := C97_reset_value_partial ks m dcc ref l r c hc new index i (by rw [k1]; exact hi) (by rw [k1]; exact hidx)
      (by rw [k1]; exact hs)
    rw [k1] at hr
    obtain ⟨τ, hτ⟩ := hin.axis
    rw [create_curve hτ hin.refOk hin.notBefore] at hr ⊢
    simp only at hr
    simp only [curveOp, hr]
  | nowhere new index hidx =>
    refine ⟨hks, hord, ?_⟩
    have : (c.resetValueAt new index).2 = c := by
      unfold Curve.resetValueAt KeyRateCollection.pyIndex
      rw [k1, if_neg (by omega), if_neg (by omega)]
    simp only [curveOp, this]
    exact hc

/-- C97. After any history of resets and replacements that keep the knots in order, with calls at impossible positions in
between, the curve is the one a fresh construction from the current knots gives; in particular it returns, at every date that is
now a knot, the value last given for it. -/
theorem C97_history (values ks ks' : List Knot) (m : InterpolationMethod) (hm : Interpolates m ks'.length)
    (dcc : DayCountConvention) (ref : PyDate) (l r : EndBehavior) (h : CurveInput values dcc ref) (c : Curve)
    (hc : Curve.create values m dcc (some ref) l r = .ok c) (hks : ks.Perm values)
    (hord : ks.Pairwise (fun a b => a.date < b.date)) (ops : List CurveOp) (hist : KnotHistory dcc ref ks ops ks') :
    Curve.create ks' m dcc (some ref) l r = .ok (ops.foldl curveOp c) ∧
      ∀ k ∈ ks', (ops.foldl curveOp c).call k.date = .ok k.value := by
  have hin : CurveInput ks dcc ref := ⟨h.convention, h.refOk, fun e => h.nonempty (by rw [e] at hks; exact hks.symm.eq_nil),
      (hks.map Knot.date).nodup_iff.2 h.distinct, fun k hk => h.notBefore k (hks.mem_iff.1 hk)⟩
  have e : Curve.create ks m dcc (some ref) l r = .ok c := by
    rw [← hc]
    unfold Curve.create
    rw [sorted_unique hks hord, sorted_unique (List.Perm.refl _) hord]
  clear hc hks h
  induction hist generalizing c with
  | nil ks => exact ⟨e, fun k hk => C27_knots ks m hm dcc ref l r hin c e k hk⟩
  | cons ks ks1 ks2 op ops hstep hrest ih =>
    obtain ⟨h1, h2, h3⟩ := curve_step hin hord e hstep
    exact ih hm (curveOp c op) h2 h1 h3

/-- Concrete case for `C97_history`: a reset, a replacement from the end, and a call at an impossible position. -/
example : ∃ c, Curve.create [⟨D 2023 1 21, 2⟩, ⟨D 2023 1 1, 1⟩] .linear .act365 (some (D 2023 1 1)) .error .error = .ok c ∧
    CurveInput [⟨D 2023 1 21, 2⟩, ⟨D 2023 1 1, 1⟩] .act365 (D 2023 1 1) ∧
    KnotHistory .act365 (D 2023 1 1) [⟨D 2023 1 1, 1⟩, ⟨D 2023 1 21, 2⟩]
      [.reset [⟨D 2023 1 11, 5⟩, ⟨D 2023 1 1, 4⟩], .replace ⟨D 2023 1 12, 7⟩ (-1), .replace ⟨D 2023 1 12, 9⟩ 2]
      [⟨D 2023 1 1, 4⟩, ⟨D 2023 1 12, 7⟩] ∧
    ([.reset [⟨D 2023 1 11, 5⟩, ⟨D 2023 1 1, 4⟩], .replace ⟨D 2023 1 12, 7⟩ (-1), .replace ⟨D 2023 1 12, 9⟩ 2].foldl
      curveOp c).call (D 2023 1 12) = .ok 7 := by
  have hin : CurveInput [⟨D 2023 1 21, 2⟩, ⟨D 2023 1 1, 1⟩] .act365 (D 2023 1 1) :=
    ⟨by decide, by decide +kernel, by simp, by decide +kernel, by decide +kernel⟩
  obtain ⟨τ, hτ⟩ := hin.axis
  have hc := create_curve hτ hin.refOk hin.notBefore (m := .linear) (l := .error) (r := .error)
  have hist : KnotHistory .act365 (D 2023 1 1) [⟨D 2023 1 1, 1⟩, ⟨D 2023 1 21, 2⟩]
      [.reset [⟨D 2023 1 11, 5⟩, ⟨D 2023 1 1, 4⟩], .replace ⟨D 2023 1 12, 7⟩ (-1), .replace ⟨D 2023 1 12, 9⟩ 2]
      [⟨D 2023 1 1, 4⟩, ⟨D 2023 1 12, 7⟩] := by
    refine .cons _ [⟨D 2023 1 1, 4⟩, ⟨D 2023 1 11, 5⟩] _ _ _ (.reset _ _ _
      ⟨by decide, by decide +kernel, by simp, by decide +kernel, by decide +kernel⟩ (List.Perm.swap _ _ _) (by decide +kernel)) ?_
    refine .cons _ [⟨D 2023 1 1, 4⟩, ⟨D 2023 1 12, 7⟩] _ _ _
      (.replace [⟨D 2023 1 1, 4⟩, ⟨D 2023 1 11, 5⟩] _ 1 _ (by decide) (by decide) (by decide +kernel) (by decide +kernel)) ?_
    exact .cons _ _ _ _ _ (.nowhere _ _ _ (by decide)) (.nil _)
  refine ⟨_, hc, hin, hist, ?_⟩
  exact (C97_history _ _ _ .linear (Or.inl rfl) _ _ _ _ hin _ hc (List.Perm.swap _ _ _) (by decide +kernel) _ hist).2
    ⟨D 2023 1 12, 7⟩ (by simp)

end Verif.Props
