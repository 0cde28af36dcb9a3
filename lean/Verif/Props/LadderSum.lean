/- Property C107: key-rate risks add up to the risk of a parallel shift. -/
import Verif.Props.YieldCurve
import Verif.Props.Splines

namespace Verif.Props
open Verif Verif.Spec Verif.DayCount Verif.KeyRateCollection

/-- A key rate is proportional to its bump. -/
theorem keyRate_scaled {k : KeyRate} {d : PyDate} {w : ℚ} (h : (k.setBumpVal 1).call d = .ok w) (b : ℚ) :
    (k.setBumpVal b).call d = .ok (b * w) := by
  obtain ⟨dcc, m, prior, next, b0⟩ := k
  have key : ∀ (x y : Except PyErr ℚ) (f : ℚ → ℚ → ℚ) (hf : ∀ q, f q b = b * f q 1),
      ((do let u ← x; let v ← y; let q ← pyDiv u v; .ok (f q 1)) : Except PyErr ℚ) = .ok w →
      ((do let u ← x; let v ← y; let q ← pyDiv u v; .ok (f q b)) : Except PyErr ℚ) = .ok (b * w) := by
    intro x y f hf h
    rw [bind_ok] at h; obtain ⟨u, hu, h⟩ := h
    rw [bind_ok] at h; obtain ⟨v, hv, h⟩ := h
    rw [bind_ok] at h; obtain ⟨q, hq, h⟩ := h
    injection h with h
    rw [hu, ok_bind, hv, ok_bind, hq, ok_bind, ← h, hf]
  change (KeyRate.mk dcc m prior next 1).call d = .ok w at h
  change (KeyRate.mk dcc m prior next b).call d = .ok (b * w)
  cases prior with
  | none =>
    simp only [KeyRate.call] at h ⊢
    by_cases h1 : d ≤ m
    · rw [if_pos h1] at h ⊢; injection h with h; rw [← h, mul_one]
    · rw [if_neg h1] at h ⊢
      cases next with
      | none => cases h
      | some f =>
        simp only at h ⊢
        by_cases h2 : f ≤ d
        · rw [if_pos h2] at h ⊢; injection h with h; rw [← h, mul_zero]
        · rw [if_neg h2] at h ⊢
          exact key _ _ (fun q b => b * q) (fun q => by ring) h
  | some p =>
    cases next with
    | none =>
      simp only [KeyRate.call] at h ⊢
      by_cases h1 : m ≤ d
      · rw [if_pos h1] at h ⊢; injection h with h; rw [← h, mul_one]
      · rw [if_neg h1] at h ⊢
        by_cases h2 : d ≤ p
        · rw [if_pos h2] at h ⊢; injection h with h; rw [← h, mul_zero]
        · rw [if_neg h2] at h ⊢
          exact key _ _ (fun q b => q * b) (fun q => by ring) h
    | some f =>
      simp only [KeyRate.call] at h ⊢
      by_cases h1 : f ≤ d ∨ d ≤ p
      · rw [if_pos h1] at h ⊢; injection h with h; rw [← h, mul_zero]
      · rw [if_neg h1] at h ⊢
        by_cases h2 : d ≤ m
        · rw [if_pos h2] at h ⊢
          exact key _ _ (fun q b => q * b) (fun q => by ring) h
        · rw [if_neg h2] at h ⊢
          exact key _ _ (fun q b => q * b) (fun q => by ring) h

/-- The unit weights of the members of a collection: they add up to one at every date. -/
theorem collection_weights (h : KRHeap) (ids : List Nat) (c : KeyRateCollection) (h' : KRHeap)
    (hc : create h ids = (.ok c, h')) (hlen : 2 ≤ ids.length) (dcc : DayCountConvention)
    (hdcc : dcc ≠ .thirty360 ∧ dcc ≠ .unknown) (hall : ∀ i ∈ ids, (h i).dcc = dcc ∧ AxisOk dcc (h i).keyDate) :
    ∃ w : Nat → PyDate → ℚ, (∀ i ∈ c.keyRates, ∀ b d, ((h' i).setBumpVal b).call d = .ok (b * w i d)) ∧
      ∀ d, (c.keyRates.map (fun i => w i d)).sum = 1 := by
  obtain ⟨hp, hs, hw, hsame, _⟩ := C23_construction h ids c h' hc
  let h1 : KRHeap := fun i => (h' i).setBumpVal 1
  have hcall : ∀ d, pySum (fun i => (h1 i).call d) c.keyRates = .ok 1 := by
    intro d
    have := combined_eq h1 c.keyRates hs hw (by rw [hp.length_eq]; exact hlen) dcc hdcc 1 (by
      intro i hi
      have hi' := hall i (hp.mem_iff.1 hi)
      refine ⟨?_, rfl, ?_⟩
      · show (h' i).dcc = dcc
        first | rw [(hsame i).2.1]; exact hi'.1 | rw [(hsame i).2.2]; exact hi'.1
      · show AxisOk dcc (h' i).keyDate
        rw [(hsame i).1]; exact hi'.2) d c.iterIndex
    exact this
  let w : Nat → PyDate → ℚ := fun i d => match (h1 i).call d with | .ok x => x | .error _ => 0
  have hone : ∀ i ∈ c.keyRates, ∀ d, (h1 i).call d = .ok (w i d) := by
    intro i hi d
    have := hcall d
    unfold pySum at this
    rw [bind_ok] at this
    obtain ⟨xs, hxs, -⟩ := this
    obtain ⟨x, hx⟩ := collect_ok_of_mem hxs i hi
    simp only [w, hx]
  refine ⟨w, fun i hi b d => keyRate_scaled (hone i hi d) b, fun d => ?_⟩
  have := hcall d
  rw [pySum_ok (g := fun i => w i d) (fun i hi => hone i hi d)] at this
  injection this

/-- The value at a date between the first and the last knot is a weighted mean of two knot values, with weights that do not
depend on the values. -/
theorem curve_weights {values : List Knot} {m : InterpolationMethod} (hm : m = .linear ∨ m = .previous)
    {dcc : DayCountConvention} {ref : PyDate} (h : CurveInput values dcc ref) {d : PyDate}
    (h1 : ∃ k ∈ values, k.date ≤ d) (h2 : ∃ k ∈ values, d ≤ k.date) :
    ∃ (α β : ℚ) (x y : Knot), x ∈ values ∧ y ∈ values ∧ 0 ≤ α ∧ 0 ≤ β ∧ α + β = 1 ∧
      ∀ (a : PyDate → ℚ) (values' : List Knot) (c : Curve),
        values'.Perm (values.map (fun k => (⟨k.date, k.value + a k.date⟩ : Knot))) → CurveInput values' dcc ref →
        Curve.create values' m dcc (some ref) .error .error = .ok c →
        c.call d = .ok (α * (x.value + a x.date) + β * (y.value + a y.date)) := by
  obtain ⟨τ, hτ⟩ := h.axis
  rcases bracket h1 h2 with ⟨k, hk, rfl⟩ | ⟨x, y, hab, ha, hb⟩
  · refine ⟨1, 0, k, k, hk, hk, by norm_num, by norm_num, by norm_num, ?_⟩
    intro a values' c hperm hin hc
    rw [C27_knots values' m (.basic hm _) dcc ref .error .error hin c hc ⟨k.date, k.value + a k.date⟩
      (hperm.mem_iff.2 (List.mem_map.2 ⟨k, hk, rfl⟩))]
    congr 1; ring
  · have hadj : ∀ (a : PyDate → ℚ) (values' : List Knot),
        values'.Perm (values.map (fun k => (⟨k.date, k.value + a k.date⟩ : Knot))) →
        Adjacent values' ⟨x.date, x.value + a x.date⟩ ⟨y.date, y.value + a y.date⟩ := by
      intro a values' hperm
      refine ⟨hperm.mem_iff.2 (List.mem_map.2 ⟨x, hab.1, rfl⟩), hperm.mem_iff.2 (List.mem_map.2 ⟨y, hab.2.1, rfl⟩),
        hab.2.2.1, ?_⟩
      intro k hk
      obtain ⟨k', hk', rfl⟩ := List.mem_map.1 (hperm.mem_iff.1 hk)
      exact hab.2.2.2 k' hk'
    rcases hm with rfl | rfl
    · have t1 := axis_mono hτ ha
      have t2 := axis_strictMono hτ hb
      have t3 := axis_strictMono hτ hab.2.2.1
      refine ⟨1 - (τ d - τ x.date) / (τ y.date - τ x.date), (τ d - τ x.date) / (τ y.date - τ x.date), x, y, hab.1, hab.2.1,
        ?_, div_nonneg (by linarith) (by linarith), by ring, ?_⟩
      · rw [sub_nonneg, div_le_one (by linarith)]; linarith
      · intro a values' c hperm hin hc
        obtain ⟨w, hw, -, -, hcall⟩ := (C27_between values' dcc ref .error .error hin τ hτ _ _ (hadj a values' hperm) d ha hb).1 c hc
        rw [hcall, hw]
    · refine ⟨1, 0, x, y, hab.1, hab.2.1, by norm_num, by norm_num, by norm_num, ?_⟩
      intro a values' c hperm hin hc
      rw [(C27_between values' dcc ref .error .error hin τ hτ _ _ (hadj a values' hperm) d ha hb).2 c hc]
      congr 1; ring

/-- The value at a date between the first and the last knot is a fixed combination of knot values, with weights that add up to one
and do not depend on the values; without splines they are nonnegative. -/
theorem curve_combination {values : List Knot} {m : InterpolationMethod} (hm : Interpolates m values.length)
    {dcc : DayCountConvention} {ref : PyDate} (h : CurveInput values dcc ref) {d : PyDate}
    (h1 : ∃ k ∈ values, k.date ≤ d) (h2 : ∃ k ∈ values, d ≤ k.date) :
    ∃ W : List (ℚ × Knot), (∀ p ∈ W, p.2 ∈ values) ∧ ((m = .linear ∨ m = .previous) → ∀ p ∈ W, 0 ≤ p.1) ∧
      (W.map Prod.fst).sum = 1 ∧
      ∀ (a : PyDate → ℚ) (values' : List Knot) (c : Curve),
        values'.Perm (values.map (fun k => (⟨k.date, k.value + a k.date⟩ : Knot))) → CurveInput values' dcc ref →
        Curve.create values' m dcc (some ref) .error .error = .ok c →
        c.call d = .ok (W.map (fun p => p.1 * (p.2.value + a p.2.date))).sum := by
  classical
  rcases hm.cases with hb | ⟨kind, rfl, hlen⟩
  · obtain ⟨α, β, x, y, k1, k2, k3, k4, k5, k6⟩ := curve_weights hb h h1 h2
    refine ⟨[(α, x), (β, y)], ?_, ?_, by simpa using k5, ?_⟩
    · simp [k1, k2]
    · simp [k3, k4]
    · intro a values' c hp hin hc
      rw [k6 a values' c hp hin hc]; simp
  · obtain ⟨ω, hω1, hω⟩ := C126_weights kind (values.map Knot.date) (by simpa using hlen) dcc ref
      ⟨h.convention, h.refOk, by simpa using h.nonempty, by simpa [List.map_map, Function.comp_def] using h.distinct, by
        intro k hk
        simp only [List.mem_map] at hk
        obtain ⟨e, ⟨k', hk', rfl⟩, rfl⟩ := hk
        exact h.notBefore k' hk'⟩ d (by obtain ⟨k, hk, hd⟩ := h1; exact ⟨_, List.mem_map_of_mem hk, hd⟩)
      (by obtain ⟨k, hk, hd⟩ := h2; exact ⟨_, List.mem_map_of_mem hk, hd⟩)
    refine ⟨values.map (fun k => (ω k.date, k)), ?_, ?_, ?_, ?_⟩
    · intro p hp
      obtain ⟨k, hk, rfl⟩ := List.mem_map.1 hp
      exact hk
    · rintro (h | h) <;> cases h
    · simpa [List.map_map, Function.comp_def] using hω1
    · intro a values' c hp hin hc
      let g : PyDate → ℚ := fun e => if h : ∃ k ∈ values, k.date = e then h.choose.value else 0
      have hg : ∀ k ∈ values, g k.date = k.value := by
        intro k hk
        have hex : ∃ k' ∈ values, k'.date = k.date := ⟨k, hk, rfl⟩
        simp only [g, dif_pos hex]
        rw [List.inj_on_of_nodup_map h.distinct hex.choose_spec.1 hk hex.choose_spec.2]
      have hpe : values'.Perm ((values.map Knot.date).map (fun x => (⟨x, g x + a x⟩ : Knot))) := by
        refine hp.trans (List.Perm.of_eq ?_)
        rw [List.map_map]
        refine List.map_congr_left (fun k hk => ?_)
        simp only [Function.comp_apply, hg k hk]
      rw [hω (fun x => g x + a x) values' .error .error c hpe (by rw [SplineKind.method_eq]; exact hc)]
      congr 2
      rw [List.map_map, List.map_map]
      refine List.map_congr_left (fun k hk => ?_)
      simp only [Function.comp_apply, hg k hk]

/-- The total of the payments a valuation at `ref` counts. -/
def countedTotal (ref : PyDate) (ps : List Payment) : ℚ := (ps.map (contribution ref (fun _ => 1))).sum

theorem contribution_add (ref : PyDate) (f g : PyDate → ℚ) (p : Payment) :
    contribution ref (fun d => f d + g d) p = contribution ref f p + contribution ref g p := by
  unfold contribution
  cases p.amount with
  | none => simp
  | some a => simp only; split_ifs <;> ring

theorem contribution_mul (ref : PyDate) (q : ℚ) (f : PyDate → ℚ) (p : Payment) :
    contribution ref (fun d => q * f d) p = q * contribution ref f p := by
  unfold contribution
  cases p.amount with
  | none => simp
  | some a => simp only; split_ifs <;> ring

/-- C107. In DISCOUNT_FACTOR space the value of a cashflow is an affine function of the adjustment: the base value plus a linear
functional of the adjustment at the knots, which gives the total of the counted payments for the constant 1 and, without splines, is
nonnegative on nonnegative adjustments when no payment is negative (for splines see `C127_key_rate_sign_false`). -/
theorem C107_affine (exp : ℚ → ℚ) (bonds : List Knot) (m : InterpolationMethod) (hm : Interpolates m bonds.length)
    (dcc : DayCountConvention) (ref : PyDate) (l r : EndBehavior) (h : CurveInput bonds dcc ref) (yc yc' : YieldCurve)
    (hyc : YieldCurve.create bonds [] m dcc .discountFactor ref l r = .ok yc) (hu : Used exp yc yc') (ps : List Payment)
    (hin : ∀ p ∈ ps, p.amount ≠ none → ref ≤ p.date → (∃ k ∈ bonds, k.date ≤ p.date) ∧ ∃ k ∈ bonds, p.date ≤ k.date) :
    ∃ (v₀ : ℚ) (S : (PyDate → ℚ) → ℚ),
      (∀ a b, S (fun d => a d + b d) = S a + S b) ∧ (∀ q a, S (fun d => q * a d) = q * S a) ∧
      S (fun _ => 1) = countedTotal ref ps ∧
      (∀ a b, (∀ k ∈ bonds, a k.date = b k.date) → S a = S b) ∧
      ((m = .linear ∨ m = .previous) → (∀ p ∈ ps, ∀ x, p.amount = some x → 0 ≤ x) →
        ∀ a, (∀ k ∈ bonds, 0 ≤ a k.date) → 0 ≤ S a) ∧
      ∀ (adj : Adjustment) (a : PyDate → ℚ), (∀ k ∈ bonds, adj (.date k.date) = .ok (a k.date)) →
        (yc'.presentValue exp (Cashflow.presentValue (Cashflow.create ps)) adj).1 = .ok (v₀ + S a) := by
  classical
  have hex : ∀ d, ∃ W : List (ℚ × Knot), ((∃ k ∈ bonds, k.date ≤ d) ∧ ∃ k ∈ bonds, d ≤ k.date) →
      (∀ p ∈ W, p.2 ∈ bonds) ∧ ((m = .linear ∨ m = .previous) → ∀ p ∈ W, 0 ≤ p.1) ∧ (W.map Prod.fst).sum = 1 ∧
      ∀ (a : PyDate → ℚ) (values' : List Knot) (c : Curve),
        values'.Perm (bonds.map (fun k => (⟨k.date, k.value + a k.date⟩ : Knot))) → CurveInput values' dcc ref →
        Curve.create values' m dcc (some ref) .error .error = .ok c →
        c.call d = .ok (W.map (fun p => p.1 * (p.2.value + a p.2.date))).sum := by
    intro d
    by_cases hd : (∃ k ∈ bonds, k.date ≤ d) ∧ ∃ k ∈ bonds, d ≤ k.date
    · obtain ⟨W, hW⟩ := curve_combination hm h hd.1 hd.2
      exact ⟨W, fun _ => hW⟩
    · exact ⟨[], fun h => absurd h hd⟩
  choose W hw using hex
  let L : (PyDate → ℚ) → PyDate → ℚ := fun a d => ((W d).map (fun p => p.1 * a p.2.date)).sum
  let S : (PyDate → ℚ) → ℚ := fun a => (ps.map (contribution ref (L a))).sum
  have congrSum : ∀ (f g : PyDate → ℚ),
      (∀ p ∈ ps, p.amount ≠ none → ref ≤ p.date → f p.date = g p.date) →
      (ps.map (contribution ref f)).sum = (ps.map (contribution ref g)).sum := by
    intro f g hfg
    congr 1
    refine List.map_congr_left (fun p hp => ?_)
    have := hfg p hp
    unfold contribution
    cases ha : p.amount with
    | none => rfl
    | some a =>
      simp only
      by_cases href : ref ≤ p.date
      · rw [if_pos href, if_pos href, this (by rw [ha]; simp) href]
      · rw [if_neg href, if_neg href]
  refine ⟨(ps.map (contribution ref (fun d => ((W d).map (fun p => p.1 * p.2.value)).sum))).sum, S, ?_, ?_, ?_, ?_, ?_, ?_⟩
  · intro a b
    show (ps.map (contribution ref (L fun d => a d + b d))).sum = (ps.map (contribution ref (L a))).sum +
      (ps.map (contribution ref (L b))).sum
    rw [← List.sum_map_add]
    congr 1
    refine List.map_congr_left (fun p _ => ?_)
    rw [← contribution_add]
    congr 1
    funext d
    simp only [L]
    rw [← List.sum_map_add]
    simp only [mul_add]
  · intro q a
    show (ps.map (contribution ref (L fun d => q * a d))).sum = q * (ps.map (contribution ref (L a))).sum
    rw [← List.sum_map_mul_left]
    congr 1
    refine List.map_congr_left (fun p _ => ?_)
    rw [← contribution_mul]
    congr 1
    funext d
    simp only [L]
    rw [← List.sum_map_mul_left]
    congr 1
    exact List.map_congr_left (fun p _ => by ring)
  · refine congrSum _ _ (fun p hp ha href => ?_)
    have := (hw p.date (hin p hp ha href)).2.2.1
    simp only [L, mul_one]
    exact this
  · intro a b hab
    refine congrSum _ _ (fun p hp ha href => ?_)
    obtain ⟨h1, -⟩ := hw p.date (hin p hp ha href)
    simp only [L]
    congr 1
    exact List.map_congr_left (fun q hq => by rw [hab _ (h1 q hq)])
  · intro hbasic hpos a ha
    refine List.sum_nonneg (fun z hz => ?_)
    obtain ⟨p, hp, rfl⟩ := List.mem_map.1 hz
    unfold contribution
    cases hamt : p.amount with
    | none => simp
    | some q =>
      simp only
      by_cases href : ref ≤ p.date
      · rw [if_pos href]
        obtain ⟨h1, h2, -, -⟩ := hw p.date (hin p hp (by rw [hamt]; simp) href)
        refine mul_nonneg (List.sum_nonneg (fun z hz => ?_)) (hpos p hp q hamt)
        obtain ⟨e, he, rfl⟩ := List.mem_map.1 hz
        exact mul_nonneg (h2 hbasic e he) (ha _ (h1 e he))
      · rw [if_neg href]
  · intro adj a ha
    obtain ⟨hs, base, hbase, rfl⟩ := settings_create (exp := exp) hyc
    obtain ⟨hs', hb', hsp'⟩ := used_inv hs hu
    rw [(presentValue_eq hs' _ _).1, hb', hsp']
    obtain ⟨values', c, hto, hperm, hcin, hc, href⟩ := discountFactor_curve (exp := exp) hm h hbase adj a ha
    unfold YieldCurve.presentValue
    simp only [hto]
    rw [C19_present_value ps c.toDiscountFn (fun d => ((W d).map (fun p => p.1 * p.2.value)).sum + L a d) ?_]
    · show Except.ok (ps.map (contribution c.referenceDate _)).sum = _
      rw [href]
      congr 1
      rw [← List.sum_map_add]
      congr 1
      refine List.map_congr_left (fun p _ => ?_)
      exact contribution_add _ _ _ _
    · intro p hp hamt hle
      have hle' : ref ≤ p.date := by rw [← href]; exact hle
      have := (hw p.date (hin p hp hamt hle')).2.2.2 a values' c hperm hcin hc
      show c.call p.date = _
      rw [this]
      congr 1
      simp only [L]
      rw [← List.sum_map_add]
      simp only [mul_add]

/-- C107. Key-rate risks add up: in DISCOUNT_FACTOR space, the pv01s of a ladder over the key rates of a collection (at least
two, none with 30/360 or unknown convention) add up to the change in value when all discount factors move from half a basis point
below to half a basis point above, which is one basis point of the total of the counted payments. -/
theorem C107_ladder_total (exp : ℚ → ℚ) (bonds : List Knot) (m : InterpolationMethod) (hm : Interpolates m bonds.length)
    (dcc : DayCountConvention) (ref : PyDate) (l r : EndBehavior) (h : CurveInput bonds dcc ref) (yc yc' : YieldCurve)
    (hyc : YieldCurve.create bonds [] m dcc .discountFactor ref l r = .ok yc) (hu : Used exp yc yc') (ps : List Payment)
    (hin : ∀ p ∈ ps, p.amount ≠ none → ref ≤ p.date → (∃ k ∈ bonds, k.date ≤ p.date) ∧ ∃ k ∈ bonds, p.date ≤ k.date)
    (heap heap' : KRHeap) (ids : List Nat) (c : KeyRateCollection) (hc : create heap ids = (.ok c, heap'))
    (hlen : 2 ≤ ids.length) (kdcc : DayCountConvention) (hk : kdcc ≠ .thirty360 ∧ kdcc ≠ .unknown)
    (hall : ∀ i ∈ ids, (heap i).dcc = kdcc ∧ AxisOk kdcc (heap i).keyDate) :
    ∃ risks up down, (yc'.pv01RiskLadder exp (Cashflow.presentValue (Cashflow.create ps)) heap' c).1 = .ok risks ∧
      (yc'.presentValue exp (Cashflow.presentValue (Cashflow.create ps)) (fun _ => .ok (1 / 20000))).1 = .ok up ∧
      (yc'.presentValue exp (Cashflow.presentValue (Cashflow.create ps)) (fun _ => .ok (-1 / 20000))).1 = .ok down ∧
      risks.length = ids.length ∧ (risks.map Risk.pv01).sum = up - down ∧
      (risks.map Risk.pv01).sum = 1 / 10000 * countedTotal ref ps := by
  obtain ⟨w, hw, hsum⟩ := collection_weights heap ids c heap' hc hlen kdcc hk hall
  obtain ⟨v₀, S, hadd, hmul, hone, -, -, hval⟩ := C107_affine exp bonds m hm dcc ref l r h yc yc hyc Used.start ps hin
  obtain ⟨v₀', S', hadd', hmul', hone', -, -, hval'⟩ := C107_affine exp bonds m hm dcc ref l r h yc yc' hyc hu ps hin
  set asset : PresentValueable := Cashflow.presentValue (Cashflow.create ps) with hasset
  have hdate : ∀ i, ((heap' i)).keyDate = (heap' i).keyDate := fun _ => rfl
  have hrisk : ∀ i ∈ c.keyRates, (yc.pv01Risk exp asset (heap' i)).1 = .ok ⟨(heap' i).keyDate, 1 / 10000 * S (w i), .usTreasury⟩ := by
    intro i hi
    have hb : ∀ b, (yc.presentValue exp asset ((heap' i).setBumpVal b).asAdjustment).1 = .ok (v₀ + b * S (w i)) := by
      intro b
      rw [hval ((heap' i).setBumpVal b).asAdjustment (fun d => b * w i d) (fun k _ => hw i hi b k.date), hmul]
    have := (C30_central_difference exp bonds m dcc .discountFactor ref l r yc yc hyc Used.start asset (heap' i) (heap' i).bump
      _ _ (hb _) (hb _)).2
    rw [show (heap' i).setBumpVal (heap' i).bump = heap' i from rfl] at this
    rw [this]
    congr 2
    ring
  have hlad := (C30_ladder exp bonds m dcc .discountFactor ref l r yc yc' hyc hu asset heap' c _ hrisk).1
  have hp := (C23_construction heap ids c heap' hc).1
  have hS : ∀ (is : List Nat), (is.map (fun i => S (w i))).sum = S (fun d => (is.map (fun i => w i d)).sum) := by
    intro is
    induction is with
    | nil =>
      have := hmul 0 (fun _ => 0)
      simp only [zero_mul] at this
      simp [this]
    | cons i is ih =>
      simp only [List.map_cons, List.sum_cons]
      rw [ih, ← hadd]
  have htot : ((c.keyRates.map (fun i => (⟨(heap' i).keyDate, 1 / 10000 * S (w i), .usTreasury⟩ : Risk))).map Risk.pv01).sum =
      1 / 10000 * countedTotal ref ps := by
    rw [List.map_map]
    show (c.keyRates.map (fun i => 1 / 10000 * S (w i))).sum = _
    rw [List.sum_map_mul_left, hS, ← hone]
    congr 2
    funext d
    exact hsum d
  have hc1 : ∀ q : ℚ, S' (fun _ => q) = q * countedTotal ref ps := by
    intro q
    have := hmul' q (fun _ => 1)
    simp only [mul_one] at this
    rw [this, hone']
  refine ⟨_, _, _, hlad, hval' _ (fun _ => 1 / 20000) (fun _ _ => rfl), hval' _ (fun _ => -1 / 20000) (fun _ _ => rfl), ?_, ?_,
    htot⟩
  · rw [List.length_map, hp.length_eq]
  · rw [htot, hc1, hc1]; ring

/-- C107. In DISCOUNT_FACTOR space, raising discount factors never lowers the value of a cashflow without negative payments. -/
theorem C107_monotone (exp : ℚ → ℚ) (bonds : List Knot) (m : InterpolationMethod) (hm : m = .linear ∨ m = .previous)
    (dcc : DayCountConvention) (ref : PyDate) (l r : EndBehavior) (h : CurveInput bonds dcc ref) (yc yc' : YieldCurve)
    (hyc : YieldCurve.create bonds [] m dcc .discountFactor ref l r = .ok yc) (hu : Used exp yc yc') (ps : List Payment)
    (hin : ∀ p ∈ ps, p.amount ≠ none → ref ≤ p.date → (∃ k ∈ bonds, k.date ≤ p.date) ∧ ∃ k ∈ bonds, p.date ≤ k.date)
    (hpos : ∀ p ∈ ps, ∀ x, p.amount = some x → 0 ≤ x) (adj adj' : Adjustment) (a a' : PyDate → ℚ)
    (ha : ∀ k ∈ bonds, adj (.date k.date) = .ok (a k.date)) (ha' : ∀ k ∈ bonds, adj' (.date k.date) = .ok (a' k.date))
    (hle : ∀ k ∈ bonds, a k.date ≤ a' k.date) :
    ∃ v v', (yc'.presentValue exp (Cashflow.presentValue (Cashflow.create ps)) adj).1 = .ok v ∧
      (yc'.presentValue exp (Cashflow.presentValue (Cashflow.create ps)) adj').1 = .ok v' ∧ v ≤ v' := by
  obtain ⟨v₀, S, hadd, -, -, -, hS, hval⟩ := C107_affine exp bonds m (.basic hm _) dcc ref l r h yc yc' hyc hu ps hin
  refine ⟨_, _, hval adj a ha, hval adj' a' ha', ?_⟩
  have h1 := hS hm hpos (fun d => a' d - a d) (fun k hk => sub_nonneg.2 (hle k hk))
  have h2 := hadd a (fun d => a' d - a d)
  have h3 : (fun d => a d + (a' d - a d)) = a' := by funext d; ring
  rw [h3] at h2
  linarith

/-- Concrete case for C107: three coupons, the last after the middle knot, on the example curve with the three example key rates:
the hypotheses hold and the counted payments add up to 107. -/
example : (∀ p ∈ [(⟨D 2024 7 1, some 3⟩ : Payment), ⟨D 2025 1 1, some 4⟩, ⟨D 2025 7 1, some 100⟩, ⟨D 2023 1 1, some 9⟩],
      p.amount ≠ none → D 2023 6 1 ≤ p.date → (∃ k ∈ exampleKnots, k.date ≤ p.date) ∧ ∃ k ∈ exampleKnots, p.date ≤ k.date) ∧
    countedTotal (D 2023 6 1) [⟨D 2024 7 1, some 3⟩, ⟨D 2025 1 1, some 4⟩, ⟨D 2025 7 1, some 100⟩, ⟨D 2023 1 1, some 9⟩] = 107 ∧
    (∀ i ∈ [0, 1, 2], (exampleHeap i).dcc = .act360 ∧ AxisOk .act360 (exampleHeap i).keyDate) ∧
    CurveInput exampleKnots .act360 (D 2023 6 1) :=
  ⟨by decide +kernel, by decide +kernel, by decide +kernel,
    ⟨by decide, by decide +kernel, by decide +kernel, by decide +kernel, by decide +kernel⟩⟩

end Verif.Props
