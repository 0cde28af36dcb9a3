/- Property C123: the sign and the reach of key-rate risk. -/
import Verif.Props.LadderSum
import Verif.Props.YieldSpace

namespace Verif.Props
open Verif Verif.Spec Verif.DayCount

/-- The dates a key rate can move: strictly between its neighbours, on either side without end when there is no neighbour. -/
def InWindow (prior next : Option PyDate) (d : PyDate) : Prop :=
  (∀ p, prior = some p → p < d) ∧ ∀ n, next = some n → d < n

/-- A key rate as the setters leave it: at least one neighbour, the neighbours on their sides of the key date, and a convention
whose year fractions grow with time from the first date on (`AxisOk` only excludes year 1 under ACT/ACT). -/
structure Neighboured (k : KeyRate) : Prop where
  dcc : k.dcc ≠ .thirty360 ∧ k.dcc ≠ .unknown
  some_neighbour : k.prior ≠ none ∨ k.next ≠ none
  prior_lt : ∀ p, k.prior = some p → p < k.keyDate ∧ AxisOk k.dcc p
  next_gt : ∀ n, k.next = some n → k.keyDate < n
  key_ok : AxisOk k.dcc k.keyDate

/-- The weight of a key rate: between 0 and 1, and positive exactly inside the window. -/
theorem keyRate_weight (k : KeyRate) (hk : Neighboured k) :
    ∃ w : PyDate → ℚ, (∀ b d, (k.setBumpVal b).call d = .ok (b * w d)) ∧
      ∀ d, 0 ≤ w d ∧ w d ≤ 1 ∧ (0 < w d ↔ InWindow k.prior k.next d) := by
  obtain ⟨dcc, m, prior, next, b0⟩ := k
  obtain ⟨hdcc, hsome, hprior, hnext, hkey⟩ := hk
  simp only at hdcc hsome hprior hnext hkey
  obtain ⟨τ, hτ⟩ : ∃ τ, timeAxis dcc = some τ := by
    cases dcc <;> simp [timeAxis] at hdcc ⊢
  cases prior with
  | none =>
    cases next with
    | none => simp at hsome
    | some n =>
      have hmn := hnext n rfl
      refine ⟨rampDown τ m n, fun b d => C22_no_prior dcc τ hτ m n hmn hkey b d, fun d => ?_⟩
      have t2 := axis_strictMono hτ hmn
      unfold rampDown InWindow
      by_cases h1 : d ≤ m
      · rw [if_pos h1]
        have : d < n := lt_of_le_of_lt h1 hmn
        simp [this]
      · rw [if_neg h1]
        push Not at h1
        have t1 := axis_strictMono hτ h1
        by_cases h2 : n ≤ d
        · rw [if_pos h2]
          simp [h2]
        · rw [if_neg h2]
          push Not at h2
          have t3 := axis_strictMono hτ h2
          refine ⟨div_nonneg (by linarith) (by linarith), (div_le_one (by linarith)).2 (by linarith), ?_⟩
          have : 0 < (τ n - τ d) / (τ n - τ m) := div_pos (by linarith) (by linarith)
          simp [this, h2]
  | some p =>
    obtain ⟨hpm, hp⟩ := hprior p rfl
    have t1 := axis_strictMono hτ hpm
    cases next with
    | none =>
      refine ⟨rampUp τ p m, fun b d => C22_no_next dcc τ hτ p m hpm hp b d, fun d => ?_⟩
      unfold rampUp InWindow
      by_cases h1 : d ≤ p
      · rw [if_pos h1]
        simp [h1]
      · rw [if_neg h1]
        push Not at h1
        have t2 := axis_strictMono hτ h1
        by_cases h2 : m ≤ d
        · rw [if_pos h2]
          simp [h1]
        · rw [if_neg h2]
          push Not at h2
          have t3 := axis_strictMono hτ h2
          refine ⟨div_nonneg (by linarith) (by linarith), (div_le_one (by linarith)).2 (by linarith), ?_⟩
          have : 0 < (τ d - τ p) / (τ m - τ p) := div_pos (by linarith) (by linarith)
          simp [this, h1]
    | some n =>
      have hmn := hnext n rfl
      have t4 := axis_strictMono hτ hmn
      refine ⟨hat τ p m n, fun b d => C22_hat dcc τ hτ p m n hpm hmn hp b d, fun d => ?_⟩
      unfold hat InWindow
      by_cases h1 : d ≤ p ∨ n ≤ d
      · rw [if_pos h1]
        refine ⟨le_rfl, by norm_num, ?_⟩
        constructor
        · intro h; exact absurd h (lt_irrefl _)
        · rintro ⟨ha, hb⟩
          rcases h1 with h1 | h1
          · exact absurd (ha p rfl) (not_lt.2 h1)
          · exact absurd (hb n rfl) (not_lt.2 h1)
      · rw [if_neg h1]
        push Not at h1
        have t2 := axis_strictMono hτ h1.1
        have t3 := axis_strictMono hτ h1.2
        by_cases h2 : d ≤ m
        · rw [if_pos h2]
          have t5 := axis_mono hτ h2
          refine ⟨div_nonneg (by linarith) (by linarith), (div_le_one (by linarith)).2 (by linarith), ?_⟩
          have : 0 < (τ d - τ p) / (τ m - τ p) := div_pos (by linarith) (by linarith)
          simp [this, h1.1, h1.2]
        · rw [if_neg h2]
          push Not at h2
          have t5 := axis_strictMono hτ h2
          refine ⟨div_nonneg (by linarith) (by linarith), (div_le_one (by linarith)).2 (by linarith), ?_⟩
          have : 0 < (τ n - τ d) / (τ n - τ m) := div_pos (by linarith) (by linarith)
          simp [this, h1.1, h1.2]

/-- C123. In DISCOUNT_FACTOR space a key rate's pv01 of a cashflow without negative payments lies between zero and one basis point
of the total of the counted payments, and is zero when no knot of the curve lies strictly between the key rate's neighbours,
whatever is paid there. -/
theorem C123_discount_space (exp : ℚ → ℚ) (bonds : List Knot) (m : InterpolationMethod) (hm : m = .linear ∨ m = .previous)
    (dcc : DayCountConvention) (ref : PyDate) (l r : EndBehavior) (h : CurveInput bonds dcc ref) (yc yc' : YieldCurve)
    (hyc : YieldCurve.create bonds [] m dcc .discountFactor ref l r = .ok yc) (hu : Used exp yc yc') (ps : List Payment)
    (hin : ∀ p ∈ ps, p.amount ≠ none → ref ≤ p.date → (∃ k ∈ bonds, k.date ≤ p.date) ∧ ∃ k ∈ bonds, p.date ≤ k.date)
    (k : KeyRate) (hk : Neighboured k) :
    ∃ v, (yc'.pv01Risk exp (Cashflow.presentValue (Cashflow.create ps)) k).1 = .ok ⟨k.keyDate, v, .usTreasury⟩ ∧
      ((∀ p ∈ ps, ∀ x, p.amount = some x → 0 ≤ x) → 0 ≤ v ∧ v ≤ 1 / 10000 * countedTotal ref ps) ∧
      ((∀ b ∈ bonds, ¬ InWindow k.prior k.next b.date) → v = 0) := by
  obtain ⟨w, hw, hwb⟩ := keyRate_weight k hk
  obtain ⟨v₀, S, hadd, hmul, hone, hcongr, hnn, hval⟩ := C107_affine exp bonds m (.basic hm _) dcc ref l r h yc yc hyc Used.start ps hin
  have hb : ∀ b, (yc.presentValue exp (Cashflow.presentValue (Cashflow.create ps)) (k.setBumpVal b).asAdjustment).1 =
      .ok (v₀ + b * S w) := by
    intro b
    rw [hval (k.setBumpVal b).asAdjustment (fun d => b * w d) (fun x _ => hw b x.date), hmul]
  have := (C30_central_difference exp bonds m dcc .discountFactor ref l r yc yc' hyc hu _ k k.bump _ _ (hb _) (hb _)).2
  rw [show k.setBumpVal k.bump = k from rfl] at this
  refine ⟨_, this, ?_, ?_⟩
  · intro hpos
    have h1 := hnn hm hpos w (fun x _ => (hwb x.date).1)
    have h2 := hnn hm hpos (fun d => 1 + (-1) * w d) (fun x _ => by have := (hwb x.date).2.1; linarith)
    rw [hadd (fun _ => 1) (fun d => (-1) * w d), hone, hmul] at h2
    constructor <;> linarith
  · intro hno
    have : S w = S (fun d => 0 * w d) := hcongr _ _ (fun x hx => by
      have h0 := (hwb x.date)
      have h1 : ¬ 0 < w x.date := fun hp => hno x hx (h0.2.2.1 hp)
      have : w x.date = 0 := le_antisymm (not_lt.1 h1) h0.1
      rw [this]; ring)
    rw [hmul, zero_mul] at this
    rw [this]; ring

/-- C123. The value of a cashflow on a curve of continuously compounded yields, under any adjustment: each counted payment times
the exponential of minus its own adjusted yield times its time. -/
theorem C123_yield_value (exp : ℚ → ℚ) (values : List Knot) (m : InterpolationMethod) (hm : Interpolates m values.length)
    (dcc : DayCountConvention) (ref : PyDate) (l r : EndBehavior) (h : CurveInput values dcc ref)
    (hl : l = .constant ∨ ∃ k ∈ values, k.date = ref) (τ : PyDate → ℚ) (hτ : timeAxis dcc = some τ)
    (yc : YieldCurve) (hyc : YieldCurve.create values [] m dcc .continuouslyCompoundedYield ref l r = .ok yc)
    (ps : List Payment) (hin : ∀ p ∈ ps, p.amount ≠ none → ref ≤ p.date → ∃ k ∈ values, p.date ≤ k.date) :
    ∃ y : PyDate → ℚ, (∀ d, ref ≤ d → (∃ k ∈ values, d ≤ k.date) → yc.base.call d = .ok (y d)) ∧
      ∀ (yc' : YieldCurve), Used exp yc yc' → ∀ (adj : Adjustment) (a : PyDate → ℚ), (∀ d, adj (.date d) = .ok (a d)) →
        (yc'.presentValue exp (Cashflow.presentValue (Cashflow.create ps)) adj).1 =
          .ok (ps.map (contribution ref (fun d => exp (-(y d + a d) * (τ d - τ ref))))).sum := by
  obtain ⟨hs, base, hbase, rfl⟩ := settings_create (exp := exp) hyc
  have hdef : ∀ d, ∃ y, ref ≤ d → (∃ k ∈ values, d ≤ k.date) → base.call d = .ok y := by
    intro d
    by_cases h1 : ref ≤ d ∧ ∃ k ∈ values, d ≤ k.date
    · obtain ⟨y, hy⟩ := curve_defined hm h hbase (d := d)
        (hl.imp id (fun ⟨k, hk, he⟩ => ⟨k, hk, by rw [he]; exact h1.1⟩)) h1.2
      exact ⟨y, fun _ _ => hy⟩
    · exact ⟨0, fun a b => absurd ⟨a, b⟩ h1⟩
  choose y hy using hdef
  refine ⟨y, hy, fun yc' hu adj a ha => ?_⟩
  obtain ⟨hs', hb', hsp'⟩ := used_inv hs hu
  rw [(presentValue_eq hs' _ _).1, hb', hsp']
  obtain ⟨values', c, hto, hmem, hcin, hc, href⟩ := yield_curve_knots (exp := exp) hm h hl hτ hbase adj a y
    (fun d _ _ => ha d) hy
  unfold YieldCurve.presentValue
  simp only [hto]
  have := C19_present_value ps c.toDiscountFn (fun d => exp (-(y d + a d) * (τ d - τ ref))) (by
    intro p hp hamt hle
    have hle' : ref ≤ p.date := by rw [← href]; exact hle
    exact C27_knots values' .linear (Or.inl rfl) dcc ref .error .error hcin c hc
      ⟨p.date, exp (-(y p.date + a p.date) * (τ p.date - τ ref))⟩ ((hmem _).2 ⟨hle', hin p hp hamt hle', rfl⟩))
  rw [this]
  show Except.ok (ps.map (contribution c.referenceDate _)).sum = _
  rw [href]

theorem sum_nonpos_list {l : List ℚ} (h : ∀ x ∈ l, x ≤ 0) : l.sum ≤ 0 := by
  induction l with
  | nil => simp
  | cons a l ih =>
    rw [List.sum_cons]
    have := h a List.mem_cons_self
    have := ih (fun x hx => h x (List.mem_cons_of_mem _ hx))
    linarith

/-- C123. On a curve of continuously compounded yields a key rate's pv01 of a cashflow without negative payments is never positive,
and it is zero when nothing is paid strictly between the key rate's neighbours after the reference date (`exp` is any nondecreasing
function), and only then if `exp` is strictly increasing. -/
theorem C123_yield_space (exp : ℚ → ℚ) (hexp : Monotone exp) (values : List Knot) (m : InterpolationMethod)
    (hm : Interpolates m values.length) (dcc : DayCountConvention) (ref : PyDate) (l r : EndBehavior)
    (h : CurveInput values dcc ref) (hl : l = .constant ∨ ∃ k ∈ values, k.date = ref) (yc yc' : YieldCurve)
    (hyc : YieldCurve.create values [] m dcc .continuouslyCompoundedYield ref l r = .ok yc) (hu : Used exp yc yc')
    (ps : List Payment) (hin : ∀ p ∈ ps, p.amount ≠ none → ref ≤ p.date → ∃ k ∈ values, p.date ≤ k.date)
    (hpos : ∀ p ∈ ps, ∀ x, p.amount = some x → 0 ≤ x) (k : KeyRate) (hk : Neighboured k) :
    ∃ v, (yc'.pv01Risk exp (Cashflow.presentValue (Cashflow.create ps)) k).1 = .ok ⟨k.keyDate, v, .usTreasury⟩ ∧ v ≤ 0 ∧
      ((∀ p ∈ ps, ∀ x, p.amount = some x → 0 < x → ref < p.date → ¬ InWindow k.prior k.next p.date) → v = 0) ∧
      (StrictMono exp → v = 0 →
        ∀ p ∈ ps, ∀ x, p.amount = some x → 0 < x → ref < p.date → ¬ InWindow k.prior k.next p.date) := by
  obtain ⟨τ, hτ⟩ := h.axis
  obtain ⟨w, hw, hwb⟩ := keyRate_weight k hk
  obtain ⟨y, hy, hval⟩ := C123_yield_value exp values m hm dcc ref l r h hl τ hτ yc hyc ps hin
  have hb := fun b => hval yc Used.start (k.setBumpVal b).asAdjustment (fun d => b * w d) (fun d => hw b d)
  have hpv := (C30_central_difference exp values m dcc .continuouslyCompoundedYield ref l r yc yc' hyc hu _ k k.bump _ _
    (hb _) (hb _)).2
  rw [show k.setBumpVal k.bump = k from rfl] at hpv
  let g : PyDate → ℚ := fun d => exp (-(y d + 1 / 20000 * w d) * (τ d - τ ref)) - exp (-(y d + -1 / 20000 * w d) * (τ d - τ ref))
  have hsum : (ps.map (contribution ref (fun d => exp (-(y d + 1 / 20000 * w d) * (τ d - τ ref))))).sum -
      (ps.map (contribution ref (fun d => exp (-(y d + -1 / 20000 * w d) * (τ d - τ ref))))).sum =
      (ps.map (contribution ref g)).sum := by
    have : ∀ l : List Payment, (l.map (contribution ref (fun d => exp (-(y d + 1 / 20000 * w d) * (τ d - τ ref))))).sum -
        (l.map (contribution ref (fun d => exp (-(y d + -1 / 20000 * w d) * (τ d - τ ref))))).sum =
        (l.map (contribution ref g)).sum := by
      intro l
      induction l with
      | nil => simp
      | cons p l ih =>
        simp only [List.map_cons, List.sum_cons]
        rw [← ih]
        have : contribution ref g p = contribution ref (fun d => exp (-(y d + 1 / 20000 * w d) * (τ d - τ ref))) p -
            contribution ref (fun d => exp (-(y d + -1 / 20000 * w d) * (τ d - τ ref))) p := by
          unfold contribution
          cases p.amount with
          | none => simp
          | some a => simp only [g]; split_ifs <;> ring
        rw [this]; ring
    exact this ps
  rw [hsum] at hpv
  have hτr : ∀ d, ref ≤ d → 0 ≤ τ d - τ ref := fun d hd => by have := axis_mono hτ hd; linarith
  have hg0 : ∀ d, ref ≤ d → g d ≤ 0 := by
    intro d hd
    have h1 := hτr d hd
    have h2 := (hwb d).1
    have := hexp (show -(y d + 1 / 20000 * w d) * (τ d - τ ref) ≤ -(y d + -1 / 20000 * w d) * (τ d - τ ref) by
      nlinarith [mul_nonneg h2 h1])
    simp only [g]; linarith
  have hgz : ∀ d, ref ≤ d → (d = ref ∨ ¬ InWindow k.prior k.next d → g d = 0) ∧
      (StrictMono exp → g d = 0 → d = ref ∨ ¬ InWindow k.prior k.next d) := by
    intro d hd
    refine ⟨?_, ?_⟩
    rotate_left
    · intro hst h0
      by_contra hcon
      push Not at hcon
      have hlt : ref < d := lt_of_le_of_ne hd (Ne.symm hcon.1)
      have t1 := axis_strictMono hτ hlt
      have t2 := (hwb d).2.2.2 hcon.2
      have := hst (show -(y d + 1 / 20000 * w d) * (τ d - τ ref) < -(y d + -1 / 20000 * w d) * (τ d - τ ref) by
        nlinarith [mul_pos t2 (show 0 < τ d - τ ref by linarith)])
      simp only [g] at h0
      linarith
    · rintro (rfl | hno)
      · simp [g]
      · have h0 := hwb d
        have : w d = 0 := le_antisymm (not_lt.1 (fun hp => hno (h0.2.2.1 hp))) h0.1
        simp [g, this]
  have hc0 : ∀ p ∈ ps, contribution ref g p ≤ 0 := by
    intro p hp
    unfold contribution
    cases hamt : p.amount with
    | none => simp
    | some a =>
      simp only
      by_cases href : ref ≤ p.date
      · rw [if_pos href]
        exact mul_nonpos_of_nonpos_of_nonneg (hg0 _ href) (hpos p hp a hamt)
      · rw [if_neg href]
  have hcz : ∀ p ∈ ps, ((∀ x, p.amount = some x → 0 < x → ref < p.date → ¬ InWindow k.prior k.next p.date) →
      contribution ref g p = 0) ∧ (StrictMono exp → contribution ref g p = 0 →
      ∀ x, p.amount = some x → 0 < x → ref < p.date → ¬ InWindow k.prior k.next p.date) := by
    intro p hp
    unfold contribution
    cases hamt : p.amount with
    | none => simp
    | some a =>
      simp only [Option.some.injEq]
      by_cases href : ref ≤ p.date
      · rw [if_pos href, mul_eq_zero]
        constructor
        · intro hall
          by_cases ha : a = 0
          · exact Or.inr ha
          · left
            by_cases he : p.date = ref
            · exact (hgz _ href).1 (Or.inl he)
            · exact (hgz _ href).1
                (Or.inr (hall a rfl (lt_of_le_of_ne (hpos p hp a hamt) (Ne.symm ha)) (lt_of_le_of_ne href (Ne.symm he))))
        · rintro hst (h1 | h1) x rfl hx hlt
          · rcases (hgz _ href).2 hst h1 with h1 | h1
            · rw [h1] at hlt; exact absurd hlt (lt_irrefl _)
            · exact h1
          · rw [h1] at hx; exact absurd hx (lt_irrefl _)
      · rw [if_neg href]
        constructor
        · intro _; rfl
        · intro _ _ x _ _ hlt
          exact absurd hlt.le href
  refine ⟨_, hpv, ?_, ?_⟩
  · exact sum_nonpos_list (fun z hz => by
      obtain ⟨p, hp, rfl⟩ := List.mem_map.1 hz
      exact hc0 p hp)
  · have : ∀ l : List Payment, (∀ p ∈ l, contribution ref g p ≤ 0) →
        ((l.map (contribution ref g)).sum = 0 ↔ ∀ p ∈ l, contribution ref g p = 0) := by
      intro l
      induction l with
      | nil => simp
      | cons p l ih =>
        intro hl
        have h1 := hl p List.mem_cons_self
        have h2 : (l.map (contribution ref g)).sum ≤ 0 := sum_nonpos_list (fun z hz => by
          obtain ⟨p, hp, rfl⟩ := List.mem_map.1 hz
          exact hl p (List.mem_cons_of_mem _ hp))
        have h3 := ih (fun q hq => hl q (List.mem_cons_of_mem _ hq))
        simp only [List.map_cons, List.sum_cons, List.forall_mem_cons]
        rw [← h3]
        constructor
        · intro h0; constructor <;> linarith
        · rintro ⟨e1, e2⟩; rw [e1, e2, add_zero]
    rw [this ps hc0]
    exact ⟨fun hall p hp => (hcz p hp).1 (hall p hp), fun hst hall p hp => (hcz p hp).2 hst (hall p hp)⟩

/-- C123. On a curve of continuously compounded yields a cashflow without negative payments is worth no more under larger yields:
adjustments that are nowhere lower never raise its value; and if no yield is negative, interpolated linearly or from the previous knot, it is worth between zero and the total of the
counted payments (`exp` is any nonnegative, nondecreasing function with value 1 at 0). -/
theorem C123_yield_monotone (exp : ℚ → ℚ) (hexp : Monotone exp) (values : List Knot) (m : InterpolationMethod)
    (hm : Interpolates m values.length) (dcc : DayCountConvention) (ref : PyDate) (l r : EndBehavior)
    (h : CurveInput values dcc ref) (hl : l = .constant ∨ ∃ k ∈ values, k.date = ref) (yc yc' : YieldCurve)
    (hyc : YieldCurve.create values [] m dcc .continuouslyCompoundedYield ref l r = .ok yc) (hu : Used exp yc yc')
    (ps : List Payment) (hin : ∀ p ∈ ps, p.amount ≠ none → ref ≤ p.date → ∃ k ∈ values, p.date ≤ k.date)
    (hpos : ∀ p ∈ ps, ∀ x, p.amount = some x → 0 ≤ x) :
    (∀ (adj adj' : Adjustment) (a a' : PyDate → ℚ), (∀ d, adj (.date d) = .ok (a d)) → (∀ d, adj' (.date d) = .ok (a' d)) →
      (∀ d, a d ≤ a' d) → ∃ v v', (yc'.presentValue exp (Cashflow.presentValue (Cashflow.create ps)) adj).1 = .ok v ∧
        (yc'.presentValue exp (Cashflow.presentValue (Cashflow.create ps)) adj').1 = .ok v' ∧ v' ≤ v) ∧
    ((m = .linear ∨ m = .previous) → (∀ x, 0 ≤ exp x) → exp 0 = 1 → (∀ k ∈ values, 0 ≤ k.value) →
      ∃ v, (yc'.presentValue exp (Cashflow.presentValue (Cashflow.create ps)) noAdjustment).1 = .ok v ∧ 0 ≤ v ∧
        v ≤ countedTotal ref ps) := by
  obtain ⟨τ, hτ⟩ := h.axis
  obtain ⟨y, hy, hval⟩ := C123_yield_value exp values m hm dcc ref l r h hl τ hτ yc hyc ps hin
  have hτr : ∀ d, ref ≤ d → 0 ≤ τ d - τ ref := fun d hd => by have := axis_mono hτ hd; linarith
  have hmono : ∀ (f g : PyDate → ℚ), (∀ p ∈ ps, p.amount ≠ none → ref ≤ p.date → f p.date ≤ g p.date) →
      (ps.map (contribution ref f)).sum ≤ (ps.map (contribution ref g)).sum := by
    intro f g hfg
    refine List.sum_le_sum (fun p hp => ?_)
    unfold contribution
    cases hamt : p.amount with
    | none => exact le_rfl
    | some a =>
      simp only
      by_cases href : ref ≤ p.date
      · rw [if_pos href, if_pos href]
        exact mul_le_mul_of_nonneg_right (hfg p hp (by rw [hamt]; simp) href) (hpos p hp a hamt)
      · rw [if_neg href, if_neg href]
  constructor
  · intro adj adj' a a' ha ha' hle
    refine ⟨_, _, hval yc' hu adj a ha, hval yc' hu adj' a' ha', hmono _ _ (fun p _ _ href => hexp ?_)⟩
    have := mul_le_mul_of_nonneg_right (hle p.date) (hτr _ href)
    linarith
  · intro hm' h0 h1 hv
    refine ⟨_, hval yc' hu noAdjustment (fun _ => 0) (fun _ => rfl), ?_, hmono _ _ (fun p hp hamt href => ?_)⟩
    · refine le_trans (le_of_eq ?_) (hmono (fun _ => 0) _ (fun p _ _ _ => h0 _))
      symm
      refine List.sum_eq_zero (fun z hz => ?_)
      obtain ⟨p, -, rfl⟩ := List.mem_map.1 hz
      unfold contribution
      cases p.amount with
      | none => rfl
      | some a => simp
    · obtain ⟨_, base, hbase, rfl⟩ := settings_create (exp := exp) hyc
      obtain ⟨B, hB⟩ : ∃ B, ∀ k ∈ values, k.value ≤ B := by
        obtain ⟨k, hk⟩ := List.exists_mem_of_ne_nil _ h.nonempty
        obtain ⟨x, _, hx⟩ := Finset.exists_max_image values.toFinset Knot.value ⟨k, by simp [hk]⟩
        exact ⟨x.value, fun k hk => hx k (by simp [hk])⟩
      have hy0 := (C90_bounds values m hm' dcc ref l r h base hbase 0 B (fun k hk => ⟨hv k hk, hB k hk⟩) p.date (y p.date)
        (hy _ href (hin p hp hamt href))).1
      rw [← h1]
      apply hexp
      have := mul_nonneg hy0 (hτr _ href)
      linarith

/-- The key rate of the middle knot of three. -/
def exKey : KeyRate := KeyRate.create .act365 (D 2024 1 1) (some (D 2023 7 1)) (some (D 2025 1 1))

example : Neighboured exKey :=
  ⟨by decide, by decide, by rintro p ⟨⟩; decide +kernel, by rintro p ⟨⟩; decide +kernel, by decide +kernel⟩
example : InWindow exKey.prior exKey.next (D 2024 6 1) ∧ ¬ InWindow exKey.prior exKey.next (D 2025 1 1) := by
  refine ⟨⟨?_, ?_⟩, fun h => ?_⟩
  · rintro p ⟨⟩; decide +kernel
  · rintro p ⟨⟩; decide +kernel
  · exact absurd (h.2 _ rfl) (by decide +kernel)
/-- A curve and payments inside it, two in the window and one outside. -/
example : CurveInput [⟨D 2023 6 1, 1/100⟩, ⟨D 2024 6 1, 2/100⟩, ⟨D 2026 6 1, 3/100⟩] .act360 (D 2023 6 1) ∧
    ∀ p ∈ ([⟨D 2024 1 1, some 5⟩, ⟨D 2024 7 1, some 5⟩, ⟨D 2025 6 1, some 105⟩] : List Payment), p.amount ≠ none →
      D 2023 6 1 ≤ p.date → ∃ k ∈ ([⟨D 2023 6 1, 1/100⟩, ⟨D 2024 6 1, 2/100⟩, ⟨D 2026 6 1, 3/100⟩] : List Knot), p.date ≤ k.date := by
  refine ⟨⟨by decide, by decide +kernel, by decide +kernel, by decide +kernel, by decide +kernel⟩, ?_⟩
  intro p hp _ _
  refine ⟨⟨D 2026 6 1, 3/100⟩, by simp, ?_⟩
  revert p
  decide +kernel

end Verif.Props
