/- Property C145: the value of a bond is convex in every bump of the yields, and its pv01 is a secant of that function. -/
import Verif.Props.CurveUnique

namespace Verif.Props
open Verif Verif.Spec Verif.DayCount Verif.CurveFactory Verif.Scheduler

/-! ## Specification -/

/-- A convex function: it lies below its chords. -/
def BendsUp (f : ℚ → ℚ) : Prop :=
  ∀ u v t, 0 ≤ t → t ≤ 1 → f (t * u + (1 - t) * v) ≤ t * f u + (1 - t) * f v

/-! ## Convex functions -/

theorem BendsUp.three {f : ℚ → ℚ} (hf : BendsUp f) {a b c : ℚ} (hab : a ≤ b) (hbc : b ≤ c) :
    (c - a) * f b ≤ (c - b) * f a + (b - a) * f c := by
  rcases eq_or_lt_of_le (hab.trans hbc) with h | h
  · have h1 : a = b := le_antisymm hab (by rw [h]; exact hbc)
    have h2 : c = b := by rw [← h, h1]
    rw [h1, h2]; simp
  · have hca : 0 < c - a := by linarith
    have key := hf a c ((c - b) / (c - a)) (div_nonneg (by linarith) hca.le) ((div_le_one hca).2 (by linarith))
    have e1 : 1 - (c - b) / (c - a) = (b - a) / (c - a) := by field_simp; ring
    have e2 : (c - b) / (c - a) * a + (1 - (c - b) / (c - a)) * c = b := by rw [e1]; field_simp; ring
    rw [e2, e1] at key
    have := mul_le_mul_of_nonneg_left key hca.le
    calc (c - a) * f b ≤ _ := this
      _ = _ := by field_simp

theorem BendsUp.secants {V : ℚ → ℚ} (hV : BendsUp V) :
    V 0 - V (1 / 20000) ≤ -(V (1 / 20000) - V (-1 / 20000)) / 2 ∧ -(V (1 / 20000) - V (-1 / 20000)) / 2 ≤ V (-1 / 20000) - V 0 ∧
      (∀ x, 1 / 20000 ≤ |x| → V (-1 / 20000) + (x + 1 / 20000) * (10000 * (V (1 / 20000) - V (-1 / 20000))) ≤ V x) ∧
      ∀ x, |x| ≤ 1 / 20000 → V x ≤ V (-1 / 20000) + (x + 1 / 20000) * (10000 * (V (1 / 20000) - V (-1 / 20000))) := by
  have mid := hV.three (a := -1 / 20000) (b := 0) (c := 1 / 20000) (by norm_num) (by norm_num)
  refine ⟨by linarith, by linarith, ?_, ?_⟩
  · intro x hx
    rcases le_abs.1 hx with hx | hx
    · have := hV.three (a := -1 / 20000) (b := 1 / 20000) (c := x) (by norm_num) hx
      linarith
    · have := hV.three (a := x) (b := -1 / 20000) (c := 1 / 20000) (by linarith) (by norm_num)
      linarith
  · intro x hx
    obtain ⟨h1, h2⟩ := abs_le.1 hx
    have := hV.three (a := -1 / 20000) (b := x) (c := 1 / 20000) (by linarith) h2
    linarith

/-- A sum of non-negative multiples of a convex function of affine functions is convex. -/
theorem bendsUp_sum {exp : ℚ → ℚ} (hexp : BendsUp exp) {α : Type} (P : α → Prop) [DecidablePred P] (x y c : α → ℚ) :
    ∀ l : List α, (∀ a ∈ l, P a → 0 ≤ c a) → BendsUp fun h => (l.map fun a => if P a then exp (x a + h * y a) * c a else 0).sum := by
  intro l
  induction l with
  | nil => intro _ u v t _ _; simp
  | cons a l ih =>
    intro hc u v t h0 h1
    have hi := ih (fun b hb => hc b (List.mem_cons_of_mem _ hb)) u v t h0 h1
    simp only [List.map_cons, List.sum_cons] at hi ⊢
    have ha : (if P a then exp (x a + (t * u + (1 - t) * v) * y a) * c a else 0) ≤
        t * (if P a then exp (x a + u * y a) * c a else 0) + (1 - t) * (if P a then exp (x a + v * y a) * c a else 0) := by
      by_cases hp : P a
      · rw [if_pos hp, if_pos hp, if_pos hp]
        have := mul_le_mul_of_nonneg_right (hexp (x a + u * y a) (x a + v * y a) t h0 h1) (hc a (by simp) hp)
        rw [show t * (x a + u * y a) + (1 - t) * (x a + v * y a) = x a + (t * u + (1 - t) * v) * y a by ring] at this
        linarith
      · rw [if_neg hp, if_neg hp, if_neg hp]; simp
    linarith

/-! ## The value of a bond -/

/-- C145. On a curve of continuously compounded yields reaching to the last payment to be received, move the yields by `h` times any
profile `w`: the value of a bond without negative payments is a convex function of `h`, and it does not rise if `w` is nowhere negative. -/
theorem C145_profile (exp : ℚ → ℚ) (hcon : BendsUp exp) (values : List Knot) (m : InterpolationMethod)
    (hm : Interpolates m values.length) (dcc : DayCountConvention) (ref : PyDate) (l r : EndBehavior)
    (h : CurveInput values dcc ref) (hl : l = .constant ∨ ∃ k ∈ values, k.date = ref) (yc yc' : YieldCurve)
    (hyc : YieldCurve.create values [] m dcc .continuouslyCompoundedYield ref l r = .ok yc) (hu : Used exp yc yc')
    (b : Bond) (hb : Made b) (hrate : 0 ≤ b.terms.couponRate) (hpr : 0 < b.terms.principal)
    (s : PyDate) (hs : addBusinessDays b.terms.calendar ref 1 = .ok s)
    (hin : ∀ p ∈ b.coupons ++ b.principalPayments, s ≤ p.unadjusted → ∃ k ∈ values, p.date ≤ k.date)
    (adj : ℚ → Adjustment) (w : PyDate → ℚ) (hadj : ∀ x d, adj x (.date d) = .ok (x * w d)) :
    ∃ V : ℚ → ℚ, (∀ x, (yc'.presentValue exp b.presentValue (adj x)).1 = .ok (V x)) ∧
      (yc'.presentValue exp b.presentValue noAdjustment).1 = .ok (V 0) ∧ BendsUp V ∧
      (Monotone exp → (∀ d, 0 ≤ w d) → Antitone V) := by
  obtain ⟨τ, hτ⟩ := h.axis
  obtain ⟨y, hy, hval⟩ := C142_bond_value exp values m hm dcc ref l r h hl τ hτ yc hyc b hb s hs hin
  have ht : ∀ p ∈ b.coupons ++ b.principalPayments, s ≤ p.unadjusted → 0 < τ p.date - τ ref := by
    intro p hp hsp
    have := axis_strictMono hτ (received_after hb hs hp hsp).2
    linarith
  have ham := made_amounts hb hrate hpr
  refine ⟨fun x => weightedSum (fun p => s ≤ p.unadjusted) (fun p => exp (-(y p.date + x * w p.date) * (τ p.date - τ ref)) * p.amount)
    (b.coupons ++ b.principalPayments), fun x => hval yc' hu (adj x) _ (hadj x), ?_, ?_, ?_⟩
  · rw [hval yc' hu noAdjustment (fun _ => 0) (fun _ => rfl)]
    simp only [zero_mul]
  · have := bendsUp_sum hcon (fun p : BondPayment => s ≤ p.unadjusted) (fun p => -(y p.date) * (τ p.date - τ ref))
      (fun p => -(w p.date) * (τ p.date - τ ref)) (fun p => p.amount) (b.coupons ++ b.principalPayments) (fun p hp _ => ham p hp)
    unfold weightedSum
    have e : (fun x : ℚ => ((b.coupons ++ b.principalPayments).map fun p =>
        if s ≤ p.unadjusted then exp (-(y p.date + x * w p.date) * (τ p.date - τ ref)) * p.amount else 0).sum) =
        fun x => ((b.coupons ++ b.principalPayments).map fun p =>
          if s ≤ p.unadjusted then exp (-(y p.date) * (τ p.date - τ ref) + x * (-(w p.date) * (τ p.date - τ ref))) * p.amount else 0).sum := by
      funext x
      congr 1
      refine List.map_congr_left fun p _ => ?_
      rw [show -(y p.date + x * w p.date) * (τ p.date - τ ref) =
        -(y p.date) * (τ p.date - τ ref) + x * (-(w p.date) * (τ p.date - τ ref)) by ring]
    rw [e]
    exact this
  · intro hmono hw x x' hxx
    refine List.sum_le_sum fun p hp => ?_
    by_cases hsp : s ≤ p.unadjusted
    · rw [if_pos hsp, if_pos hsp]
      refine mul_le_mul_of_nonneg_right (hmono ?_) (ham p hp)
      have h1 := mul_le_mul_of_nonneg_right hxx (mul_nonneg (hw p.date) (ht p hp hsp).le)
      nlinarith
    · rw [if_neg hsp, if_neg hsp]

/-- C145. The value of a bond as a function of the bump of a key rate is convex and does not rise.  The pv01 is its change between bumps of
minus and plus half a basis point: so half a basis point up loses at most half of it, half a basis point down gains at least half of it, and
for every larger move the bond is worth at least what the pv01 predicts, from the value at minus half a basis point. -/
theorem C145_key_rate (exp : ℚ → ℚ) (hcon : BendsUp exp) (hmono : Monotone exp) (values : List Knot) (m : InterpolationMethod)
    (hm : Interpolates m values.length) (dcc : DayCountConvention) (ref : PyDate) (l r : EndBehavior)
    (h : CurveInput values dcc ref) (hl : l = .constant ∨ ∃ k ∈ values, k.date = ref) (yc yc' : YieldCurve)
    (hyc : YieldCurve.create values [] m dcc .continuouslyCompoundedYield ref l r = .ok yc) (hu : Used exp yc yc')
    (b : Bond) (hb : Made b) (hrate : 0 ≤ b.terms.couponRate) (hpr : 0 < b.terms.principal)
    (s : PyDate) (hs : addBusinessDays b.terms.calendar ref 1 = .ok s)
    (hin : ∀ p ∈ b.coupons ++ b.principalPayments, s ≤ p.unadjusted → ∃ k ∈ values, p.date ≤ k.date)
    (k : KeyRate) (hk : Neighboured k) :
    ∃ V v, (∀ x, (yc'.presentValue exp b.presentValue (k.setBumpVal x).asAdjustment).1 = .ok (V x)) ∧
      (yc'.presentValue exp b.presentValue noAdjustment).1 = .ok (V 0) ∧
      (yc'.pv01Risk exp b.presentValue k).1 = .ok ⟨k.keyDate, v, .usTreasury⟩ ∧
      BendsUp V ∧ Antitone V ∧ v = V (1 / 20000) - V (-1 / 20000) ∧
      V 0 - V (1 / 20000) ≤ -v / 2 ∧ -v / 2 ≤ V (-1 / 20000) - V 0 ∧
      (∀ x, 1 / 20000 ≤ |x| → V (-1 / 20000) + (x + 1 / 20000) * (10000 * v) ≤ V x) ∧
      ∀ x, |x| ≤ 1 / 20000 → V x ≤ V (-1 / 20000) + (x + 1 / 20000) * (10000 * v) := by
  obtain ⟨w, hw, hwb⟩ := keyRate_weight k hk
  have hadj : ∀ x d, (k.setBumpVal x).asAdjustment (.date d) = .ok (x * w d) := fun x d => hw x d
  obtain ⟨V, hV, hV0, hVc, hVm⟩ := C145_profile exp hcon values m hm dcc ref l r h hl yc yc' hyc hu b hb hrate hpr s hs hin _ w hadj
  obtain ⟨U, hU, -⟩ := C145_profile exp hcon values m hm dcc ref l r h hl yc yc hyc Used.start b hb hrate hpr s hs hin _ w hadj
  have hUV : U = V := by
    funext x
    obtain ⟨y, -, hval⟩ := C142_bond_value exp values m hm dcc ref l r h hl _ h.axis.choose_spec yc hyc b hb s hs hin
    have e1 := hval yc Used.start _ _ (hadj x)
    have e2 := hval yc' hu _ _ (hadj x)
    rw [hU] at e1; rw [hV] at e2
    injection e1 with e1; injection e2 with e2
    rw [e1, e2]
  rw [hUV] at hU
  have hpv := (C30_central_difference exp values m dcc .continuouslyCompoundedYield ref l r yc yc' hyc hu _ k k.bump _ _ (hU _) (hU _)).2
  rw [show k.setBumpVal k.bump = k from rfl] at hpv
  exact ⟨V, V (1 / 20000) - V (-1 / 20000), hV, hV0, hpv, hVc, hVm hmono (fun d => (hwb d).1), rfl, hVc.secants⟩

/-- C145. The value of a bond is convex in a parallel shift of the yields, and does not rise with it. -/
theorem C145_parallel (exp : ℚ → ℚ) (hcon : BendsUp exp) (hmono : Monotone exp) (values : List Knot) (m : InterpolationMethod)
    (hm : Interpolates m values.length) (dcc : DayCountConvention) (ref : PyDate) (l r : EndBehavior)
    (h : CurveInput values dcc ref) (hl : l = .constant ∨ ∃ k ∈ values, k.date = ref) (yc yc' : YieldCurve)
    (hyc : YieldCurve.create values [] m dcc .continuouslyCompoundedYield ref l r = .ok yc) (hu : Used exp yc yc')
    (b : Bond) (hb : Made b) (hrate : 0 ≤ b.terms.couponRate) (hpr : 0 < b.terms.principal)
    (s : PyDate) (hs : addBusinessDays b.terms.calendar ref 1 = .ok s)
    (hin : ∀ p ∈ b.coupons ++ b.principalPayments, s ≤ p.unadjusted → ∃ k ∈ values, p.date ≤ k.date) :
    ∃ V : ℚ → ℚ, (∀ x, (yc'.presentValue exp b.presentValue (fun _ => .ok x)).1 = .ok (V x)) ∧
      (yc'.presentValue exp b.presentValue noAdjustment).1 = .ok (V 0) ∧ BendsUp V ∧ Antitone V := by
  obtain ⟨V, h1, h2, h3, h4⟩ := C145_profile exp hcon values m hm dcc ref l r h hl yc yc' hyc hu b hb hrate hpr s hs hin
    (fun x _ => .ok x) (fun _ => 1) (fun x d => by rw [mul_one])
  exact ⟨V, h1, h2, h3, h4 hmono (fun _ => zero_le_one)⟩

/-! ## Portfolios -/

theorem portfolio_value {exp : ℚ → ℚ} {yc : YieldCurve} {adj : Adjustment} {entries : List PortfolioEntry} {cash : ℚ} (hne : entries ≠ [])
    {v : PortfolioEntry → ℚ} (hv : ∀ e ∈ entries, (yc.presentValue exp e.asset adj).1 = .ok (v e)) :
    (yc.presentValue exp (portfolioPresentValue entries cash) adj).1 = .ok (cash + (entries.map (fun e => e.quantity * v e)).sum) := by
  unfold YieldCurve.presentValue at hv ⊢
  rcases h1 : YieldCurve.toDiscountCurve exp yc adj with ⟨r, y⟩
  rw [h1] at hv
  obtain ⟨e0, he0⟩ := List.exists_mem_of_ne_nil _ hne
  cases r with
  | error e => simp only at hv; exact absurd (hv e0 he0) (by simp)
  | ok u =>
    cases u
    simp only at hv ⊢
    cases hc : y.discountCurve with
    | none => simp only [hc] at hv; exact absurd (hv e0 he0) (by simp)
    | some c =>
      simp only [hc] at hv ⊢
      exact C32_value entries cash c.toDiscountFn v hv

theorem bendsUp_total {α : Type} (q : α → ℚ) (V : α → ℚ → ℚ) (cash : ℚ) : ∀ l : List α, (∀ a ∈ l, 0 ≤ q a ∧ BendsUp (V a) ∧ Antitone (V a)) →
    BendsUp (fun x => cash + (l.map fun a => q a * V a x).sum) ∧ Antitone fun x => cash + (l.map fun a => q a * V a x).sum := by
  intro l
  induction l with
  | nil => intro _; exact ⟨fun u v t _ _ => by simp only [List.map_nil, List.sum_nil]; linarith, fun _ _ _ => le_rfl⟩
  | cons a l ih =>
    intro hl
    obtain ⟨h1, h2⟩ := ih fun b hb => hl b (List.mem_cons_of_mem _ hb)
    obtain ⟨hq, hc, hm⟩ := hl a (by simp)
    constructor
    · intro u v t h0 h0'
      have g1 := h1 u v t h0 h0'
      have g2 := mul_le_mul_of_nonneg_left (hc u v t h0 h0') hq
      simp only [List.map_cons, List.sum_cons] at g1 ⊢
      nlinarith
    · intro u v huv
      have g1 := h2 huv
      have g2 := mul_le_mul_of_nonneg_left (hm huv) hq
      simp only [List.map_cons, List.sum_cons] at g1 ⊢
      linarith

/-- C145. The same for a portfolio which holds no bond short, with any cash. -/
theorem C145_portfolio (exp : ℚ → ℚ) (hcon : BendsUp exp) (hmono : Monotone exp) (values : List Knot) (m : InterpolationMethod)
    (hm : Interpolates m values.length) (dcc : DayCountConvention) (ref : PyDate) (l r : EndBehavior)
    (h : CurveInput values dcc ref) (hl : l = .constant ∨ ∃ k ∈ values, k.date = ref) (yc yc' : YieldCurve)
    (hyc : YieldCurve.create values [] m dcc .continuouslyCompoundedYield ref l r = .ok yc) (hu : Used exp yc yc')
    (positions : List (ℚ × Bond)) (hne : positions ≠ []) (cash : ℚ)
    (hpos : ∀ e ∈ positions, 0 ≤ e.1 ∧ Made e.2 ∧ 0 ≤ e.2.terms.couponRate ∧ 0 < e.2.terms.principal ∧
      ∃ s, addBusinessDays e.2.terms.calendar ref 1 = .ok s ∧
        ∀ p ∈ e.2.coupons ++ e.2.principalPayments, s ≤ p.unadjusted → ∃ k ∈ values, p.date ≤ k.date)
    (k : KeyRate) (hk : Neighboured k) :
    ∃ V v, (∀ x, (yc'.presentValue exp (portfolioPresentValue (positions.map asPosition) cash) (k.setBumpVal x).asAdjustment).1 =
        .ok (V x)) ∧
      (yc'.presentValue exp (portfolioPresentValue (positions.map asPosition) cash) noAdjustment).1 = .ok (V 0) ∧
      (yc'.pv01Risk exp (portfolioPresentValue (positions.map asPosition) cash) k).1 = .ok ⟨k.keyDate, v, .usTreasury⟩ ∧
      BendsUp V ∧ Antitone V ∧ v = V (1 / 20000) - V (-1 / 20000) ∧
      V 0 - V (1 / 20000) ≤ -v / 2 ∧ -v / 2 ≤ V (-1 / 20000) - V 0 ∧
      (∀ x, 1 / 20000 ≤ |x| → V (-1 / 20000) + (x + 1 / 20000) * (10000 * v) ≤ V x) ∧
      ∀ x, |x| ≤ 1 / 20000 → V x ≤ V (-1 / 20000) + (x + 1 / 20000) * (10000 * v) := by
  -- the values of the positions, on the curve as made and as used
  have hex : ∀ e : PortfolioEntry, ∃ V : ℚ → ℚ, e ∈ positions.map asPosition → 0 ≤ e.quantity ∧
      (∀ x, (yc'.presentValue exp e.asset (k.setBumpVal x).asAdjustment).1 = .ok (V x)) ∧
      (∀ x, (yc.presentValue exp e.asset (k.setBumpVal x).asAdjustment).1 = .ok (V x)) ∧
      (yc'.presentValue exp e.asset noAdjustment).1 = .ok (V 0) ∧ BendsUp V ∧ Antitone V := by
    intro e
    by_cases he : e ∈ positions.map asPosition
    · obtain ⟨e0, he0, rfl⟩ := List.mem_map.1 he
      obtain ⟨h0, hb, hrate, hpr, s, hs, hin⟩ := hpos e0 he0
      obtain ⟨V, -, g1, g2, -, g3, g4, -⟩ := C145_key_rate exp hcon hmono values m hm dcc ref l r h hl yc yc' hyc hu e0.2 hb hrate hpr s hs
        hin k hk
      obtain ⟨U, -, f1, -⟩ := C145_key_rate exp hcon hmono values m hm dcc ref l r h hl yc yc hyc Used.start e0.2 hb hrate hpr s hs hin k hk
      obtain ⟨w, hw, -⟩ := keyRate_weight k hk
      have hUV : ∀ x, U x = V x := by
        intro x
        obtain ⟨y, -, hval⟩ := C142_bond_value exp values m hm dcc ref l r h hl _ h.axis.choose_spec yc hyc e0.2 hb s hs hin
        have e1 := hval yc Used.start (k.setBumpVal x).asAdjustment (fun d => x * w d) (fun d => hw x d)
        have e2 := hval yc' hu (k.setBumpVal x).asAdjustment (fun d => x * w d) (fun d => hw x d)
        rw [f1] at e1; rw [g1] at e2
        injection e1 with e1; injection e2 with e2
        rw [e1, e2]
      exact ⟨V, fun _ => ⟨h0, g1, fun x => by rw [← hUV]; exact f1 x, g2, g3, g4⟩⟩
    · exact ⟨fun _ => 0, fun h => absurd h he⟩
  choose V hV using hex
  have hne' : positions.map asPosition ≠ [] := by simpa using hne
  have hpv' := fun x => portfolio_value (cash := cash) hne' fun e he => (hV e he).2.1 x
  have hpv := fun x => portfolio_value (cash := cash) hne' fun e he => (hV e he).2.2.1 x
  have hpv0 := portfolio_value (cash := cash) hne' fun e he => (hV e he).2.2.2.1
  have hrisk := (C30_central_difference exp values m dcc .continuouslyCompoundedYield ref l r yc yc' hyc hu _ k k.bump _ _ (hpv _) (hpv _)).2
  rw [show k.setBumpVal k.bump = k from rfl] at hrisk
  obtain ⟨b1, b2⟩ := bendsUp_total PortfolioEntry.quantity V cash (positions.map asPosition) fun e he =>
    ⟨(hV e he).1, (hV e he).2.2.2.2.1, (hV e he).2.2.2.2.2⟩
  exact ⟨_, _, hpv', hpv0, hrisk, b1, b2, rfl, b1.secants⟩

/-! ## Example -/

/-- A convex, increasing function with value 1 at 0 which is not affine. -/
def kink (x : ℚ) : ℚ := max (1 + x) (1 + x / 2)

theorem kink_bendsUp : BendsUp kink := by
  intro u v t h0 h1
  unfold kink
  have a1 := mul_le_mul_of_nonneg_left (le_max_left (1 + u) (1 + u / 2)) h0
  have a2 := mul_le_mul_of_nonneg_left (le_max_right (1 + u) (1 + u / 2)) h0
  have b1 := mul_le_mul_of_nonneg_left (le_max_left (1 + v) (1 + v / 2)) (sub_nonneg.2 h1)
  have b2 := mul_le_mul_of_nonneg_left (le_max_right (1 + v) (1 + v / 2)) (sub_nonneg.2 h1)
  exact max_le (by linarith) (by linarith)

theorem kink_mono : Monotone kink := fun u v h => max_le_max (by linarith) (by linarith)

/-- The hypotheses of `C145_profile`, `C145_key_rate`, `C145_parallel` and `C145_portfolio` are met by a two-year note with four coupons left, a curve of two
knots and a key rate between its coupons. -/
example : ∃ b, Bond.create notePar = .ok b ∧ ∃ yc,
    YieldCurve.create [⟨D 2024 2 22, 3 / 100⟩, ⟨D 2025 2 18, -1 / 100⟩] [] .linear .actAct .continuouslyCompoundedYield (D 2023 6 1)
      .constant .constant = .ok yc ∧
    (∃ V v, (∀ x, (yc.presentValue kink b.presentValue (exKey.setBumpVal x).asAdjustment).1 = .ok (V x)) ∧
      (yc.pv01Risk kink b.presentValue exKey).1 = .ok ⟨D 2024 1 1, v, .usTreasury⟩ ∧ BendsUp V ∧ V 0 - V (1 / 20000) ≤ -v / 2) ∧
    (∃ V : ℚ → ℚ, (∀ x, (yc.presentValue kink b.presentValue (fun _ => .ok x)).1 = .ok (V x)) ∧ BendsUp V) ∧
    ∃ V v, (yc.presentValue kink (portfolioPresentValue ([(2, b), (1 / 2, b)].map asPosition) (-7)) noAdjustment).1 = .ok (V 0) ∧
      (yc.pv01Risk kink (portfolioPresentValue ([(2, b), (1 / 2, b)].map asPosition) (-7)) exKey).1 = .ok ⟨D 2024 1 1, v, .usTreasury⟩ ∧
      BendsUp V ∧ v = V (1 / 20000) - V (-1 / 20000) := by
  obtain ⟨b1, h1, hc1, hp1⟩ := notePar_create
  have t1 := (create_ok h1).1
  have m1 : Made b1 := ⟨by rw [t1]; exact h1, Or.inr ⟨6, by rw [t1]; rfl⟩⟩
  have hset : addBusinessDays usFederalHolidays (D 2023 6 1) 1 = .ok (D 2023 6 2) := by decide +kernel
  have s1 : addBusinessDays b1.terms.calendar (D 2023 6 1) 1 = .ok (D 2023 6 2) := by rw [t1]; exact hset
  have hin : CurveInput [⟨D 2024 2 22, 3 / 100⟩, ⟨D 2025 2 18, -1 / 100⟩] .actAct (D 2023 6 1) :=
    ⟨by decide, by decide +kernel, by simp, by decide +kernel, by decide +kernel⟩
  obtain ⟨c, hc, -⟩ := (C27_builds [⟨D 2024 2 22, 3 / 100⟩, ⟨D 2025 2 18, -1 / 100⟩] .linear .actAct .constant .constant).1 _ hin
  have hyc := yieldCurve_create (sp := .continuouslyCompoundedYield) hc
  have hrate : 0 ≤ b1.terms.couponRate := by simp only [t1]; decide +kernel
  have hpr : 0 < b1.terms.principal := by simp only [t1]; decide +kernel
  have hend : ∀ p ∈ b1.coupons ++ b1.principalPayments, D 2023 6 2 ≤ p.unadjusted →
      ∃ k ∈ ([⟨D 2024 2 22, 3 / 100⟩, ⟨D 2025 2 18, -1 / 100⟩] : List Knot), p.date ≤ k.date := by
    intro p hp hsp
    clear hsp
    refine ⟨⟨D 2025 2 18, -1 / 100⟩, by simp, ?_⟩
    simp only [hc1, hp1] at hp
    revert p
    decide +kernel
  have hk : Neighboured exKey := by
    refine ⟨by decide, by decide, ?_, ?_, by decide +kernel⟩
    · intro p hp
      injection hp with hp
      subst hp
      decide +kernel
    · intro n hn
      injection hn with hn
      subst hn
      decide +kernel
  refine ⟨b1, h1, _, hyc, ?_, ?_, ?_⟩
  · obtain ⟨V, v, g1, -, g2, g3, -, -, g4, -⟩ := C145_key_rate kink kink_bendsUp kink_mono _ .linear (.basic (Or.inl rfl) _) .actAct _ .constant
      .constant hin (Or.inl rfl) _ _ hyc Used.start b1 m1 hrate hpr _ s1 hend exKey hk
    exact ⟨V, v, g1, g2, g3, g4⟩
  · obtain ⟨V, g1, -, g2, -⟩ := C145_parallel kink kink_bendsUp kink_mono _ .linear (.basic (Or.inl rfl) _) .actAct _ .constant
      .constant hin (Or.inl rfl) _ _ hyc Used.start b1 m1 hrate hpr _ s1 hend
    exact ⟨V, g1, g2⟩
  · obtain ⟨V, v, -, g1, g2, g3, -, g4, -⟩ := C145_portfolio kink kink_bendsUp kink_mono _ .linear (.basic (Or.inl rfl) _) .actAct _ .constant
      .constant hin (Or.inl rfl) _ _ hyc Used.start [(2, b1), (1 / 2, b1)] (by simp) (-7) (by
        intro e he
        simp only [List.mem_cons, List.not_mem_nil, or_false] at he
        rcases he with rfl | rfl
        · exact ⟨by norm_num, m1, hrate, hpr, _, s1, hend⟩
        · exact ⟨by norm_num, m1, hrate, hpr, _, s1, hend⟩) exKey hk
    exact ⟨V, v, g1, g2, g3, g4⟩

end Verif.Props
