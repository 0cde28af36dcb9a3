/- C67: riskless portfolios of zero-coupon bonds in the multivariate Vasicek model. -/
import Verif.Props.MultiRates

namespace Verif.Props
open Verif.Spec.Multi Verif.Multi Matrix MeasureTheory

variable {p : Nat} {μ : ℝ} {g θ : Vec p} {K S : Mat p} {v : MultiVasicek p}

theorem split_last {α : Type} (l : List α) (h : l.length = p + 1) : ∃ (a : Fin p → α) (b : α), l = List.ofFn a ++ [b] := by
  refine ⟨fun i => l[i.val]'(by omega), l[p]'(by omega), ?_⟩
  apply List.ext_getElem
  · simp [h]
  · intro n h1 h2
    rw [List.getElem_append]
    split
    · simp
    · rename_i hn
      simp only [List.length_ofFn] at hn
      have : n = p := by omega
      subst this
      simp

theorem zip_ofFn {α β : Type} (a : Fin p → α) (b : Fin p → β) : (List.ofFn a).zip (List.ofFn b) = List.ofFn fun i => (a i, b i) := by
  apply List.ext_getElem
  · simp
  · intro n h1 h2
    simp

theorem zip_split {α β γ : Type} [AddCommMonoid γ] (a : Fin p → α) (a' : α) (b : Fin p → β) (b' : β) (f : α × β → γ) :
    (((List.ofFn a ++ [a']).zip (List.ofFn b ++ [b'])).map f).sum = (∑ i, f (a i, b i)) + f (a', b') := by
  rw [List.zip_append (by simp), List.map_append, List.sum_append, zip_ofFn, List.map_ofFn, List.sum_ofFn]
  simp

/-- The gradients used by `risklessWeights`. -/
theorem multi_priceDerivState (h : MadeMulti μ g θ K S v) (m : PyDatetime) (q : Option PyDatetime) (T : ℚ) (x : Vec p)
    (hT : v.time (v.purchase q) m = .ok T) (hT0 : 0 ≤ T) (hx : v.state (v.purchase q) = .ok x) (P : ℝ → Vec p → ℝ)
    (hP : IsPrice μ g θ K S P) : v.priceDerivState m (some (v.purchase q)) = .ok (grad (P T) x) := by
  have e : P T = fun x => Real.exp (mA v.eig.values v.eig.vectors v.eig.inverse (S * Sᵀ) μ g θ T +
      mB v.eig.values v.eig.vectors v.eig.inverse g T ⬝ᵥ x) := funext fun x => isPrice_closed h hP (by exact_mod_cast hT0) x
  unfold MultiVasicek.priceDerivState
  rw [show v.purchase (some (v.purchase q)) = v.purchase q from rfl, multi_price h m (some (v.purchase q)) T x hT hx, ok_bind,
    multi_priceCoeffs h m (some (v.purchase q)) T hT, ok_bind, e, grad_expAffine]

theorem risklessWeights_split (h : MadeMulti μ g θ K S v) (a : Fin p → PyDatetime) (b : PyDatetime) (q : Option PyDatetime)
    (T : PyDatetime → ℚ) (x : Vec p) (hT : ∀ m ∈ List.ofFn a ++ [b], v.time (v.purchase q) m = .ok (T m) ∧ 0 ≤ T m)
    (hx : v.state (v.purchase q) = .ok x) (P : ℝ → Vec p → ℝ) (hP : IsPrice μ g θ K S P) :
    v.risklessWeights (List.ofFn a ++ [b]) q =
      (npSolve (Matrix.of fun i j => grad (P (T (a j))) x i - grad (P (T b)) x i) (-grad (P (T b)) x)).bind
        fun w => .ok (List.ofFn w ++ [1 - ∑ i, w i]) := by
  unfold MultiVasicek.risklessWeights
  rw [dif_pos (by simp)]
  have hb : (List.ofFn a ++ [b])[p]'(by simp) = b := by simp
  have htake : (List.ofFn a ++ [b]).take p = List.ofFn a := by
    rw [List.take_append_of_le_length (by simp), List.take_of_length_le (by simp)]
  have hder : ∀ m ∈ List.ofFn a ++ [b], v.priceDerivState m (some (v.purchase q)) = .ok (grad (P (T m)) x) :=
    fun m hm => multi_priceDerivState h m q (T m) x (hT m hm).1 (hT m hm).2 hx P hP
  rw [hb, hder b (by simp), ok_bind, htake, multi_collect (k := fun m => grad (P (T m)) x) (fun m hm => hder m (by
    rw [List.mem_append]; exact Or.inl hm)), ok_bind]
  have e : (Matrix.of fun i (j : Fin p) => (((List.ofFn a).map fun m => grad (P (T m)) x).getD j 0) i - grad (P (T b)) x i : Mat p) =
      Matrix.of fun i j => grad (P (T (a j))) x i - grad (P (T b)) x i := by
    ext i j
    simp only [Matrix.of_apply]
    congr 2
    simp [List.getD_eq_getElem?_getD]
  simp only [e]
  rfl

/-- C67. When `weights_for_riskless_portfolio` answers, there is one weight per bond, they add up to one, and the portfolio's value does
not depend on any state variable to first order; no other weights do this. -/
theorem C67_weights (h : MadeMulti μ g θ K S v) (ms : List PyDatetime) (q : Option PyDatetime) (T : PyDatetime → ℚ) (x : Vec p)
    (hT : ∀ m ∈ ms, v.time (v.purchase q) m = .ok (T m) ∧ 0 ≤ T m) (hx : v.state (v.purchase q) = .ok x)
    (P : ℝ → Vec p → ℝ) (hP : IsPrice μ g θ K S P) (w : List ℝ) (hw : v.risklessWeights ms q = .ok w) :
    w.length = p + 1 ∧ w.sum = 1 ∧ (∀ i, ((w.zip ms).map fun wm => wm.1 * grad (P (T wm.2)) x i).sum = 0) ∧
    ∀ w' : List ℝ, w'.length = p + 1 → w'.sum = 1 → (∀ i, ((w'.zip ms).map fun wm => wm.1 * grad (P (T wm.2)) x i).sum = 0) → w' = w := by
  by_cases hlen : ms.length = p + 1
  rotate_left
  · unfold MultiVasicek.risklessWeights at hw
    rw [dif_neg hlen] at hw
    exact absurd hw (by simp)
  obtain ⟨a, b, rfl⟩ := split_last ms hlen
  rw [risklessWeights_split h a b q T x hT hx P hP] at hw
  unfold npSolve at hw
  set M : Mat p := Matrix.of fun i j => grad (P (T (a j))) x i - grad (P (T b)) x i with hM
  by_cases hdet : M.det = 0
  · rw [if_pos hdet] at hw
    exact absurd hw (by simp [Except.bind])
  rw [if_neg hdet] at hw
  injection hw with hw
  have hu : IsUnit M.det := isUnit_iff_ne_zero.2 hdet
  set w0 : Vec p := M⁻¹ *ᵥ (-grad (P (T b)) x) with hw0
  have hsol : M *ᵥ w0 = -grad (P (T b)) x := by
    rw [hw0, Matrix.mulVec_mulVec, Matrix.mul_nonsing_inv _ hu, Matrix.one_mulVec]
  -- what a weight vector does
  have hport : ∀ (c : Vec p) (c' : ℝ), c' = 1 - ∑ i, c i → ∀ i,
      (((List.ofFn c ++ [c']).zip (List.ofFn a ++ [b])).map fun wm => wm.1 * grad (P (T wm.2)) x i).sum =
        (M *ᵥ c) i + grad (P (T b)) x i := by
    intro c c' hc i
    rw [zip_split, hc]
    simp only [Matrix.mulVec, dotProduct, hM, Matrix.of_apply, sub_mul, Finset.sum_sub_distrib]
    rw [Finset.sum_mul, one_mul]
    have e1 : ∑ j, c j * grad (P (T (a j))) x i = ∑ j, grad (P (T (a j))) x i * c j := Finset.sum_congr rfl fun _ _ => mul_comm _ _
    have e2 : ∑ j, c j * grad (P (T b)) x i = ∑ j, grad (P (T b)) x i * c j := Finset.sum_congr rfl fun _ _ => mul_comm _ _
    rw [e1, e2]
    ring
  subst hw
  refine ⟨by simp, by simp [List.sum_ofFn], ?_, ?_⟩
  · intro i
    rw [hport w0 _ rfl i, hsol]
    simp
  · intro w' hl' hs' hz'
    obtain ⟨c, c', rfl⟩ := split_last w' hl'
    have hc' : c' = 1 - ∑ i, c i := by
      simp only [List.sum_append, List.sum_ofFn, List.sum_cons, List.sum_nil, add_zero] at hs'
      linarith
    have hc : M *ᵥ c = -grad (P (T b)) x := by
      funext i
      have := hz' i
      rw [hport c c' hc' i] at this
      simp only [Pi.neg_apply]
      linarith
    have : c = w0 := by
      rw [hw0, ← hc, Matrix.mulVec_mulVec, Matrix.nonsing_inv_mul _ hu, Matrix.one_mulVec]
    rw [hc', this]

/-- C67. It needs one more bond than state variables (AssertionError), and answers unless some combination of the bonds held against the
last one is already riskless (LinAlgError). -/
theorem C67_succeeds (h : MadeMulti μ g θ K S v) (ms : List PyDatetime) (q : Option PyDatetime) (T : PyDatetime → ℚ) (x : Vec p)
    (hT : ∀ m ∈ ms, v.time (v.purchase q) m = .ok (T m) ∧ 0 ≤ T m) (hx : v.state (v.purchase q) = .ok x)
    (P : ℝ → Vec p → ℝ) (hP : IsPrice μ g θ K S P) :
    (ms.length ≠ p + 1 → v.risklessWeights ms q = .error .assertionError) ∧
    (∀ hlen : ms.length = p + 1,
      ((∃ c : Vec p, c ≠ 0 ∧ ∀ i, ∑ j : Fin p, c j * (grad (P (T (ms[j.val]'(by omega)))) x i - grad (P (T (ms[p]'(by omega)))) x i) = 0) →
        v.risklessWeights ms q = .error .linAlgError) ∧
      ((¬ ∃ c : Vec p, c ≠ 0 ∧ ∀ i, ∑ j : Fin p, c j * (grad (P (T (ms[j.val]'(by omega)))) x i - grad (P (T (ms[p]'(by omega)))) x i) = 0) →
        ∃ w, v.risklessWeights ms q = .ok w)) := by
  refine ⟨fun hne => ?_, fun hlen => ?_⟩
  · unfold MultiVasicek.risklessWeights
    rw [dif_neg hne]
  · obtain ⟨a, b, rfl⟩ := split_last ms hlen
    have e1 : ∀ j : Fin p, (List.ofFn a ++ [b])[j.val]'(by simp) = a j := by
      intro j
      rw [List.getElem_append_left (by simp)]
      simp
    have e2 : (List.ofFn a ++ [b])[p]'(by simp) = b := by simp
    simp only [e1, e2]
    rw [risklessWeights_split h a b q T x hT hx P hP]
    unfold npSolve
    set M : Mat p := Matrix.of fun i j => grad (P (T (a j))) x i - grad (P (T b)) x i with hM
    have hiff : (∃ c : Vec p, c ≠ 0 ∧ ∀ i, ∑ j : Fin p, c j * (grad (P (T (a j))) x i - grad (P (T b)) x i) = 0) ↔ M.det = 0 := by
      rw [← Matrix.exists_mulVec_eq_zero_iff]
      have : ∀ c : Vec p, (∀ i, ∑ j : Fin p, c j * (grad (P (T (a j))) x i - grad (P (T b)) x i) = 0) ↔ M *ᵥ c = 0 := by
        intro c
        rw [funext_iff]
        simp only [Matrix.mulVec, dotProduct, hM, Matrix.of_apply, Pi.zero_apply, mul_comm]
      simp only [this]
    rw [hiff]
    constructor
    · intro hdet
      rw [if_pos hdet]
      rfl
    · intro hdet
      rw [if_neg hdet]
      exact ⟨_, rfl⟩

theorem trace_quadratic (b : Vec p) : (Sᵀ * vecMulVec b b * S).trace = b ⬝ᵥ ((S * Sᵀ) *ᵥ b) := by
  rw [Matrix.mul_assoc, Matrix.trace_mul_comm, Matrix.mul_assoc, Matrix.vecMulVec_mul, Matrix.trace_vecMulVec, Matrix.dotProduct_mulVec,
    dotProduct_comm]

theorem risklessConvexity_value (h : MadeMulti μ g θ K S v) (ms : List PyDatetime) (q : Option PyDatetime) (T : PyDatetime → ℚ) (x : Vec p)
    (hT : ∀ m ∈ ms, v.time (v.purchase q) m = .ok (T m) ∧ 0 ≤ T m) (hx : v.state (v.purchase q) = .ok x)
    (P : ℝ → Vec p → ℝ) (hP : IsPrice μ g θ K S P) (w : List ℝ) (hw : v.risklessWeights ms q = .ok w) :
    v.risklessConvexity ms q = .ok ((w.zip ms).map fun wm => wm.1 * halfTrace S (P (T wm.2)) x).sum := by
  have hS := h.params.2.2.2.2.1
  have hw' : v.risklessWeights ms (some (v.purchase q)) = .ok w := by
    rw [← hw]
    rfl
  have hterm : ∀ wm ∈ w.zip ms, v.convexityTerm q wm.1 wm.2 = .ok ((P (T wm.2) x * wm.1) •
      vecMulVec (mB v.eig.values v.eig.vectors v.eig.inverse g (T wm.2)) (mB v.eig.values v.eig.vectors v.eig.inverse g (T wm.2))) := by
    intro wm hwm
    have hm : wm.2 ∈ ms := (List.of_mem_zip (show (wm.1, wm.2) ∈ w.zip ms from hwm)).2
    unfold MultiVasicek.convexityTerm
    rw [multi_price h wm.2 (some (v.purchase q)) (T wm.2) x (hT _ hm).1 hx, ok_bind, multi_priceCoeffs h wm.2 (some (v.purchase q)) (T wm.2)
      (hT _ hm).1, ok_bind, isPrice_closed h hP (by exact_mod_cast (hT _ hm).2) x]
  unfold MultiVasicek.risklessConvexity
  rw [hw', ok_bind, multi_collect hterm, ok_bind]
  refine congrArg Except.ok ?_
  rw [hS]
  have hht : ∀ wm ∈ w.zip ms, wm.1 * halfTrace S (P (T wm.2)) x = 1 / 2 * (Sᵀ * ((P (T wm.2) x * wm.1) •
      vecMulVec (mB v.eig.values v.eig.vectors v.eig.inverse g (T wm.2)) (mB v.eig.values v.eig.vectors v.eig.inverse g (T wm.2))) * S).trace := by
    intro wm hwm
    have hm : wm.2 ∈ ms := (List.of_mem_zip (show (wm.1, wm.2) ∈ w.zip ms from hwm)).2
    have e : P (T wm.2) = fun x => Real.exp (mA v.eig.values v.eig.vectors v.eig.inverse (S * Sᵀ) μ g θ (T wm.2) +
        mB v.eig.values v.eig.vectors v.eig.inverse g (T wm.2) ⬝ᵥ x) :=
      funext fun x => isPrice_closed h hP (by exact_mod_cast (hT _ hm).2) x
    rw [e, halfTrace_expAffine, Matrix.mul_smul, Matrix.smul_mul, Matrix.trace_smul, trace_quadratic, smul_eq_mul]
    ring
  rw [List.map_congr_left hht]
  generalize w.zip ms = l
  induction l with
  | nil => simp
  | cons a l ih =>
    simp only [List.map_cons, List.sum_cons]
    rw [← ih, Matrix.mul_add, Matrix.add_mul, Matrix.trace_add, mul_add]

/-- C67, no arbitrage: the riskless portfolio grows at the short rate.  Its growth is the passing of time (minus the derivative of each
price with respect to its maturity) plus the reported convexity, and this is the short rate times its value. -/
theorem C67_no_arbitrage (h : MadeMulti μ g θ K S v) (ms : List PyDatetime) (q : Option PyDatetime) (T : PyDatetime → ℚ) (x : Vec p)
    (hT : ∀ m ∈ ms, v.time (v.purchase q) m = .ok (T m) ∧ 0 < T m) (hx : v.state (v.purchase q) = .ok x)
    (P : ℝ → Vec p → ℝ) (hP : IsPrice μ g θ K S P) (d : PyDatetime → ℝ) (hd : ∀ m ∈ ms, HasDerivAt (fun t => P t x) (d m) (T m)) (w : List ℝ)
    (hw : v.risklessWeights ms q = .ok w) :
    ∃ c r, v.risklessConvexity ms q = .ok c ∧ v.call (v.purchase q) = .ok r ∧
      c - ((w.zip ms).map fun wm => wm.1 * d wm.2).sum = r * ((w.zip ms).map fun wm => wm.1 * P (T wm.2) x).sum := by
  have hT' : ∀ m ∈ ms, v.time (v.purchase q) m = .ok (T m) ∧ 0 ≤ T m := fun m hm => ⟨(hT m hm).1, (hT m hm).2.le⟩
  obtain ⟨-, -, hzero, -⟩ := C67_weights h ms q T x hT' hx P hP w hw
  refine ⟨_, μ + g ⬝ᵥ x, risklessConvexity_value h ms q T x hT' hx P hP w hw, ?_, ?_⟩
  · unfold MultiVasicek.call ShortRateModel.call
    have : v.core.process.call v.core.bm (v.purchase q) = .ok x := hx
    rw [this, ok_bind, h.dynamics.2]
  · obtain ⟨-, -, -, -, -, -, hdg, hl2⟩ := h.params
    have hd' : ∀ m ∈ ms, d m = halfTrace S (P (T m)) x + (K *ᵥ (θ - x)) ⬝ᵥ grad (P (T m)) x - (μ + g ⬝ᵥ x) * P (T m) x := by
      intro m hm
      have hTpos : (0 : ℝ) < T m := by exact_mod_cast (hT m hm).2
      have hev : (fun t => P t x) =ᶠ[nhds ((T m : ℚ) : ℝ)] fun t => Real.exp (mA v.eig.values v.eig.vectors v.eig.inverse (S * Sᵀ) μ g θ t +
          mB v.eig.values v.eig.vectors v.eig.inverse g t ⬝ᵥ x) := by
        filter_upwards [lt_mem_nhds hTpos] with t ht
        exact isPrice_closed h hP ht.le x
      have h2 := ((Verif.Multi.closedForm_pricing hdg h.ne hl2 S μ g θ).2 (T m) x).congr_of_eventuallyEq hev
      have e : P (T m) = fun x => Real.exp (mA v.eig.values v.eig.vectors v.eig.inverse (S * Sᵀ) μ g θ (T m) +
          mB v.eig.values v.eig.vectors v.eig.inverse g (T m) ⬝ᵥ x) := funext fun x => isPrice_closed h hP hTpos.le x
      rw [(hd m hm).unique h2, e]
    have hsum : ∀ l : List (ℝ × PyDatetime), (∀ wm ∈ l, wm.2 ∈ ms) →
        (l.map fun wm => wm.1 * halfTrace S (P (T wm.2)) x).sum - (l.map fun wm => wm.1 * d wm.2).sum =
          (μ + g ⬝ᵥ x) * (l.map fun wm => wm.1 * P (T wm.2) x).sum -
            ∑ i, (K *ᵥ (θ - x)) i * (l.map fun wm => wm.1 * grad (P (T wm.2)) x i).sum := by
      intro l hl
      induction l with
      | nil => simp
      | cons a l ih =>
        have ih := ih fun wm hwm => hl wm (by simp [hwm])
        simp only [List.map_cons, List.sum_cons, mul_add, Finset.sum_add_distrib]
        rw [hd' a.2 (hl a (by simp))]
        have e : ∑ i, (K *ᵥ (θ - x)) i * (a.1 * grad (P (T a.2)) x i) = a.1 * ((K *ᵥ (θ - x)) ⬝ᵥ grad (P (T a.2)) x) := by
          rw [dotProduct, Finset.mul_sum]
          exact Finset.sum_congr rfl fun i _ => by ring
        rw [e]
        linear_combination ih
    rw [hsum _ fun wm hwm => (List.of_mem_zip (show (wm.1, wm.2) ∈ w.zip ms from hwm)).2]
    simp only [hzero, mul_zero, Finset.sum_const_zero, sub_zero]

end Verif.Props
