/- C99: the larger mean-reverting models contain the smaller ones. -/
import Verif.Props.ThreeFactor
import Verif.Props.OneFactor

namespace Verif.Props
open Matrix Verif.Multi

/-- The normal draws a seed selects, for a process of dimension `p` with `n` steps: numpy fills the array of shape `(p, n)` row by row from
the seed's stream of draws. -/
def draws (p n : Nat) (stream : Nat → ℝ) : Nat → Vec p := fun k i => stream (i.val * n + k)

/-- The first `a` of `b` coordinates. -/
def first {a b : Nat} (h : a ≤ b) (x : Vec b) : Vec a := fun i => x (Fin.castLE h i)

section
variable {a b : Nat}

/-- The state process of one model consists of the first coordinates of another's. -/
structure Leads (h : a ≤ b) (small : ShortRateModel a) (large : ShortRateModel b) : Prop where
  dt : small.process.dt = large.process.dt
  start : small.bm.start = large.bm.start
  stop : small.bm.stop = large.bm.stop
  dcc : small.bm.dcc = large.bm.dcc
  grid : small.bm.grid = large.bm.grid
  chol : small.bm.chol = (1 : Mat a)
  chol' : large.bm.chol = (1 : Mat b)
  path : small.process.path = large.process.path.map (List.map (first h))
  drift : ∀ i t x, (small.process.coords i).drift t (first h x) = (large.process.coords (Fin.castLE h i)).drift t x
  diffusion : ∀ i t x s, ∑ j, (small.process.coords i).diffusion t (first h x) j * first h s j =
    ∑ j, (large.process.coords (Fin.castLE h i)).diffusion t x j * s j

theorem increment_one (z : Vec a) (dt : ℚ) : BrownianMotion.increment (1 : Mat a) z dt = fun i => z i * Real.sqrt dt := by
  funext i
  unfold BrownianMotion.increment
  simp [Matrix.one_apply]

theorem increments_first (h : a ≤ b) (n : Nat) (s : Nat → ℝ) (k : Nat) (dts : List ℚ) :
    BrownianMotion.increments (1 : Mat a) (draws a n s) k dts =
      (BrownianMotion.increments (1 : Mat b) (draws b n s) k dts).map (first h) := by
  induction dts generalizing k with
  | nil => rfl
  | cons dt dts ih =>
    simp only [BrownianMotion.increments, List.map_cons, ih (k + 1)]
    congr 1
    rw [increment_one, increment_one]
    rfl

theorem euler_first (h : a ≤ b) (ca : Fin a → DriftDiffusion a) (cb : Fin b → DriftDiffusion b)
    (hd : ∀ i t x, (ca i).drift t (first h x) = (cb (Fin.castLE h i)).drift t x)
    (hs : ∀ i t x s, ∑ j, (ca i).diffusion t (first h x) j * first h s j = ∑ j, (cb (Fin.castLE h i)).diffusion t x j * s j)
    (shocks : List (Vec b)) (dts : List ℚ) (t : ℝ) (x : Vec b) :
    Diffusion.euler ca ((shocks.map (first h)).zip dts) t (first h x) = (Diffusion.euler cb (shocks.zip dts) t x).map (first h) := by
  induction shocks generalizing dts t x with
  | nil => simp [Diffusion.euler]
  | cons s shocks ih =>
    cases dts with
    | nil => simp [Diffusion.euler]
    | cons dt dts =>
      simp only [List.map_cons, List.zip_cons_cons, Diffusion.euler]
      congr 1
      rw [← ih]
      congr 1
      funext i
      simp only [Diffusion.step, first]
      have e1 := hd i t x
      have e2 := hs i t x s
      simp only [first] at e1 e2
      rw [← e1, ← e2]

theorem Leads.generate {h : a ≤ b} {small : ShortRateModel a} {large : ShortRateModel b} (hl : Leads h small large) (x : Vec b) (set : Bool)
    (n : Nat) (s : Nat → ℝ) :
    (small.generatePath (first h x) set (draws a n s)).1 = (large.generatePath x set (draws b n s)).1 ∧
    Leads h (small.generatePath (first h x) set (draws a n s)).2 (large.generatePath x set (draws b n s)).2 := by
  obtain ⟨h1, h2, h3, h4, h5, h6, h7, h8, h9, h10⟩ := hl
  unfold ShortRateModel.generatePath Diffusion.generatePath BrownianMotion.generateIncrements
  rw [h1, h2, h3, h4, h6, h7]
  rcases hg : DtGrid.generate large.bm.start large.bm.stop large.process.dt 1000000 with e | dates
  · refine ⟨?_, ⟨?_, ?_, ?_, ?_, ?_, ?_, ?_, ?_, ?_, ?_⟩⟩ <;> first | rfl | trivial | assumption
  · simp only
    rcases hc : BrownianMotion.closeGrid large.bm.stop dates with e | grid
    · refine ⟨?_, ⟨?_, ?_, ?_, ?_, ?_, ?_, ?_, ?_, ?_, ?_⟩⟩ <;> first | rfl | trivial | assumption
    · simp only
      rcases ha : BrownianMotion.accruals large.bm.dcc grid with e | dts
      · refine ⟨?_, ⟨?_, ?_, ?_, ?_, ?_, ?_, ?_, ?_, ?_, ?_⟩⟩ <;> first | rfl | trivial | assumption
      · simp only
        have hpath : Diffusion.euler small.process.coords
            ((BrownianMotion.increments (1 : Mat a) (draws a n s) 0 dts).zip dts) 0 (first h x) =
            (Diffusion.euler large.process.coords ((BrownianMotion.increments (1 : Mat b) (draws b n s) 0 dts).zip dts) 0 x).map (first h) := by
          rw [increments_first h, euler_first h _ _ h9 h10]
        cases set with
        | true =>
          simp only [if_true]
          refine ⟨?_, ⟨?_, ?_, ?_, ?_, ?_, ?_, ?_, ?_, ?_, ?_⟩⟩ <;> first | rfl | trivial | assumption | simp [hpath]
        | false =>
          simp only [Bool.false_eq_true, if_false]
          rw [h8]
          rcases large.process.path with _ | cols
          · refine ⟨?_, ⟨?_, ?_, ?_, ?_, ?_, ?_, ?_, ?_, ?_, ?_⟩⟩ <;> first | rfl | trivial | assumption
          · refine ⟨?_, ⟨?_, ?_, ?_, ?_, ?_, ?_, ?_, ?_, ?_, ?_⟩⟩ <;> first | rfl | trivial | assumption

theorem pyGet_map {α β : Type} (f : α → β) (l : List α) (i : Int) : pyGet (l.map f) i = (pyGet l i).map f := by
  unfold pyGet
  rw [List.length_map]
  split_ifs
  · rw [List.getElem?_map]
    cases l[i.toNat]? <;> rfl
  · rw [List.getElem?_map]
    cases l[(l.length + i).toNat]? <;> rfl
  · rfl

theorem pathCall_first (h : a ≤ b) (dcc : DayCountConvention) (start stop : PyDatetime) (grid : List PyDatetime)
    (path : Option (List (Vec b))) (q : PyDatetime) :
    PathCall.call dcc start stop grid (path.map (List.map (first h))) q = (PathCall.call dcc start stop grid path q).map (first h) := by
  unfold PathCall.call
  cases path with
  | none => rfl
  | some path =>
    simp only [Option.map_some]
    split_ifs with h1
    · rfl
    · rcases pyGet grid (bisectLeft id grid q) with e | at1
      · rfl
      · simp only [ok_bind]
        split_ifs with h2
        · exact pyGet_map _ _ _
        · unfold PathCall.between
          dsimp only
          rcases pyGet grid (((bisectLeft id grid q : Nat) : Int) - 1) with e | at0
          · rfl
          simp only [ok_bind]
          rcases dtAccrual at0 q dcc with e | x
          · rfl
          simp only [ok_bind]
          rcases dtAccrual q at1 dcc with e | y
          · rfl
          simp only [ok_bind]
          rcases pyDiv y (y + x) with e | z
          · rfl
          simp only [ok_bind]
          rw [pyGet_map, pyGet_map]
          rcases pyGet path (((bisectLeft id grid q : Nat) : Int) - 1) with e | p0
          · rfl
          rcases pyGet path (bisectLeft id grid q : Nat) with e | p1
          · rfl
          rfl

theorem Leads.call {h : a ≤ b} {small : ShortRateModel a} {large : ShortRateModel b} (hl : Leads h small large) (q : PyDatetime) :
    small.process.call small.bm q = (large.process.call large.bm q).map (first h) := by
  unfold Diffusion.call
  rw [hl.dcc, hl.start, hl.stop, hl.grid, hl.path, pathCall_first]

/-- A history of path generations: the starting state, whether the path is kept, the number of steps and the seed's stream of draws. -/
abbrev History (p : Nat) := List (Vec p × Bool × Nat × (Nat → ℝ))

/-- The short-rate core of a model after a history, when only the first `a` state variables are started and driven. -/
noncomputable def ShortRateModel.after (h : a ≤ b) (m : ShortRateModel a) (ops : History b) : ShortRateModel a :=
  ops.foldl (fun m op => (m.generatePath (first h op.1) op.2.1 (draws a op.2.2.1 op.2.2.2)).2) m

theorem first_self (x : Vec b) : first (le_refl b) x = x := rfl

theorem Leads.after {h : a ≤ b} {small : ShortRateModel a} {large : ShortRateModel b} (hl : Leads h small large) (ops : History b) :
    Leads h (ShortRateModel.after h small ops) (ShortRateModel.after le_rfl large ops) := by
  induction ops generalizing small large with
  | nil => exact hl
  | cons op ops ih => exact ih (hl.generate op.1 op.2.1 op.2.2.1 op.2.2.2).2

theorem leads_init {μ μ' : ℝ} {g : Vec b} {g' : Vec a} {θ : Vec b} {θ' : Vec a} {K S : Mat b} {K' S' : Mat a} (h : a ≤ b) (e : Eig b)
    (e' : Eig a) (start stop : PyDatetime) (dt : DtIncrement) (hθ : θ' = first h θ)
    (hK : ∀ i x, ∑ j, K' i j * first h x j = ∑ j, K (Fin.castLE h i) j * x j)
    (hS : ∀ i x, ∑ j, S' i j * first h x j = ∑ j, S (Fin.castLE h i) j * x j) :
    Leads h (MultiVasicek.init μ' g' θ' K' S' e' (BrownianMotion.standard a start stop) dt).core
      (MultiVasicek.init μ g θ K S e (BrownianMotion.standard b start stop) dt).core := by
  refine ⟨rfl, rfl, rfl, rfl, rfl, rfl, rfl, rfl, ?_, ?_⟩
  · intro i t x
    have := hK i (θ - x)
    subst hθ
    exact this
  · intro i t x s
    exact hS i s

theorem multi_after {v0 : MultiVasicek b} (ops : History b) :
    (ops.foldl (fun v op => (v.generatePath op.1 op.2.1 (draws b op.2.2.1 op.2.2.2)).2) v0).core =
      ShortRateModel.after le_rfl v0.core ops := by
  induction ops generalizing v0 with
  | nil => rfl
  | cons op ops ih => exact ih

theorem multi_after_first (h : a ≤ b) {v0 : MultiVasicek a} (ops : History b) :
    (ops.foldl (fun v op => (v.generatePath (first h op.1) op.2.1 (draws a op.2.2.1 op.2.2.2)).2) v0).core =
      ShortRateModel.after h v0.core ops := by
  induction ops generalizing v0 with
  | nil => rfl
  | cons op ops ih => exact ih

theorem vasicek_after (h : 1 ≤ b) {v0 : Vasicek} (ops : History b) :
    (ops.foldl (fun v op => (v.generatePath (first h op.1) op.2.1 (draws 1 op.2.2.1 op.2.2.2)).2) v0).core =
      ShortRateModel.after h v0.core ops := by
  induction ops generalizing v0 with
  | nil => rfl
  | cons op ops ih => exact ih

end

theorem lead_chol {b : Nat} (h : 1 ≤ b) {A S : Mat b} {σ : ℝ} (hS : IsCholesky A S) (hσ : 0 < σ) (hA : A ⟨0, h⟩ ⟨0, h⟩ = σ ^ 2) :
    S ⟨0, h⟩ ⟨0, h⟩ = σ := by
  obtain ⟨t, d, e⟩ := hS
  have := congrFun (congrFun e ⟨0, h⟩) ⟨0, h⟩
  rw [hA, Matrix.mul_apply, Finset.sum_eq_single ⟨0, h⟩] at this
  · rw [Matrix.transpose_apply, ← sq] at this
    exact (sq_eq_sq₀ (d _).le hσ.le).1 this
  · intro j _ hj
    rw [t ⟨0, h⟩ j (by rw [Fin.lt_def]; exact Nat.pos_of_ne_zero (fun h0 => hj (Fin.ext h0))), zero_mul]
  · intro hn
    exact absurd (Finset.mem_univ _) hn

theorem lead_row {b : Nat} (h : 1 ≤ b) {S : Mat b} (hS : ∀ j, (⟨0, h⟩ : Fin b) < j → S ⟨0, h⟩ j = 0) (x : Vec b) :
    ∑ j, S ⟨0, h⟩ j * x j = S ⟨0, h⟩ ⟨0, h⟩ * x ⟨0, h⟩ := by
  rw [Finset.sum_eq_single ⟨0, h⟩]
  · intro j _ hj
    rw [hS j (by rw [Fin.lt_def]; exact Nat.pos_of_ne_zero (fun h0 => hj (Fin.ext h0))), zero_mul]
  · intro hn
    exact absurd (Finset.mem_univ _) hn

/-- A one-factor model leads a model whose first state variable reverts on its own. -/
theorem vasicek_leads {b : Nat} (h : 1 ≤ b) {μ θ0 k σ : ℝ} {g θ : Vec b} {K A S : Mat b} (e : Eig b) (start stop : PyDatetime)
    (dt : DtIncrement) (garbage : ℝ) (w0 : Vasicek) (hw : Vasicek.create θ0 k σ (BrownianMotion.standard 1 start stop) dt garbage = .ok w0)
    (hθ : θ ⟨0, h⟩ = θ0) (hK0 : K ⟨0, h⟩ ⟨0, h⟩ = k) (hK : ∀ j, (⟨0, h⟩ : Fin b) < j → K ⟨0, h⟩ j = 0)
    (hS : IsCholesky A S) (hσ : 0 < σ) (hA : A ⟨0, h⟩ ⟨0, h⟩ = σ ^ 2) :
    Leads h w0.core (MultiVasicek.init μ g θ K S e (BrownianMotion.standard b start stop) dt).core := by
  unfold Vasicek.create at hw
  simp only at hw
  rw [bind_ok] at hw
  obtain ⟨c, -, hw⟩ := hw
  injection hw with hw
  subst hw
  refine ⟨rfl, rfl, rfl, rfl, rfl, rfl, rfl, rfl, ?_, ?_⟩
  · intro i t x
    rw [Subsingleton.elim i 0]
    show k * (θ0 - x ⟨0, h⟩) = ∑ j, K ⟨0, h⟩ j * (θ - x) j
    rw [lead_row h hK, hK0, Pi.sub_apply, hθ]
  · intro i t x s
    rw [Subsingleton.elim i 0]
    show ∑ j : Fin 1, σ * s (Fin.castLE h j) = ∑ j, S ⟨0, h⟩ j * s j
    rw [lead_row h (hS.1 _), lead_chol h hS hσ hA]
    simp
    exact Or.inl rfl

theorem Leads.rate {b : Nat} {h : 1 ≤ b} {w : Vasicek} {large : ShortRateModel b} (ht : w.core.transform = fun x => x 0)
    (hl : Leads h w.core large) (t : PyDatetime) : w.call t = (large.process.call large.bm t).map (fun x => x ⟨0, h⟩) := by
  unfold Vasicek.call ShortRateModel.call
  rw [hl.call t, ht]
  cases large.process.call large.bm t <;> rfl

theorem doubly_after {v0 : Doubly} (ops : History 2) :
    (ops.foldl (fun v op => (v.generatePath op.1 op.2.1 (draws 2 op.2.2.1 op.2.2.2)).2) v0).base.core =
      ShortRateModel.after le_rfl v0.base.core ops := by
  induction ops generalizing v0 with
  | nil => rfl
  | cons op ops ih => exact ih

theorem doubly_after_first (h : 2 ≤ 3) {v0 : Doubly} (ops : History 3) :
    (ops.foldl (fun v op => (v.generatePath (first h op.1) op.2.1 (draws 2 op.2.2.1 op.2.2.2)).2) v0).base.core =
      ShortRateModel.after h v0.base.core ops := by
  induction ops generalizing v0 with
  | nil => rfl
  | cons op ops ih => exact ih

theorem after_transform {b : Nat} (h : 1 ≤ b) (m : ShortRateModel 1) (ops : History b) :
    (ShortRateModel.after h m ops).transform = m.transform := by
  induction ops generalizing m with
  | nil => rfl
  | cons op ops ih => exact (ih _).trans (shortRate_generate_keeps m _ _ _).2

theorem vasicek_create_transform {θ k σ : ℝ} {bm : BrownianMotion 1} {dt : DtIncrement} {g : ℝ} {w0 : Vasicek}
    (hw : Vasicek.create θ k σ bm dt g = .ok w0) : w0.core.transform = fun x => x 0 := by
  unfold Vasicek.create at hw
  simp only at hw
  rw [bind_ok] at hw
  obtain ⟨c, -, hw⟩ := hw
  injection hw with hw
  subst hw
  rfl

theorem vasicek_leads_call {b : Nat} (h : 1 ≤ b) {w0 : Vasicek} {large : ShortRateModel b} (ht : w0.core.transform = fun x => x 0)
    (hl : Leads h w0.core large) (ops : History b) (t : PyDatetime) :
    (ops.foldl (fun w op => (w.generatePath (first h op.1) op.2.1 (draws 1 op.2.2.1 op.2.2.2)).2) w0).call t =
      ((ShortRateModel.after le_rfl large ops).process.call (ShortRateModel.after le_rfl large ops).bm t).map (fun x => x ⟨0, h⟩) := by
  refine Leads.rate ?_ ?_ t
  · rw [vasicek_after, after_transform, ht]
  · rw [vasicek_after]
    exact hl.after ops

/-- C99. The long-term rate of the doubly mean-reverting model is a one-factor Vasicek model: made with the long-term mean, speed and
volatility for the same period and step, and taken through the same path generations (the same seeds, the long-term rate's starting
values), a `VasicekModel` reads the same rate as the doubly mean-reverting model's first state variable at every datetime, or raises the
same exception. -/
theorem C99_doubly (q : DoublyParams) (hσ : 0 < q.longVol) (start stop : PyDatetime) (dt : DtIncrement) (e : Eig 2) (garbage : Vec 2)
    (garbage' : ℝ) (v0 : Doubly) (w0 : Vasicek) (hv : Doubly.create q start stop dt e garbage = .ok v0)
    (hw : Vasicek.create q.mean q.longSpeed q.longVol (BrownianMotion.standard 1 start stop) dt garbage' = .ok w0)
    (ops : List (Vec 2 × Bool × Nat × (Nat → ℝ))) (v : Doubly) (w : Vasicek)
    (hv' : v = ops.foldl (fun v op => (v.generatePath op.1 op.2.1 (draws 2 op.2.2.1 op.2.2.2)).2) v0)
    (hw' : w = ops.foldl (fun w op => (w.generatePath (fun _ => op.1 0) op.2.1 (draws 1 op.2.2.1 op.2.2.2)).2) w0) (t : PyDatetime) :
    w.call t = (v.base.state t).map (fun x => x 0) := by
  unfold Doubly.create at hv
  rw [bind_ok] at hv
  obtain ⟨S, hS, hv⟩ := hv
  rw [npCholesky_ok] at hS
  injection hv with hv
  subst hv
  have hl := vasicek_leads (μ := 0) (g := ![0, 1]) (θ := Doubly.level q) (K := Doubly.reversion q) (by omega : 1 ≤ 2) e start stop dt
    garbage' w0 hw rfl rfl
    (by intro j hj; fin_cases j <;> simp_all [Doubly.reversion]) hS hσ rfl
  have hcall := vasicek_leads_call (by omega : 1 ≤ 2) (vasicek_create_transform hw) hl ops t
  have hfirst : ∀ x : Vec 2, first (by omega : 1 ≤ 2) x = fun _ => x 0 := by
    intro x
    funext i
    rw [Subsingleton.elim i 0]
    rfl
  simp only [hfirst] at hcall
  rw [hw', hcall]
  subst hv'
  unfold MultiVasicek.state
  rw [doubly_after]
  rfl

theorem lead_cholesky {A S : Mat 3} (h : IsCholesky A S) :
    IsCholesky (A.submatrix (Fin.castLE (by omega : 2 ≤ 3)) (Fin.castLE (by omega))) (S.submatrix (Fin.castLE (by omega)) (Fin.castLE (by omega))) := by
  obtain ⟨t, d, e⟩ := h
  refine ⟨fun i j hij => t _ _ hij, fun i => d _, ?_⟩
  ext i j
  have := congrFun (congrFun e (Fin.castLE (by omega) i)) (Fin.castLE (by omega) j)
  rw [Matrix.submatrix_apply, ← this, Matrix.mul_apply, Matrix.mul_apply, Fin.sum_univ_three, Fin.sum_univ_two]
  have h2 : S (Fin.castLE (by omega : 2 ≤ 3) i) 2 = 0 := t _ _ (by
    rw [Fin.lt_def]
    have := i.isLt
    simp
    omega)
  rw [h2]
  simp only [zero_mul, add_zero]
  rfl

/-- The doubly mean-reverting model of the long-term and medium rates inside a trebly mean-reverting one. -/
def treblyInner (q : TreblyParams) : DoublyParams :=
  { shortSpeed := q.mediumSpeed, shortVol := q.mediumVol, mean := q.mean, longSpeed := q.longSpeed, longVol := q.longVol,
    correlation := q.mediumLong }

/-- C99. The long-term and the medium rate of the trebly mean-reverting model are a doubly mean-reverting model: whenever the trebly
mean-reverting constructor succeeds so does the doubly mean-reverting one with the parameters of these two rates, and after the same path
generations its state variables are the first two of the trebly mean-reverting model at every datetime.  The long-term rate alone is a
one-factor Vasicek model. -/
theorem C99_trebly (q : TreblyParams) (start stop : PyDatetime) (dt : DtIncrement) (e : Eig 3) (e' : Eig 2) (garbage : Vec 2)
    (v0 : MultiVasicek 3) (hv : Trebly.init q start stop dt e = .ok v0)
    (ops : List (Vec 3 × Bool × Nat × (Nat → ℝ))) (v : MultiVasicek 3)
    (hv' : v = ops.foldl (fun v op => (v.generatePath op.1 op.2.1 (draws 3 op.2.2.1 op.2.2.2)).2) v0) (t : PyDatetime) :
    (∃ w0, Doubly.create (treblyInner q) start stop dt e' garbage = .ok w0 ∧
      (ops.foldl (fun w op => (w.generatePath ![op.1 0, op.1 1] op.2.1 (draws 2 op.2.2.1 op.2.2.2)).2) w0).base.state t =
        (v.state t).map (fun x => ![x 0, x 1])) ∧
    (0 < q.longVol → ∀ garbage' w0,
      Vasicek.create q.mean q.longSpeed q.longVol (BrownianMotion.standard 1 start stop) dt garbage' = .ok w0 →
      (ops.foldl (fun w op => (w.generatePath (fun _ => op.1 0) op.2.1 (draws 1 op.2.2.1 op.2.2.2)).2) w0).call t =
        (v.state t).map (fun x => x 0)) := by
  unfold Trebly.init at hv
  rw [bind_ok] at hv
  obtain ⟨S, hS, hv⟩ := hv
  rw [npCholesky_ok] at hS
  injection hv with hv
  subst hv
  subst hv'
  have hfirst : ∀ x : Vec 3, first (by omega : 2 ≤ 3) x = ![x 0, x 1] := by
    intro x
    funext i
    fin_cases i <;> rfl
  have hfirst1 : ∀ x : Vec 3, first (by omega : 1 ≤ 3) x = fun _ => x 0 := by
    intro x
    funext i
    rw [Subsingleton.elim i 0]
    rfl
  constructor
  · have hS2 := lead_cholesky hS
    have hA : (Trebly.variance q).submatrix (Fin.castLE (by omega : 2 ≤ 3)) (Fin.castLE (by omega)) = Doubly.variance (treblyInner q) := by
      ext i j
      fin_cases i <;> fin_cases j <;> simp [Trebly.variance, Doubly.variance, treblyInner, Fin.castLE] <;> exact Or.inl (mul_comm _ _)
    rw [hA] at hS2
    unfold Doubly.create
    rw [npCholesky_ok.2 hS2, ok_bind]
    refine ⟨_, rfl, ?_⟩
    have hl := leads_init (μ := 0) (μ' := 0) (g := ![0, 0, 1]) (g' := ![0, 1]) (θ := Trebly.level q) (θ' := Doubly.level (treblyInner q))
      (K := Trebly.reversion q) (K' := Doubly.reversion (treblyInner q)) (S := S)
      (S' := S.submatrix (Fin.castLE (by omega)) (Fin.castLE (by omega))) (by omega : 2 ≤ 3) e e' start stop dt
      (by rw [hfirst]; rfl)
      (by
        intro i x
        rw [hfirst, Fin.sum_univ_two, Fin.sum_univ_three]
        fin_cases i <;> simp [Trebly.reversion, Doubly.reversion, treblyInner, Fin.castLE])
      (by
        intro i x
        rw [hfirst, Fin.sum_univ_two, Fin.sum_univ_three]
        have h2 : S (Fin.castLE (by omega : 2 ≤ 3) i) 2 = 0 := hS.1 _ _ (by
          rw [Fin.lt_def]
          have := i.isLt
          simp
          omega)
        rw [h2, zero_mul, add_zero]
        rfl)
    have := (hl.after ops).call t
    unfold MultiVasicek.state
    rw [multi_after]
    have hd := @doubly_after_first (by omega : 2 ≤ 3)
    simp only [hfirst] at hd
    rw [hd]
    rw [this]
    congr 1
    funext x
    exact hfirst x
  · intro hσ garbage' w0 hw
    have hl := vasicek_leads (μ := 0) (g := ![0, 0, 1]) (θ := Trebly.level q) (K := Trebly.reversion q) (by omega : 1 ≤ 3) e start stop dt
      garbage' w0 hw rfl rfl
      (by intro j hj; fin_cases j <;> simp_all [Trebly.reversion]) hS hσ rfl
    have hcall := vasicek_leads_call (by omega : 1 ≤ 3) (vasicek_create_transform hw) hl ops t
    simp only [hfirst1] at hcall
    rw [hcall]
    unfold MultiVasicek.state
    rw [multi_after]
    rfl

/-- C99. The market price of risk of the stochastic-market-price-of-risk model is a one-factor Vasicek model. -/
theorem C99_risk_price (q : RiskPriceParams) (hσ : 0 < q.riskVol) (start stop : PyDatetime) (dt : DtIncrement) (e : Eig 3)
    (garbage' : ℝ) (v0 : MultiVasicek 3) (w0 : Vasicek) (hv : RiskPrice.init q start stop dt e = .ok v0)
    (hw : Vasicek.create q.riskMean q.riskSpeed q.riskVol (BrownianMotion.standard 1 start stop) dt garbage' = .ok w0)
    (ops : List (Vec 3 × Bool × Nat × (Nat → ℝ))) (v : MultiVasicek 3) (w : Vasicek)
    (hv' : v = ops.foldl (fun v op => (v.generatePath op.1 op.2.1 (draws 3 op.2.2.1 op.2.2.2)).2) v0)
    (hw' : w = ops.foldl (fun w op => (w.generatePath (fun _ => op.1 0) op.2.1 (draws 1 op.2.2.1 op.2.2.2)).2) w0) (t : PyDatetime) :
    w.call t = (v.state t).map (fun x => x 0) := by
  unfold RiskPrice.init at hv
  rw [bind_ok] at hv
  obtain ⟨c, -, hv⟩ := hv
  rw [bind_ok] at hv
  obtain ⟨S, hS, hv⟩ := hv
  rw [npCholesky_ok] at hS
  injection hv with hv
  subst hv
  have hl := vasicek_leads (μ := 0) (g := ![0, 0, 1]) (θ := ![q.riskMean, q.mediumMean + c, q.mediumMean + c]) (K := RiskPrice.reversion q)
    (by omega : 1 ≤ 3) e start stop dt garbage' w0 hw rfl rfl
    (by intro j hj; fin_cases j <;> simp_all [RiskPrice.reversion]) hS hσ rfl
  have hcall := vasicek_leads_call (by omega : 1 ≤ 3) (vasicek_create_transform hw) hl ops t
  have hfirst1 : ∀ x : Vec 3, first (by omega : 1 ≤ 3) x = fun _ => x 0 := by
    intro x
    funext i
    rw [Subsingleton.elim i 0]
    rfl
  simp only [hfirst1] at hcall
  rw [hw', hcall]
  subst hv'
  unfold MultiVasicek.state
  rw [multi_after]
  rfl

/-- Concrete case for C99: the doubly mean-reverting model with any speeds but zero and unit volatilities on three days of 2023, with the
one-factor model beside it, after one path generation, reads its first day's starting values back. -/
example (κ m α : ℝ) (hα : α ≠ 0) (e : Eig 2) (x0 : Vec 2) (s : Nat → ℝ) : ∃ v0 w0,
    Doubly.create ⟨κ, 1, m, α, 1, 0⟩ (T 2023 1 1) (T 2023 1 3) (.timedelta 86400000000) e 0 = .ok v0 ∧
    Vasicek.create m α 1 (BrownianMotion.standard 1 (T 2023 1 1) (T 2023 1 3)) (.timedelta 86400000000) 0 = .ok w0 ∧
    (v0.generatePath x0 true (draws 2 2 s)).2.base.state (T 2023 1 1) = .ok x0 := by
  obtain ⟨v0, hv, -⟩ := (C68_doubly_constructor ⟨κ, 1, m, α, 1, 0⟩ (T 2023 1 1) (T 2023 1 3) (.timedelta 86400000000) e 0).1 (by norm_num)
  obtain ⟨w0, hw, -⟩ := (C47_constructor m α 1 (BrownianMotion.standard 1 (T 2023 1 1) (T 2023 1 3)) (.timedelta 86400000000) 0).2 hα
  refine ⟨v0, w0, hv, hw, ?_⟩
  unfold Doubly.create at hv
  rw [bind_ok] at hv
  obtain ⟨S, -, hv⟩ := hv
  injection hv with hv
  subst hv
  obtain ⟨v', h1, -, h2, -⟩ := multi_concrete_built (v := MultiVasicek.init 0 ![0, 1] (Doubly.level ⟨κ, 1, m, α, 1, 0⟩)
    (Doubly.reversion ⟨κ, 1, m, α, 1, 0⟩) S e (BrownianMotion.standard 2 (T 2023 1 1) (T 2023 1 3)) (.timedelta 86400000000))
    ⟨_, _, _, [], rfl⟩ rfl rfl rfl rfl x0 (draws 2 2 s)
  unfold Doubly.generatePath
  simp only
  rw [h1]
  exact h2

/-- Concrete case for C99: the same for the three-factor models. -/
example (a b c m n : ℝ) (hb : b ≠ 0) (e : Eig 3) (x0 : Vec 3) (s : Nat → ℝ) :
    (∃ v0, Trebly.init ⟨a, 1, b, 1, m, c, 1, 0, 0, 0⟩ (T 2023 1 1) (T 2023 1 3) (.timedelta 86400000000) e = .ok v0 ∧
      (v0.generatePath x0 true (draws 3 2 s)).2.state (T 2023 1 1) = .ok x0) ∧
    ∃ v0, RiskPrice.init ⟨a, 1, b, 1, m, c, 1, n, 0, 0, 0⟩ (T 2023 1 1) (T 2023 1 3) (.timedelta 86400000000) e = .ok v0 ∧
      (v0.generatePath x0 true (draws 3 2 s)).2.state (T 2023 1 1) = .ok x0 := by
  have h1 : npCholesky (Trebly.variance ⟨a, 1, b, 1, m, c, 1, 0, 0, 0⟩) = .ok 1 := by
    have : Trebly.variance ⟨a, 1, b, 1, m, c, 1, 0, 0, 0⟩ = 1 := by
      ext i j; fin_cases i <;> fin_cases j <;> simp [Trebly.variance]
    rw [this]; exact npCholesky_ok.2 isCholesky_one
  have h2 : npCholesky (RiskPrice.variance ⟨a, 1, b, 1, m, c, 1, n, 0, 0, 0⟩) = .ok 1 := by
    have : RiskPrice.variance ⟨a, 1, b, 1, m, c, 1, n, 0, 0, 0⟩ = 1 := by
      ext i j; fin_cases i <;> fin_cases j <;> simp [RiskPrice.variance]
    rw [this]; exact npCholesky_ok.2 isCholesky_one
  have key : ∀ θ K S, ((MultiVasicek.init 0 ![0, 0, 1] θ K S e (BrownianMotion.standard 3 (T 2023 1 1) (T 2023 1 3))
      (.timedelta 86400000000)).generatePath x0 true (draws 3 2 s)).2.state (T 2023 1 1) = .ok x0 := by
    intro θ K S
    obtain ⟨v', h1, -, h2, -⟩ := multi_concrete_built (v := MultiVasicek.init 0 ![0, 0, 1] θ K S e
      (BrownianMotion.standard 3 (T 2023 1 1) (T 2023 1 3)) (.timedelta 86400000000)) ⟨_, _, _, [], rfl⟩ rfl rfl rfl rfl x0 (draws 3 2 s)
    rw [h1]
    exact h2
  constructor
  · unfold Trebly.init
    rw [h1, ok_bind]
    exact ⟨_, rfl, key _ _ _⟩
  · unfold RiskPrice.init
    rw [floatDiv_of_ne hb, ok_bind]
    simp only
    rw [h2, ok_bind]
    exact ⟨_, rfl, key _ _ _⟩

end Verif.Props
