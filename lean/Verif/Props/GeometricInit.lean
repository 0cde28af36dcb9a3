/- Property C141: geometric Brownian motions as constructed. -/
import Verif.Model.GeometricInit
import Verif.Props.BrownianInit
import Verif.Props.GeometricMoments

namespace Verif.Props
open Verif Verif.Spec MeasureTheory Finset

variable {p : Nat}

/-- C141. The constructor accepts exactly the positive dimensions and positive definite (symmetric) correlation matrices; the object has
the given parameters, its Brownian motion the given interval, the convention ACT/ACT and increments with the given correlations, and no
path has been simulated. -/
theorem C141_constructor (drift volatility : ℝ) (start stop : PyDatetime) (dimension : Nat) (corr : Mat p)
    (hs : ∀ i j, corr i j = corr j i) (dt : DtIncrement) :
    (dimension = 0 → GeometricProcess.create drift volatility start stop dimension corr dt = .error .assertionError) ∧
    (dimension ≠ 0 → ¬ PositiveDefinite corr →
      GeometricProcess.create drift volatility start stop dimension corr dt = .error .linAlgError) ∧
    (dimension ≠ 0 → PositiveDefinite corr → ∃ g, GeometricProcess.create drift volatility start stop dimension corr dt = .ok g ∧
      g.drift = drift ∧ g.volatility = volatility ∧ g.dt = dt ∧ g.path = none ∧ g.motion.dimension = dimension ∧
      g.motion.bm.start = start ∧ g.motion.bm.stop = stop ∧ g.motion.bm.dcc = .actAct ∧
      ∀ i j, ∑ m, g.motion.bm.chol i m * g.motion.bm.chol j m = corr i j) := by
  obtain ⟨h1, h2, h3⟩ := C110_constructor start stop dimension corr hs .actAct
  unfold GeometricProcess.create
  refine ⟨fun h => ?_, fun h hn => ?_, fun h hp => ?_⟩
  · rw [h1 h]; rfl
  · rw [h3 h hn]; rfl
  · obtain ⟨b, hb, hc, -, -, hd, e1, e2, e3, -, -⟩ := h2 h hp
    rw [hb]
    exact ⟨_, rfl, rfl, rfl, rfl, rfl, hd, e1, e2, e3, hc⟩

theorem sized_increments {b : SizedBrownian p} (hd : b.dimension = p) (dt : DtIncrement) (normals : Nat → Vec p) :
    b.generateIncrements dt normals = ((b.bm.generateIncrements dt normals).1, { b with bm := (b.bm.generateIncrements dt normals).2 }) := by
  unfold SizedBrownian.generateIncrements
  rcases b.bm.generateIncrements dt normals with ⟨_ | x, b'⟩
  · rfl
  · simp only [hd, if_true]

/-- C141. A starting value with one number per coordinate gives the path of the geometric Brownian motion of the object's parameters; one
number alone stands for that number in all coordinates; a python float, although allowed by the annotation, is an AttributeError and any
other number of numbers a ValueError, whenever the grid of datetimes can be made. -/
theorem C141_starting_value (g : GeometricProcess p) (hd : g.motion.dimension = p) (set : Bool) (normals : Nat → Vec p) :
    (∀ x0 : Vec p, (g.generatePath (.array (List.ofFn x0)) set normals).1 =
      (Geometric.generatePath g.drift g.volatility g.motion.bm g.dt x0 normals).1) ∧
    (∀ x, (g.generatePath (.array [x]) set normals).1 = (g.generatePath (.array (List.replicate p x)) set normals).1) ∧
    ((∃ y, (g.motion.bm.generateIncrements g.dt normals).1 = .ok y) →
      (∀ x, (g.generatePath (.float x) set normals).1 = .error .attributeError) ∧
      ∀ xs, xs.length ≠ p → xs.length ≠ 1 → (g.generatePath (.array xs) set normals).1 = .error .valueError) := by
  refine ⟨fun x0 => ?_, fun x => ?_, fun ⟨y, hy⟩ => ⟨fun x => ?_, fun xs h1 h2 => ?_⟩⟩
  · unfold GeometricProcess.generatePath Geometric.generatePath
    rw [sized_increments hd]
    rcases g.motion.bm.generateIncrements g.dt normals with ⟨_ | r, b⟩
    · rfl
    · have hcol : GeometricProcess.column p (List.ofFn x0) = some x0 := by
        unfold GeometricProcess.column
        rw [dif_pos (by simp)]
        congr 1
        funext i
        simp
      simp only [hcol]
  · unfold GeometricProcess.generatePath
    rw [sized_increments hd]
    rcases g.motion.bm.generateIncrements g.dt normals with ⟨_ | r, b⟩
    · rfl
    · have hcol : GeometricProcess.column p [x] = some (fun _ => x) := by
        unfold GeometricProcess.column
        by_cases h : [x].length = p
        · rw [dif_pos h]
          congr 1
          funext i
          have hi : (i : Nat) = 0 := by have := i.2; simp at h; omega
          simp [hi]
        · rw [dif_neg h]; rfl
      have hcol' : GeometricProcess.column p (List.replicate p x) = some (fun _ => x) := by
        unfold GeometricProcess.column
        rw [dif_pos (by simp)]
        congr 1
        funext i
        simp
      simp only [hcol, hcol']
  · unfold GeometricProcess.generatePath
    rw [sized_increments hd, hy]
  · unfold GeometricProcess.generatePath
    rw [sized_increments hd, hy]
    have hcol : GeometricProcess.column p xs = none := by
      unfold GeometricProcess.column
      rw [dif_neg h1, if_neg h2]
    simp only [hcol]

/-- C141. Without a correlation matrix every positive dimension is accepted and the coordinates are driven by independent increments. -/
theorem C141_default (drift volatility : ℝ) (start stop : PyDatetime) (dimension : Nat) (dt : DtIncrement) :
    (dimension = 0 → GeometricProcess.createDefault drift volatility start stop dimension dt = .error .assertionError) ∧
    (dimension ≠ 0 → ∃ g, GeometricProcess.createDefault drift volatility start stop dimension dt = .ok g ∧ g.drift = drift ∧
      g.volatility = volatility ∧ g.dt = dt ∧ g.path = none ∧ g.motion.dimension = dimension ∧ g.motion.bm.start = start ∧
      g.motion.bm.stop = stop ∧ g.motion.bm.dcc = .actAct ∧ ∀ i j, g.motion.bm.chol i j = if i = j then 1 else 0) := by
  have h := C110_default start stop dimension .actAct
  unfold SizedBrownian.createDefault at h
  unfold GeometricProcess.createDefault GeometricProcess.create
  rw [h]
  refine ⟨fun h0 => by rw [if_pos h0]; rfl, fun h0 => ?_⟩
  rw [if_neg h0]
  exact ⟨_, rfl, rfl, rfl, rfl, rfl, rfl, rfl, rfl, rfl, fun i j => Matrix.one_apply⟩

/-- C141. With a dimension other than the size of the correlation matrix, such as the default one of 1, nothing can be simulated. -/
theorem C141_dimension_unchecked (g : GeometricProcess p) (hd : g.motion.dimension ≠ p) (x0 : StartingValue) (set : Bool)
    (normals : Nat → Vec p) (hgrid : ∃ y, (g.motion.bm.generateIncrements g.dt normals).1 = .ok y) :
    (g.generatePath x0 set normals).1 = .error .valueError := by
  obtain ⟨y, hy⟩ := hgrid
  unfold GeometricProcess.generatePath SizedBrownian.generateIncrements
  dsimp only
  rw [hy]
  simp only [if_neg hd]

/-- The objects reachable from `g` by simulating paths. -/
inductive GeometricUsed (g : GeometricProcess p) : GeometricProcess p → Prop
  | start : GeometricUsed g g
  | simulate (g' : GeometricProcess p) (x0 : StartingValue) (set : Bool) (normals : Nat → Vec p) :
      GeometricUsed g g' → GeometricUsed g (g'.generatePath x0 set normals).2

theorem brownian_increments_state (b b' : BrownianMotion p) (h : b'.start = b.start ∧ b'.stop = b.stop ∧ b'.chol = b.chol ∧ b'.dcc = b.dcc)
    (dt : DtIncrement) (normals : Nat → Vec p) :
    (b'.generateIncrements dt normals).1 = (b.generateIncrements dt normals).1 ∧
    (let c := (b'.generateIncrements dt normals).2
     c.start = b.start ∧ c.stop = b.stop ∧ c.chol = b.chol ∧ c.dcc = b.dcc) := by
  obtain ⟨h1, h2, h3, h4⟩ := h
  unfold BrownianMotion.generateIncrements
  rw [h1, h2, h3, h4]
  cases DtGrid.generate b.start b.stop dt 1000000 with
  | error e => exact ⟨rfl, h1, h2, h3, h4⟩
  | ok dates =>
    dsimp only
    cases BrownianMotion.closeGrid b.stop dates with
    | error e => exact ⟨rfl, rfl, rfl, rfl, rfl⟩
    | ok grid =>
      dsimp only
      cases BrownianMotion.accruals b.dcc grid with
      | error e => exact ⟨rfl, rfl, rfl, rfl, rfl⟩
      | ok dts => exact ⟨rfl, rfl, rfl, rfl, rfl⟩

/-- C141. Simulations are independent of each other: whatever was simulated before, successfully or not, the parameters are those of the
construction and the same draws and starting value give the same path or exception. A path is stored exactly when asked for, otherwise,
and when the simulation raises, the previous one is kept. -/
theorem C141_repeatable (g g' : GeometricProcess p) (hu : GeometricUsed g g') :
    g'.drift = g.drift ∧ g'.volatility = g.volatility ∧ g'.dt = g.dt ∧ g'.motion.dimension = g.motion.dimension ∧
    (∀ x0 set normals, (g'.generatePath x0 set normals).1 = (g.generatePath x0 set normals).1) ∧
    ∀ x0 set normals, (g'.generatePath x0 set normals).2.path =
      match (g'.generatePath x0 set normals).1, set with
      | .ok path, true => some path
      | _, _ => g'.path := by
  have hpath : ∀ (g' : GeometricProcess p) x0 set normals, (g'.generatePath x0 set normals).2.path =
      match (g'.generatePath x0 set normals).1, set with
      | .ok path, true => some path
      | _, _ => g'.path := by
    intro g' x0 set normals
    unfold GeometricProcess.generatePath
    rcases g'.motion.generateIncrements g'.dt normals with ⟨_ | r, b⟩
    · rfl
    · cases x0 with
      | float x => rfl
      | array xs =>
        cases hcol : GeometricProcess.column p xs with
        | none => simp only [hcol]
        | some x => cases set <;> simp [hcol]
  have hsame : ∀ (g1 : GeometricProcess p) x0 set normals, g1.drift = g.drift → g1.volatility = g.volatility → g1.dt = g.dt →
      g1.motion.dimension = g.motion.dimension →
      (g1.motion.bm.start = g.motion.bm.start ∧ g1.motion.bm.stop = g.motion.bm.stop ∧ g1.motion.bm.chol = g.motion.bm.chol ∧
        g1.motion.bm.dcc = g.motion.bm.dcc) →
      (g1.generatePath x0 set normals).1 = (g.generatePath x0 set normals).1 ∧
      (let g2 := (g1.generatePath x0 set normals).2
       g2.drift = g.drift ∧ g2.volatility = g.volatility ∧ g2.dt = g.dt ∧ g2.motion.dimension = g.motion.dimension ∧
       g2.motion.bm.start = g.motion.bm.start ∧ g2.motion.bm.stop = g.motion.bm.stop ∧ g2.motion.bm.chol = g.motion.bm.chol ∧
       g2.motion.bm.dcc = g.motion.bm.dcc) := by
    intro g1 x0 set normals e1 e2 e3 e4 e5
    obtain ⟨i1, i2⟩ := brownian_increments_state g.motion.bm g1.motion.bm e5 g.dt normals
    unfold GeometricProcess.generatePath SizedBrownian.generateIncrements
    rw [e1, e2, e3, e4]
    dsimp only at i2 ⊢
    rw [i1]
    cases (g.motion.bm.generateIncrements g.dt normals).1 with
    | error e => exact ⟨rfl, rfl, rfl, rfl, rfl, i2⟩
    | ok r =>
      dsimp only
      by_cases hp : g.motion.dimension = p
      · simp only [hp, if_true]
        cases x0 with
        | float x => exact ⟨rfl, rfl, rfl, rfl, rfl, i2⟩
        | array xs =>
          dsimp only
          cases GeometricProcess.column p xs with
          | none => exact ⟨rfl, rfl, rfl, rfl, rfl, i2⟩
          | some x => exact ⟨rfl, rfl, rfl, rfl, rfl, i2⟩
      · simp only [if_neg hp]
        exact ⟨trivial, trivial, trivial, trivial, trivial, i2⟩
  have hinv : g'.drift = g.drift ∧ g'.volatility = g.volatility ∧ g'.dt = g.dt ∧ g'.motion.dimension = g.motion.dimension ∧
      g'.motion.bm.start = g.motion.bm.start ∧ g'.motion.bm.stop = g.motion.bm.stop ∧ g'.motion.bm.chol = g.motion.bm.chol ∧
      g'.motion.bm.dcc = g.motion.bm.dcc := by
    induction hu with
    | start => exact ⟨rfl, rfl, rfl, rfl, rfl, rfl, rfl, rfl⟩
    | simulate g1 x0 set normals _ ih => exact (hsame g1 x0 set normals ih.1 ih.2.1 ih.2.2.1 ih.2.2.2.1 ih.2.2.2.2).2
  exact ⟨hinv.1, hinv.2.1, hinv.2.2.1, hinv.2.2.2.1,
    fun x0 set normals => (hsame g' x0 set normals hinv.1 hinv.2.1 hinv.2.2.1 hinv.2.2.2.1 hinv.2.2.2.2).1, hpath g'⟩

section
variable {Ω : Type} [MeasurableSpace Ω] {μ : Measure Ω} [IsProbabilityMeasure μ] {Z : Nat → Fin p → Ω → ℝ}

/-- C141. From the constructor to the law of the path: an object constructed with a symmetric positive definite correlation matrix simulates
paths that, at grid point `n`, have mean `x0 ∏(1 + drift·dt)` and expected products of coordinates given by drift, volatility and the
entries of that matrix. -/
theorem C141_simulated (hZ : StandardNormals μ Z) (drift volatility : ℝ) (start stop : PyDatetime) (hle : start ≤ stop) (hp0 : p ≠ 0)
    (corr : Mat p) (hs : ∀ i j, corr i j = corr j i) (hpos : PositiveDefinite corr) (dt : DtIncrement) (hf : Forward dt) (set : Bool)
    (x0 : Vec p) :
    ∃ g, GeometricProcess.create drift volatility start stop p corr dt = .ok g ∧
      ∀ (path : Ω → List (Vec p)), (∀ ω, (g.generatePath (.array (List.ofFn x0)) set (fun k i => Z k i ω)).1 = .ok (path ω)) →
      ∃ grid dts, BrownianMotion.makeGrid start stop dt = .ok grid ∧ StepLengths .actAct grid dts ∧ (∀ ω, (path ω).length = grid.length) ∧
        ∀ n, n < grid.length → ∀ i, (∫ ω, (path ω).getD n 0 i ∂μ = x0 i * ∏ k ∈ range n, (1 + drift * (dts.getD k 0 : ℝ))) ∧
          ∀ j, ∫ ω, (path ω).getD n 0 j * (path ω).getD n 0 i ∂μ =
            x0 j * x0 i * ∏ k ∈ range n, ((1 + drift * (dts.getD k 0 : ℝ)) ^ 2 + volatility ^ 2 * corr i j * (dts.getD k 0 : ℝ)) := by
  obtain ⟨g, hg, e1, e2, e3, -, hd, h1, h2, h3, hchol⟩ := (C141_constructor drift volatility start stop p corr hs dt).2.2 hp0 hpos
  refine ⟨g, hg, fun path hpath => ?_⟩
  have hgen := fun ω => (C141_starting_value g hd set (fun k i => Z k i ω)).1 x0
  obtain ⟨grid, dts, hgrid, hsteps, -, hlen, hm⟩ := C86_moments hZ g.motion.bm
    (fun ω => (Geometric.generatePath g.drift g.volatility g.motion.bm g.dt x0 (fun k i => Z k i ω)).2) corr hchol
    (by rw [h3]; decide) g.dt (e3 ▸ hf) (by rw [h1, h2]; exact hle) g.drift g.volatility x0 path
    (fun ω => Prod.ext ((hgen ω).symm.trans (hpath ω)) rfl)
  rw [h1, h2, e3] at hgrid
  rw [h3] at hsteps
  rw [e1, e2] at hm
  refine ⟨grid, dts, hgrid, hsteps, hlen, fun n hn i => ⟨(hm n hn i).1, fun j => ?_⟩⟩
  rw [(hm n hn i).2 n le_rfl j, Ico_self, prod_empty, mul_one]

end

/-- Concrete case for C141: two coordinates with correlation 1/2, simulated daily over three days. -/
example : ∃ g : GeometricProcess 2, GeometricProcess.create (1 / 20) (1 / 5) (T 2024 2 28) (T 2024 3 1) 2 !![1, 1 / 2; 1 / 2, 1]
      (.timedelta 86400000000) = .ok g ∧ ∀ normals set, ∃ path, (g.generatePath (.array [100]) set normals).1 = .ok path := by
  have hpos : PositiveDefinite (!![1, 1 / 2; 1 / 2, 1] : Mat 2) := by
    intro x hx
    have hne : x 0 ≠ 0 ∨ x 1 ≠ 0 := by
      by_contra hc
      push Not at hc
      apply hx
      funext i
      fin_cases i
      · exact hc.1
      · exact hc.2
    simp only [Fin.sum_univ_two, Matrix.of_apply, Matrix.cons_val_zero, Matrix.cons_val_one]
    rcases hne with h | h <;> have := sq_pos_of_ne_zero h <;> nlinarith [sq_nonneg (x 0 + x 1), sq_nonneg (x 0), sq_nonneg (x 1)]
  obtain ⟨g, hg, -, -, e3, -, hd, h1, h2, h3, -⟩ := (C141_constructor (1 / 20) (1 / 5) (T 2024 2 28) (T 2024 3 1) 2 !![1, 1 / 2; 1 / 2, 1]
    (by intro i j; fin_cases i <;> fin_cases j <;> rfl) (.timedelta 86400000000)).2.2 (by norm_num) hpos
  refine ⟨g, hg, fun normals set => ?_⟩
  rw [(C141_starting_value g hd set normals).2.1]
  rw [show List.replicate 2 (100 : ℝ) = List.ofFn (fun _ : Fin 2 => (100 : ℝ)) by simp, (C141_starting_value g hd set normals).1]
  unfold Geometric.generatePath
  rw [generateIncrements_total g.motion.bm g.dt normals [T 2024 2 28, T 2024 2 29, T 2024 3 1] [1 / 366, 1 / 366]
    (by rw [h1, h2, e3]; decide +kernel) (by rw [h3]; decide +kernel)]
  exact ⟨_, rfl⟩

end Verif.Props
