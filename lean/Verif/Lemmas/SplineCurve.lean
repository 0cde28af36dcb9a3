/- The model's spline interpolators compute the splines of Spec/Spline: values, data points, linearity, polynomials. -/
import Verif.Lemmas.Spline
import Verif.Lemmas.Curve

namespace Verif
open Verif.Spec Polynomial

namespace SplineKind

/-- The interpolator of a kind. -/
noncomputable def fn : SplineKind → List (ℚ × ℚ) → ℚ → Except PyErr ℚ
  | quadratic => quadraticSpline
  | cubic => cubicSpline

theorem method_eq (kind : SplineKind) : kind.method = .spline kind.fn := by cases kind <;> rfl

/-- The specification of a kind. -/
def IsSpline : SplineKind → ℕ → (ℕ → ℚ) → (ℕ → ℚ) → (ℚ → ℚ) → Prop
  | quadratic => IsQuadraticSpline
  | cubic => IsCubicSpline

end SplineKind

theorem grid_increasing {k : ℕ} {grid : List (ℚ × ℚ)} (h : splineGridOk k grid) : Increasing (grid.length - 1) (gridX grid) :=
  fun i hi => h.2 i (by omega)

theorem quadraticBreak_pos {n : ℕ} (x : ℕ → ℚ) (t : ℚ) (h0 : x 0 ≤ t) {j : ℕ} (hj : j + 2 ≤ n) :
    (0 < j → (x j + x (j + 1)) / 2 ≤ t) ↔ quadraticBreak n x j ≤ t := by
  by_cases hj0 : j = 0
  · subst hj0
    simp [quadraticBreak, h0]
  · rw [quadraticBreak_mid x (by omega) (by omega)]
    exact ⟨fun h => h (by omega), fun h _ => h⟩

/-- The interpolator's value is that of every spline through the data. -/
theorem spline_value (kind : SplineKind) {grid : List (ℚ × ℚ)} (h : splineGridOk kind.degree grid) {s : ℚ → ℚ}
    (hs : kind.IsSpline (grid.length - 1) (gridX grid) (gridY grid) s) {t : ℚ} (h1 : gridX grid 0 ≤ t)
    (h2 : t ≤ gridX grid (grid.length - 1)) : kind.fn grid t = .ok (s t) := by
  have hx := grid_increasing h
  cases kind with
  | cubic =>
    have hn : 3 ≤ grid.length - 1 := by have : 3 + 1 ≤ grid.length := h.1; omega
    obtain ⟨M, hM, hpc⟩ := spline_system hn hx hs
    have hex : ∃ M, CubicSystem (grid.length - 1) (gridX grid) (gridY grid) M := ⟨M, hM⟩
    show cubicSpline grid t = _
    unfold cubicSpline
    dsimp only
    rw [if_neg (not_not.2 (show splineGridOk 3 grid from h)), if_neg (by push Not; exact ⟨h1, h2⟩), dif_pos hex]
    have heq := cubic_unique hn hx hex.choose_spec hM
    generalize hex.choose = N at *
    obtain ⟨i, hi, hi1, hi2⟩ := piece_exists (N := grid.length - 2) (b := gridX grid) (t := t) h1
      (by rw [show grid.length - 2 + 1 = grid.length - 1 by omega]; exact h2)
    have := piece_find (N := grid.length - 2) (b := gridX grid) (fun j hj => hx j (by omega)) (cubicPiece (gridX grid) (gridY grid) N)
      (fun j hj => by rw [cubicPiece_right _ _ (hx j (by omega)), cubicPiece_left]) t (fun i => gridX grid i ≤ t)
      (fun _ _ => Iff.rfl) hi hi1 hi2
    rw [show grid.length - 1 - 1 = grid.length - 2 by omega, hpc i (by omega) t hi1 hi2]
    congr 1
    refine Eq.trans ?_ (this.trans ?_)
    · congr!
    · unfold cubicPiece
      rw [heq i (by omega), heq (i + 1) (by omega)]
  | quadratic =>
    have hn : 2 ≤ grid.length - 1 := by have : 2 + 1 ≤ grid.length := h.1; omega
    obtain ⟨u, hu, hpc⟩ := quadratic_system hn hx hs
    have hex : ∃ u, QuadraticSystem (grid.length - 1) (gridX grid) (gridY grid) u := ⟨u, hu⟩
    show quadraticSpline grid t = _
    unfold quadraticSpline
    dsimp only
    rw [if_neg (not_not.2 (show splineGridOk 2 grid from h)), if_neg (by push Not; exact ⟨h1, h2⟩), dif_pos hex]
    have heq := quadratic_unique hn hx hex.choose_spec hu
    have hN := hex.choose_spec
    generalize hex.choose = v at *
    have hb0 : quadraticBreak (grid.length - 1) (gridX grid) 0 = gridX grid 0 := by simp [quadraticBreak]
    have hbn : quadraticBreak (grid.length - 1) (gridX grid) (grid.length - 3 + 1) = gridX grid (grid.length - 1) := by
      unfold quadraticBreak
      rw [if_neg (by omega), if_pos (by omega)]
    obtain ⟨i, hi, hi1, hi2⟩ := piece_exists (N := grid.length - 3) (b := quadraticBreak (grid.length - 1) (gridX grid)) (t := t)
      (by rw [hb0]; exact h1) (by rw [hbn]; exact h2)
    have := piece_find (N := grid.length - 3) (b := quadraticBreak (grid.length - 1) (gridX grid))
      (fun j hj => quadraticBreak_lt hx (by omega)) (quadraticPiece (gridX grid) (gridY grid) v)
      (fun j hj => quadraticPiece_join hx hN (by omega)) t (fun j => 0 < j → (gridX grid j + gridX grid (j + 1)) / 2 ≤ t)
      (fun j hj => quadraticBreak_pos _ _ h1 (by omega)) hi hi1 hi2
    rw [show grid.length - 1 - 2 = grid.length - 3 by omega, hpc i (by omega) t hi1 hi2]
    congr 1
    refine Eq.trans ?_ (this.trans ?_)
    · congr!
    · unfold quadraticPiece quadraticSlope
      rw [heq i (by omega), heq (i + 1) (by omega)]

/-- There is a spline through every data. -/
theorem spline_exists (kind : SplineKind) {n : ℕ} (hn : kind.degree ≤ n) {x : ℕ → ℚ} (hx : Increasing n x) (y : ℕ → ℚ) :
    ∃ s, kind.IsSpline n x y s := by
  classical
  cases kind with
  | cubic =>
    have hn : 3 ≤ n := hn
    obtain ⟨M, hM⟩ := cubic_exists hn hx y
    refine ⟨fun t => cubicPiece x y M (Nat.findGreatest (fun i => x i ≤ t) (n - 1)) t, system_spline hn hx hM ?_⟩
    intro i hi t h1 h2
    exact piece_find (N := n - 1) (b := x) (fun j hj => hx j (by omega)) (cubicPiece x y M)
      (fun j hj => by rw [cubicPiece_right _ _ (hx j (by omega)), cubicPiece_left]) t _ (fun _ _ => Iff.rfl) (by omega) h1 h2
  | quadratic =>
    have hn : 2 ≤ n := hn
    obtain ⟨u, hu⟩ := quadratic_exists hn hx y
    refine ⟨fun t => quadraticPiece x y u (Nat.findGreatest (fun j => quadraticBreak n x j ≤ t) (n - 2)) t,
      system_quadratic hn hx hu ?_⟩
    intro i hi t h1 h2
    exact piece_find (N := n - 2) (b := quadraticBreak n x) (fun j hj => quadraticBreak_lt hx (by omega)) (quadraticPiece x y u)
      (fun j hj => quadraticPiece_join hx hu (by omega)) t _ (fun _ _ => Iff.rfl) (by omega) h1 h2

/-- A spline passes through its data. -/
theorem spline_data {kind : SplineKind} {n : ℕ} {x y : ℕ → ℚ} {s : ℚ → ℚ} (h : kind.IsSpline n x y s) {i : ℕ} (hi : i ≤ n) :
    s (x i) = y i := by
  cases kind with
  | cubic => obtain ⟨p, -, -, -, -, -, hd⟩ := h; exact hd i hi
  | quadratic => obtain ⟨p, -, -, -, hd⟩ := h; exact hd i hi

/-- Splines add up. -/
theorem spline_add {kind : SplineKind} {n : ℕ} {x y y' : ℕ → ℚ} {s s' : ℚ → ℚ} (q : ℚ) (h : kind.IsSpline n x y s)
    (h' : kind.IsSpline n x y' s') : kind.IsSpline n x (fun i => y i + q * y' i) (fun t => s t + q * s' t) := by
  cases kind with
  | cubic =>
    obtain ⟨p, h1, h2, h3, h4, h5, h6⟩ := h
    obtain ⟨p', h1', h2', h3', h4', h5', h6'⟩ := h'
    refine ⟨fun i => p i + C q * p' i, ?_, ?_, ?_, ?_, ?_, ?_⟩
    · intro i hi
      refine (natDegree_add_le _ _).trans (max_le (h1 i hi) ((natDegree_C_mul_le _ _).trans (h1' i hi)))
    · intro i hi t ha hb
      simp [h2 i hi t ha hb, h2' i hi t ha hb]
    · intro i hi
      simp [(h3 i hi).1, (h3 i hi).2, (h3' i hi).1, (h3' i hi).2]
    · simp [h4, h4']
    · simp [h5, h5']
    · intro i hi
      simp [h6 i hi, h6' i hi]
  | quadratic =>
    obtain ⟨p, h1, h2, h3, h6⟩ := h
    obtain ⟨p', h1', h2', h3', h6'⟩ := h'
    refine ⟨fun i => p i + C q * p' i, ?_, ?_, ?_, ?_⟩
    · intro i hi
      refine (natDegree_add_le _ _).trans (max_le (h1 i hi) ((natDegree_C_mul_le _ _).trans (h1' i hi)))
    · intro i hi t ha hb
      simp [h2 i hi t ha hb, h2' i hi t ha hb]
    · intro i hi
      simp [h3 i hi, h3' i hi]
    · intro i hi
      simp [h6 i hi, h6' i hi]

/-- A polynomial of the degree of the pieces is its own spline. -/
theorem spline_poly (kind : SplineKind) (n : ℕ) (x : ℕ → ℚ) {p : ℚ[X]} (hp : p.natDegree ≤ kind.degree) :
    kind.IsSpline n x (fun i => p.eval (x i)) (fun t => p.eval t) := by
  cases kind with
  | cubic => exact ⟨fun _ => p, fun _ _ => hp, fun _ _ _ _ _ => rfl, fun _ _ => ⟨rfl, rfl⟩, rfl, rfl, fun _ _ => rfl⟩
  | quadratic => exact ⟨fun _ => p, fun _ _ => hp, fun _ _ _ _ _ => rfl, fun _ _ => rfl, fun _ _ => rfl⟩

theorem spline_congr_y {kind : SplineKind} {n : ℕ} {x y y' : ℕ → ℚ} {s : ℚ → ℚ} (h : kind.IsSpline n x y s)
    (hy : ∀ i ≤ n, y i = y' i) : kind.IsSpline n x y' s := by
  cases kind with
  | cubic =>
    obtain ⟨p, h1, h2, h3, h4, h5, h6⟩ := h
    exact ⟨p, h1, h2, h3, h4, h5, fun i hi => (h6 i hi).trans (hy i hi)⟩
  | quadratic =>
    obtain ⟨p, h1, h2, h3, h6⟩ := h
    exact ⟨p, h1, h2, h3, fun i hi => (h6 i hi).trans (hy i hi)⟩

theorem spline_congr_x {kind : SplineKind} {n : ℕ} (hn : kind.degree ≤ n) {x x' y : ℕ → ℚ} {s : ℚ → ℚ}
    (h : kind.IsSpline n x y s) (hx : ∀ i ≤ n, x i = x' i) : kind.IsSpline n x' y s := by
  cases kind with
  | cubic =>
    obtain ⟨p, h1, h2, h3, h4, h5, h6⟩ := h
    refine ⟨p, h1, ?_, ?_, h4, h5, ?_⟩
    · intro i hi t ha hb
      exact h2 i hi t (by rw [hx i (by omega)]; exact ha) (by rw [hx (i + 1) (by omega)]; exact hb)
    · intro i hi
      have := h3 i hi
      rwa [hx (i + 1) (by omega)] at this
    · intro i hi
      rw [← hx i hi]; exact h6 i hi
  | quadratic =>
    have hn : 2 ≤ n := hn
    obtain ⟨p, h1, h2, h3, h6⟩ := h
    have hb : ∀ j, j + 1 ≤ n → quadraticBreak n x j = quadraticBreak n x' j := by
      intro j hj
      unfold quadraticBreak
      rw [hx 0 (by omega), hx n le_rfl, hx j (by omega), hx (j + 1) hj]
    refine ⟨p, h1, ?_, ?_, ?_⟩
    · intro j hj t ha hc
      exact h2 j hj t (by rw [hb j (by omega)]; exact ha) (by rw [hb (j + 1) (by omega)]; exact hc)
    · intro j hj
      have := h3 j hj
      rwa [hb (j + 1) (by omega)] at this
    · intro i hi
      rw [← hx i hi]; exact h6 i hi

/-- Two splines through the same data agree between the ends. -/
theorem spline_unique {kind : SplineKind} {n : ℕ} (hn : kind.degree ≤ n) {x y : ℕ → ℚ} (hx : Increasing n x) {s s' : ℚ → ℚ}
    (h : kind.IsSpline n x y s) (h' : kind.IsSpline n x y s') {t : ℚ} (h1 : x 0 ≤ t) (h2 : t ≤ x n) : s t = s' t := by
  let grid : List (ℚ × ℚ) := (List.range (n + 1)).map (fun i => (x i, y i))
  have hlen : grid.length = n + 1 := by simp [grid]
  have hgx : ∀ i ≤ n, gridX grid i = x i := by
    intro i hi
    simp [gridX, grid, List.getD_eq_getElem?_getD, List.getElem?_range (show i < n + 1 by omega)]
  have hgy : ∀ i ≤ n, gridY grid i = y i := by
    intro i hi
    simp [gridY, grid, List.getD_eq_getElem?_getD, List.getElem?_range (show i < n + 1 by omega)]
  have hok : splineGridOk kind.degree grid := by
    refine ⟨by omega, fun i hi => ?_⟩
    rw [hlen] at hi
    rw [hgx i (by omega), hgx (i + 1) (by omega)]
    exact hx i (by omega)
  have conv : ∀ {s}, kind.IsSpline n x y s → kind.IsSpline (grid.length - 1) (gridX grid) (gridY grid) s := by
    intro s hs
    rw [hlen, Nat.add_sub_cancel]
    exact spline_congr_y (spline_congr_x hn hs (fun i hi => (hgx i hi).symm)) (fun i hi => (hgy i hi).symm)
  have ht1 : gridX grid 0 ≤ t := by rw [hgx 0 (by omega)]; exact h1
  have ht2 : t ≤ gridX grid (grid.length - 1) := by rw [hlen, Nat.add_sub_cancel, hgx n le_rfl]; exact h2
  have e := (spline_value kind hok (conv h) ht1 ht2).symm.trans (spline_value kind hok (conv h') ht1 ht2)
  injection e

/-- The spline's value is a fixed linear combination of the ordinates, with weights that add up to one. -/
theorem spline_weights (kind : SplineKind) {n : ℕ} (hn : kind.degree ≤ n) {x : ℕ → ℚ} (hx : Increasing n x) {t : ℚ}
    (h1 : x 0 ≤ t) (h2 : t ≤ x n) : ∃ ω : ℕ → ℚ, (∑ i ∈ Finset.range (n + 1), ω i) = 1 ∧
      ∀ y s, kind.IsSpline n x y s → s t = ∑ i ∈ Finset.range (n + 1), ω i * y i := by
  classical
  choose e he using fun j : ℕ => spline_exists kind hn hx (fun i => if i = j then (1 : ℚ) else 0)
  have hpart : ∀ (y : ℕ → ℚ) (k : ℕ), kind.IsSpline n x (fun i => ∑ j ∈ Finset.range k, y j * (if i = j then 1 else 0))
      (fun t => ∑ j ∈ Finset.range k, y j * e j t) := by
    intro y k
    induction k with
    | zero =>
      have := spline_poly kind n x (p := 0) (by simp)
      simpa using this
    | succ k ih =>
      have := spline_add (y k) ih (he k)
      simpa only [Finset.sum_range_succ] using this
  have hval : ∀ y s, kind.IsSpline n x y s → s t = ∑ i ∈ Finset.range (n + 1), e i t * y i := by
    intro y s hs
    have := spline_congr_y (hpart y (n + 1)) (y' := y) (by
      intro i hi
      simp only [mul_ite, mul_one, mul_zero]
      rw [Finset.sum_ite_eq (Finset.range (n + 1)) i y, if_pos (Finset.mem_range.2 (by omega))])
    rw [spline_unique hn hx hs this h1 h2]
    exact Finset.sum_congr rfl (fun i _ => mul_comm _ _)
  refine ⟨fun i => e i t, ?_, hval⟩
  have := hval _ _ (spline_poly kind n x (p := 1) (by simp))
  simpa using this.symm

/-! ## Grids of curves -/

theorem gridX_map (ks : List Knot) (X : PyDate → ℚ) {i : ℕ} (hi : i < ks.length) :
    gridX (ks.map (fun k => (X k.date, k.value))) i = X ks[i].date := by
  simp [gridX, List.getD_eq_getElem?_getD, hi]

theorem gridY_map (ks : List Knot) (X : PyDate → ℚ) {i : ℕ} (hi : i < ks.length) :
    gridY (ks.map (fun k => (X k.date, k.value))) i = ks[i].value := by
  simp [gridY, List.getD_eq_getElem?_getD, hi]

/-- The grid of sorted knots is acceptable to scipy when there are enough of them. -/
theorem splineGrid_ok {k : ℕ} {ks : List Knot} (hs : KnotSorted ks) {X : PyDate → ℚ} (hX : ∀ {a b : PyDate}, a < b → X a < X b)
    (hlen : k < ks.length) : splineGridOk k (ks.map (fun k => (X k.date, k.value))) := by
  refine ⟨by rw [List.length_map]; omega, fun i hi => ?_⟩
  rw [List.length_map] at hi
  rw [gridX_map ks X (by omega), gridX_map ks X hi]
  exact hX (List.pairwise_iff_getElem.1 hs i (i + 1) (by omega) hi (by omega))

/-- Between the first and the last knot the interpolator has the spline's value. -/
theorem splineGrid_value (kind : SplineKind) {ks : List Knot} (hs : KnotSorted ks) {X : PyDate → ℚ}
    (hX : ∀ {a b : PyDate}, a < b → X a < X b) (hlen : kind.degree < ks.length) {s : ℚ → ℚ}
    (hsp : kind.IsSpline (ks.length - 1) (gridX (ks.map (fun k => (X k.date, k.value))))
      (gridY (ks.map (fun k => (X k.date, k.value)))) s) {d : PyDate} (h1 : ∃ k ∈ ks, k.date ≤ d) (h2 : ∃ k ∈ ks, d ≤ k.date) :
    kind.fn (ks.map (fun k => (X k.date, k.value))) (X d) = .ok (s (X d)) := by
  have hmono : ∀ {a b : PyDate}, a ≤ b → X a ≤ X b := by
    intro a b hab
    rcases lt_or_eq_of_le hab with h | rfl
    · exact (hX h).le
    · exact le_rfl
  have hle : ∀ i j (hi : i < ks.length) (hj : j < ks.length), i ≤ j → ks[i].date ≤ ks[j].date := by
    intro i j hi hj hij
    rcases Nat.lt_or_eq_of_le hij with h | rfl
    · exact (List.pairwise_iff_getElem.1 hs i j hi hj h).le
    · exact le_rfl
  refine spline_value kind (splineGrid_ok hs hX hlen) (by rw [List.length_map]; exact hsp) ?_ ?_
  · obtain ⟨k, hk, hkd⟩ := h1
    obtain ⟨i, hi, rfl⟩ := List.getElem_of_mem hk
    rw [gridX_map ks X (by omega)]
    exact hmono ((hle 0 i (by omega) hi (by omega)).trans hkd)
  · obtain ⟨k, hk, hkd⟩ := h2
    obtain ⟨i, hi, rfl⟩ := List.getElem_of_mem hk
    rw [List.length_map, gridX_map ks X (by omega)]
    exact hmono (hkd.trans (hle i (ks.length - 1) hi (by omega) (by omega)))

theorem splineGrid_increasing {ks : List Knot} (hs : KnotSorted ks) {X : PyDate → ℚ} (hX : ∀ {a b : PyDate}, a < b → X a < X b) :
    Increasing (ks.length - 1) (gridX (ks.map (fun k => (X k.date, k.value)))) := by
  intro i hi
  rw [gridX_map ks X (by omega), gridX_map ks X (by omega)]
  exact hX (List.pairwise_iff_getElem.1 hs i (i + 1) (by omega) (by omega) (by omega))

/-- The interpolator is defined between the first and the last knot. -/
theorem splineGrid_defined (kind : SplineKind) {ks : List Knot} (hs : KnotSorted ks) {X : PyDate → ℚ}
    (hX : ∀ {a b : PyDate}, a < b → X a < X b) (hlen : kind.degree < ks.length) {d : PyDate} (h1 : ∃ k ∈ ks, k.date ≤ d)
    (h2 : ∃ k ∈ ks, d ≤ k.date) : ∃ v, kind.fn (ks.map (fun k => (X k.date, k.value))) (X d) = .ok v := by
  obtain ⟨s, hsp⟩ := spline_exists kind (show kind.degree ≤ ks.length - 1 by omega) (splineGrid_increasing hs hX)
    (gridY (ks.map (fun k => (X k.date, k.value))))
  exact ⟨_, splineGrid_value kind hs hX hlen hsp h1 h2⟩

/-- The interpolator passes through the knots. -/
theorem splineGrid_knot (kind : SplineKind) {ks : List Knot} (hs : KnotSorted ks) {X : PyDate → ℚ}
    (hX : ∀ {a b : PyDate}, a < b → X a < X b) (hlen : kind.degree < ks.length) {k : Knot} (hk : k ∈ ks) :
    kind.fn (ks.map (fun k => (X k.date, k.value))) (X k.date) = .ok k.value := by
  obtain ⟨s, hsp⟩ := spline_exists kind (show kind.degree ≤ ks.length - 1 by omega) (splineGrid_increasing hs hX)
    (gridY (ks.map (fun k => (X k.date, k.value))))
  rw [splineGrid_value kind hs hX hlen hsp ⟨k, hk, le_rfl⟩ ⟨k, hk, le_rfl⟩]
  obtain ⟨i, hi, rfl⟩ := List.getElem_of_mem hk
  have := spline_data hsp (i := i) (by omega)
  rw [gridX_map ks X hi, gridY_map ks X hi] at this
  rw [this]

end Verif
