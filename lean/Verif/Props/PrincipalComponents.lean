/- Principal components of yield curves: C138. -/
import Verif.Model.Examples
import Verif.Spec.Examples
import Mathlib.Tactic.Linarith
import Mathlib.Tactic.Ring
import Mathlib.LinearAlgebra.Matrix.NonsingularInverse

namespace Verif.Props
open Matrix Verif.Spec Verif.Examples

theorem sqNorm_eq {d : Nat} (x : Fin d → ℝ) : sqNorm x = x ⬝ᵥ x := by
  simp only [sqNorm, dotProduct, sq]

theorem sqNorm_nonneg {d : Nat} (x : Fin d → ℝ) : 0 ≤ sqNorm x := Finset.sum_nonneg fun _ _ => sq_nonneg _

theorem orthonormal_dot_sum {k d : Nat} {w : Fin k → Fin d → ℝ} (hw : Spec.Orthonormal w) (c : Fin k → ℝ) (i : Fin k) :
    w i ⬝ᵥ (∑ j, c j • w j) = c i := by
  rw [dotProduct_sum]
  simp only [dotProduct_smul, hw i, smul_eq_mul, mul_ite, mul_one, mul_zero, Finset.sum_ite_eq, Finset.mem_univ, if_true]

/-- Distance to a combination of orthonormal vectors: the part outside their span and the difference of the coefficients. -/
theorem sqNorm_sub_comb {k d : Nat} {w : Fin k → Fin d → ℝ} (hw : Spec.Orthonormal w) (x : Fin d → ℝ) (c : Fin k → ℝ) :
    sqNorm (x - ∑ i, c i • w i) = sqNorm x - ∑ i, (w i ⬝ᵥ x) ^ 2 + ∑ i, (w i ⬝ᵥ x - c i) ^ 2 := by
  simp only [sqNorm_eq]
  rw [sub_dotProduct, dotProduct_sub, dotProduct_sub]
  have h1 : (∑ i, c i • w i) ⬝ᵥ x = ∑ i, c i * (w i ⬝ᵥ x) := by
    rw [sum_dotProduct]; simp only [smul_dotProduct, smul_eq_mul]
  have h2 : (∑ i, c i • w i) ⬝ᵥ (∑ i, c i • w i) = ∑ i, c i * c i := by
    rw [sum_dotProduct]
    refine Finset.sum_congr rfl fun i _ => ?_
    rw [smul_dotProduct, orthonormal_dot_sum hw, smul_eq_mul]
  rw [dotProduct_comm x (∑ i, c i • w i), h1, h2]
  have h3 : ∑ i, (w i ⬝ᵥ x - c i) ^ 2 = ∑ i, (w i ⬝ᵥ x) ^ 2 - 2 * ∑ i, c i * (w i ⬝ᵥ x) + ∑ i, c i * c i := by
    rw [Finset.mul_sum, ← Finset.sum_sub_distrib, ← Finset.sum_add_distrib]
    exact Finset.sum_congr rfl fun i _ => by ring
  rw [h3]; ring

theorem bessel {k d : Nat} {w : Fin k → Fin d → ℝ} (hw : Spec.Orthonormal w) (x : Fin d → ℝ) : ∑ i, (w i ⬝ᵥ x) ^ 2 ≤ sqNorm x := by
  have := sqNorm_sub_comb hw x (fun i => w i ⬝ᵥ x)
  simp only [sub_self, ne_eq, OfNat.ofNat_ne_zero, not_false_eq_true, zero_pow, Finset.sum_const_zero, add_zero] at this
  have h := sqNorm_nonneg (x - ∑ i, (w i ⬝ᵥ x) • w i)
  linarith

theorem reconstruct_ofFn {k d : Nat} (means : Fin d → ℝ) (w : Fin k → Fin d → ℝ) (x : Fin d → ℝ) :
    reconstruct means (List.ofFn w) x = (∑ i, (w i ⬝ᵥ (x - means)) • w i) + means := by
  unfold reconstruct
  rw [List.map_ofFn, List.sum_ofFn]
  rfl

theorem reconstruct_error {k d : Nat} {w : Fin k → Fin d → ℝ} (hw : Spec.Orthonormal w) (means x : Fin d → ℝ) :
    sqNorm (x - reconstruct means (List.ofFn w) x) = sqNorm (x - means) - ∑ i, (w i ⬝ᵥ (x - means)) ^ 2 := by
  rw [reconstruct_ofFn, add_comm, ← sub_sub, sqNorm_sub_comb hw]
  simp

/-! ### The decomposition -/

section
variable {n d : Nat} {a : Matrix (Fin n) (Fin d) ℝ} {u : Matrix (Fin n) (Fin n) ℝ} {s : Nat → ℝ} {vt : Matrix (Fin d) (Fin d) ℝ}

/-- The squared singular value of a component, zero beyond the number of rows. -/
noncomputable def weight (n : Nat) {d : Nat} (s : Nat → ℝ) (i : Fin d) : ℝ := if (i : Nat) < n then s i ^ 2 else 0

theorem weight_antitone (h : IsSvd a u s vt) {i j : Fin d} (hij : i ≤ j) : weight n s j ≤ weight n s i := by
  have hv : (i : Nat) ≤ j := hij
  unfold weight
  by_cases hj : (j : Nat) < n
  · rw [if_pos hj, if_pos (lt_of_le_of_lt hv hj)]
    exact pow_le_pow_left₀ (h.nonneg _) (h.decreasing _ _ hv) 2
  · rw [if_neg hj]
    split_ifs
    · positivity
    · exact le_rfl

theorem component_dot (vt : Matrix (Fin d) (Fin d) ℝ) (i : Fin d) (x : Fin d → ℝ) : component vt i ⬝ᵥ x = (vt *ᵥ x) i := rfl

theorem component_orthonormal (h : IsSvd a u s vt) : Spec.Orthonormal (component vt) := by
  intro i j
  have := congrFun (congrFun h.right i) j
  rw [Matrix.one_apply] at this
  rw [← this, Matrix.mul_apply]
  rfl

theorem parseval (h : IsSvd a u s vt) (x y : Fin d → ℝ) : ∑ i, (component vt i ⬝ᵥ x) * (component vt i ⬝ᵥ y) = x ⬝ᵥ y := by
  have hl : vtᵀ * vt = 1 := mul_eq_one_comm.1 h.right
  calc ∑ i, (component vt i ⬝ᵥ x) * (component vt i ⬝ᵥ y) = (vt *ᵥ x) ⬝ᵥ (vt *ᵥ y) := rfl
    _ = x ⬝ᵥ y := by
      rw [dotProduct_mulVec, vecMul_mulVec, hl, vecMul_one]

theorem svd_dot (h : IsSvd a u s vt) (x y : Fin d → ℝ) :
    (a *ᵥ x) ⬝ᵥ (a *ᵥ y) = ∑ i, weight n s i * ((component vt i ⬝ᵥ x) * (component vt i ⬝ᵥ y)) := by
  set S : Matrix (Fin n) (Fin d) ℝ := Matrix.of fun (i : Fin n) (j : Fin d) => if (i : Nat) = (j : Nat) then s j else 0 with hS
  have hz : ∀ z : Fin d → ℝ, a *ᵥ z = u *ᵥ (S *ᵥ (vt *ᵥ z)) := by
    intro z
    rw [h.eq, Matrix.mulVec_mulVec, Matrix.mulVec_mulVec, Matrix.mul_assoc]
  have hu : ∀ p q : Fin n → ℝ, (u *ᵥ p) ⬝ᵥ (u *ᵥ q) = p ⬝ᵥ q := by
    intro p q
    rw [dotProduct_mulVec, vecMul_mulVec, h.left, vecMul_one]
  rw [hz x, hz y, hu]
  set p := vt *ᵥ x
  set q := vt *ᵥ y
  show ∑ r : Fin n, (∑ j : Fin d, S r j * p j) * (∑ j : Fin d, S r j * q j) = ∑ i, weight n s i * (p i * q i)
  have hrow : ∀ r : Fin n, (∑ j : Fin d, S r j * p j) * (∑ j : Fin d, S r j * q j) =
      ∑ j : Fin d, if (r : Nat) = (j : Nat) then s j ^ 2 * (p j * q j) else 0 := by
    intro r
    by_cases hr : (r : Nat) < d
    · have e : ∀ j : Fin d, ((r : Nat) = (j : Nat)) ↔ (⟨r, hr⟩ : Fin d) = j := fun j => by rw [Fin.ext_iff]
      simp only [hS, Matrix.of_apply, e, ite_mul, zero_mul, Finset.sum_ite_eq, Finset.mem_univ, if_true]
      ring
    · have e : ∀ j : Fin d, ¬ (r : Nat) = (j : Nat) := fun j hj => hr (hj ▸ j.2)
      simp [hS, e]
  rw [Finset.sum_congr rfl fun r _ => hrow r, Finset.sum_comm]
  refine Finset.sum_congr rfl fun j _ => ?_
  unfold weight
  by_cases hj : (j : Nat) < n
  · have e : ∀ r : Fin n, ((r : Nat) = (j : Nat)) ↔ r = (⟨j, hj⟩ : Fin n) := fun r => by rw [Fin.ext_iff]
    simp only [e, Finset.sum_ite_eq', Finset.mem_univ, if_true, if_pos hj]
  · have e : ∀ r : Fin n, ¬ (r : Nat) = (j : Nat) := fun r hr => hj (hr ▸ r.2)
    simp [e, hj]

/-- Ky Fan's inequality: no `k` orthonormal directions carry more of the squares than the first `k` components. -/
theorem ky_fan (h : IsSvd a u s vt) {k : Nat} (hk : k ≤ d) {w : Fin k → Fin d → ℝ} (hw : Spec.Orthonormal w) :
    ∑ j, sqNorm (a *ᵥ w j) ≤ ∑ i : Fin k, weight n s (Fin.castLE hk i) := by
  set c : Fin d → ℝ := fun i => ∑ j, (component vt i ⬝ᵥ w j) ^ 2 with hc
  have h1 : ∑ j, sqNorm (a *ᵥ w j) = ∑ i, weight n s i * c i := by
    have : ∀ j, sqNorm (a *ᵥ w j) = ∑ i, weight n s i * (component vt i ⬝ᵥ w j) ^ 2 := by
      intro j
      rw [sqNorm_eq, svd_dot h]
      exact Finset.sum_congr rfl fun i _ => by rw [sq]
    rw [Finset.sum_congr rfl fun j _ => this j, Finset.sum_comm]
    exact Finset.sum_congr rfl fun i _ => (Finset.mul_sum _ _ _).symm
  have hc1 : ∀ i, c i ≤ 1 := by
    intro i
    have hb := bessel hw (component vt i)
    rw [sqNorm_eq, component_orthonormal h i i, if_pos rfl] at hb
    refine le_trans (le_of_eq ?_) hb
    exact Finset.sum_congr rfl fun j _ => by rw [dotProduct_comm]
  have hc0 : ∀ i, 0 ≤ c i := fun i => Finset.sum_nonneg fun _ _ => sq_nonneg _
  have hck : ∑ i, c i = k := by
    rw [hc]
    dsimp only
    rw [Finset.sum_comm]
    have : ∀ j, ∑ i, (component vt i ⬝ᵥ w j) ^ 2 = 1 := by
      intro j
      have hp := parseval h (w j) (w j)
      rw [hw j j, if_pos rfl] at hp
      rw [← hp]
      exact Finset.sum_congr rfl fun i _ => by rw [sq]
    rw [Finset.sum_congr rfl fun j _ => this j]
    simp
  rw [h1]
  rcases Nat.eq_zero_or_pos k with rfl | hk0
  · have : ∀ i, c i = 0 := fun i => by simp [hc]
    simp [this]
  set last : Fin d := ⟨k - 1, by omega⟩ with hlast
  set top := weight n s last with htop
  have hind : ∑ i : Fin k, weight n s (Fin.castLE hk i) = ∑ i : Fin d, if (i : Nat) < k then weight n s i else 0 := by
    rw [← Finset.sum_filter]
    refine Finset.sum_bij (fun i _ => Fin.castLE hk i) (fun i _ => by simp) (fun i _ j _ hij => by simpa using hij) ?_ (fun _ _ => rfl)
    intro b hb
    exact ⟨⟨b, (Finset.mem_filter.1 hb).2⟩, Finset.mem_univ _, rfl⟩
  have hone : ∑ i : Fin d, (if (i : Nat) < k then (1 : ℝ) else 0) = k := by
    have := hind
    rw [← Finset.sum_filter]
    have hb : ∑ i : Fin k, (1 : ℝ) = ∑ i ∈ Finset.univ.filter (fun i : Fin d => (i : Nat) < k), (1 : ℝ) := by
      refine Finset.sum_bij (fun i _ => Fin.castLE hk i) (fun i _ => by simp) (fun i _ j _ hij => by simpa using hij) ?_ (fun _ _ => rfl)
      intro b hb
      exact ⟨⟨b, (Finset.mem_filter.1 hb).2⟩, Finset.mem_univ _, rfl⟩
    rw [← hb]; simp
  rw [hind]
  have hterm : ∀ i : Fin d, weight n s i * c i - (if (i : Nat) < k then weight n s i else 0) ≤ top * (c i - if (i : Nat) < k then 1 else 0) := by
    intro i
    by_cases hi : (i : Nat) < k
    · have hw' : top ≤ weight n s i := weight_antitone h (show i ≤ last by rw [Fin.le_def]; simp only [hlast]; omega)
      rw [if_pos hi, if_pos hi]
      nlinarith [hc1 i]
    · have hw' : weight n s i ≤ top := weight_antitone h (show last ≤ i by rw [Fin.le_def]; simp only [hlast]; omega)
      rw [if_neg hi, if_neg hi]
      nlinarith [hc0 i]
  have hsum := Finset.sum_le_sum fun i (_ : i ∈ Finset.univ) => hterm i
  rw [Finset.sum_sub_distrib, ← Finset.mul_sum, Finset.sum_sub_distrib, hck, hone, sub_self, mul_zero] at hsum
  linarith

end

/-! ### The example's curves -/

section
variable {n d : Nat} {data : Matrix (Fin n) (Fin d) ℝ} {u : Matrix (Fin n) (Fin n) ℝ} {s : Nat → ℝ} {vt : Matrix (Fin d) (Fin d) ℝ}

theorem levelComponent_eq (vt : Matrix (Fin d) (Fin d) ℝ) (i : Fin d) : levelComponent vt i = component vt i ∨ levelComponent vt i = -component vt i := by
  unfold levelComponent
  split_ifs
  · exact Or.inr rfl
  · exact Or.inl rfl

/-- The reconstruction does not depend on the sign given to the first component. -/
theorem reconstruct_level (vt : Matrix (Fin d) (Fin d) ℝ) (k : Nat) (hk : k ≤ d) (means x : Fin d → ℝ) :
    reconstruct means (levelComponents vt k hk) x = reconstruct means (List.ofFn fun i : Fin k => component vt (Fin.castLE hk i)) x := by
  unfold levelComponents
  rw [reconstruct_ofFn, reconstruct_ofFn]
  congr 1
  refine Finset.sum_congr rfl fun i _ => ?_
  split_ifs
  · rcases levelComponent_eq vt (Fin.castLE hk i) with e | e <;> rw [e]
    rw [neg_dotProduct, neg_smul, smul_neg, neg_neg]
  · rfl

theorem first_orthonormal (h : Spec.Orthonormal (component vt)) {k : Nat} (hk : k ≤ d) :
    Spec.Orthonormal fun i : Fin k => component vt (Fin.castLE hk i) := by
  intro i j
  rw [h]
  simp [Fin.ext_iff]

/-- The centered data have column sums zero. -/
theorem centered_sum (hn : 0 < n) (data : Matrix (Fin n) (Fin d) ℝ) (w : Fin d → ℝ) : ∑ r, w ⬝ᵥ centered data r = 0 := by
  have hcol : ∀ j, ∑ r, centered data r j = 0 := by
    intro j
    simp only [centered, columnMeans, Finset.sum_sub_distrib, Finset.sum_const, Finset.card_univ, Fintype.card_fin, nsmul_eq_mul]
    have : (n : ℝ) ≠ 0 := by positivity
    field_simp
    ring
  simp only [dotProduct]
  rw [Finset.sum_comm]
  refine Finset.sum_eq_zero fun j _ => ?_
  rw [← Finset.mul_sum, hcol, mul_zero]

theorem row_sub_means (data : Matrix (Fin n) (Fin d) ℝ) (r : Fin n) : data r - columnMeans data = centered data r := rfl

/-- C138. One curve: the reconstruction is the closest point to it among all combinations of the first `k` components added to the mean curve; what is
left is the squared distance to the mean curve less the squared scores, and nothing if all components are used. -/
theorem C138_closest (h : IsSvd (centered data) u s vt) {k : Nat} (hk : k ≤ d) (x : Fin d → ℝ) :
    let means := columnMeans data
    (∀ c : Fin k → ℝ, sqNorm (x - reconstruct means (levelComponents vt k hk) x) ≤
      sqNorm (x - (means + ∑ i, c i • component vt (Fin.castLE hk i)))) ∧
    sqNorm (x - reconstruct means (levelComponents vt k hk) x) =
      sqNorm (x - means) - ∑ i : Fin k, (component vt (Fin.castLE hk i) ⬝ᵥ (x - means)) ^ 2 ∧
    (k = d → reconstruct means (levelComponents vt k hk) x = x) := by
  intro means
  have ho := first_orthonormal (component_orthonormal h) hk
  rw [reconstruct_level]
  have he := reconstruct_error ho means x
  refine ⟨fun c => ?_, he, ?_⟩
  · rw [he, ← sub_sub, sqNorm_sub_comb ho]
    have := Finset.sum_nonneg fun i (_ : i ∈ Finset.univ) => sq_nonneg (component vt (Fin.castLE hk i) ⬝ᵥ (x - means) - c i)
    linarith
  · rintro rfl
    have hp := parseval h (x - means) (x - means)
    have h0 : sqNorm (x - reconstruct means (List.ofFn fun i : Fin k => component vt (Fin.castLE hk i)) x) = 0 := by
      rw [he, sqNorm_eq, ← hp, sub_eq_zero]
      exact Finset.sum_congr rfl fun i _ => (sq _).symm
    funext j
    have := (Finset.sum_eq_zero_iff_of_nonneg (fun i _ => sq_nonneg _)).1 h0 j (Finset.mem_univ j)
    have h2 := pow_eq_zero_iff (two_ne_zero) |>.1 this
    simp only [Pi.sub_apply] at h2
    linarith

/-- C138. All curves: no other centre and no other `k` orthonormal directions reconstruct the data with a smaller sum of squared errors. -/
theorem C138_best (hn : 0 < n) (h : IsSvd (centered data) u s vt) {k : Nat} (hk : k ≤ d) (centre : Fin d → ℝ) (w : Fin k → Fin d → ℝ)
    (hw : Spec.Orthonormal w) :
    ∑ r, sqNorm (data r - reconstruct (columnMeans data) (levelComponents vt k hk) (data r)) ≤
      ∑ r, sqNorm (data r - reconstruct centre (List.ofFn w) (data r)) := by
  have ho := first_orthonormal (component_orthonormal h) hk
  have hl : ∀ r, sqNorm (data r - reconstruct (columnMeans data) (levelComponents vt k hk) (data r)) =
      sqNorm (centered data r) - ∑ i : Fin k, (component vt (Fin.castLE hk i) ⬝ᵥ centered data r) ^ 2 := by
    intro r
    rw [reconstruct_level, reconstruct_error ho, row_sub_means]
  set δ := columnMeans data - centre with hδ
  have hr : ∀ r, sqNorm (data r - reconstruct centre (List.ofFn w) (data r)) =
      sqNorm (centered data r + δ) - ∑ i : Fin k, (w i ⬝ᵥ (centered data r + δ)) ^ 2 := by
    intro r
    rw [reconstruct_error hw]
    have : data r - centre = centered data r + δ := by
      rw [hδ, ← row_sub_means]; abel
    rw [this]
  rw [Finset.sum_congr rfl fun r _ => hl r, Finset.sum_congr rfl fun r _ => hr r, Finset.sum_sub_distrib, Finset.sum_sub_distrib]
  have e1 : ∑ r, sqNorm (centered data r + δ) = ∑ r, sqNorm (centered data r) + n * sqNorm δ := by
    have : ∀ r, sqNorm (centered data r + δ) = sqNorm (centered data r) + 2 * (δ ⬝ᵥ centered data r) + sqNorm δ := by
      intro r
      simp only [sqNorm_eq, add_dotProduct, dotProduct_add, dotProduct_comm (centered data r) δ]
      ring
    rw [Finset.sum_congr rfl fun r _ => this r, Finset.sum_add_distrib, Finset.sum_add_distrib, ← Finset.mul_sum, centered_sum hn]
    simp
  have e2 : ∑ r, ∑ i : Fin k, (w i ⬝ᵥ (centered data r + δ)) ^ 2 = ∑ r, ∑ i, (w i ⬝ᵥ centered data r) ^ 2 + n * ∑ i, (w i ⬝ᵥ δ) ^ 2 := by
    rw [Finset.sum_comm, Finset.sum_comm (f := fun r i => (w i ⬝ᵥ centered data r) ^ 2), Finset.mul_sum, ← Finset.sum_add_distrib]
    refine Finset.sum_congr rfl fun i _ => ?_
    have : ∀ r, (w i ⬝ᵥ (centered data r + δ)) ^ 2 = (w i ⬝ᵥ centered data r) ^ 2 + 2 * (w i ⬝ᵥ δ) * (w i ⬝ᵥ centered data r) + (w i ⬝ᵥ δ) ^ 2 := by
      intro r
      rw [dotProduct_add]; ring
    rw [Finset.sum_congr rfl fun r _ => this r, Finset.sum_add_distrib, Finset.sum_add_distrib, ← Finset.mul_sum, centered_sum hn]
    simp
  have sq_eq : ∀ v : Fin d → ℝ, ∑ r, (v ⬝ᵥ centered data r) ^ 2 = sqNorm (centered data *ᵥ v) := by
    intro v
    exact Finset.sum_congr rfl fun r _ => by rw [dotProduct_comm]; rfl
  have hbest := ky_fan h hk hw
  have htop : ∑ i : Fin k, sqNorm (centered data *ᵥ component vt (Fin.castLE hk i)) = ∑ i : Fin k, weight n s (Fin.castLE hk i) := by
    refine Finset.sum_congr rfl fun i _ => ?_
    rw [sqNorm_eq, svd_dot h]
    have : ∀ j : Fin d, weight n s j * ((component vt j ⬝ᵥ component vt (Fin.castLE hk i)) * (component vt j ⬝ᵥ component vt (Fin.castLE hk i))) =
        if j = Fin.castLE hk i then weight n s j else 0 := by
      intro j
      rw [component_orthonormal h]
      split_ifs <;> simp
    rw [Finset.sum_congr rfl fun j _ => this j]
    simp
  have l1 : ∑ r, ∑ i : Fin k, (component vt (Fin.castLE hk i) ⬝ᵥ centered data r) ^ 2 = ∑ i : Fin k, weight n s (Fin.castLE hk i) := by
    rw [Finset.sum_comm, ← htop]
    exact Finset.sum_congr rfl fun i _ => sq_eq _
  have l2 : ∑ r, ∑ i, (w i ⬝ᵥ centered data r) ^ 2 = ∑ j, sqNorm (centered data *ᵥ w j) := by
    rw [Finset.sum_comm]
    exact Finset.sum_congr rfl fun i _ => sq_eq _
  rw [e1, e2, l1, l2]
  have hb := bessel hw δ
  have hn' : (0 : ℝ) ≤ n := Nat.cast_nonneg n
  nlinarith [mul_le_mul_of_nonneg_left hb hn']

/-- C138. The series of the components: each has mean zero, different ones are uncorrelated, and the sums of squares are the squared singular values
(zero beyond the number of dates), which do not increase. -/
theorem C138_scores (hn : 0 < n) (h : IsSvd (centered data) u s vt) (i j : Fin d) :
    ∑ r, scores data (component vt i) r = 0 ∧
    ∑ r, scores data (component vt i) r * scores data (component vt j) r = (if i = j then (if (i : Nat) < n then s i ^ 2 else 0) else 0) ∧
    (i ≤ j → ∑ r, scores data (component vt j) r ^ 2 ≤ ∑ r, scores data (component vt i) r ^ 2) := by
  have hcov : ∀ i j : Fin d, ∑ r, scores data (component vt i) r * scores data (component vt j) r = if i = j then weight n s i else 0 := by
    intro i j
    have := svd_dot h (component vt i) (component vt j)
    rw [show ∑ r, scores data (component vt i) r * scores data (component vt j) r =
      (centered data *ᵥ component vt i) ⬝ᵥ (centered data *ᵥ component vt j) from rfl, this]
    have e : ∀ l : Fin d, weight n s l * ((component vt l ⬝ᵥ component vt i) * (component vt l ⬝ᵥ component vt j)) =
        if l = i then (if i = j then weight n s i else 0) else 0 := by
      intro l
      rw [component_orthonormal h, component_orthonormal h]
      by_cases hl : l = i
      · subst hl
        by_cases hj : l = j <;> simp [hj]
      · simp [hl]
    rw [Finset.sum_congr rfl fun l _ => e l]
    simp
  refine ⟨?_, hcov i j, fun hij => ?_⟩
  · rw [← centered_sum hn data (component vt i)]
    refine Finset.sum_congr rfl fun r _ => ?_
    show (fun j => centered data r j) ⬝ᵥ component vt i = _
    rw [dotProduct_comm]
  · have hi := hcov i i
    have hj := hcov j j
    rw [if_pos rfl] at hi hj
    simp only [sq]
    rw [hi, hj]
    exact weight_antitone h hij

/-- C138. The sign convention: the first component is plotted with a nonnegative sum, and turning it over changes its series by a sign only and no
reconstruction. -/
theorem C138_sign (vt : Matrix (Fin d) (Fin d) ℝ) (i : Fin d) (k : Nat) (hk : k ≤ d) (means x : Fin d → ℝ) :
    0 ≤ ∑ j, levelComponent vt i j ∧
    (scores data (levelComponent vt i) = scores data (component vt i) ∨ scores data (levelComponent vt i) = -scores data (component vt i)) ∧
    reconstruct means (levelComponents vt k hk) x = (∑ i : Fin k, (component vt (Fin.castLE hk i) ⬝ᵥ (x - means)) • component vt (Fin.castLE hk i)) + means := by
  refine ⟨?_, ?_, ?_⟩
  · unfold levelComponent
    split_ifs with h
    · simp only [Pi.neg_apply, Finset.sum_neg_distrib]
      linarith
    · exact not_lt.1 h
  · rcases levelComponent_eq vt i with e | e <;> rw [e]
    · exact Or.inl rfl
    · right; unfold scores; rw [mulVec_neg]
  · rw [reconstruct_level, reconstruct_ofFn]

/-- C138. The components used: the first one with the sign that makes its sum nonnegative, the others as they come. -/
theorem C138_components (vt : Matrix (Fin d) (Fin d) ℝ) (k : Nat) (hk : k ≤ d) :
    (levelComponents vt k hk).length = k ∧ ∀ i (hi : i < k), ∃ pc, (levelComponents vt k hk)[i]? = some pc ∧
      (i = 0 → 0 ≤ ∑ j, pc j ∧ (pc = component vt ⟨i, by omega⟩ ∨ pc = -component vt ⟨i, by omega⟩)) ∧
      (i ≠ 0 → pc = component vt ⟨i, by omega⟩) := by
  refine ⟨by simp [levelComponents], fun i hi => ?_⟩
  refine ⟨_, by rw [levelComponents, List.getElem?_ofFn, dif_pos hi], ?_, ?_⟩
  · intro h0
    rw [if_pos h0]
    exact ⟨(C138_sign (data := (0 : Matrix (Fin 0) (Fin d) ℝ)) vt _ k hk 0 0).1, levelComponent_eq vt _⟩
  · intro h0
    rw [if_neg h0]
    rfl

/-- C138. Daily changes: their mean is the last curve less the first over the number of changes. -/
theorem C138_changes (data : Matrix (Fin (n + 1)) (Fin d) ℝ) (j : Fin d) :
    columnMeans (changes data) j = (data (Fin.last n) j - data 0 j) / n := by
  unfold columnMeans changes
  congr 1
  have := Fin.sum_univ_castSucc fun i => data i j
  have h2 := Fin.sum_univ_succ fun i => data i j
  rw [Finset.sum_sub_distrib]
  linarith

end

/-- Non-vacuity: two dates, two maturities, yields (1, 3) and (3, 5): the mean curve is (2, 4), the centered data ±(1, 1), one singular value 2. -/
example : ∃ (u : Matrix (Fin 2) (Fin 2) ℝ) (s : Nat → ℝ) (vt : Matrix (Fin 2) (Fin 2) ℝ), IsSvd (centered !![1, 3; 3, 5]) u s vt ∧ s 0 = 2 := by
  have hq : (Real.sqrt 2 / 2) * (Real.sqrt 2 / 2) = 1 / 2 := by
    rw [div_mul_div_comm, Real.mul_self_sqrt (by norm_num)]; norm_num
  set q := Real.sqrt 2 / 2
  refine ⟨!![-q, q; q, q], fun i => if i = 0 then 2 else 0, !![q, q; q, -q], ⟨?_, ?_, ?_, ?_, ?_⟩, rfl⟩
  · ext i j; fin_cases i <;> fin_cases j <;> simp [Matrix.mul_apply, Fin.sum_univ_two] <;> linarith
  · ext i j; fin_cases i <;> fin_cases j <;> simp [Matrix.mul_apply, Fin.sum_univ_two] <;> linarith
  · intro i; show (0 : ℝ) ≤ if i = 0 then 2 else 0
    split_ifs <;> norm_num
  · intro i j hij; show (if j = 0 then (2 : ℝ) else 0) ≤ if i = 0 then 2 else 0
    split_ifs <;> first | (exfalso; omega) | norm_num
  · have hS : (Matrix.of fun (i j : Fin 2) => if (i : Nat) = (j : Nat) then (if (j : Nat) = 0 then (2 : ℝ) else 0) else 0) = !![2, 0; 0, 0] := by
      ext i j; fin_cases i <;> fin_cases j <;> simp
    rw [hS]
    ext i j; fin_cases i <;> fin_cases j <;> simp [Matrix.mul_apply, Fin.sum_univ_two, centered, columnMeans] <;> nlinarith

end Verif.Props
