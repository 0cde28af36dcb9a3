/- How simulated paths respond to draws, starting values and parameters: C116. -/
import Verif.Props.SimulatedRates

namespace Verif.Props
open Verif Verif.Spec Finset

theorem steps_unique {dcc : DayCountConvention} {grid : List PyDatetime} {d1 d2 : List ℚ} (h1 : StepLengths dcc grid d1)
    (h2 : StepLengths dcc grid d2) : d1 = d2 := by
  apply List.ext_getElem
  · have := h1.1; have := h2.1; omega
  · intro j hj hj'
    have l1 := h1.1
    have e1 := h1.2 j hj (by omega) (by omega)
    have e2 := h2.2 j hj' (by omega) (by omega)
    rw [e1] at e2
    injection e2 with e2

theorem draws_irrelevant {p : Nat} {b b' : BrownianMotion p} {dt : DtIncrement} {z : Nat → Vec p} {r : List (Vec p) × List ℚ}
    (h : b.generateIncrements dt z = (.ok r, b')) (z' : Nat → Vec p) :
    b.generateIncrements dt z' = (.ok (BrownianMotion.increments b.chol z' 0 r.2, r.2), b') := by
  unfold BrownianMotion.generateIncrements at h ⊢
  split at h
  · simp at h
  · split at h
    · simp at h
    · split at h
      · simp at h
      · next dts hd =>
        simp only [Prod.mk.injEq, Except.ok.injEq] at h
        obtain ⟨e1, e2⟩ := h
        rw [← e1, ← e2]

/-- C116. Whether a simulation succeeds, and the grid it leaves, depend neither on the draws nor on the starting values. -/
theorem C116_draws_never_fail {p : Nat} (d d' : Diffusion p) (b b' : BrownianMotion p) (x0 y0 : Vec p) (set set' : Bool)
    (z z' : Nat → Vec p) (path : List (Vec p)) (h : d.generatePath b x0 set z = (.ok path, d', b')) :
    ∃ path' d'', d.generatePath b y0 set' z' = (.ok path', d'', b') ∧ path'.length = path.length := by
  have hc := C45_euler d d' b b' x0 set z path h
  unfold Diffusion.generatePath at h
  split at h
  · simp at h
  · next r b1 hr =>
    simp only [Prod.mk.injEq] at h
    obtain ⟨-, -, rfl⟩ := h
    refine ⟨Diffusion.euler d.coords ((BrownianMotion.increments b.chol z' 0 r.2).zip r.2) 0 y0,
      if set' then { d with path := some (Diffusion.euler d.coords ((BrownianMotion.increments b.chol z' 0 r.2).zip r.2) 0 y0) } else d,
      ?_, ?_⟩
    · unfold Diffusion.generatePath
      rw [draws_irrelevant hr z']
    · obtain ⟨grid, dts, hg, hs, -, -, hl, -, -⟩ := hc
      obtain ⟨grid', hg', -, hs', -, -⟩ := generateIncrements_spec b b1 d.dt z r.1 r.2 hr
      obtain ⟨grid2, hg2, -, hs2, hl2, -⟩ := generateIncrements_spec b b1 d.dt z' _ r.2 (draws_irrelevant hr z')
      rw [hg] at hg'; injection hg' with hg'; subst hg'
      rw [(euler_spec d.coords _ 0 y0).1, List.length_zip, hl, hl2, Nat.min_self, hs'.1]

/-- C116. Paths do not look ahead: draws that agree on the first `n` steps give the same first `n` steps of the path, for every
drift and diffusion. -/
theorem C116_adapted {p : Nat} (d d1 d2 : Diffusion p) (b b1 b2 : BrownianMotion p) (x0 : Vec p) (s1 s2 : Bool)
    (z1 z2 : Nat → Vec p) (p1 p2 : List (Vec p)) (h1 : d.generatePath b x0 s1 z1 = (.ok p1, d1, b1))
    (h2 : d.generatePath b x0 s2 z2 = (.ok p2, d2, b2)) (n : Nat) (hz : ∀ j, j < n → z1 j = z2 j) :
    p1.take (n + 1) = p2.take (n + 1) := by
  obtain ⟨g1, t1, a1, a2, -, -, a3, a4, a5⟩ := C45_euler d d1 b b1 x0 s1 z1 p1 h1
  obtain ⟨g2, t2, c1, c2, -, -, c3, c4, c5⟩ := C45_euler d d2 b b2 x0 s2 z2 p2 h2
  rw [a1] at c1; injection c1 with c1; subst c1
  have := steps_unique a2 c2; subst this
  have hl := a2.1
  have key : ∀ k, k ≤ n → ∀ (e1 : k < p1.length) (e2 : k < p2.length), p1[k] = p2[k] := by
    intro k
    induction k with
    | zero =>
      intro _ e1 e2
      rw [List.head?_eq_getElem?, List.getElem?_eq_getElem e1] at a4
      rw [List.head?_eq_getElem?, List.getElem?_eq_getElem e2] at c4
      rw [Option.some.inj a4, Option.some.inj c4]
    | succ k ih =>
      intro hk e1 e2
      have hk' : k < t1.length := by omega
      rw [a5 k hk' e1, c5 k hk' e2, ih (by omega) (by omega) (by omega)]
      have : shock b.chol z1 t1 k hk' = shock b.chol z2 t1 k hk' := by
        unfold shock; rw [hz k (by omega)]
      rw [this]
  apply List.ext_getElem
  · simp only [List.length_take]; omega
  · intro k e1 e2
    simp only [List.length_take] at e1 e2
    rw [List.getElem_take, List.getElem_take]
    exact key k (by omega) (by omega) (by omega)

/-- C116. Brownian paths are linear in the draws: a combination of two draws gives the same combination of the two paths.  With
`a = -1` and `c = 0` this is the antithetic path. -/
theorem C116_superposition {p : Nat} (b b1 b2 b3 : BrownianMotion p) (dt : DtIncrement) (s1 s2 s3 : Bool) (z1 z2 : Nat → Vec p)
    (a c : ℝ) (p1 p2 p3 : List (Vec p)) (h1 : b.generatePath dt s1 z1 = (.ok p1, b1)) (h2 : b.generatePath dt s2 z2 = (.ok p2, b2))
    (h3 : b.generatePath dt s3 (fun k i => a * z1 k i + c * z2 k i) = (.ok p3, b3)) :
    p3.length = p1.length ∧ p2.length = p1.length ∧
    ∀ k (e1 : k < p1.length) (e2 : k < p2.length) (e3 : k < p3.length) (i : Fin p), p3[k] i = a * p1[k] i + c * p2[k] i := by
  obtain ⟨g1, t1, q1, q2, -, -, q3, q4, q5⟩ := C45_brownian b b1 dt s1 z1 p1 h1
  obtain ⟨g2, t2, r1, r2, -, -, r3, r4, r5⟩ := C45_brownian b b2 dt s2 z2 p2 h2
  obtain ⟨g3, t3, u1, u2, -, -, u3, u4, u5⟩ := C45_brownian b b3 dt s3 _ p3 h3
  rw [q1] at r1; injection r1 with r1; subst r1
  rw [q1] at u1; injection u1 with u1; subst u1
  have := steps_unique q2 r2; subst this
  have := steps_unique q2 u2; subst this
  have hl := q2.1
  refine ⟨by omega, by omega, fun k => ?_⟩
  induction k with
  | zero =>
    intro e1 e2 e3 i
    rw [List.head?_eq_getElem?, List.getElem?_eq_getElem e1] at q4
    rw [List.head?_eq_getElem?, List.getElem?_eq_getElem e2] at r4
    rw [List.head?_eq_getElem?, List.getElem?_eq_getElem e3] at u4
    rw [Option.some.inj q4, Option.some.inj r4, Option.some.inj u4]
    ring
  | succ k ih =>
    intro e1 e2 e3 i
    have hk' : k < t1.length := by omega
    rw [q5 k hk' e1, r5 k hk' e2, u5 k hk' e3]
    dsimp only
    rw [ih (by omega) (by omega) (by omega) i]
    have : shock b.chol (fun k i => a * z1 k i + c * z2 k i) t1 k hk' i =
        a * shock b.chol z1 t1 k hk' i + c * shock b.chol z2 t1 k hk' i := by
      unfold shock
      rw [Finset.mul_sum, Finset.mul_sum, ← Finset.sum_add_distrib]
      exact Finset.sum_congr rfl fun j _ => by ring
    rw [this]
    ring

/-- C116. Without diffusion a path does not depend on the draws; with a constant drift it is then the straight line of that slope,
in time elapsed on the day-count axis. -/
theorem C116_no_noise {p : Nat} (d d' : Diffusion p) (b b' : BrownianMotion p) (x0 : Vec p) (set : Bool) (z : Nat → Vec p)
    (path : List (Vec p)) (h : d.generatePath b x0 set z = (.ok path, d', b'))
    (hσ : ∀ i t x j, (d.coords i).diffusion t x j = 0) :
    (∀ (z' : Nat → Vec p) (path' : List (Vec p)) (d'' : Diffusion p) (b'' : BrownianMotion p),
      d.generatePath b x0 set z' = (.ok path', d'', b'') → path' = path) ∧
    (∀ c : Vec p, (∀ i t x, (d.coords i).drift t x = c i) → ∀ grid dts, BrownianMotion.makeGrid b.start b.stop d.dt = .ok grid →
      StepLengths b.dcc grid dts → ∀ k (hk : k < path.length) (i : Fin p), path[k] i = x0 i + c i * elapsed dts k) := by
  obtain ⟨g1, t1, a1, a2, -, -, a3, a4, a5⟩ := C45_euler d d' b b' x0 set z path h
  have hl := a2.1
  constructor
  · intro z' path' d'' b'' h2
    obtain ⟨g2, t2, c1, c2, -, -, c3, c4, c5⟩ := C45_euler d d'' b b'' x0 set z' path' h2
    rw [a1] at c1; injection c1 with c1; subst c1
    have := steps_unique a2 c2; subst this
    have key : ∀ k (e1 : k < path.length) (e2 : k < path'.length), path'[k] = path[k] := by
      intro k
      induction k with
      | zero =>
        intro e1 e2
        rw [List.head?_eq_getElem?, List.getElem?_eq_getElem e1] at a4
        rw [List.head?_eq_getElem?, List.getElem?_eq_getElem e2] at c4
        rw [Option.some.inj a4, Option.some.inj c4]
      | succ k ih =>
        intro e1 e2
        have hk' : k < t1.length := by omega
        rw [a5 k hk' e1, c5 k hk' e2, ih (by omega) (by omega)]
        simp only [hσ, zero_mul, Finset.sum_const_zero, add_zero]
    apply List.ext_getElem
    · omega
    · intro k e1 e2
      exact key k (by omega) (by omega)
  · intro c hc grid dts hg hs k
    rw [a1] at hg; injection hg with hg; subst hg
    have := steps_unique a2 hs; subst this
    induction k with
    | zero =>
      intro e1 i
      rw [List.head?_eq_getElem?, List.getElem?_eq_getElem e1] at a4
      rw [Option.some.inj a4]
      simp [elapsed]
    | succ k ih =>
      intro e1 i
      have hk' : k < t1.length := by omega
      rw [a5 k hk' e1]
      simp only [hσ, zero_mul, Finset.sum_const_zero, add_zero, hc]
      rw [ih (by omega) i]
      have : elapsed t1 (k + 1) = elapsed t1 k + t1[k] := by
        unfold elapsed
        rw [List.take_add_one, List.getElem?_eq_getElem hk', List.sum_append]
        simp
      rw [this]
      push_cast
      ring

/-- C116. Geometric paths are linear in the starting values: scaling the start scales the path, whatever its parameters. -/
theorem C116_geometric_start {p : Nat} (mu sigma : ℝ) (b b1 b2 : BrownianMotion p) (dt : DtIncrement) (x0 y0 : Vec p)
    (z : Nat → Vec p) (p1 p2 : List (Vec p)) (h1 : Geometric.generatePath mu sigma b dt x0 z = (.ok p1, b1))
    (h2 : Geometric.generatePath mu sigma b dt y0 z = (.ok p2, b2)) (i : Fin p) (c : ℝ) (hc : y0 i = c * x0 i) :
    p2.length = p1.length ∧ ∀ k (e1 : k < p1.length) (e2 : k < p2.length), p2[k] i = c * p1[k] i := by
  obtain ⟨g1, t1, a1, a2, a3, w1, a4, a5⟩ := C59_product mu sigma b b1 dt x0 z p1 h1
  obtain ⟨g2, t2, c1, c2, c3, w2, c4, c5⟩ := C59_product mu sigma b b2 dt y0 z p2 h2
  rw [a1] at c1; injection c1 with c1; subst c1
  have := steps_unique a2 c2; subst this
  refine ⟨by omega, fun k e1 e2 => ?_⟩
  have hl := a2.1
  rw [a5 k e1 i, c5 k e2 i, hc, mul_assoc]
  congr 2
  apply Finset.prod_congr rfl
  intro j hj
  have hj' : j < t1.length := by have := Finset.mem_range.1 hj; omega
  rw [a4 j hj', c4 j hj']

variable {θ k σ : ℝ} {v : Vasicek}

/-- C116. Two Vasicek simulations with the same draws from different starting rates differ by exactly the product of the factors
`1 - k·dt` of the steps taken. -/
theorem C116_vasicek_start (h : MadeVasicek θ k σ v) (hf : Forward v.core.process.dt) (hle : v.core.bm.start ≤ v.core.bm.stop)
    (x0 y0 : Vec 1) (z : Nat → Vec 1) (v1 v2 : Vasicek) (h1 : v.generatePath x0 true z = (.ok (), v1))
    (h2 : v.generatePath y0 true z = (.ok (), v2)) :
    ∃ grid dts, BrownianMotion.makeGrid v.core.bm.start v.core.bm.stop v.core.process.dt = .ok grid ∧
      StepLengths v.core.bm.dcc grid dts ∧ ∀ n (hn : n < grid.length), ∃ r s : ℝ, v1.call grid[n] = .ok r ∧ v2.call grid[n] = .ok s ∧
        r - s = (x0 0 - y0 0) * ∏ j ∈ range n, (1 - k * (dts.getD j 0 : ℝ)) := by
  obtain ⟨g1, t1, r1, a1, a2, a3, a4, -, a5, a6⟩ := C47_simulated h hf hle x0 z v1 h1
  obtain ⟨g2, t2, r2, c1, c2, c3, c4, -, c5, c6⟩ := C47_simulated h hf hle y0 z v2 h2
  rw [a1] at c1; injection c1 with c1; subst c1
  have := steps_unique a2 c2; subst this
  have hl := a2.1
  refine ⟨g1, t1, a1, a2, fun n hn => ⟨_, _, a6 n hn (by omega), c6 n hn (by omega), ?_⟩⟩
  induction n with
  | zero =>
    rw [List.head?_eq_getElem?, List.getElem?_eq_getElem (by omega)] at a4 c4
    rw [Option.some.inj a4, Option.some.inj c4]
    simp
  | succ n ih =>
    have hn' : n < t1.length := by omega
    rw [a5 n hn' (by omega), c5 n hn' (by omega), Finset.prod_range_succ, ← mul_assoc, ← ih (by omega),
      List.getD_eq_getElem?_getD, List.getElem?_eq_getElem hn', Option.getD_some]
    ring

/-- C116. Comparison: of two Vasicek simulations with the same draws, speed, volatility and clock, the one with the higher (or
equal) start and mean is never below the other, provided each step is at most the reversion time `1/k`. -/
theorem C116_vasicek_compare {θ' : ℝ} {w : Vasicek} (h : MadeVasicek θ k σ v) (h' : MadeVasicek θ' k σ w) (hk : 0 < k)
    (hb : w.core.bm.start = v.core.bm.start ∧ w.core.bm.stop = v.core.bm.stop ∧ w.core.bm.dcc = v.core.bm.dcc ∧
      w.core.bm.chol = v.core.bm.chol ∧ w.core.process.dt = v.core.process.dt)
    (hd : v.core.bm.dcc ≠ .thirty360)
    (hf : Forward v.core.process.dt) (hle : v.core.bm.start ≤ v.core.bm.stop)
    (x0 y0 : Vec 1) (hxy : x0 0 ≤ y0 0) (hθ : θ ≤ θ') (z : Nat → Vec 1) (v1 w1 : Vasicek)
    (h1 : v.generatePath x0 true z = (.ok (), v1)) (h2 : w.generatePath y0 true z = (.ok (), w1)) :
    ∃ grid dts, BrownianMotion.makeGrid v.core.bm.start v.core.bm.stop v.core.process.dt = .ok grid ∧
      StepLengths v.core.bm.dcc grid dts ∧ ((∀ j (hj : j < dts.length), k * dts[j] ≤ 1) →
        ∀ n (hn : n < grid.length), ∃ r s : ℝ, v1.call grid[n] = .ok r ∧ w1.call grid[n] = .ok s ∧ r ≤ s) := by
  obtain ⟨e1, e2, e3, e4, e5⟩ := hb
  obtain ⟨g1, t1, r1, a1, a2, a3, a4, -, a5, a6⟩ := C47_simulated h hf hle x0 z v1 h1
  obtain ⟨g2, t2, r2, c1, c2, c3, c4, -, c5, c6⟩ := C47_simulated h' (by rw [e5]; exact hf) (by rw [e1, e2]; exact hle) y0 z w1 h2
  rw [e1, e2, e5, a1] at c1; injection c1 with c1; subst c1
  rw [e3] at c2
  have := steps_unique a2 c2; subst this
  have hl := a2.1
  obtain ⟨-, -, hinc, -⟩ := C55_grid v.core.bm.start v.core.bm.stop _ hf hle g1 a1
  refine ⟨g1, t1, a1, a2, fun hsmall n hn => ⟨_, _, a6 n hn (by omega), c6 n hn (by omega), ?_⟩⟩
  induction n with
  | zero =>
    rw [List.head?_eq_getElem?, List.getElem?_eq_getElem (by omega)] at a4 c4
    rw [Option.some.inj a4, Option.some.inj c4]
    exact hxy
  | succ n ih =>
    have hn' : n < t1.length := by omega
    have ih := ih (by omega)
    have hp : (0 : ℝ) < t1[n] := by exact_mod_cast steps_pos hd hinc a2 n hn'
    have hs := hsmall n hn'
    rw [a5 n hn' (by omega), c5 n hn' (by omega), e4]
    have i1 : 0 ≤ (r2[n] - r1[n]) * (1 - k * (t1[n] : ℝ)) := mul_nonneg (by linarith) (by linarith)
    have i2 : 0 ≤ k * (θ' - θ) * (t1[n] : ℝ) := mul_nonneg (mul_nonneg hk.le (by linarith)) hp.le
    nlinarith

/-- Concrete case for C116: on the three-day grid every draw of a Brownian motion and every geometric path is generated. -/
example (b : BrownianMotion 2) (x0 : Vec 2) (set : Bool) (z : Nat → Vec 2) (mu sigma : ℝ)
    (h1 : b.start = T 2024 2 28) (h2 : b.stop = T 2024 3 1) (h4 : b.dcc = .actAct) :
    (∃ path b', b.generatePath (.timedelta 86400000000) set z = (.ok path, b')) ∧
    (∃ path b', Geometric.generatePath mu sigma b (.timedelta 86400000000) x0 z = (.ok path, b')) := by
  have := generateIncrements_total b (.timedelta 86400000000) z [T 2024 2 28, T 2024 2 29, T 2024 3 1] [1 / 366, 1 / 366]
    (by rw [h1, h2]; decide +kernel) (by rw [h4]; decide +kernel)
  unfold BrownianMotion.generatePath Geometric.generatePath
  rw [this]
  exact ⟨⟨_, _, rfl⟩, ⟨_, _, rfl⟩⟩

/-- Concrete case for C116: two Vasicek models with means of 5% and 6%, started at 2% and 3%, with the same draws. -/
example (z : Nat → Vec 1) : ∃ v w v1 w1 : Vasicek, MadeVasicek (1 / 20) (1 / 2) (1 / 100) v ∧ MadeVasicek (3 / 50) (1 / 2) (1 / 100) w ∧
    (w.core.bm.start = v.core.bm.start ∧ w.core.bm.stop = v.core.bm.stop ∧ w.core.bm.dcc = v.core.bm.dcc ∧
      w.core.bm.chol = v.core.bm.chol ∧ w.core.process.dt = v.core.process.dt) ∧ v.core.bm.dcc ≠ .thirty360 ∧
    Forward v.core.process.dt ∧ v.core.bm.start ≤ v.core.bm.stop ∧
    v.generatePath (fun _ => 1 / 50) true z = (.ok (), v1) ∧ w.generatePath (fun _ => 3 / 100) true z = (.ok (), w1) ∧
    ∀ grid dts, BrownianMotion.makeGrid v.core.bm.start v.core.bm.stop v.core.process.dt = .ok grid →
      StepLengths v.core.bm.dcc grid dts → dts.length = 2 ∧ ∀ j (hj : j < dts.length), (1 / 2 : ℝ) * dts[j] ≤ 1 := by
  let bm : BrownianMotion 1 := ⟨T 2023 1 1, T 2023 1 3, fun _ _ => 1, .act365, none, none⟩
  let dt : DtIncrement := .timedelta 86400000000
  have hc : ∀ θ : ℝ, ∃ v, Vasicek.create θ (1 / 2) (1 / 100) bm dt 0 = .ok v ∧ v.core.bm = bm ∧ v.core.process.dt = dt := by
    intro θ
    unfold Vasicek.create
    rw [floatDiv_of_ne (by norm_num)]
    exact ⟨_, rfl, rfl, rfl⟩
  obtain ⟨v, hv, hb, hdt⟩ := hc (1 / 20)
  obtain ⟨w, hw, hb', hdt'⟩ := hc (3 / 50)
  have hgrid : BrownianMotion.makeGrid bm.start bm.stop dt = .ok [T 2023 1 1, T 2023 1 2, T 2023 1 3] := by decide +kernel
  have hsteps : BrownianMotion.accruals bm.dcc [T 2023 1 1, T 2023 1 2, T 2023 1 3] = .ok [1 / 365, 1 / 365] := by decide +kernel
  have hgen : ∀ (u : Vasicek), u.core.bm = bm → u.core.process.dt = dt → ∀ x, ∃ v', u.generatePath x true z = (.ok (), v') := by
    intro u e1 e2 x
    unfold Vasicek.generatePath ShortRateModel.generatePath Diffusion.generatePath
    rw [e1, e2, generateIncrements_total bm dt _ _ _ hgrid hsteps]
    exact ⟨_, rfl⟩
  obtain ⟨v1, hv1⟩ := hgen v hb hdt (fun _ => 1 / 50)
  obtain ⟨w1, hw1⟩ := hgen w hb' hdt' (fun _ => 3 / 100)
  refine ⟨v, w, v1, w1, ⟨bm, dt, 0, v, [], hv, rfl⟩, ⟨bm, dt, 0, w, [], hw, rfl⟩, ?_, ?_, ?_, ?_, hv1, hw1, ?_⟩
  · rw [hb, hb', hdt, hdt']; exact ⟨rfl, rfl, rfl, rfl, rfl⟩
  · rw [hb]; decide
  · rw [hdt]; norm_num [Forward, dt]
  · rw [hb]; decide +kernel
  · rw [hb, hdt]
    intro grid dts hg hs
    rw [hgrid] at hg
    injection hg with hg
    subst hg
    have e := steps_unique hs (d2 := [1 / 365, 1 / 365]) ⟨rfl, by
      intro j h0 h1 h2
      have hj : j = 0 ∨ j = 1 := by simp at h0; omega
      rcases hj with rfl | rfl
      · show dtAccrual (T 2023 1 1) (T 2023 1 2) .act365 = .ok (1 / 365)
        decide +kernel
      · show dtAccrual (T 2023 1 2) (T 2023 1 3) .act365 = .ok (1 / 365)
        decide +kernel⟩
    subst e
    refine ⟨rfl, fun j hj => ?_⟩
    have hj : j = 0 ∨ j = 1 := by simp at hj; omega
    rcases hj with rfl | rfl <;> norm_num

end Verif.Props
