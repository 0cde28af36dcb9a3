/- Properties of simulation grids and paths: C44, C45, C55-C59. -/
import Verif.Lemmas.Datetime
import Verif.Lemmas.PyList
import Verif.Props.DayCount

namespace Verif.Props
open Verif Verif.Spec Verif.DayCount Finset

/-! ## C55: the simulation grid -/

theorem chain_lt {inc : DtIncrement} (hinc : DtGrid.Advances inc) {l : List PyDatetime}
    (h : List.IsChain (fun x y => DtGrid.addIncrement x inc = .ok y) l) : l.Pairwise (· < ·) := by
  rw [← List.isChain_iff_pairwise]
  exact h.imp (fun x y hxy => hinc x y hxy)

/-- C55. With a positive step and a start not after the end, the grid starts at the start, ends at the end and is strictly
increasing; all steps but the last are the increment, and the last is at most the increment unless the cap of 1 000 001 dates
was reached. -/
theorem C55_grid (start stop : PyDatetime) (dt : DtIncrement) (hf : Forward dt) (hle : start ≤ stop) (grid : List PyDatetime)
    (h : BrownianMotion.makeGrid start stop dt = .ok grid) :
    grid.head? = some start ∧ grid.getLast? = some stop ∧ grid.Pairwise (· < ·) ∧
      (∀ k (h2 : k + 2 < grid.length), DtGrid.addIncrement grid[k] dt = .ok grid[k + 1]) ∧
      (∀ k (h2 : k + 2 = grid.length), grid.length ≤ 1000001 → ∃ y, DtGrid.addIncrement grid[k] dt = .ok y ∧ stop ≤ y) := by
  have hadv := DtGrid.advances_of_forward hf
  unfold BrownianMotion.makeGrid at h
  rw [bind_ok] at h; obtain ⟨dates, hd, h⟩ := h
  unfold DtGrid.generate at hd
  rw [bind_ok] at hd; obtain ⟨b, hb, hd⟩ := hd
  rw [DtGrid.isPositive_of_forward hf hb] at hd
  obtain ⟨h1, h2, h3, h4, h5⟩ := DtGrid.loop_spec hd
  rw [if_pos ⟨by omega, hle⟩] at h4
  have hp := chain_lt hadv h3
  have hget : ∀ k (hk : k + 1 < dates.length), DtGrid.addIncrement dates[k] dt = .ok dates[k + 1] :=
    List.isChain_iff_getElem.1 h3
  unfold BrownianMotion.closeGrid at h
  cases hl : dates.getLast? with
  | none =>
    rw [List.getLast?_eq_none_iff] at hl
    rw [hl] at h4; cases h4
  | some last =>
    rw [hl] at h
    injection h with h
    have hne : dates ≠ [] := by rintro rfl; cases hl
    have hlast : dates.getLast hne = last := by
      rw [List.getLast?_eq_getLast_of_ne_nil hne] at hl
      injection hl
    have hmem : last ∈ dates := by rw [← hlast]; exact List.getLast_mem hne
    by_cases hc : last < stop
    · rw [if_pos hc] at h
      subst h
      refine ⟨?_, by simp, ?_, ?_, ?_⟩
      · cases dates with
        | nil => exact absurd rfl hne
        | cons a l => exact h4
      · rw [List.pairwise_append]
        refine ⟨hp, by simp, ?_⟩
        intro a ha b hb
        rw [List.mem_singleton] at hb
        subst hb
        refine lt_of_le_of_lt ?_ hc
        rw [← List.dropLast_append_getLast hne, hlast] at ha hp
        rcases List.mem_append.1 ha with ha | ha
        · exact le_of_lt ((List.pairwise_append.1 hp).2.2 a ha _ (by simp))
        · rw [List.mem_singleton] at ha; exact le_of_eq ha
      · intro k hk
        have hk' : k + 1 < dates.length := by simp at hk; omega
        rw [List.getElem_append_left (by omega), List.getElem_append_left hk']
        exact hget k hk'
      · intro k hk hcap
        have hk' : k + 1 = dates.length := by simp at hk; omega
        rw [List.getElem_append_left (by omega)]
        have : dates[k]'(by omega) = last := by
          rw [← hlast, List.getLast_eq_getElem]
          congr 1; omega
        rw [this]
        obtain ⟨y, hy, hlt⟩ := h5 last hl (by simp at hcap; omega)
        exact ⟨y, hy, le_of_lt hlt⟩
    · rw [if_neg hc] at h
      subst h
      have heq : last = stop := le_antisymm (h2 last hmem) (not_lt.1 hc)
      subst heq
      refine ⟨h4, hl, hp, fun k hk => hget k (by omega), ?_⟩
      intro k hk hcap
      refine ⟨_, hget k (by omega), le_of_eq ?_⟩
      rw [← hlast, List.getLast_eq_getElem]
      congr 1; omega

/-- C55. A start after the end gives no grid: IndexError, provided one step from the start exists (OverflowError otherwise). -/
theorem C55_wrong_order (start stop : PyDatetime) (dt : DtIncrement) (hf : Forward dt) (hlt : stop < start) :
    (∀ grid, BrownianMotion.makeGrid start stop dt ≠ .ok grid) ∧
    (∀ x, DtGrid.addIncrement start dt = .ok x → BrownianMotion.makeGrid start stop dt = .error .indexError) := by
  constructor
  swap
  · intro x hx
    have hp : ∃ b, DtGrid.isPositive start dt = .ok b := by
      cases dt with
      | timedelta k => exact ⟨_, rfl⟩
      | relativedelta m k => exact ⟨_, by simp only [DtGrid.isPositive, hx, ok_bind]; rfl⟩
    obtain ⟨b, hb⟩ := hp
    unfold BrownianMotion.makeGrid DtGrid.generate
    rw [hb, ok_bind, DtGrid.isPositive_of_forward hf hb]
    have : DtGrid.incrementLoop dt true stop (1000000 + 1) start = .ok [] := by
      rw [DtGrid.incrementLoop]
      simp only [if_true]
      rw [if_neg (not_le.2 hlt)]
    rw [this]
    rfl
  intro grid h
  unfold BrownianMotion.makeGrid at h
  rw [bind_ok] at h; obtain ⟨dates, hd, h⟩ := h
  unfold DtGrid.generate at hd
  rw [bind_ok] at hd; obtain ⟨b, hb, hd⟩ := hd
  rw [DtGrid.isPositive_of_forward hf hb] at hd
  obtain ⟨-, -, -, h4, -⟩ := DtGrid.loop_spec hd
  rw [if_neg (by rintro ⟨-, hc⟩; exact absurd hlt (not_lt.2 hc))] at h4
  rw [List.head?_eq_none_iff] at h4
  subst h4
  simp [BrownianMotion.closeGrid] at h

/-- The datetime at midnight plus a number of microseconds. -/
def T (y m d : Int) (h : validYMD y m d = true := by decide) (micros : Int := 0)
    (hb : 0 ≤ micros ∧ micros < 86400000000 := by decide) : PyDatetime := ⟨⟨y, m, d, h⟩, micros, hb⟩

/-- Concrete case for C55: two and a half days in steps of one day. -/
example : Forward (.relativedelta 0 86400000000) ∧ T 2024 2 28 ≤ T 2024 3 1 (micros := 43200000000) ∧
    BrownianMotion.makeGrid (T 2024 2 28) (T 2024 3 1 (micros := 43200000000)) (.relativedelta 0 86400000000) =
      .ok [T 2024 2 28, T 2024 2 29, T 2024 3 1, T 2024 3 1 (micros := 43200000000)] := by
  refine ⟨⟨by norm_num, by norm_num, by norm_num⟩, by decide +kernel, by decide +kernel⟩

/-! ## C45: paths -/

theorem pairs_length (l : List PyDatetime) : (BrownianMotion.pairs l).length = l.length - 1 := by
  match l with
  | [] => rfl
  | [_] => rfl
  | a :: b :: rest =>
    have := pairs_length (b :: rest)
    simp [BrownianMotion.pairs] at this ⊢
    omega

theorem pairs_get (l : List PyDatetime) (k : Nat) (hk : k + 1 < l.length) :
    (BrownianMotion.pairs l)[k]'(by rw [pairs_length]; omega) = (l[k], l[k + 1]) := by
  match l, k, hk with
  | a :: b :: rest, 0, _ => simp [BrownianMotion.pairs]
  | a :: b :: rest, k + 1, hk =>
    have := pairs_get (b :: rest) k (by simpa using hk)
    simp only [BrownianMotion.pairs, List.getElem_cons_succ]
    rw [this]
    simp

theorem accruals_spec {dcc : DayCountConvention} {grid : List PyDatetime} {dts : List ℚ} (hne : grid ≠ [])
    (h : BrownianMotion.accruals dcc grid = .ok dts) : StepLengths dcc grid dts := by
  unfold BrownianMotion.accruals at h
  have hl := collect_length h
  rw [pairs_length] at hl
  have h0 : 0 < grid.length := List.length_pos_iff.2 hne
  refine ⟨by omega, ?_⟩
  intro k hk h0 h1
  rw [collect_ok, List.forall₂_iff_get] at h
  have := h.2 k (by rw [pairs_length]; omega) hk
  simp only [List.get_eq_getElem] at this
  rw [pairs_get grid k h1] at this
  exact this

theorem increments_spec {p : Nat} (chol : Fin p → Fin p → ℝ) (normals : Nat → Vec p) (dts : List ℚ) (n : Nat) :
    (BrownianMotion.increments chol normals n dts).length = dts.length ∧
    ∀ k (h : k < dts.length) (h' : k < (BrownianMotion.increments chol normals n dts).length),
      (BrownianMotion.increments chol normals n dts)[k] = BrownianMotion.increment chol (normals (n + k)) dts[k] := by
  induction dts generalizing n with
  | nil => simp [BrownianMotion.increments]
  | cons dt dts ih =>
    obtain ⟨h1, h2⟩ := ih (n + 1)
    refine ⟨by simp [BrownianMotion.increments, h1], ?_⟩
    intro k h h'
    cases k with
    | zero => rfl
    | succ k =>
      simp only [BrownianMotion.increments, List.getElem_cons_succ]
      rw [h2 k (by simpa using h) (by rw [h1]; simpa using h)]
      congr 2; omega

/-- What `generate_increments` returns and stores. -/
theorem generateIncrements_spec {p : Nat} (b b' : BrownianMotion p) (dt : DtIncrement) (normals : Nat → Vec p)
    (incs : List (Vec p)) (dts : List ℚ) (h : b.generateIncrements dt normals = (.ok (incs, dts), b')) :
    ∃ grid, BrownianMotion.makeGrid b.start b.stop dt = .ok grid ∧ b' = { b with grid := some grid } ∧
      StepLengths b.dcc grid dts ∧ incs.length = dts.length ∧
      ∀ k (h1 : k < dts.length) (h2 : k < incs.length), incs[k] = shock b.chol normals dts k h1 := by
  unfold BrownianMotion.generateIncrements at h
  split at h
  · simp at h
  · next dates hd =>
    split at h
    · simp at h
    · next grid hg =>
      split at h
      · simp at h
      · next dts' ha =>
        simp only [Prod.mk.injEq, Except.ok.injEq] at h
        obtain ⟨⟨h1, h2⟩, h3⟩ := h
        subst h2
        have hne : grid ≠ [] := by
          unfold BrownianMotion.closeGrid at hg
          split at hg
          · cases hg
          · next last hl =>
            injection hg with hg
            rw [← hg]
            have : dates ≠ [] := by rintro rfl; cases hl
            split <;> simp [this]
        obtain ⟨i1, i2⟩ := increments_spec b.chol normals dts' 0
        refine ⟨grid, ?_, h3.symm, accruals_spec hne ha, by rw [← h1, i1], ?_⟩
        · unfold BrownianMotion.makeGrid
          rw [hd, ok_bind, hg]
        · intro k hk1 hk2
          subst h1
          rw [i2 k hk1 hk2, zero_add]
          rfl

theorem cumulate_spec {p : Nat} (x : Vec p) (l : List (Vec p)) :
    (BrownianMotion.cumulate x l).length = l.length + 1 ∧ (BrownianMotion.cumulate x l).head? = some x ∧
    ∀ k (h : k < l.length) (h1 : k + 1 < (BrownianMotion.cumulate x l).length),
      (BrownianMotion.cumulate x l)[k + 1] = fun i => (BrownianMotion.cumulate x l)[k] i + l[k] i := by
  induction l generalizing x with
  | nil => simp [BrownianMotion.cumulate]
  | cons d l ih =>
    obtain ⟨h1, h2, h3⟩ := ih (fun i => x i + d i)
    refine ⟨by simp [BrownianMotion.cumulate, h1], rfl, ?_⟩
    intro k h hk
    cases k with
    | zero =>
      simp only [BrownianMotion.cumulate, List.getElem_cons_succ, List.getElem_cons_zero]
      rw [List.head?_eq_getElem?, List.getElem?_eq_getElem (by rw [h1]; omega)] at h2
      injection h2
    | succ k =>
      simp only [BrownianMotion.cumulate, List.getElem_cons_succ]
      rw [h3 k (by simpa using h) (by rw [h1]; simp at h; omega)]
      rfl

/-- C45. A generated Brownian path has one column per grid datetime, starts at zero, and its steps are the correlated normals
scaled by the root of the step length; the object remembers the grid, and the path if asked to. -/
theorem C45_brownian {p : Nat} (b b' : BrownianMotion p) (dt : DtIncrement) (set : Bool) (normals : Nat → Vec p)
    (path : List (Vec p)) (h : b.generatePath dt set normals = (.ok path, b')) :
    ∃ grid dts, BrownianMotion.makeGrid b.start b.stop dt = .ok grid ∧ StepLengths b.dcc grid dts ∧
      b'.grid = some grid ∧ b'.path = (if set then some path else b.path) ∧ path.length = grid.length ∧
      path.head? = some (fun _ => 0) ∧
      ∀ k (h1 : k < dts.length) (h2 : k + 1 < path.length),
        path[k + 1] = fun i => path[k] i + shock b.chol normals dts k h1 i := by
  unfold BrownianMotion.generatePath at h
  split at h
  · simp at h
  · next r b1 hr =>
    obtain ⟨incs, dts⟩ := r
    obtain ⟨grid, hg, hb, hs, hlen, hinc⟩ := generateIncrements_spec b b1 dt normals incs dts hr
    simp only [Prod.mk.injEq, Except.ok.injEq] at h
    obtain ⟨hp, hb'⟩ := h
    obtain ⟨c1, c2, c3⟩ := cumulate_spec (fun _ => (0 : ℝ)) incs
    rw [hp] at c1 c2 hb'
    refine ⟨grid, dts, hg, hs, ?_, ?_, by rw [c1, hlen, hs.1], c2, ?_⟩
    · rw [← hb', hb]; split <;> rfl
    · rw [← hb', hb]; split <;> simp_all
    · subst hp
      intro k h1 h2
      rw [c3 k (by omega) h2, hinc k h1 (by omega)]

theorem euler_spec {p : Nat} (coords : Fin p → DriftDiffusion p) (l : List (Vec p × ℚ)) (t : ℝ) (x : Vec p) :
    (Diffusion.euler coords l t x).length = l.length + 1 ∧ (Diffusion.euler coords l t x).head? = some x ∧
    ∀ k (h : k < l.length) (h1 : k + 1 < (Diffusion.euler coords l t x).length),
      (Diffusion.euler coords l t x)[k + 1] =
        Diffusion.step coords (t + (((l.take k).map Prod.snd).sum : ℚ)) ((Diffusion.euler coords l t x)[k]) l[k].1 l[k].2 := by
  induction l generalizing t x with
  | nil => simp [Diffusion.euler]
  | cons s l ih =>
    obtain ⟨shock, dt⟩ := s
    obtain ⟨h1, h2, h3⟩ := ih (t + dt) (Diffusion.step coords t x shock dt)
    refine ⟨by simp [Diffusion.euler, h1], rfl, ?_⟩
    intro k h hk
    cases k with
    | zero =>
      simp only [Diffusion.euler, List.getElem_cons_succ, List.getElem_cons_zero]
      rw [List.head?_eq_getElem?, List.getElem?_eq_getElem (by rw [h1]; omega)] at h2
      injection h2 with h2
      rw [h2]
      simp
    | succ k =>
      simp only [Diffusion.euler, List.getElem_cons_succ]
      rw [h3 k (by simpa using h) (by rw [h1]; simp at h; omega)]
      congr 1
      simp only [List.take_succ_cons, List.map_cons, List.sum_cons]
      push_cast
      ring

/-- C45. A path generated by a diffusion process has one column per grid datetime, starts at the given value, and each step adds
drift times step length plus diffusion times increment, both evaluated at the previous time and state. -/
theorem C45_euler {p : Nat} (d d' : Diffusion p) (b b' : BrownianMotion p) (x0 : Vec p) (set : Bool) (normals : Nat → Vec p)
    (path : List (Vec p)) (h : d.generatePath b x0 set normals = (.ok path, d', b')) :
    ∃ grid dts, BrownianMotion.makeGrid b.start b.stop d.dt = .ok grid ∧ StepLengths b.dcc grid dts ∧
      b' = { b with grid := some grid } ∧ d' = (if set then { d with path := some path } else d) ∧
      path.length = grid.length ∧ path.head? = some x0 ∧
      ∀ k (h1 : k < dts.length) (h2 : k + 1 < path.length),
        path[k + 1] = fun i => path[k] i + ((d.coords i).drift (elapsed dts k) path[k] * dts[k] +
          ∑ j, (d.coords i).diffusion (elapsed dts k) path[k] j * shock b.chol normals dts k h1 j) := by
  unfold Diffusion.generatePath at h
  split at h
  · simp at h
  · next r b1 hr =>
    obtain ⟨incs, dts⟩ := r
    obtain ⟨grid, hg, hb, hs, hlen, hinc⟩ := generateIncrements_spec b b1 d.dt normals incs dts hr
    simp only [Prod.mk.injEq, Except.ok.injEq] at h
    obtain ⟨hp, hd', hb'⟩ := h
    obtain ⟨c1, c2, c3⟩ := euler_spec d.coords (incs.zip dts) 0 x0
    rw [hp] at hd'
    refine ⟨grid, dts, hg, hs, by rw [← hb', hb], hd'.symm, ?_, by rw [← hp]; exact c2, ?_⟩
    · rw [← hp, c1, List.length_zip, hlen, min_self, hs.1]
    · subst hp
      intro k h1 h2
      have hk : k < (incs.zip dts).length := by rw [List.length_zip]; omega
      rw [c3 k hk h2]
      have h4 : (incs.zip dts)[k] = (incs[k]'(by omega), dts[k]) := List.getElem_zip
      have h5 : ((incs.zip dts).take k).map Prod.snd = dts.take k := by
        rw [List.map_take, List.map_snd_zip (by omega)]
      rw [h4, h5]
      funext i
      simp only [Diffusion.step, zero_add]
      rw [hinc k h1 (by omega)]
      rfl

/-- Generation succeeds whenever the grid can be made and its accruals computed. -/
theorem generateIncrements_total {p : Nat} (b : BrownianMotion p) (dt : DtIncrement) (normals : Nat → Vec p)
    (grid : List PyDatetime) (dts : List ℚ) (hg : BrownianMotion.makeGrid b.start b.stop dt = .ok grid)
    (ha : BrownianMotion.accruals b.dcc grid = .ok dts) :
    b.generateIncrements dt normals = (.ok (BrownianMotion.increments b.chol normals 0 dts, dts), { b with grid := some grid }) := by
  unfold BrownianMotion.makeGrid at hg
  rw [bind_ok] at hg; obtain ⟨dates, hd, hg⟩ := hg
  unfold BrownianMotion.generateIncrements
  rw [hd]
  simp only
  rw [hg]
  simp only
  rw [ha]

/-- C45. Path generation fails only where the grid or its accruals do. -/
theorem C45_succeeds {p : Nat} (d : Diffusion p) (b : BrownianMotion p) (x0 : Vec p) (set : Bool) (normals : Nat → Vec p)
    (grid : List PyDatetime) (dts : List ℚ) (hg : BrownianMotion.makeGrid b.start b.stop d.dt = .ok grid)
    (ha : BrownianMotion.accruals b.dcc grid = .ok dts) :
    ∃ path d' b', d.generatePath b x0 set normals = (.ok path, d', b') := by
  unfold Diffusion.generatePath
  rw [generateIncrements_total b d.dt normals grid dts hg ha]
  exact ⟨_, _, _, rfl⟩

/-- Concrete case for C45, C56 and C58: every draw gives a path on the three-day grid. -/
example (d : Diffusion 2) (b : BrownianMotion 2) (x0 : Vec 2) (set : Bool) (normals : Nat → Vec 2)
    (h1 : b.start = T 2024 2 28) (h2 : b.stop = T 2024 3 1) (h3 : d.dt = .timedelta 86400000000) (h4 : b.dcc = .actAct) :
    ∃ path d' b', d.generatePath b x0 set normals = (.ok path, d', b') :=
  C45_succeeds d b x0 set normals [T 2024 2 28, T 2024 2 29, T 2024 3 1] [1 / 366, 1 / 366]
    (by rw [h1, h2, h3]; decide +kernel) (by rw [h4]; decide +kernel)

end Verif.Props
