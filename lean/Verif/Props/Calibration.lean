/- C70-C72: calibration dictionaries, their setters, and the factorized calibrator. -/
import Verif.Props.ThreeFactor
import Verif.Model.Calibrator

namespace Verif.Props
open Verif.Spec (Forward StepLengths shock)
open Verif.Spec.Multi Verif.Spec.MeanReverting Verif.Multi Matrix MeasureTheory

theorem item_ok {l : List ℝ} {i : Nat} {a : ℝ} : Doubly.item l i = .ok a ↔ l[i]? = some a := by
  unfold Doubly.item
  cases h : l[i]? <;> simp

/-- The parameters a dictionary stands for: the first five volatility entries and the first shape entry. -/
def DictParams (d : CalibrationDict) (q : DoublyParams) : Prop :=
  (∃ rest, d.volatility = q.longSpeed :: q.longVol :: q.shortSpeed :: q.shortVol :: q.correlation :: rest) ∧ ∃ rest, d.shape = q.mean :: rest

theorem paramsOf_ok {d : CalibrationDict} {q : DoublyParams} : Doubly.paramsOf d = .ok q ↔ DictParams d q := by
  unfold Doubly.paramsOf DictParams
  constructor
  · intro h
    rw [bind_ok] at h; obtain ⟨a, ha, h⟩ := h
    rw [bind_ok] at h; obtain ⟨b, hb, h⟩ := h
    rw [bind_ok] at h; obtain ⟨c, hc, h⟩ := h
    rw [bind_ok] at h; obtain ⟨e, he, h⟩ := h
    rw [bind_ok] at h; obtain ⟨f, hf, h⟩ := h
    rw [bind_ok] at h; obtain ⟨g, hg, h⟩ := h
    injection h with h
    subst h
    rw [item_ok] at ha hb hc he hf hg
    constructor
    · match hl : d.volatility with
      | [] | [_] | [_, _] | [_, _, _] | [_, _, _, _] => rw [hl] at hf; simp at hf
      | x0 :: x1 :: x2 :: x3 :: x4 :: rest =>
        rw [hl] at ha hb hc he hf
        simp at ha hb hc he hf
        subst ha hb hc he hf
        exact ⟨rest, rfl⟩
    · match hl : d.shape with
      | [] => rw [hl] at hg; simp at hg
      | x :: rest =>
        rw [hl] at hg
        simp at hg
        subst hg
        exact ⟨rest, rfl⟩
  · rintro ⟨⟨r1, h1⟩, r2, h2⟩
    rw [h1, h2]
    simp [Doubly.item]

theorem paramsOf_error {d : CalibrationDict} (h : ¬ ∃ q, DictParams d q) : Doubly.paramsOf d = .error .indexError := by
  have hall : ∀ l i, Doubly.item l i = .error .indexError ∨ ∃ a, Doubly.item l i = .ok a := by
    intro l i
    unfold Doubly.item
    cases l[i]? <;> simp
  rcases hr : Doubly.paramsOf d with e | q
  · unfold Doubly.paramsOf at hr
    rcases hall d.volatility 0 with h0 | ⟨_, h0⟩ <;> rw [h0] at hr
    · injection hr with hr; rw [← hr]
    rw [ok_bind] at hr
    rcases hall d.volatility 1 with h0 | ⟨_, h0⟩ <;> rw [h0] at hr
    · injection hr with hr; rw [← hr]
    rw [ok_bind] at hr
    rcases hall d.volatility 2 with h0 | ⟨_, h0⟩ <;> rw [h0] at hr
    · injection hr with hr; rw [← hr]
    rw [ok_bind] at hr
    rcases hall d.volatility 3 with h0 | ⟨_, h0⟩ <;> rw [h0] at hr
    · injection hr with hr; rw [← hr]
    rw [ok_bind] at hr
    rcases hall d.volatility 4 with h0 | ⟨_, h0⟩ <;> rw [h0] at hr
    · injection hr with hr; rw [← hr]
    rw [ok_bind] at hr
    rcases hall d.shape 0 with h0 | ⟨_, h0⟩ <;> rw [h0] at hr
    · injection hr with hr; rw [← hr]
    rw [ok_bind] at hr
    exact absurd hr (by simp)
  · exact absurd ⟨q, paramsOf_ok.1 hr⟩ h

/-- A dictionary is turned into a model with its parameters. -/
theorem fromDict_ok {d : CalibrationDict} {start stop : PyDatetime} {dt : DtIncrement} {e : Eig 2} {garbage : Vec 2} {normals : Nat → Vec 2}
    {w : Doubly} (h : Doubly.fromDict d start stop dt e garbage normals = .ok w) :
    ∃ q v0, DictParams d q ∧ Doubly.create q start stop dt e garbage = .ok v0 ∧
      v0.base.generatePathFrom d.stateVariables true normals = (.ok (), w.base) ∧ w = { v0 with base := w.base } := by
  unfold Doubly.fromDict at h
  rw [bind_ok] at h
  obtain ⟨q, hq, h⟩ := h
  rw [bind_ok] at h
  obtain ⟨v0, hv, h⟩ := h
  simp only at h
  rw [bind_ok] at h
  obtain ⟨u, hu, h⟩ := h
  injection h with h
  refine ⟨q, v0, paramsOf_ok.1 hq, hv, ?_, ?_⟩
  · rw [← h, ← hu]
  · rw [← h]

theorem generateFrom_foldl {v : MultiVasicek 2} {xs : List ℝ} {normals : Nat → Vec 2} {w : MultiVasicek 2}
    (h : v.generatePathFrom xs true normals = (.ok (), w)) :
    ∃ x, broadcast xs = some x ∧ v.generatePath x true normals = (.ok (), w) := by
  unfold MultiVasicek.generatePathFrom at h
  split at h
  · exact ⟨_, by assumption, h⟩
  · split at h
    · simp at h
    · simp at h

/-- C70. A model made from a dictionary has the dictionary's parameters (in the documented order), and its path starts at the dictionary's
state variables. -/
theorem C70_from_dict (d : CalibrationDict) (start stop : PyDatetime) (dt : DtIncrement) (e : Eig 2) (garbage : Vec 2) (normals : Nat → Vec 2)
    (w : Doubly) (h : Doubly.fromDict d start stop dt e garbage normals = .ok w) :
    ∃ q, DictParams d q ∧ w.pars = q ∧ BuiltDoubly q w ∧
      (Diagonalizes (Doubly.reversion q) e.values e.vectors e.inverse → MadeDoubly q w) ∧
      w.base.core.bm.start = start ∧ w.base.core.bm.stop = stop ∧ w.base.core.process.dt = dt ∧
      ∀ R0 r0, d.stateVariables = [R0, r0] → Forward dt → start ≤ stop → w.base.state start = .ok ![R0, r0] := by
  obtain ⟨q, v0, hq, hv, hg, hw⟩ := fromDict_ok h
  obtain ⟨x, hx, hg⟩ := generateFrom_foldl hg
  have hgen : (v0.generatePath x true normals).2 = w := by
    unfold Doubly.generatePath
    simp only
    rw [hg, hw]
  have hpars : v0.pars = q ∧ v0.base.core.bm.start = start ∧ v0.base.core.bm.stop = stop ∧ v0.base.core.process.dt = dt := by
    unfold Doubly.create at hv
    rw [bind_ok] at hv
    obtain ⟨_, -, hv⟩ := hv
    injection hv with hv
    rw [← hv]
    exact ⟨rfl, rfl, rfl, rfl⟩
  have hk := shortRate_generate_bm v0.base.core x true normals
  have hgc : (v0.base.core.generatePath x true normals).2 = w.base.core := by
    have := congrArg Prod.snd hg
    unfold MultiVasicek.generatePath at this
    simp only at this
    rw [← this]
  rw [hgc] at hk
  refine ⟨q, hq, ?_, ⟨start, stop, dt, e, garbage, v0, [(x, true, normals)], hv, ?_⟩, ?_, hk.2.2.1.trans hpars.2.1, hk.2.2.2.1.trans hpars.2.2.1,
    hk.2.2.2.2.trans hpars.2.2.2, ?_⟩
  · rw [hw]; exact hpars.1
  · simp only [List.foldl_cons, List.foldl_nil]; rw [hgen]
  · intro hd
    refine ⟨start, stop, dt, e, garbage, v0, [(x, true, normals)], hv, hd, ?_⟩
    simp only [List.foldl_cons, List.foldl_nil]; rw [hgen]
  · intro R0 r0 hs hf hle
    have hx' : x = ![R0, r0] := by
      rw [hs] at hx
      unfold broadcast at hx
      rw [dif_pos (by simp)] at hx
      injection hx with hx
      rw [← hx]
      funext i
      fin_cases i <;> rfl
    have hb : BuiltDoubly q v0 := ⟨start, stop, dt, e, garbage, v0, [], hv, rfl⟩
    obtain ⟨S, -, hm, -, -⟩ := hb.multi
    obtain ⟨grid, dts, xs, e1, e2, e3, e4, e5, e6, e7, e8⟩ := multi_simulated hm (by rw [hpars.2.2.2]; exact hf)
      (by rw [hpars.2.1, hpars.2.2.1]; exact hle) x normals _ hg
    have hhead : grid.head? = some start := by
      exact (C55_grid start stop dt hf hle grid (by rw [← hpars.2.1, ← hpars.2.2.1, ← hpars.2.2.2]; exact e1)).1
    have hpos : 0 < grid.length := by
      cases grid with
      | nil => simp at hhead
      | cons a l => simp
    have hxl : 0 < xs.length := e3 ▸ hpos
    have h0 : grid[0] = start := by
      rw [List.head?_eq_getElem?, List.getElem?_eq_getElem hpos] at hhead
      exact Option.some.inj hhead
    have hx0 : xs[0] = x := by
      rw [List.head?_eq_getElem?, List.getElem?_eq_getElem hxl] at e4
      exact Option.some.inj e4
    have := (e7 0 hpos hxl).1
    rw [h0, hx0, hx'] at this
    exact this

/-- C70. A dictionary with fewer than five volatility entries or no shape entry is refused (IndexError). -/
theorem C70_refused (d : CalibrationDict) (h : d.volatility.length < 5 ∨ d.shape = []) (start stop : PyDatetime) (dt : DtIncrement) (e : Eig 2)
    (garbage : Vec 2) (normals : Nat → Vec 2) : Doubly.fromDict d start stop dt e garbage normals = .error .indexError := by
  unfold Doubly.fromDict
  rw [paramsOf_error]
  · rfl
  · rintro ⟨q, ⟨r, h1⟩, r', h2⟩
    rcases h with h | h
    · rw [h1] at h; simp only [List.length_cons] at h; omega
    · rw [h2] at h; simp at h

theorem builtDoubly_dict {q : DoublyParams} {v : Doubly} (h : BuiltDoubly q v) :
    v.pars = q ∧ ∃ garbage, v.dict = Doubly.makeDict q garbage ∧ v.starting = garbage := by
  obtain ⟨start, stop, dt, e, garbage, v0, ops, h0, rfl⟩ := h
  have hv0 : v0.pars = q ∧ ∃ garbage, v0.dict = Doubly.makeDict q garbage ∧ v0.starting = garbage := by
    unfold Doubly.create at h0
    rw [bind_ok] at h0
    obtain ⟨S, hS, h0⟩ := h0
    injection h0 with h0
    subst h0
    exact ⟨rfl, garbage, rfl, rfl⟩
  clear h0
  induction ops generalizing v0 with
  | nil => exact hv0
  | cons op ops ih => rw [List.foldl_cons]; apply ih; exact hv0

/-- Path generation succeeds once the grid and its accruals do. -/
theorem multi_generates {p : Nat} (v : MultiVasicek p) (x : Vec p) (normals : Nat → Vec p) (grid : List PyDatetime) (dts : List ℚ)
    (hg : BrownianMotion.makeGrid v.core.bm.start v.core.bm.stop v.core.process.dt = .ok grid)
    (ha : BrownianMotion.accruals v.core.bm.dcc grid = .ok dts) : ∃ v', v.generatePath x true normals = (.ok (), v') := by
  obtain ⟨path, d', b', hgen⟩ := C45_succeeds v.core.process v.core.bm x true normals _ _ hg ha
  obtain ⟨grid, dts, e1, e2, e3, e4, e5, e6, e7⟩ := C45_euler _ _ _ _ _ _ _ _ hgen
  unfold MultiVasicek.generatePath ShortRateModel.generatePath
  rw [hgen]
  rw [if_pos rfl] at e4
  have : d'.path = some path := by rw [e4]
  simp only [this]
  exact ⟨_, rfl⟩

/-- C70, round trip: giving a model's dictionary, with the wanted state variables, back to `from_volatility_shape_parameters` succeeds and
yields a model with the same parameters, on the new dates. -/
theorem C70_round_trip (q : DoublyParams) (v : Doubly) (h : BuiltDoubly q v) (R0 r0 : ℝ) (start stop : PyDatetime) (dt : DtIncrement) (e : Eig 2)
    (garbage : Vec 2) (normals : Nat → Vec 2) (grid : List PyDatetime) (dts : List ℚ)
    (hg : BrownianMotion.makeGrid start stop dt = .ok grid) (ha : BrownianMotion.accruals .actAct grid = .ok dts) :
    ∃ w, Doubly.fromDict { v.dict with stateVariables := [R0, r0] } start stop dt e garbage normals = .ok w ∧ w.pars = q ∧ BuiltDoubly q w ∧
      w.dict.volatility = v.dict.volatility ∧ w.dict.shape = v.dict.shape := by
  obtain ⟨-, g0, hd, -⟩ := builtDoubly_dict h
  obtain ⟨S, hS, -⟩ := h.multi
  obtain ⟨v0, hv0, hp⟩ := (C68_doubly_constructor q start stop dt e garbage).1 ((cholesky2_exists q).1 ⟨S, hS⟩)
  have hparams : Doubly.paramsOf { v.dict with stateVariables := [R0, r0] } = .ok q := by
    rw [paramsOf_ok, hd]
    exact ⟨⟨[], rfl⟩, [], rfl⟩
  have hb : v0.base.core.bm.start = start ∧ v0.base.core.bm.stop = stop ∧ v0.base.core.process.dt = dt ∧ v0.base.core.bm.dcc = .actAct ∧
      v0.dict = Doubly.makeDict q garbage := by
    unfold Doubly.create at hv0
    rw [bind_ok] at hv0
    obtain ⟨_, -, hv0⟩ := hv0
    injection hv0 with hv0
    subst hv0
    exact ⟨rfl, rfl, rfl, rfl, rfl⟩
  obtain ⟨w, hw⟩ := multi_generates v0.base ![R0, r0] normals grid dts (by rw [hb.1, hb.2.1, hb.2.2.1]; exact hg) (by rw [hb.2.2.2.1]; exact ha)
  have hx : broadcast (p := 2) [R0, r0] = some ![R0, r0] := by
    unfold broadcast
    rw [dif_pos (by simp)]
    congr 1
    funext i
    fin_cases i <;> rfl
  have hf : Doubly.fromDict { v.dict with stateVariables := [R0, r0] } start stop dt e garbage normals = .ok { v0 with base := w } := by
    unfold Doubly.fromDict
    rw [hparams, ok_bind, hv0, ok_bind]
    unfold MultiVasicek.generatePathFrom
    simp only [hx, hw]
    rfl
  refine ⟨_, hf, hp, ?_, ?_, ?_⟩
  · obtain ⟨q', hq', -, hb', -⟩ := C70_from_dict _ _ _ _ _ _ _ _ hf
    have : q' = q := by
      have h1 := paramsOf_ok.2 hq'
      rw [hparams] at h1
      injection h1 with h1
      exact h1.symm
    rwa [this] at hb'
  · simp only; rw [hb.2.2.2.2, hd]; rfl
  · simp only; rw [hb.2.2.2.2, hd]; rfl

/-- C70 fails for the state variables: the dictionary of the model made from `d` does not contain those of `d` but whatever was in memory,
so that a model made from ITS dictionary starts somewhere else. -/
theorem C70_state_variables_false (d : CalibrationDict) (start stop : PyDatetime) (dt : DtIncrement) (e e' : Eig 2) (garbage garbage' : Vec 2)
    (normals : Nat → Vec 2) (w w' : Doubly) (h : Doubly.fromDict d start stop dt e garbage normals = .ok w)
    (h' : Doubly.fromDict w.dict start stop dt e' garbage' normals = .ok w') (hf : Forward dt) (hle : start ≤ stop) :
    w.dict.stateVariables = [garbage 0, garbage 1] ∧ w'.base.state start = .ok garbage := by
  obtain ⟨q, v0, hq, hv, hg, hw⟩ := fromDict_ok h
  have hdict : w.dict.stateVariables = [garbage 0, garbage 1] := by
    rw [hw]
    unfold Doubly.create at hv
    rw [bind_ok] at hv
    obtain ⟨_, -, hv⟩ := hv
    injection hv with hv
    subst hv
    simp [Doubly.makeDict, List.ofFn_succ]
  refine ⟨hdict, ?_⟩
  obtain ⟨_, -, -, -, -, -, -, -, hs⟩ := C70_from_dict _ _ _ _ _ _ _ _ h'
  rw [hs _ _ hdict hf hle]
  congr 1
  funext i
  fin_cases i <;> rfl

/-- Concrete case for C70: the model of `doubly_concrete` on three days of 2023. -/
example : ∃ (q : DoublyParams) (v : Doubly), BuiltDoubly q v ∧
    BrownianMotion.makeGrid (T 2023 1 1) (T 2023 1 3) (.timedelta 86400000000) = .ok [T 2023 1 1, T 2023 1 2, T 2023 1 3] ∧
    BrownianMotion.accruals .actAct [T 2023 1 1, T 2023 1 2, T 2023 1 3] = .ok [1 / 365, 1 / 365] := by
  obtain ⟨v, v', h, -⟩ := doubly_concrete ⟨2, 1, 1, 1, 1, 0⟩ (by norm_num) (by norm_num) (by norm_num) (by norm_num) 0 0 (fun _ => 0)
  exact ⟨_, v, h.built, by decide +kernel, by decide +kernel⟩

/-! ## The setters -/

/-- C71 for the doubly mean-reverting model: the three setters copy the dictionary into the model's attributes ... -/
theorem C71_doubly_setters_partial (v : Doubly) (q : DoublyParams) (a b : ℝ) (h : DictParams v.dict q) (hs : v.dict.stateVariables = [a, b]) :
    ∃ v1 v2 v3, v.setVolatilityFromDict = (.ok (), v1) ∧ v1.setShapeFromDict = (.ok (), v2) ∧ v2.setStateVariablesFromDict = (.ok (), v3) ∧
      v3.pars = q ∧ v3.starting = ![a, b] ∧ v3.dict = v.dict ∧ v3.base = v.base := by
  obtain ⟨⟨r1, h1⟩, r2, h2⟩ := h
  obtain ⟨pars, st, d, base⟩ := v
  simp only at h1 h2 hs
  refine ⟨⟨{ q with mean := pars.mean }, st, d, base⟩, ⟨q, st, d, base⟩, ⟨q, ![a, b], d, base⟩, ?_, ?_, ?_, rfl, rfl, rfl, rfl⟩
  · unfold Doubly.setVolatilityFromDict
    simp only [h1]
  · unfold Doubly.setShapeFromDict
    simp only [h2]
  · unfold Doubly.setStateVariablesFromDict
    simp only [hs]

/-- C71 for the doubly mean-reverting model: ... but nothing else changes: every price, yield, forward rate, volatility, path and state is
that of the OLD parameters, since they come from the reversion matrix and volatility computed by the constructor. -/
theorem C71_doubly_setters_false (v : Doubly) (r1 r2 r3 : Except PyErr Unit) (v1 v2 v3 : Doubly) (h1 : v.setVolatilityFromDict = (r1, v1))
    (h2 : v1.setShapeFromDict = (r2, v2)) (h3 : v2.setStateVariablesFromDict = (r3, v3)) : v3.base = v.base := by
  have e1 : v1.base = v.base := by
    unfold Doubly.setVolatilityFromDict at h1
    split at h1 <;> (injection h1 with _ h1; rw [← h1])
  have e2 : v2.base = v1.base := by
    unfold Doubly.setShapeFromDict at h2
    split at h2 <;> (injection h2 with _ h2; rw [← h2])
  have e3 : v3.base = v2.base := by
    unfold Doubly.setStateVariablesFromDict at h3
    split at h3 <;> (injection h3 with _ h3; rw [← h3])
  rw [e3, e2, e1]

/-- C71 for the one-factor model: the setters for volatility and shape copy the dictionary into the model's attributes. -/
theorem C71_vasicek_setters_partial (v : Vasicek) (σ k θ : ℝ) (rest rest' : List ℝ) (hv : v.params.volatility = σ :: k :: rest)
    (hs : v.params.shape = θ :: rest') :
    ∃ v1 v2, v.setVolatilityFromDict = (.ok (), v1) ∧ v1.setShapeFromDict = (.ok (), v2) ∧
      v2.vol = σ ∧ v2.speed = k ∧ v2.mean = θ ∧ v2.core = v.core ∧ v2.convexityLimit = v.convexityLimit := by
  obtain ⟨mean, speed, vol, cl, core, params, ssr⟩ := v
  simp only at hv hs
  refine ⟨⟨mean, k, σ, cl, core, params, ssr⟩, ⟨θ, k, σ, cl, core, params, ssr⟩, ?_, ?_, rfl, rfl, rfl, rfl, rfl⟩
  · unfold Vasicek.setVolatilityFromDict
    simp only [hv]
  · unfold Vasicek.setShapeFromDict
    simp only [hs]

/-- C71 for the one-factor model: the dictionary of a new model holds its own parameters, so running the setters on it leaves the
volatility, the reversion speed and the reversion level unchanged. -/
theorem C71_vasicek_own_dictionary (θ k σ garbage : ℝ) (bm : BrownianMotion 1) (dt : DtIncrement) (v : Vasicek)
    (h : Vasicek.create θ k σ bm dt garbage = .ok v) :
    ∃ v1 v2, v.setVolatilityFromDict = (.ok (), v1) ∧ v1.setShapeFromDict = (.ok (), v2) ∧ v2 = v ∧ v.vol = σ ∧ v.speed = k ∧ v.mean = θ := by
  unfold Vasicek.create at h
  rw [bind_ok] at h
  obtain ⟨c, -, h⟩ := h
  injection h with h
  subst h
  exact ⟨_, _, rfl, rfl, rfl, rfl, rfl, rfl⟩

/-- The state-variable setter of the one-factor model sets the starting rate to the mean-reversion LEVEL, whatever the state variables. -/
theorem C71_vasicek_state_false (v : Vasicek) (θ : ℝ) (rest : List ℝ) (hs : v.params.shape = θ :: rest) :
    ∃ v1, v.setStateVariablesFromDict = (.ok (), v1) ∧ v1.startingShortRate = some θ := by
  obtain ⟨mean, speed, vol, cl, core, params, ssr⟩ := v
  simp only at hs
  refine ⟨⟨mean, speed, vol, cl, core, params, some θ⟩, ?_, rfl⟩
  unfold Vasicek.setStateVariablesFromDict
  simp only [hs]

theorem vB_add_ne {k T : ℝ} (hk : k ≠ 0) (hT : 0 < T) : vB k T + T ≠ 0 := by
  have hx : -k * T ≠ 0 := mul_ne_zero (neg_ne_zero.2 hk) hT.ne'
  have h1 := Real.add_one_lt_exp hx
  intro h
  unfold vB at h
  have h2 : -(1 - Real.exp (-k * T)) + T * k = 0 := by
    have := congrArg (· * k) h
    simp only [zero_mul, add_mul, div_mul_cancel₀ _ hk] at this
    exact this
  nlinarith

/-- C71 fails for the one-factor model: after the setters its prices are those of a model constructed with the new parameters only if the
two have the same ratio of volatility to reversion speed (the convexity term is not recomputed). -/
theorem C71_vasicek_prices_false (θ k σ θ' k' σ' : ℝ) (v v0 v1 v2 w : Vasicek) (h : MadeVasicek θ k σ v) (hw : MadeVasicek θ' k' σ' w)
    (s : List ℝ) (hd : v0 = { v with params := ⟨[σ', k'], [θ'], s⟩ }) (h1 : v0.setVolatilityFromDict = (.ok (), v1))
    (h2 : v1.setShapeFromDict = (.ok (), v2)) (maturity : PyDatetime) (T : ℚ) (hT : 0 < T) (r : ℝ)
    (hv : v.time v.core.bm.start maturity = .ok T) (hwt : w.time w.core.bm.start maturity = .ok T)
    (hr : v.call v.core.bm.start = .ok r) (hwr : w.call w.core.bm.start = .ok r) :
    v2.zeroCouponBondPrice maturity none = w.zeroCouponBondPrice maturity none ↔ σ ^ 2 / k ^ 2 = σ' ^ 2 / k' ^ 2 := by
  obtain ⟨e1, e2, e3, hk, e4⟩ := h.params
  have hk' := hw.params.2.2.2.1
  subst hd
  unfold Vasicek.setVolatilityFromDict at h1
  simp only at h1
  injection h1 with _ h1
  subst h1
  unfold Vasicek.setShapeFromDict at h2
  simp only at h2
  injection h2 with _ h2
  subst h2
  have hwp : w.zeroCouponBondPrice maturity none = .ok (Real.exp (vA k' θ' σ' T + vB k' T * r)) := by
    unfold Vasicek.zeroCouponBondPrice
    rw [priceCoeffs_eq hw maturity none T hwt, ok_bind, show w.purchase none = w.core.bm.start from rfl, hwr, ok_bind]
  have hT' : (0 : ℝ) < T := by exact_mod_cast hT
  have hne := vB_add_ne hk' hT'
  rw [hwp]
  unfold Vasicek.zeroCouponBondPrice Vasicek.priceCoeffs Vasicek.time Vasicek.purchase Vasicek.call
  unfold Vasicek.time at hv
  unfold Vasicek.call at hr
  simp only [Option.getD_none]
  rw [hv, ok_bind, floatDiv_of_ne hk', ok_bind, floatDiv_of_ne (by simpa using hk'), ok_bind, ok_bind, hr, ok_bind, e4]
  rw [show ((-(1 - Real.exp (-k' * (T : ℝ)))) / k') = vB k' T from rfl]
  constructor
  · intro he
    injection he with he
    have he := Real.exp_injective he
    simp only [vA] at he
    have h3 : (σ' ^ 2 / k' ^ 2 - σ ^ 2 / k ^ 2) * (vB k' T + T) = 0 := by
      have a1 : -σ ^ 2 / (2 * k ^ 2) = -(1 / 2) * (σ ^ 2 / k ^ 2) := by ring
      have a2 : -σ' ^ 2 / (2 * k' ^ 2) = -(1 / 2) * (σ' ^ 2 / k' ^ 2) := by ring
      rw [a1, a2] at he
      linear_combination (-2) * he
    rcases mul_eq_zero.1 h3 with h3 | h3
    · linarith
    · exact absurd h3 hne
  · intro he
    refine congrArg Except.ok (congrArg Real.exp ?_)
    simp only [vA]
    have a1 : -σ ^ 2 / (2 * k ^ 2) = -σ' ^ 2 / (2 * k' ^ 2) := by
      have a1 : -σ ^ 2 / (2 * k ^ 2) = -(1 / 2) * (σ ^ 2 / k ^ 2) := by ring
      rw [a1, he]; ring
    rw [a1]

/-- Concrete case for C71: two one-factor models on three days, one of which is given the parameters of the other; the price is wrong. -/
example : ∃ v v0 v1 v2 w, MadeVasicek 1 1 0 v ∧ MadeVasicek 1 1 1 w ∧ v0 = { v with params := ⟨[1, 1], [1], []⟩ } ∧
    v0.setVolatilityFromDict = (.ok (), v1) ∧ v1.setShapeFromDict = (.ok (), v2) ∧ v2.vol = 1 ∧
    v2.zeroCouponBondPrice (T 2023 1 3) none ≠ w.zeroCouponBondPrice (T 2023 1 3) none := by
  obtain ⟨v, a1, a2, a3, a4, a5, a6, a7⟩ := vasicek_concrete 1 1 0 1 one_ne_zero
    { start := T 2023 1 1, stop := T 2023 1 3, chol := fun _ _ => 1, dcc := .act365, grid := none, path := none } rfl rfl rfl
    (fun _ _ => 0)
  obtain ⟨w, b1, b2, b3, b4, b5, b6, b7⟩ := vasicek_concrete 1 1 1 1 one_ne_zero
    { start := T 2023 1 1, stop := T 2023 1 3, chol := fun _ _ => 1, dcc := .act365, grid := none, path := none } rfl rfl rfl
    (fun _ _ => 0)
  obtain ⟨v1, v2, c1, c2, c3, c4, c5, -⟩ := C71_vasicek_setters_partial { v with params := ⟨[1, 1], [1], []⟩ } 1 1 1 [] [] rfl rfl
  refine ⟨v, _, v1, v2, w, a1, b1, rfl, c1, c2, c3, ?_⟩
  rw [Ne, C71_vasicek_prices_false 1 1 0 1 1 1 v _ v1 v2 w a1 b1 [] rfl c1 c2 (T 2023 1 3) (2 / 365) (by norm_num) 1 (by rw [a2]; exact a5)
    (by rw [b2]; exact b5) (by rw [a2]; exact a4) (by rw [b2]; exact b4)]
  norm_num

/-- Concrete case for C71: a doubly mean-reverting model whose dictionary is edited; its attributes change and its reversion matrix, from
which everything is computed, does not. -/
example : ∃ (v v1 v2 v3 : Doubly), BuiltDoubly ⟨2, 1, 1, 1, 1, 0⟩ v ∧
    ({ v with dict := Doubly.makeDict ⟨5, 4, 3, 2, 1, 0⟩ ![6, 7] } : Doubly).setVolatilityFromDict = (.ok (), v1) ∧
    v1.setShapeFromDict = (.ok (), v2) ∧ v2.setStateVariablesFromDict = (.ok (), v3) ∧ v3.pars.shortSpeed = 5 ∧
    v3.base.reversion = Doubly.reversion ⟨2, 1, 1, 1, 1, 0⟩ := by
  obtain ⟨v, v', h, -⟩ := doubly_concrete ⟨2, 1, 1, 1, 1, 0⟩ (by norm_num) (by norm_num) (by norm_num) (by norm_num) 0 0 (fun _ => 0)
  obtain ⟨v1, v2, v3, c1, c2, c3, c4, c5, c6, c7⟩ := C71_doubly_setters_partial { v with dict := Doubly.makeDict ⟨5, 4, 3, 2, 1, 0⟩ ![6, 7] }
    ⟨5, 4, 3, 2, 1, 0⟩ 6 7 ⟨⟨[], rfl⟩, [], rfl⟩ (by simp [Doubly.makeDict, List.ofFn_succ])
  refine ⟨v, v1, v2, v3, h.built, c1, c2, c3, by rw [c4], ?_⟩
  rw [c7]
  exact (h.multi (by norm_num) (by norm_num)).choose_spec.2.1.params.2.2.2.1

/-! ## The calibrator -/

theorem accruals_imported (c : Calibrator) (hi : c.imported = true) (inputs : List CalibrationInput) (hne : inputs ≠ []) (m : CalibrationTarget) :
    c.accruals inputs m = .error .nameError := by
  cases inputs with
  | nil => exact absurd rfl hne
  | cons a l =>
    unfold Calibrator.accruals collect
    rw [if_pos hi]
    rfl

theorem new_inputs (vols prices : List CalibrationInput) (b : Bool) :
    ((Calibrator.new vols prices b).volatilityInputs = [] ↔ vols = []) ∧ ((Calibrator.new vols prices b).priceInputs = [] ↔ prices = []) := by
  have key : ∀ l : List CalibrationInput, pySorted (fun c : CalibrationInput => c.maturity) l = [] ↔ l = [] := by
    intro l
    constructor
    · intro h
      have := (pySorted_perm (fun c : CalibrationInput => c.maturity) l).length_eq
      rw [h] at this
      exact List.length_eq_zero_iff.1 this.symm
    · rintro rfl; rfl
  exact ⟨key vols, key prices⟩

/-- C72 fails: in the imported module, calibrating to any volatilities is a NameError, and calibrating to any prices never succeeds. -/
theorem C72_imported_false (vols prices : List CalibrationInput) (m : CalibrationTarget) (eig : Mat 2 → Eig 2) (garbage : Nat → Vec 2)
    (normals : Nat → Vec 2) (vp sp : List (List ℝ)) :
    (vols ≠ [] → (Calibrator.new vols prices true).calibrate m eig garbage normals vp sp = (.error .nameError, m.dict)) ∧
    (prices ≠ [] → ∀ w, ((Calibrator.new vols prices true).calibrate m eig garbage normals vp sp).1 ≠ .ok w) := by
  have hni := new_inputs vols prices true
  constructor
  · intro h
    unfold Calibrator.calibrate Calibrator.calibrateVolatility
    rw [accruals_imported _ rfl _ (fun e => h (hni.1.1 e))]
  · intro h w
    unfold Calibrator.calibrate
    split
    · simp
    · intro hw
      simp only at hw
      rw [bind_ok] at hw
      obtain ⟨f, -, hw⟩ := hw
      rw [bind_ok] at hw
      obtain ⟨u, hu, hw⟩ := hw
      unfold Calibrator.calibrateShape at hu
      rw [accruals_imported _ rfl _ (fun e => h (hni.2.1 e))] at hu
      simp at hu

theorem evaluate_volatility {c : Calibrator} {m : CalibrationTarget} {eig : Mat 2 → Eig 2} {normals : Nat → Vec 2} :
    ∀ (points : List (List ℝ)) (d d' : CalibrationDict) (hne : points ≠ []),
      Calibrator.evaluate (c.volatilityLoss m eig normals) points d = (.ok (), d') →
      d' = { d with volatility := points.getLast hne } ∧ ∀ x ∈ points, x.length = d.volatility.length := by
  intro points
  induction points with
  | nil => intro d d' hne; exact absurd rfl hne
  | cons x rest ih =>
    intro d d' hne h
    unfold Calibrator.evaluate at h
    split at h
    · simp at h
    · rename_i a d1 hl
      unfold Calibrator.volatilityLoss at hl
      split at hl
      · rename_i hlen
        injection hl with _ hl
        cases rest with
        | nil =>
          unfold Calibrator.evaluate at h
          injection h with _ h
          subst h hl
          exact ⟨rfl, by intro y hy; rw [List.mem_singleton] at hy; rw [hy, hlen]⟩
        | cons y rest =>
          obtain ⟨e1, e2⟩ := ih d1 d' (by simp) h
          subst hl
          refine ⟨by rw [e1]; rfl, ?_⟩
          intro z hz
          rcases List.mem_cons.1 hz with rfl | hz
          · exact hlen.symm
          · rw [e2 z hz]; exact hlen.symm
      · simp at hl

theorem evaluate_shape {c : Calibrator} {m : CalibrationTarget} {eig : Mat 2 → Eig 2} {normals : Nat → Vec 2} :
    ∀ (points : List (List ℝ)) (d d' : CalibrationDict) (hne : points ≠ []),
      Calibrator.evaluate (c.priceLoss m eig normals) points d = (.ok (), d') →
      d' = { d with shape := (points.getLast hne).take d.shape.length, stateVariables := (points.getLast hne).drop d.shape.length } ∧
        ∀ x ∈ points, x.length = d.shape.length + d.stateVariables.length := by
  intro points
  induction points with
  | nil => intro d d' hne; exact absurd rfl hne
  | cons x rest ih =>
    intro d d' hne h
    unfold Calibrator.evaluate at h
    split at h
    · simp at h
    · rename_i a d1 hl
      unfold Calibrator.priceLoss at hl
      split at hl
      · rename_i hlen
        injection hl with _ hl
        cases rest with
        | nil =>
          unfold Calibrator.evaluate at h
          injection h with _ h
          subst h hl
          exact ⟨rfl, by intro y hy; rw [List.mem_singleton] at hy; rw [hy, hlen]⟩
        | cons y rest =>
          obtain ⟨e1, e2⟩ := ih d1 d' (by simp) h
          subst hl
          have l1 : (x.take d.shape.length).length = d.shape.length := by rw [List.length_take]; omega
          have l2 : (x.drop d.shape.length).length = d.stateVariables.length := by rw [List.length_drop]; omega
          simp only [l1, l2] at e1 e2
          refine ⟨by rw [e1]; rfl, ?_⟩
          intro z hz
          rcases List.mem_cons.1 hz with rfl | hz
          · exact hlen.symm
          · exact e2 z hz
      · simp at hl

/-- C72. When a calibration succeeds: its parameters are those of the LAST points evaluated by the two searches -- the start if there is no
further one -- and what the searches returned is not used; the result lives on the given model's dates and step; the given model's
dictionary has been overwritten with the last volatility point. -/
theorem C72_last_evaluated_partial (c : Calibrator) (m : CalibrationTarget) (eig : Mat 2 → Eig 2) (garbage : Nat → Vec 2) (normals : Nat → Vec 2)
    (vp sp : List (List ℝ)) (w : Doubly) (d : CalibrationDict) (h : c.calibrate m eig garbage normals vp sp = (.ok w, d)) :
    ∃ rest R0 r0,
      (List.replicate m.dict.volatility.length (1 / 100) :: vp).getLast? =
        some (w.pars.longSpeed :: w.pars.longVol :: w.pars.shortSpeed :: w.pars.shortVol :: w.pars.correlation :: rest) ∧
      ([1 / 100, 1 / 100, 1 / 100] :: sp).getLast? = some [w.pars.mean, R0, r0] ∧
      d = { m.dict with
        volatility := w.pars.longSpeed :: w.pars.longVol :: w.pars.shortSpeed :: w.pars.shortVol :: w.pars.correlation :: rest } ∧
      w.base.core.bm.start = m.start ∧ w.base.core.bm.stop = m.stop ∧ w.base.core.process.dt = m.dt ∧ BuiltDoubly w.pars w ∧
      (Forward m.dt → m.start ≤ m.stop → w.base.state m.start = .ok ![R0, r0]) := by
  unfold Calibrator.calibrate at h
  split at h
  · simp at h
  · rename_i d0 hv
    injection h with h hd
    unfold Calibrator.calibrateVolatility at hv
    split at hv
    · simp at hv
    obtain ⟨e1, e2⟩ := evaluate_volatility _ _ _ (by simp) hv
    simp only at h
    rw [bind_ok] at h
    obtain ⟨f, hf, h⟩ := h
    rw [bind_ok] at h
    obtain ⟨u, hu, h⟩ := h
    unfold Calibrator.make at hf
    rw [bind_ok] at hf
    obtain ⟨q1, hq1, hf⟩ := hf
    have hfd := hf
    obtain ⟨q1', hq1', hp1, hb1, -⟩ := C70_from_dict _ _ _ _ _ _ _ _ hf
    obtain ⟨-, g1, hd1, -⟩ := builtDoubly_dict hb1
    have hqq : q1' = q1 := by
      have := paramsOf_ok.2 hq1'
      rw [hq1] at this
      injection this with this
      exact this.symm
    subst hqq
    generalize hr : c.calibrateShape _ eig normals sp = r at hu h
    obtain ⟨r1, r2⟩ := r
    simp only at hu h
    subst hu
    unfold Calibrator.calibrateShape at hr
    split at hr
    · simp at hr
    obtain ⟨i1, i2⟩ := evaluate_shape _ _ _ (by simp) hr
    unfold Calibrator.make at h
    rw [bind_ok] at h
    obtain ⟨q2, hq2, h⟩ := h
    obtain ⟨q2', hq2', hp2, hb2, -, s1, s2, s3, s4⟩ := C70_from_dict _ _ _ _ _ _ _ _ h
    simp only [hd1, Doubly.makeDict, List.length_cons, List.length_nil, List.length_ofFn, Calibrator.initial] at i1 i2
    simp only [show List.replicate (0 + 1 + 2) (1 / 100 : ℝ) = [1 / 100, 1 / 100, 1 / 100] from rfl] at i1 i2
    have hlast := List.getLast?_eq_some_getLast (l := ([1 / 100, 1 / 100, 1 / 100] : List ℝ) :: sp) (by simp)
    have hbl := i2 _ (List.getLast_mem (l := ([1 / 100, 1 / 100, 1 / 100] : List ℝ) :: sp) (by simp))
    generalize (([1 / 100, 1 / 100, 1 / 100] : List ℝ) :: sp).getLast _ = b at hlast hbl i1
    have hlast1 := List.getLast?_eq_some_getLast (l := Calibrator.initial m.dict.volatility.length :: vp) (by simp)
    generalize (Calibrator.initial m.dict.volatility.length :: vp).getLast _ = a at hlast1 e1
    match b, hbl with
    | [b0, b1, b2], _ =>
    obtain ⟨⟨ra, ha⟩, -⟩ := hq1'
    obtain ⟨⟨rb, hb⟩, rc, hc⟩ := hq2'
    rw [e1] at ha
    rw [i1] at hb hc s4
    simp only [List.cons.injEq, List.take_succ_cons] at ha hb hc
    obtain ⟨c1, c2, c3, c4, c5, -⟩ := hb
    refine ⟨ra, b1, b2, ?_, ?_, ?_, s1, s2, s3, ?_, ?_⟩
    · rw [show List.replicate m.dict.volatility.length (1 / 100) = Calibrator.initial m.dict.volatility.length from rfl, hlast1, ha, hp2, ← c1,
        ← c2, ← c3, ← c4, ← c5]
    · rw [hlast, hp2, hc.1]
    · rw [← hd, e1, ha, hp2, ← c1, ← c2, ← c3, ← c4, ← c5]
    · rw [hp2]; exact hb2
    · exact s4 b1 b2 rfl

theorem make_ok {d : CalibrationDict} {m : CalibrationTarget} {eig : Mat 2 → Eig 2} {g : Vec 2} {normals : Nat → Vec 2} {w : Doubly}
    (h : Calibrator.make d m eig g normals = .ok w) : DictParams d w.pars ∧ BuiltDoubly w.pars w ∧ w.base.core.bm.start = m.start ∧
      (∀ R0 r0, d.stateVariables = [R0, r0] → Forward m.dt → m.start ≤ m.stop → w.base.state m.start = .ok ![R0, r0]) := by
  unfold Calibrator.make at h
  rw [bind_ok] at h
  obtain ⟨q, hq, h⟩ := h
  obtain ⟨q', hq', hp, hb, -, h1, -, -, h4⟩ := C70_from_dict _ _ _ _ _ _ _ _ h
  rw [hp]
  exact ⟨hq', hb, h1, h4⟩

/-- The error in terms of the inputs as given: their order does not matter. -/
theorem error_eq (f : PyDatetime → Except PyErr ℝ) (inputs : List CalibrationInput) (ys : List ℝ)
    (h : collect (fun i : CalibrationInput => f i.maturity) (pySorted (fun c => c.maturity) inputs) = .ok ys) :
    ∃ pred : PyDatetime → ℝ, (∀ i ∈ inputs, f i.maturity = .ok (pred i.maturity)) ∧
      Calibrator.error ys (pySorted (fun c => c.maturity) inputs) = Real.sqrt ((inputs.map fun i => (pred i.maturity - i.value) ^ 2).sum) := by
  classical
  have hperm := pySorted_perm (fun c : CalibrationInput => c.maturity) inputs
  generalize pySorted (fun c : CalibrationInput => c.maturity) inputs = l at h hperm
  let pred : PyDatetime → ℝ := fun t => match f t with | .ok x => x | .error _ => 0
  have hpred : ∀ t x, f t = .ok x → pred t = x := by intro t x hx; simp only [pred, hx]
  have hall : ∀ i ∈ l, f i.maturity = .ok (pred i.maturity) := by
    intro i hi
    obtain ⟨b, hb⟩ := collect_ok_of_mem h i hi
    rw [hb, hpred _ _ hb]
  refine ⟨pred, fun i hi => hall i (hperm.mem_iff.2 hi), ?_⟩
  have hys : ys = l.map fun i => pred i.maturity := by
    rw [multi_collect (k := fun i : CalibrationInput => pred i.maturity) hall] at h
    injection h with h
    exact h.symm
  unfold Calibrator.error
  rw [hys, List.zip_map_left, List.map_map]
  congr 1
  have : ∀ l : List CalibrationInput, (l.zip l) = l.map fun i => (i, i) := by
    intro l
    induction l with
    | nil => rfl
    | cons a l ih => simp [ih]
  rw [this, List.map_map]
  exact ((hperm.map _).sum_eq)

/-- C72. What the two searches minimize: the loss of a volatility point is the distance between the given volatilities and those of the model with
the point's parameters; the loss of a shape point is the distance between the given prices and those of the model with the point's level and
starting state.  A point of the wrong length is an AssertionError. -/
theorem C72_losses (vols prices : List CalibrationInput) (b : Bool) (m : CalibrationTarget) (eig : Mat 2 → Eig 2) (normals : Nat → Vec 2)
    (d d' : CalibrationDict) (point : List ℝ) (l : ℝ) :
    ((Calibrator.new vols prices b).volatilityLoss m eig normals d point = (.ok l, d') →
      ∃ (w : Doubly) (pred : PyDatetime → ℝ), DictParams ⟨point, d.shape, d.stateVariables⟩ w.pars ∧ BuiltDoubly w.pars w ∧ w.base.core.bm.start = m.start ∧
        (∀ i ∈ vols, w.base.yieldVolatility i.maturity none = .ok (pred i.maturity)) ∧
        l = Real.sqrt ((vols.map fun i => (pred i.maturity - i.value) ^ 2).sum)) ∧
    ((Calibrator.new vols prices b).priceLoss m eig normals d point = (.ok l, d') →
      ∃ (w : Doubly) (pred : PyDatetime → ℝ), DictParams ⟨d.volatility, point.take d.shape.length, point.drop d.shape.length⟩ w.pars ∧ BuiltDoubly w.pars w ∧
        w.base.core.bm.start = m.start ∧
        (∀ R0 r0, point.drop d.shape.length = [R0, r0] → Forward m.dt → m.start ≤ m.stop → w.base.state m.start = .ok ![R0, r0]) ∧
        (∀ i ∈ prices, w.base.zeroCouponBondPrice i.maturity none = .ok (pred i.maturity)) ∧
        l = Real.sqrt ((prices.map fun i => (pred i.maturity - i.value) ^ 2).sum)) ∧
    (point.length ≠ d.volatility.length → (Calibrator.new vols prices b).volatilityLoss m eig normals d point = (.error .assertionError, d)) := by
  refine ⟨?_, ?_, ?_⟩
  · intro h
    unfold Calibrator.volatilityLoss at h
    split at h
    · injection h with h _
      rw [bind_ok] at h
      obtain ⟨w, hw, h⟩ := h
      rw [bind_ok] at h
      obtain ⟨ys, hys, h⟩ := h
      injection h with h
      obtain ⟨pred, h1, h2⟩ := error_eq (fun t => w.base.yieldVolatility t none) vols ys hys
      obtain ⟨a1, a2, a3, -⟩ := make_ok hw
      exact ⟨w, pred, a1, a2, a3, h1, by rw [← h, ← h2]; rfl⟩
    · simp at h
  · intro h
    unfold Calibrator.priceLoss at h
    split at h
    · injection h with h _
      rw [bind_ok] at h
      obtain ⟨w, hw, h⟩ := h
      rw [bind_ok] at h
      obtain ⟨ys, hys, h⟩ := h
      injection h with h
      obtain ⟨pred, h1, h2⟩ := error_eq (fun t => w.base.zeroCouponBondPrice t none) prices ys hys
      obtain ⟨a1, a2, a3, a4⟩ := make_ok hw
      exact ⟨w, pred, a1, a2, a3, a4, h1, by rw [← h, ← h2]; rfl⟩
    · simp at h
  · intro h
    unfold Calibrator.volatilityLoss
    rw [if_neg (fun e => h e.symm)]

/-- A model with fewer than five volatility parameters -- such as the one-factor model, which has two -- cannot be calibrated: IndexError. -/
theorem C72_one_factor_false (c : Calibrator) (m : CalibrationTarget) (h : m.dict.volatility.length < 5) (eig : Mat 2 → Eig 2)
    (garbage : Nat → Vec 2) (normals : Nat → Vec 2) (vp sp : List (List ℝ)) (hc : ∃ l, c.accruals c.volatilityInputs m = .ok l) :
    (c.calibrate m eig garbage normals vp sp).1 = .error .indexError := by
  obtain ⟨l, hl⟩ := hc
  have hp : Doubly.paramsOf ⟨Calibrator.initial m.dict.volatility.length, m.dict.shape, m.dict.stateVariables⟩ = .error .indexError := by
    apply paramsOf_error
    rintro ⟨q, ⟨r, h1⟩, -⟩
    have := congrArg List.length h1
    simp only [Calibrator.initial, List.length_replicate, List.length_cons] at this
    omega
  unfold Calibrator.calibrate Calibrator.calibrateVolatility
  rw [hl]
  simp only
  unfold Calibrator.evaluate Calibrator.volatilityLoss
  rw [if_pos (by simp [Calibrator.initial])]
  unfold Calibrator.make
  simp only [hp]
  rfl

/-- The first point of the volatility search has equal reversion speeds, so that the reversion matrix of the first model has no complete set of
eigenvectors: the decomposition on which every formula of the model rests does not exist. -/
theorem C72_first_point_false (shape st : List ℝ) (mean : ℝ) (hs : shape.head? = some mean) (l : Vec 2) (G H : Mat 2) :
    ∃ q, Doubly.paramsOf ⟨Calibrator.initial 5, shape, st⟩ = .ok q ∧ ¬ Diagonalizes (Doubly.reversion q) l G H := by
  cases shape with
  | nil => simp at hs
  | cons x xs =>
    refine ⟨⟨1 / 100, 1 / 100, x, 1 / 100, 1 / 100, 1 / 100⟩, ?_, C68_equal_speeds _ rfl (by norm_num) l G H⟩
    rw [paramsOf_ok]
    exact ⟨⟨[], rfl⟩, xs, rfl⟩

/-- Concrete case for C72: on three days of 2023 every dictionary of five, one and two numbers in range gives a model which prices a bond. -/
theorem make_concrete (d : CalibrationDict) (q : DoublyParams) (a b : ℝ) (hq : DictParams d q) (hs : d.stateVariables = [a, b])
    (hv : q.longVol ≠ 0 ∧ q.shortVol ≠ 0 ∧ q.correlation ^ 2 < 1) (m : CalibrationTarget) (h1 : m.start = T 2023 1 1)
    (h2 : m.stop = T 2023 1 3) (h3 : m.dt = .timedelta 86400000000) (eig : Mat 2 → Eig 2) (g : Vec 2) (normals : Nat → Vec 2) :
    ∃ w, Calibrator.make d m eig g normals = .ok w ∧ w.dict = Doubly.makeDict q g ∧
      (∃ x, w.base.yieldVolatility (T 2023 1 3) none = .ok x) ∧ ∃ x, w.base.zeroCouponBondPrice (T 2023 1 3) none = .ok x := by
  obtain ⟨v, hc, -⟩ := (C68_doubly_constructor q (T 2023 1 1) (T 2023 1 3) (.timedelta 86400000000) (eig (Doubly.reversion q)) g).1 hv
  have hb : v.base.core.bm.start = T 2023 1 1 ∧ v.base.core.bm.stop = T 2023 1 3 ∧ v.base.core.process.dt = .timedelta 86400000000 ∧
      v.dict = Doubly.makeDict q g := by
    have hc' := hc
    unfold Doubly.create at hc'
    rw [bind_ok] at hc'
    obtain ⟨_, -, hc'⟩ := hc'
    injection hc' with hc'
    subst hc'
    exact ⟨rfl, rfl, rfl, rfl⟩
  have hB : BuiltDoubly q v := ⟨_, _, _, _, g, v, [], hc, rfl⟩
  obtain ⟨S, -, hm, hdcc, -⟩ := hB.multi
  obtain ⟨v', g1, g2, g3, g4, g5, g6⟩ := multi_concrete_built hm hb.1 hb.2.1 hdcc hb.2.2.1 ![a, b] normals
  have hx : broadcast (p := 2) [a, b] = some ![a, b] := by
    unfold broadcast
    rw [dif_pos (by simp)]
    congr 1
    funext i
    fin_cases i <;> rfl
  refine ⟨{ v with base := v' }, ?_, hb.2.2.2, ?_, ?_⟩
  · unfold Calibrator.make
    rw [paramsOf_ok.2 hq, ok_bind, h1, h2, h3]
    unfold Doubly.fromDict
    rw [paramsOf_ok.2 hq, ok_bind, hc, ok_bind, hs]
    unfold MultiVasicek.generatePathFrom
    simp only [hx, g1]
    rfl
  · have ht : v'.time (v'.purchase none) (T 2023 1 3) = .ok (2 / 365) := by
      rw [show v'.purchase none = v'.core.bm.start from rfl, g2]; exact g5
    unfold MultiVasicek.yieldVolatility MultiVasicek.yieldCoeffs MultiVasicek.priceCoeffs
    rw [show v'.purchase (some (v'.purchase none)) = v'.purchase none from rfl,
      show v'.purchase (some (v'.purchase none)) = v'.purchase none from rfl]
    simp only [ht, ok_bind]
    exact ⟨_, rfl⟩
  · have ht : v'.time (v'.purchase none) (T 2023 1 3) = .ok (2 / 365) := by
      rw [show v'.purchase none = v'.core.bm.start from rfl, g2]; exact g5
    have hst : v'.state (v'.purchase none) = .ok ![a, b] := by
      rw [show v'.purchase none = v'.core.bm.start from rfl, g2]; exact g3
    unfold MultiVasicek.zeroCouponBondPrice MultiVasicek.priceCoeffs
    rw [show v'.purchase (some (v'.purchase none)) = v'.purchase none from rfl]
    simp only [ht, hst, ok_bind]
    exact ⟨_, rfl⟩

theorem volatilityLoss_concrete (x y : ℝ) (m : CalibrationTarget) (h1 : m.start = T 2023 1 1)
    (h2 : m.stop = T 2023 1 3) (h3 : m.dt = .timedelta 86400000000) (eig : Mat 2 → Eig 2) (normals : Nat → Vec 2) (d : CalibrationDict)
    (hl : d.volatility.length = 5) (p0 p1 p2 p3 p4 s0 a b : ℝ) (hsh : d.shape = [s0]) (hs : d.stateVariables = [a, b])
    (hv : p1 ≠ 0 ∧ p3 ≠ 0 ∧ p4 ^ 2 < 1) :
    ∃ l, (Calibrator.new [⟨T 2023 1 3, x⟩] [⟨T 2023 1 3, y⟩] false).volatilityLoss m eig normals d [p0, p1, p2, p3, p4] =
      (.ok l, ⟨[p0, p1, p2, p3, p4], [s0], [a, b]⟩) := by
  obtain ⟨w, e1, e2, ⟨x1, e3⟩, e4⟩ := make_concrete ⟨[p0, p1, p2, p3, p4], [s0], [a, b]⟩ ⟨p2, p3, s0, p0, p1, p4⟩ a b ⟨⟨[], rfl⟩, [], rfl⟩ rfl hv m
    h1 h2 h3 eig 0 normals
  unfold Calibrator.volatilityLoss
  rw [if_pos (by rw [hl]; rfl), hsh, hs]
  simp only [e1, ok_bind]
  rw [show (Calibrator.new [⟨T 2023 1 3, x⟩] [⟨T 2023 1 3, y⟩] false).volatilityInputs = [⟨T 2023 1 3, x⟩] from rfl]
  unfold collect collect
  simp only [e3, ok_bind]
  exact ⟨_, rfl⟩

theorem priceLoss_concrete (x y : ℝ) (m : CalibrationTarget) (h1 : m.start = T 2023 1 1)
    (h2 : m.stop = T 2023 1 3) (h3 : m.dt = .timedelta 86400000000) (eig : Mat 2 → Eig 2) (normals : Nat → Vec 2) (d : CalibrationDict)
    (p0 p1 p2 p3 p4 s0 a b : ℝ) (hvol : d.volatility = [p0, p1, p2, p3, p4]) (hsh : d.shape.length = 1) (hs : d.stateVariables.length = 2)
    (hv : p1 ≠ 0 ∧ p3 ≠ 0 ∧ p4 ^ 2 < 1) :
    ∃ l, (Calibrator.new [⟨T 2023 1 3, x⟩] [⟨T 2023 1 3, y⟩] false).priceLoss m eig normals d [s0, a, b] =
      (.ok l, ⟨[p0, p1, p2, p3, p4], [s0], [a, b]⟩) := by
  obtain ⟨w, e1, e2, -, x1, e3⟩ := make_concrete ⟨[p0, p1, p2, p3, p4], [s0], [a, b]⟩ ⟨p2, p3, s0, p0, p1, p4⟩ a b ⟨⟨[], rfl⟩, [], rfl⟩ rfl hv m
    h1 h2 h3 eig 0 normals
  unfold Calibrator.priceLoss
  rw [if_pos (by rw [hsh, hs]; rfl), hsh, hvol]
  simp only [show ([s0, a, b] : List ℝ).take 1 = [s0] from rfl, show ([s0, a, b] : List ℝ).drop 1 = [a, b] from rfl, e1, ok_bind]
  rw [show (Calibrator.new [⟨T 2023 1 3, x⟩] [⟨T 2023 1 3, y⟩] false).priceInputs = [⟨T 2023 1 3, y⟩] from rfl]
  unfold collect collect
  simp only [e3, ok_bind]
  exact ⟨_, rfl⟩

/-- Concrete case for C72: a calibration to one volatility and one price succeeds (with the names defined, as in the script), whatever the
draws; here the second volatility point and the starting shape point are the last. -/
example (eig : Mat 2 → Eig 2) (garbage normals : Nat → Vec 2) (x y : ℝ) : ∃ w d,
    (Calibrator.new [⟨T 2023 1 3, x⟩] [⟨T 2023 1 3, y⟩] false).calibrate
      ⟨⟨[1, 1, 1, 1, 0], [1], [1, 1]⟩, T 2023 1 1, T 2023 1 3, .timedelta 86400000000, .actAct⟩ eig garbage normals [[1, 2, 3, 4, 0]] [] =
    (.ok w, d) := by
  set m : CalibrationTarget := ⟨⟨[1, 1, 1, 1, 0], [1], [1, 1]⟩, T 2023 1 1, T 2023 1 3, .timedelta 86400000000, .actAct⟩ with hm
  set c := Calibrator.new [⟨T 2023 1 3, x⟩] [⟨T 2023 1 3, y⟩] false with hc
  have acc : ∀ (m' : CalibrationTarget) (z : ℝ), m'.start = T 2023 1 1 → m'.dcc = .actAct →
      c.accruals [⟨T 2023 1 3, z⟩] m' = .ok [2 / 365] := by
    intro m' z e1 e2
    unfold Calibrator.accruals collect collect
    rw [show c.imported = false from rfl, e1, e2]
    rw [show dtAccrual (T 2023 1 1) (T 2023 1 3) .actAct = .ok (2 / 365) by decide +kernel]
    rfl
  obtain ⟨l1, a1⟩ := volatilityLoss_concrete x y m rfl rfl rfl eig normals ⟨[1, 1, 1, 1, 0], [1], [1, 1]⟩ rfl (1 / 100) (1 / 100) (1 / 100)
    (1 / 100) (1 / 100) 1 1 1 rfl rfl (by norm_num)
  obtain ⟨l2, a2⟩ := volatilityLoss_concrete x y m rfl rfl rfl eig normals ⟨[1 / 100, 1 / 100, 1 / 100, 1 / 100, 1 / 100], [1], [1, 1]⟩ rfl
    1 2 3 4 0 1 1 1 rfl rfl (by norm_num)
  have hv : c.calibrateVolatility m eig normals [[1, 2, 3, 4, 0]] = (.ok (), ⟨[1, 2, 3, 4, 0], [1], [1, 1]⟩) := by
    unfold Calibrator.calibrateVolatility
    rw [show c.volatilityInputs = [⟨T 2023 1 3, x⟩] from rfl, acc m x rfl rfl]
    simp only
    rw [show Calibrator.initial m.dict.volatility.length = [1 / 100, 1 / 100, 1 / 100, 1 / 100, 1 / 100] from rfl]
    unfold Calibrator.evaluate
    rw [show m.dict = ⟨[1, 1, 1, 1, 0], [1], [1, 1]⟩ from rfl, a1]
    unfold Calibrator.evaluate
    simp only
    rw [a2]
    rfl
  obtain ⟨f, b1, b2, -⟩ := make_concrete ⟨[1, 2, 3, 4, 0], [1], [1, 1]⟩ ⟨3, 4, 1, 1, 2, 0⟩ 1 1 ⟨⟨[], rfl⟩, [], rfl⟩ rfl (by norm_num) m
    rfl rfl rfl eig (garbage 0) normals
  obtain ⟨l3, a3⟩ := priceLoss_concrete x y { m with dict := f.dict, dcc := .actAct } rfl rfl rfl eig normals f.dict 1 2 3 4 0 (1 / 100) (1 / 100)
    (1 / 100) (by rw [b2]; rfl) (by rw [b2]; rfl) (by rw [b2]; rfl) (by norm_num)
  have hs : c.calibrateShape { m with dict := f.dict, dcc := .actAct } eig normals [] =
      (.ok (), ⟨[1, 2, 3, 4, 0], [1 / 100], [1 / 100, 1 / 100]⟩) := by
    unfold Calibrator.calibrateShape
    rw [show c.priceInputs = [⟨T 2023 1 3, y⟩] from rfl, acc _ y rfl rfl]
    simp only
    rw [show Calibrator.initial (f.dict.shape.length + f.dict.stateVariables.length) = [1 / 100, 1 / 100, 1 / 100] by rw [b2]; rfl]
    unfold Calibrator.evaluate
    rw [a3]
    rfl
  obtain ⟨w, d1, -⟩ := make_concrete ⟨[1, 2, 3, 4, 0], [1 / 100], [1 / 100, 1 / 100]⟩ ⟨3, 4, 1 / 100, 1, 2, 0⟩ _ _ ⟨⟨[], rfl⟩, [], rfl⟩ rfl
    (by norm_num) { m with dict := f.dict, dcc := .actAct } rfl rfl rfl eig (garbage 1) normals
  refine ⟨w, ⟨[1, 2, 3, 4, 0], [1], [1, 1]⟩, ?_⟩
  unfold Calibrator.calibrate
  rw [hv]
  simp only
  rw [b1, ok_bind, hs]
  simp only [ok_bind]
  rw [d1]

end Verif.Props
