f='Verif/Props/SimulatedRates.lean'
s=open(f).read()
s=s.replace('elapsed_eq','elapsed_steps')
s=s.replace('''    refine ⟨j1, j2, ?_, ?_⟩
    · simp only [e]''','''    refine ⟨j1, j2, ?_, ?_⟩ <;> simp only [← hM]
    · simp only [e]''')
s=s.replace("_ = _ := by rw [hx]; field_simp; ring\n  intro n hn","_ = _ := by rw [hx]; field_simp\n  intro n hn")
s=s.replace('''
end
end Verif.Props
''','''
end

/-- Concrete case for C87: a probability space with standard normal draws, and on it, for every outcome, a simulated path of
a model with `k = 1/2` on the grid of 1, 2 and 3 January 2023, whose steps are far shorter than `1/k`. -/
example : ∃ (Ω : Type) (_ : MeasurableSpace Ω) (μ : Measure Ω) (_ : IsProbabilityMeasure μ) (Z : Nat → Fin 1 → Ω → ℝ)
    (v : Vasicek) (v' : Ω → Vasicek), StandardNormals μ Z ∧ MadeVasicek (1 / 20) (1 / 2) (1 / 100) v ∧
    Forward v.core.process.dt ∧ v.core.bm.start ≤ v.core.bm.stop ∧ FixedDenominator v.core.bm.dcc = some 365 ∧
    v.core.bm.stop.day.ord < PyDate.maxOrd ∧ v.core.bm.chol 0 0 ^ 2 = 1 ∧
    (∀ ω, v.generatePath (fun _ => 1 / 50) true (fun k i => Z k i ω) = (.ok (), v' ω)) ∧
    ∃ grid, BrownianMotion.makeGrid v.core.bm.start v.core.bm.stop v.core.process.dt = .ok grid ∧ grid.length = 3 ∧
      ∀ dts, StepLengths v.core.bm.dcc grid dts → ∀ j (hj : j < dts.length), (1 / 2 : ℝ) * dts[j] ≤ 1 := by
  obtain ⟨Ω, mΩ, μ, hμ, Z, hZ⟩ := standardNormals_exist 1
  let bm : BrownianMotion 1 := ⟨T 2023 1 1, T 2023 1 3, fun _ _ => 1, .act365, none, none⟩
  let dt : DtIncrement := .timedelta 86400000000
  have hc : ∃ v, Vasicek.create (1 / 20) (1 / 2) (1 / 100) bm dt 0 = .ok v ∧ v.core.bm = bm ∧ v.core.process.dt = dt := by
    unfold Vasicek.create
    rw [floatDiv_of_ne (by norm_num)]
    exact ⟨_, rfl, rfl, rfl⟩
  obtain ⟨v, hv, hb, hdt⟩ := hc
  have hgrid : BrownianMotion.makeGrid bm.start bm.stop dt = .ok [T 2023 1 1, T 2023 1 2, T 2023 1 3] := by decide +kernel
  have hgen : ∀ ω, ∃ v', v.generatePath (fun _ => 1 / 50) true (fun k i => Z k i ω) = (.ok (), v') := by
    intro ω
    unfold Vasicek.generatePath ShortRateModel.generatePath Diffusion.generatePath
    rw [hb, hdt, generateIncrements_total bm dt _ [T 2023 1 1, T 2023 1 2, T 2023 1 3] [1 / 365, 1 / 365] hgrid (by decide +kernel)]
    exact ⟨_, rfl⟩
  choose v' hv' using hgen
  refine ⟨Ω, mΩ, μ, hμ, Z, v, v', hZ, ⟨bm, dt, 0, v, [], hv, rfl⟩, ?_, ?_, ?_, ?_, ?_, hv',
    [T 2023 1 1, T 2023 1 2, T 2023 1 3], ?_, rfl, ?_⟩
  · rw [hdt]; norm_num [Forward, dt]
  · rw [hb]; decide +kernel
  · rw [hb]; rfl
  · rw [hb]; decide +kernel
  · rw [hb]; norm_num [bm]
  · rw [hb, hdt]; exact hgrid
  · rw [hb]
    intro dts hs j hj
    have hl : dts.length = 2 := by have := hs.1; simp only [List.length_cons, List.length_nil] at this; omega
    have e : dts[j] = 1 / 365 := by
      have := hs.2 j hj (by simp only [List.length_cons, List.length_nil]; omega) (by simp only [List.length_cons, List.length_nil]; omega)
      have h2 : j = 0 ∨ j = 1 := by omega
      rcases h2 with rfl | rfl
      · have e : dtAccrual (T 2023 1 1) (T 2023 1 2) .act365 = .ok (1 / 365) := by decide +kernel
        exact (Except.ok.inj (e.symm.trans this)).symm
      · have e : dtAccrual (T 2023 1 2) (T 2023 1 3) .act365 = .ok (1 / 365) := by decide +kernel
        exact (Except.ok.inj (e.symm.trans this)).symm
    rw [e]
    norm_num

end Verif.Props
''')
open(f,'w').write(s)
