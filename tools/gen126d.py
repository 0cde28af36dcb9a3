exec(open('/tmp/work/gen126.py').read().split("B='")[0])
s=open(P+'LadderSum.lean').read()
s=s.replace("import Verif.Props.YieldCurve\n","import Verif.Props.Splines\n",1)
i=s.index("/-- The total of the payments a valuation")
s=s[:i]+'''/-- The value at a date between the first and the last knot is a fixed combination of knot values, with weights that add up to one
and do not depend on the values; without splines they are nonnegative. -/
theorem curve_combination {values : List Knot} {m : InterpolationMethod} (hm : Interpolates m values.length)
    {dcc : DayCountConvention} {ref : PyDate} (h : CurveInput values dcc ref) {d : PyDate}
    (h1 : ∃ k ∈ values, k.date ≤ d) (h2 : ∃ k ∈ values, d ≤ k.date) :
    ∃ W : List (ℚ × Knot), (∀ p ∈ W, p.2 ∈ values) ∧ ((m = .linear ∨ m = .previous) → ∀ p ∈ W, 0 ≤ p.1) ∧
      (W.map Prod.fst).sum = 1 ∧
      ∀ (a : PyDate → ℚ) (values' : List Knot) (c : Curve),
        values'.Perm (values.map (fun k => (⟨k.date, k.value + a k.date⟩ : Knot))) → CurveInput values' dcc ref →
        Curve.create values' m dcc (some ref) .error .error = .ok c →
        c.call d = .ok (W.map (fun p => p.1 * (p.2.value + a p.2.date))).sum := by
  classical
  rcases hm.cases with hb | ⟨kind, rfl, hlen⟩
  · obtain ⟨α, β, x, y, k1, k2, k3, k4, k5, k6⟩ := curve_weights hb h h1 h2
    refine ⟨[(α, x), (β, y)], ?_, ?_, by simpa using k5, ?_⟩
    · simp [k1, k2]
    · simp [k3, k4]
    · intro a values' c hp hin hc
      rw [k6 a values' c hp hin hc]; simp
  · obtain ⟨ω, hω1, hω⟩ := C126_weights kind (values.map Knot.date) (by simpa using hlen) dcc ref
      ⟨h.convention, h.refOk, by simpa using h.nonempty, by simpa [List.map_map, Function.comp_def] using h.distinct, by
        intro k hk
        simp only [List.mem_map] at hk
        obtain ⟨e, ⟨k', hk', rfl⟩, rfl⟩ := hk
        exact h.notBefore k' hk'⟩ d (by obtain ⟨k, hk, hd⟩ := h1; exact ⟨_, List.mem_map_of_mem hk, hd⟩)
      (by obtain ⟨k, hk, hd⟩ := h2; exact ⟨_, List.mem_map_of_mem hk, hd⟩)
    refine ⟨values.map (fun k => (ω k.date, k)), ?_, ?_, ?_, ?_⟩
    · intro p hp
      obtain ⟨k, hk, rfl⟩ := List.mem_map.1 hp
      exact hk
    · rintro (h | h) <;> cases h
    · simpa [List.map_map, Function.comp_def] using hω1
    · intro a values' c hp hin hc
      let g : PyDate → ℚ := fun e => if h : ∃ k ∈ values, k.date = e then h.choose.value else 0
      have hg : ∀ k ∈ values, g k.date = k.value := by
        intro k hk
        have hex : ∃ k' ∈ values, k'.date = k.date := ⟨k, hk, rfl⟩
        simp only [g, dif_pos hex]
        rw [List.inj_on_of_nodup_map h.distinct hex.choose_spec.1 hk hex.choose_spec.2]
      have hpe : values'.Perm ((values.map Knot.date).map (fun x => (⟨x, g x + a x⟩ : Knot))) := by
        refine hp.trans (List.Perm.of_eq ?_)
        rw [List.map_map]
        refine List.map_congr_left (fun k hk => ?_)
        simp only [Function.comp_apply, hg k hk]
      rw [hω (fun x => g x + a x) values' .error .error c hpe (by rw [SplineKind.method_eq]; exact hc)]
      congr 2
      rw [List.map_map, List.map_map]
      refine List.map_congr_left (fun k hk => ?_)
      simp only [Function.comp_apply, hg k hk]

'''+s[i:]
s=s.replace('''theorem C107_affine (exp : ℚ → ℚ) (bonds : List Knot) (m : InterpolationMethod) (hm : m = .linear ∨ m = .previous)''','''theorem C107_affine (exp : ℚ → ℚ) (bonds : List Knot) (m : InterpolationMethod) (hm : Interpolates m bonds.length)''')
s=s.replace('''      ((∀ p ∈ ps, ∀ x, p.amount = some x → 0 ≤ x) → ∀ a, (∀ k ∈ bonds, 0 ≤ a k.date) → 0 ≤ S a) ∧
      ∀ (adj''','''      ((m = .linear ∨ m = .previous) → (∀ p ∈ ps, ∀ x, p.amount = some x → 0 ≤ x) →
        ∀ a, (∀ k ∈ bonds, 0 ≤ a k.date) → 0 ≤ S a) ∧
      ∀ (adj''')
s=s.replace('''functional of the adjustment at the knots, which gives the total of the counted payments for the constant 1 and is nonnegative on
nonnegative adjustments when no payment is negative.''','''functional of the adjustment at the knots, which gives the total of the counted payments for the constant 1 and, without splines, is
nonnegative on nonnegative adjustments when no payment is negative (for splines see `C126_key_rate_sign_false`).''')
a=s.index("  have hex : ∀ d, ∃ (α β"); b=s.index("  let S : (PyDate → ℚ) → ℚ")
s=s[:a]+'''  have hex : ∀ d, ∃ W : List (ℚ × Knot), ((∃ k ∈ bonds, k.date ≤ d) ∧ ∃ k ∈ bonds, d ≤ k.date) →
      (∀ p ∈ W, p.2 ∈ bonds) ∧ ((m = .linear ∨ m = .previous) → ∀ p ∈ W, 0 ≤ p.1) ∧ (W.map Prod.fst).sum = 1 ∧
      ∀ (a : PyDate → ℚ) (values' : List Knot) (c : Curve),
        values'.Perm (bonds.map (fun k => (⟨k.date, k.value + a k.date⟩ : Knot))) → CurveInput values' dcc ref →
        Curve.create values' m dcc (some ref) .error .error = .ok c →
        c.call d = .ok (W.map (fun p => p.1 * (p.2.value + a p.2.date))).sum := by
    intro d
    by_cases hd : (∃ k ∈ bonds, k.date ≤ d) ∧ ∃ k ∈ bonds, d ≤ k.date
    · obtain ⟨W, hW⟩ := curve_combination hm h hd.1 hd.2
      exact ⟨W, fun _ => hW⟩
    · exact ⟨[], fun h => absurd h hd⟩
  choose W hw using hex
  let L : (PyDate → ℚ) → PyDate → ℚ := fun a d => ((W d).map (fun p => p.1 * a p.2.date)).sum
'''+s[b:]
s=s.replace('''  refine ⟨(ps.map (contribution ref (fun d => α d * (x d).value + β d * (y d).value))).sum, S,''','''  refine ⟨(ps.map (contribution ref (fun d => ((W d).map (fun p => p.1 * p.2.value)).sum))).sum, S,''')
s=s.replace('''    rw [← contribution_add]
    congr 1
    funext d
    simp only [L]; ring
''','''    rw [← contribution_add]
    congr 1
    funext d
    simp only [L]
    rw [← List.sum_map_add]
    simp only [mul_add]
''')
s=s.replace('''    rw [← contribution_mul]
    congr 1
    funext d
    simp only [L]; ring
''','''    rw [← contribution_mul]
    congr 1
    funext d
    simp only [L]
    rw [← List.sum_map_mul_left]
    congr 1
    exact List.map_congr_left (fun p _ => by ring)
''')
s=s.replace('''    obtain ⟨h1, h2, -, -⟩ := hw p.date (hin p hp ha href)
    simp only [L]
    rw [hab _ h1, hab _ h2]
  · intro hpos a ha
''','''    obtain ⟨h1, -⟩ := hw p.date (hin p hp ha href)
    simp only [L]
    congr 1
    exact List.map_congr_left (fun q hq => by rw [hab _ (h1 q hq)])
  · intro hbasic hpos a ha
''')
s=s.replace('''        obtain ⟨h1, h2, -, -⟩ := hw p.date (hin p hp (by rw [hamt]; simp) href)
        exact mul_nonneg (add_nonneg (mul_nonneg (hα _) (ha _ h1)) (mul_nonneg (hβ _) (ha _ h2))) (hpos p hp q hamt)
''','''        obtain ⟨h1, h2, -, -⟩ := hw p.date (hin p hp (by rw [hamt]; simp) href)
        refine mul_nonneg (List.sum_nonneg (fun z hz => ?_)) (hpos p hp q hamt)
        obtain ⟨e, he, rfl⟩ := List.mem_map.1 hz
        exact mul_nonneg (h2 hbasic e he) (ha _ (h1 e he))
''')
s=s.replace('discountFactor_curve (exp := exp) (.basic hm _) h hbase','discountFactor_curve (exp := exp) hm h hbase')
s=s.replace('''(fun d => (α d * (x d).value + β d * (y d).value) + L a d) ?_]''','''(fun d => ((W d).map (fun p => p.1 * p.2.value)).sum + L a d) ?_]''')
s=s.replace('''      congr 1
      simp only [L]; ring

''','''      congr 1
      simp only [L]
      rw [← List.sum_map_add]
      simp only [mul_add]

''')
s=s.replace('''theorem C107_ladder_total (exp : ℚ → ℚ) (bonds : List Knot) (m : InterpolationMethod) (hm : m = .linear ∨ m = .previous)''','''theorem C107_ladder_total (exp : ℚ → ℚ) (bonds : List Knot) (m : InterpolationMethod) (hm : Interpolates m bonds.length)''')
s=s.replace("S, hadd, -, -, -, hS, hval⟩ := C107_affine exp bonds m hm dcc","S, hadd, -, -, -, hS, hval⟩ := C107_affine exp bonds m (.basic hm _) dcc")
open(P+'LadderSum.lean','w').write(s)
s=open(P+'KeyRateSign.lean').read()
s=s.replace("C107_affine exp bonds m hm dcc","C107_affine exp bonds m (.basic hm _) dcc")
open(P+'KeyRateSign.lean','w').write(s)
