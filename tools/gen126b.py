exec(open('/tmp/work/gen126.py').read().split("B='")[0])
ed('CurveFactory.lean',[
 ('theorem newCurveValue_ok {exp : ℚ → ℚ} {m : InterpolationMethod} (hm : m = .linear ∨ m = .previous) {ref last : PyDate} {ks : List Knot}\n    (h :','theorem newCurveValue_ok {exp : ℚ → ℚ} {m : InterpolationMethod} {ref last : PyDate} {ks : List Knot}\n    (hm : Interpolates m ks.length) (h :'),
 ('theorem evaluate_ok {exp : ℚ → ℚ} {m : InterpolationMethod} (hm : m = .linear ∨ m = .previous) {ref last','theorem evaluate_ok {exp : ℚ → ℚ} {m : InterpolationMethod} {n : Nat} (hm : Interpolates m n) {ref last'),
 ('(_ : InFactory exp m ref ks yc) (_ : i < ks.length)\n      (_ : last ∈ ks.map Knot.date), ∃ vs yc\', evaluate','(_ : InFactory exp m ref ks yc) (_ : ks.length = n)\n      (_ : i < ks.length) (_ : last ∈ ks.map Knot.date), ∃ vs yc\', evaluate'),
 ("  | [], ks, yc, _, _, _ => ⟨[], yc, rfl⟩\n  | x :: xs, ks, yc, h, hi, hl => by","  | [], ks, yc, _, _, _, _ => ⟨[], yc, rfl⟩\n  | x :: xs, ks, yc, h, hn, hi, hl => by"),
 ("newCurveValue_ok (exp := exp) hm h2.input","newCurveValue_ok (exp := exp) (hm.congr (by rw [List.length_set, hn])) h2.input"),
 ("evaluate_ok hm ha xs h2 (by rw [List.length_set]; exact hi) hl'","evaluate_ok hm ha xs h2 (by rw [List.length_set, hn]) (by rw [List.length_set]; exact hi) hl'"),
 ("theorem bootstrapLoop_ok {exp : ℚ → ℚ} {m : InterpolationMethod} (hm : m = .linear ∨ m = .previous) {ref","theorem bootstrapLoop_ok {exp : ℚ → ℚ} {m : InterpolationMethod} {n : Nat} (hm : Interpolates m n) {ref"),
 ("(_ : InFactory exp m ref ks yc) (_ : i + as.length = ks.length) (","(_ : InFactory exp m ref ks yc) (_ : ks.length = n) (_ : i + as.length = ks.length) ("),
 ("  | [], i, ks, yc, _, _, _, _ => ⟨[], yc, rfl⟩\n  | a :: as, i, ks, yc, ha, h, hn, hl => by","  | [], i, ks, yc, _, _, _, _, _ => ⟨[], yc, rfl⟩\n  | a :: as, i, ks, yc, ha, h, hlen, hn, hl => by"),
 ("evaluate_ok hm (ha a (by simp)) (0 :: points i) h hi hl","evaluate_ok hm (ha a (by simp)) (0 :: points i) h hlen hi hl"),
 ("newCurveValue_ok (exp := exp) hm e2.input","newCurveValue_ok (exp := exp) (hm.congr (by rw [List.length_set, hlen])) e2.input"),
 ("(fun b hb => ha b (by simp [hb])) e3\n      (by rw","(fun b hb => ha b (by simp [hb])) e3\n      (by rw [List.length_set, hlen]) (by rw"),
 ("theorem C73_builds (exp : ℚ → ℚ) (instruments : List FactoryInstrument) (m : InterpolationMethod)\n    (hm : m = .linear ∨ m = .previous) (ref : PyDate) (points : Nat → List ℚ) (knots : List Knot)\n","theorem C73_builds (exp : ℚ → ℚ) (instruments : List FactoryInstrument) (m : InterpolationMethod)\n    (ref : PyDate) (points : Nat → List ℚ) (knots : List Knot) (hm : Interpolates m knots.length)\n"),
 ("bootstrapLoop_ok hm points instruments 0 hp hst\n    (by","bootstrapLoop_ok hm points instruments 0 hp hst hperm.length_eq\n    (by"),
 ("C73_builds exp _ m hm ref points _ hk hin","C73_builds exp _ m ref points _ (.basic hm _) hk hin"),
 ("newCurve_discount (exp := exp) hm hin' hτ","newCurve_discount (exp := exp) (.basic hm _) hin' hτ"),
 ("C27_knots _ m hm .actAct ref .constant .constant hin'","C27_knots _ m (.basic hm _) .actAct ref .constant .constant hin'"),
 ("theorem evaluateMany_ok {exp : ℚ → ℚ} {m : InterpolationMethod} (hm : m = .linear ∨ m = .previous) {ref last : PyDate}\n    {instruments : List FactoryInstrument} {knots : List Knot}\n","theorem evaluateMany_ok {exp : ℚ → ℚ} {m : InterpolationMethod} {ref last : PyDate}\n    {instruments : List FactoryInstrument} {knots : List Knot} (hm : Interpolates m knots.length)\n"),
 ("newCurveValue_ok hm hin' (List.mem_map.1 hlast')","newCurveValue_ok (hm.congr (by rw [← List.length_map (f := Knot.date), withValues_dates hx, List.length_map])) hin'\n        (List.mem_map.1 hlast')"),
 ("theorem C74_builds (exp : ℚ → ℚ) (instruments : List FactoryInstrument) (m : InterpolationMethod)\n    (hm : m = .linear ∨ m = .previous) (ref : PyDate) (points : List (List ℚ)) (solution : List ℚ) (knots : List Knot)\n","theorem C74_builds (exp : ℚ → ℚ) (instruments : List FactoryInstrument) (m : InterpolationMethod)\n    (ref : PyDate) (points : List (List ℚ)) (solution : List ℚ) (knots : List Knot) (hm : Interpolates m knots.length)\n"),
 ("theorem C75_knots_partial (instruments : List FactoryInstrument) (m : InterpolationMethod) (hm : m = .linear ∨ m = .previous)\n    (ref : PyDate) (knots : List Knot) (hk :","theorem C75_knots_partial (instruments : List FactoryInstrument) (m : InterpolationMethod)\n    (ref : PyDate) (knots : List Knot) (hm : Interpolates m knots.length) (hk :"),
 ("b.presentValue⟩] m hm ref [k]\n","b.presentValue⟩] m ref [k] (.basic hm _)\n"),
 ("C74_builds (fun x => 1 + x) exInstruments.reverse .linear (Or.inl rfl) (D 2023 6 1) [[3 / 200, 1 / 100]]\n    [3 / 200, 1 / 100] _ hk","C74_builds (fun x => 1 + x) exInstruments.reverse .linear (D 2023 6 1) [[3 / 200, 1 / 100]]\n    [3 / 200, 1 / 100] _ (Or.inl rfl) hk"),
])
ed('KeyRateSign.lean',[
 ('theorem C123_yield_value (exp : ℚ → ℚ) (values : List Knot) (m : InterpolationMethod) (hm : m = .linear ∨ m = .previous)','theorem C123_yield_value (exp : ℚ → ℚ) (values : List Knot) (m : InterpolationMethod) (hm : Interpolates m values.length)'),
])
s=open(P+'KeyRateSign.lean').read().split('\n')
print('\n'.join(s[186:210])); print('\n'.join(s[322:385]))
s=open(P+'YieldSpace.lean').read().split('\n')
print('\n'.join(s[8:100]))
