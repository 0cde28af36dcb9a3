import re
P='/verif/lean/Verif/Props/'
def ed(f,subs):
    s=open(P+f).read()
    for a,b,*n in subs:
        c=s.count(a)
        assert c==(n[0] if n else 1),(f,a,c)
        s=s.replace(a,b)
    open(P+f,'w').write(s)
B='(hm : m = .linear ∨ m = .previous)'
ed('Rounded.lean',[('    unfold Rel\n','    unfold Spec.Rel\n')])
ed('CurveReset.lean',[
 ('theorem C97_replace_value (values : List Knot) (m : InterpolationMethod) (hm : m = .linear ∨ m = .previous)','theorem C97_replace_value (values : List Knot) (m : InterpolationMethod) (hm : Interpolates m values.length)'),
 ('  · exact C27_knots _ m hm dcc ref l r hin fresh hf ⟨k.date, v⟩ (List.mem_set hi _)','  · exact C27_knots _ m hm\' dcc ref l r hin fresh hf ⟨k.date, v⟩ (List.mem_set hi _)'),
 ('    refine C27_knots _ m hm dcc ref l r hin fresh hf x ?_','    refine C27_knots _ m hm\' dcc ref l r hin fresh hf x ?_'),
 ('  obtain ⟨fresh, hf, _⟩ := (C27_builds (c.knots.set i ⟨k.date, v⟩) m dcc l r).1 ref hin\n','  obtain ⟨fresh, hf, _⟩ := (C27_builds (c.knots.set i ⟨k.date, v⟩) m dcc l r).1 ref hin\n  have hm\' : Interpolates m (c.knots.set i ⟨k.date, v⟩).length :=\n    hm.congr (by rw [List.length_set, hkn, hp.length_eq])\n'),
 ('c.dcc c.referenceDate → (c.method = .linear ∨ c.method = .previous) →','c.dcc c.referenceDate → Interpolates c.method c.knots.length →'),
 ('    exact C27_knots _ c.method hm _ _ _ _ hin fresh hf new','    exact C27_knots _ c.method (hm.congr List.length_set) _ _ _ _ hin fresh hf new'),
])
ed('CurveHistory.lean',[
 ("theorem C97_history (values ks ks' : List Knot) (m : InterpolationMethod) (hm : m = .linear ∨ m = .previous)","theorem C97_history (values ks ks' : List Knot) (m : InterpolationMethod) (hm : Interpolates m ks'.length)"),
])
ed('Hedging.lean',[
 (B,'(hm : Interpolates m values.length)',3),
 ('C27_knots values\' m hm dcc','C27_knots values\' m (hm.congr (by rw [hperm.length_eq, List.length_map])) dcc'),
])
ed('LadderSum.lean',[
 ("C27_knots values' m hm dcc","C27_knots values' m (.basic hm _) dcc"),
 ("discountFactor_curve (exp := exp) hm h","discountFactor_curve (exp := exp) (.basic hm _) h"),
])
ed('NoArbitrage.lean',[
 ('C27_knots values m hm dcc','C27_knots values m (.basic hm _) dcc',2),
 ('C27_knots _ m hm dcc','C27_knots _ m (.basic hm _) dcc'),
 ('(hm : m = .linear ∨ m = .previous) {dcc : DayCountConvention} {ref : PyDate} {l r : EndBehavior}\n    ','(hm : m = .linear ∨ m = .previous) {dcc : DayCountConvention} {ref : PyDate} {l r : EndBehavior}\n    ',1),
 ('curve_defined hm h','curve_defined (.basic hm _) h',2),
 ('discountFactor_curve (exp := exp) hm h','discountFactor_curve (exp := exp) (.basic hm _) h'),
])
ed('CurveFactory.lean',[
 ('C27_knots vs m hm dcc','C27_knots vs m (.basic hm _) dcc'),
 ('C27_knots ws m hm dcc','C27_knots ws m (.basic hm _) dcc'),
 ('theorem newCurve_discount {exp : ℚ → ℚ} {m : InterpolationMethod} (hm : m = .linear ∨ m = .previous) {ref : PyDate} {ks : List Knot}','theorem newCurve_discount {exp : ℚ → ℚ} {m : InterpolationMethod} {ref : PyDate} {ks : List Knot} (hm : Interpolates m ks.length)'),
 ('newCurve_discount (exp := exp) hm hv','newCurve_discount (exp := exp) (.basic hm _) hv'),
 ('newCurve_discount (exp := exp) hm hw','newCurve_discount (exp := exp) (.basic hm _) hw'),
])
