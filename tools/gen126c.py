exec(open('/tmp/work/gen126.py').read().split("B='")[0])
ed('CurveFactory.lean',[
("exInstruments .linear (Or.inl rfl) (D 2023 6 1) (fun _ => [1 / 2, 1 / 100]) _ hk hin","exInstruments .linear (D 2023 6 1) (fun _ => [1 / 2, 1 / 100]) _ (Or.inl rfl) hk hin"),
("C27_knots knots m hm .actAct","C27_knots knots m hm .actAct"),
])
ed('KeyRateSign.lean',[
 ('(hm : m = .linear ∨ m = .previous) (dcc : DayCountConvention) (ref : PyDate) (l r : EndBehavior)\n    (h : CurveInput values dcc ref) (hl','(hm : Interpolates m values.length) (dcc : DayCountConvention) (ref : PyDate) (l r : EndBehavior)\n    (h : CurveInput values dcc ref) (hl',2),
 ("    ((∀ x, 0 ≤ exp x) → exp 0 = 1 → (∀ k ∈ values, 0 ≤ k.value) →\n","    ((m = .linear ∨ m = .previous) → (∀ x, 0 ≤ exp x) → exp 0 = 1 → (∀ k ∈ values, 0 ≤ k.value) →\n"),
 ("  · intro h0 h1 hv\n    refine ⟨_, hval","  · intro hm' h0 h1 hv\n    refine ⟨_, hval"),
 ("C90_bounds values m hm dcc","C90_bounds values m hm' dcc"),
 ("and if no yield is negative it is worth","and if no yield is negative, interpolated linearly or from the previous knot, it is worth"),
])
ed('YieldSpace.lean',[
 ("theorem yieldSpace_value (exp : ℚ → ℚ) (values : List Knot) (m : InterpolationMethod) (hm : m = .linear ∨ m = .previous)","theorem yieldSpace_value (exp : ℚ → ℚ) (values : List Knot) (m : InterpolationMethod) (hm : Interpolates m values.length)"),
 ("theorem C91_decreasing_iff (exp : ℚ → ℚ) (hexp : StrictMono exp) (values : List Knot) (m : InterpolationMethod)\n    (hm : m = .linear ∨ m = .previous)","theorem C91_decreasing_iff (exp : ℚ → ℚ) (hexp : StrictMono exp) (values : List Knot) (m : InterpolationMethod)\n    (hm : Interpolates m values.length)"),
])
s=open(P+'YieldSpace.lean').read()
for nm in ('theorem C91_bounds','theorem C91_rising'):
    i=s.index(nm); j=s.index('\n\n',i)
    s=s[:i]+s[i:j].replace('yieldSpace_value exp values m hm ','yieldSpace_value exp values m (.basic hm _) ')+s[j:]
open(P+'YieldSpace.lean','w').write(s)
