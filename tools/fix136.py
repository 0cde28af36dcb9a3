f='/tmp/dev/Verif/Props/RoundedDefault.lean'
s=open(f).read()
s=s.replace("    ∃ N t, exactSteps maturity dt ≤ N + 1","    ∃ (N : Nat) (t : Nat → ℚ), exactSteps maturity dt ≤ N + 1")
i=s.index("/-- C136. In double precision the number of tests does change")
s=s[:i]
M17=7656119366529843
def step(name,num,den,e,m,src):
    return f"""  have {name} : {src} = {num} / {den} := by
    rw [nearest53_eval ({e}) {m} (by norm_num) (by norm_num) (by norm_num) (by norm_num)]; norm_num
"""
L=s
L+='''theorem floatTimes_below {dt maturity : ℚ} {n : Nat} (hdt : 0 ≤ dt) (hrep : nearest53 dt = dt)
    (h1 : floatTimes nearest53 dt n < maturity) (h2 : maturity ≤ floatTimes nearest53 dt (n + 1)) (k : Nat) :
    floatTimes nearest53 dt k < maturity ↔ k < n + 1 := by
  have hmono : Monotone (floatTimes nearest53 dt) := monotone_nat_of_le_succ (floatTimes_mono rounding_nearest53 hrep hdt)
  constructor
  · intro h
    by_contra hge
    exact absurd (lt_of_lt_of_le h (h2.trans (hmono (by omega)))) (lt_irrefl _)
  · intro h
    exact lt_of_le_of_lt (hmono (by omega)) h1

/-- C136. In double precision the number of tests does change: with the step 1.7 and maturity 13.6, exact arithmetic (on these doubles) tests 7
times, the code 8, the last one at a float time just below maturity. -/
theorem C136_extra_test : ∃ dt maturity : ℚ, dt = nearest53 (17 / 10) ∧ maturity = nearest53 (136 / 10) ∧ exactSteps maturity dt = 7 ∧
    ∀ k, floatTimes nearest53 dt k < maturity ↔ k < 8 := by
'''
L+=step('d','7656119366529843','4503599627370496',0,M17,'nearest53 (17 / 10)')
L+=step('mat','7656119366529843','562949953421312',3,M17,'nearest53 (136 / 10)')
ts=[('7656119366529843','2251799813685248',1,M17),('2871044762448691','562949953421312',2,5742089524897382),(M17,'1125899906842624',2,M17),('17','2',3,4785074604081152),('2871044762448691','281474976710656',3,5742089524897382),('1674776111428403','140737488355328',3,6699104445713612),('3828059683264921','281474976710656',3,7656119366529842),('1076641785918259','70368744177664',3,8613134287346072)]
D='(7656119366529843 / 4503599627370496)'
def chain(D,ts,dt):
    o=''
    for i,(n,de,e,m) in enumerate(ts):
        k=i+1
        prev=D if i==0 else f"{ts[i-1][0]} / {ts[i-1][1]}"
        base='rfl' if i==0 else f't{i}'
        o+=f"""  have t{k} : floatTimes nearest53 {D} {k} = {n} / {de} := by
    show nearest53 (floatTimes nearest53 {D} {i} + {D}) = _
    rw [show floatTimes nearest53 {D} {i} = {prev} from {base},
      nearest53_eval ({e}) {m} (by norm_num) (by norm_num) (by norm_num) (by norm_num)]; norm_num
"""
    return o
L+=chain(D,ts,None)
L+='''  refine ⟨_, _, rfl, rfl, ?_, ?_⟩
  · rw [d, mat]; unfold exactSteps
    norm_num
  · rw [mat]
    have hrep : nearest53 (nearest53 (17 / 10)) = nearest53 (17 / 10) := rounding_nearest53.idem _
    rw [d] at hrep ⊢
    exact floatTimes_below (n := 7) (by norm_num) hrep (by rw [t7]; norm_num) (by rw [t8]; norm_num)

/-- C136. And the other way round: with the step 0.9 and maturity 2.7, exact arithmetic tests 3 times, the code twice. -/
theorem C136_missing_test : ∃ dt maturity : ℚ, dt = nearest53 (9 / 10) ∧ maturity = nearest53 (27 / 10) ∧ exactSteps maturity dt = 3 ∧
    ∀ k, floatTimes nearest53 dt k < maturity ↔ k < 2 := by
'''
L+=step('d','8106479329266893','9007199254740992',-1,8106479329266893,'nearest53 (9 / 10)')
L+=step('mat','3039929748475085','1125899906842624',1,6079859496950170,'nearest53 (27 / 10)')
D='(8106479329266893 / 9007199254740992)'
L+=chain(D,[('8106479329266893','4503599627370496',0,8106479329266893),('3039929748475085','1125899906842624',1,6079859496950170)],None)
L+='''  refine ⟨_, _, rfl, rfl, ?_, ?_⟩
  · rw [d, mat]; unfold exactSteps
    have : ⌈(3039929748475085 / 1125899906842624 : ℚ) / (8106479329266893 / 9007199254740992)⌉₊ = 4 := by
      rw [Nat.ceil_eq_iff (by norm_num)]
      norm_num
    rw [this]
  · rw [mat]
    have hrep : nearest53 (nearest53 (9 / 10)) = nearest53 (9 / 10) := rounding_nearest53.idem _
    rw [d] at hrep ⊢
    exact floatTimes_below (n := 1) (by norm_num) hrep (by rw [t1]; norm_num) (by rw [t2])

end Verif.Props
'''
open(f,'w').write(L)
