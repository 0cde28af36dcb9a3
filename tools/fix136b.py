f='/tmp/dev/Verif/Props/RoundedDefault.lean'
s=open(f).read()
i=s.rindex("end Verif.Props")
s=s[:i]+'''theorem nearest53_two_pow_add {e : ℤ} {d : ℚ} (h0 : 0 ≤ d) (h1 : d < (2 : ℚ) ^ (e - 53)) : nearest53 ((2 : ℚ) ^ e + d) = (2 : ℚ) ^ e := by
  have hp : (0 : ℚ) < (2 : ℚ) ^ e := by positivity
  have hs : (2 : ℚ) ^ (e - 53) * (2 : ℚ) ^ (52 - e) = 1 / 2 := by
    rw [← zpow_add₀ (by norm_num), show e - 53 + (52 - e) = -1 by ring]; norm_num
  have hq : (2 : ℚ) ^ e * (2 : ℚ) ^ (52 - e) = 2 ^ 52 := by
    rw [← zpow_add₀ (by norm_num), show e + (52 - e) = 52 by ring]; norm_num
  have hr : (0 : ℚ) < (2 : ℚ) ^ (52 - e) := by positivity
  have hle : (2 : ℚ) ^ (e - 53) ≤ (2 : ℚ) ^ e := zpow_le_zpow_right₀ (by norm_num) (by omega)
  have hdr : d * (2 : ℚ) ^ (52 - e) < 1 / 2 := by
    rw [← hs]; exact mul_lt_mul_of_pos_right h1 hr
  have hd0 : 0 ≤ d * (2 : ℚ) ^ (52 - e) := by positivity
  rw [nearest53_eval e (2 ^ 52) (by linarith) (by rw [zpow_add_one₀ (by norm_num)]; linarith) (by push_cast; rw [add_mul, hq]; linarith)
    (by push_cast; rw [add_mul, hq]; linarith)]
  push_cast
  rw [← zpow_natCast, ← zpow_add₀ (by norm_num)]
  congr 1
  push_cast
  ring

/-- C136. The bound on the number of steps is needed: in double precision the running time stops growing before `2 ^ 55` steps, so beyond such a
maturity a path without a default runs for ever, whatever the number of iterations allowed. -/
theorem C136_stalls (hazard : ℚ → ℚ) (maturity dt : ℚ) (e : ℤ) (h1 : (2 : ℚ) ^ e ≤ dt) (h2 : dt < (2 : ℚ) ^ (e + 1))
    (hmat : (2 : ℚ) ^ (e + 54) < maturity) (draw : Nat → ℚ) (pos : Nat)
    (hno : ∀ k t, nearest53 (hazard t * dt) < draw k) (fuel : Nat) :
    Rounded.defaultLoop nearest53 hazard maturity dt draw fuel dt pos = .error .fuel := by
  have hdt : 0 < dt := lt_of_lt_of_le (by positivity) h1
  have hstep : ∀ t : ℚ, t ≤ (2 : ℚ) ^ (e + 54) → nearest53 (t + dt) ≤ (2 : ℚ) ^ (e + 54) := by
    intro t ht
    have := rounding_nearest53.mono (show t + dt ≤ (2 : ℚ) ^ (e + 54) + dt by linarith)
    rwa [nearest53_two_pow_add hdt.le (by rw [show e + 54 - 53 = e + 1 by ring]; exact h2)] at this
  have key : ∀ (fuel : Nat) (t : ℚ) (pos : Nat), t ≤ (2 : ℚ) ^ (e + 54) →
      Rounded.defaultLoop nearest53 hazard maturity dt draw fuel t pos = .error .fuel := by
    intro fuel
    induction fuel with
    | zero => intro t pos _; rfl
    | succ n ih =>
      intro t pos ht
      simp only [Rounded.defaultLoop, if_pos (lt_of_le_of_lt ht hmat), if_neg (not_le.2 (hno pos t))]
      exact ih _ _ (hstep t ht)
  exact key fuel dt pos (h2.le.trans (zpow_le_zpow_right₀ (by norm_num) (by omega)))

/-- Non-vacuity of C136_paths: double precision, step 1/4, maturity 2, hazard 1/10 and the draws 1/2, 1/2, 1/100, 1/2, …: the first path defaults
at its third float time, the second never. -/
example : ∃ N : Nat, 6 ≤ N ∧ N ≤ 8 ∧ ∃ t : Nat → ℚ, ∃ ts, ts.length = 2 ∧
    Rounded.defaultPaths nearest53 (fun _ => 1 / 10) 2 (1 / 4) (fun k => if k = 2 then 1 / 100 else 1 / 2) 100 2 0 = .ok ts ∧
    ∀ j : Nat, j < N → |t j - (j + 1) * (1 / 4)| ≤ 1 / 2 ^ 40 := by
  have hM : exactSteps 2 (1 / 4) = 7 := by unfold exactSteps; norm_num
  have hrep : nearest53 (1 / 4) = 1 / 4 := by
    rw [nearest53_eval (-2) 4503599627370496 (by norm_num) (by norm_num) (by norm_num) (by norm_num)]; norm_num
  obtain ⟨N, t, h1, h2, h3, ts, h4, h5, -⟩ := C136_paths rounding_nearest53 (fun _ => 1 / 10) 2 (1 / 4) (by norm_num) hrep
    (by rw [hM]; norm_num) 2 (fun k => if k = 2 then 1 / 100 else 1 / 2) 100 (by rw [hM]; norm_num)
  rw [hM] at h1 h2
  refine ⟨N, by omega, h2, t, ts, h5, h4, fun j hj => (h3 j hj).2.trans ?_⟩
  have hj8 : (j : ℚ) ≤ 7 := by exact_mod_cast (show j ≤ 7 by omega)
  have hj0 : (0 : ℚ) ≤ j := Nat.cast_nonneg j
  have : (j : ℚ) * (j + 1) ≤ 56 := by nlinarith
  have e : 2 * (j : ℚ) * (1 / 2 ^ 53) * (((j : ℚ) + 1) * (1 / 4)) = (j * (j + 1)) * (1 / 2 ^ 54) := by ring
  rw [e]
  calc ((j : ℚ) * (j + 1)) * (1 / 2 ^ 54) ≤ 56 * (1 / 2 ^ 54) := mul_le_mul_of_nonneg_right this (by norm_num)
    _ ≤ 1 / 2 ^ 40 := by norm_num

/-- Non-vacuity of C136_stalls: step 1, maturity 2^55, hazard 0 and draws 1/2. -/
example (fuel : Nat) : Rounded.defaultLoop nearest53 (fun _ => 0) (2 ^ 55) 1 (fun _ => 1 / 2) fuel 1 0 = .error .fuel :=
  C136_stalls _ _ _ 0 (by norm_num) (by norm_num) (by norm_num) _ _ (fun _ _ => by
    simp only [zero_mul, rounding_nearest53.zero]; norm_num) fuel

end Verif.Props
'''
open(f,'w').write(s)
