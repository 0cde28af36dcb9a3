p='/verif/lean/Verif/Props/Bond.lean'
s=open(p).read()
anchor="/-- A two-year note: 100 face, 4% semi-annual, maturing on Saturday 15 February 2025, bought on 1 June 2023. -/"
new='''/-- C33. The coupons of a year add up to the coupon rate, in percent, of the principal; a zero-coupon bond's coupon is nothing. -/
theorem C33_annual_interest (t : BondTerms) :
    (t.frequency = .zeroCoupon → t.couponPayment = 0) ∧
    (t.frequency ≠ .zeroCoupon → t.frequency.value * t.couponPayment = t.principal * t.couponRate / 100) := by
  constructor
  · intro h; unfold BondTerms.couponPayment; rw [h]
  · intro h
    unfold BondTerms.couponPayment
    cases hf : t.frequency <;> simp_all [PaymentFrequency.value] <;> ring

/-- C33. Over its whole life an `n`-year bond pays `n` times the annual coupon rate, in percent, of its principal. -/
theorem C33_total_interest (t : BondTerms) (b : Bond) (k : Int) (n : Nat) (hk : couponMonths t.frequency = some k)
    (hn : t.tenor.length = some (n : Int)) (hY : t.tenor.unit = 'Y') (hday : t.maturityDate.day ≤ 28)
    (hcap : n * t.frequency.value ≤ 1001) (h : Bond.create t = .ok b) :
    (b.coupons.map BondPayment.amount).sum = n * (t.principal * t.couponRate / 100) := by
  have hlen := C33_count_years t b k n hk hn hY hday hcap h
  obtain ⟨-, -, hpay, hk12⟩ := C33_coupons t b k hk h
  have hv : (t.frequency.value : ℚ) ≠ 0 := by
    intro e
    have : t.frequency.value = 0 := by exact_mod_cast e
    rw [this] at hk12; simp at hk12
  rw [List.map_congr_left (fun p hp => (hpay p hp).1), List.map_const', List.sum_replicate, hlen, nsmul_eq_mul]
  push_cast
  field_simp

'''
assert s.count(anchor)==1
s=s.replace(anchor,new+anchor)
open(p,'w').write(s)
