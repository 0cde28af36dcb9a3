/-
Property theorems C18–C21: cashflows and cashflow collections (assets/base_cashflow.py).
-/
import Verif.Model.Cashflow
import Verif.Lemmas.PyList
import Verif.Props.Scheduling
import Mathlib.Algebra.BigOperators.Group.List.Basic
import Mathlib.Tactic.Ring
import Mathlib.Data.List.Induction
import Mathlib.Tactic.NormNum

namespace Verif.Props
open Verif

/-! ### C18 -/

/-- C18. After construction from any payments and any sequence of `add_payment` calls, the schedule is sorted by date,
consists of exactly the payments supplied, and payments of equal date keep the order in which they were supplied. -/
theorem C18_schedule_sorted (ps qs : List Payment) :
    (qs.foldl Cashflow.addPayment (Cashflow.create ps)).Pairwise (fun a b => a.date ≤ b.date) ∧
    (qs.foldl Cashflow.addPayment (Cashflow.create ps)).Perm (ps ++ qs) ∧
    ∀ d, (qs.foldl Cashflow.addPayment (Cashflow.create ps)).filter (fun p => decide (p.date = d)) =
      (ps ++ qs).filter (fun p => decide (p.date = d)) := by
  have key : ∀ (s : List Payment), KeySorted Payment.date s →
      KeySorted Payment.date (qs.foldl Cashflow.addPayment s) ∧ (qs.foldl Cashflow.addPayment s).Perm (s ++ qs) ∧
      ∀ d, (qs.foldl Cashflow.addPayment s).filter (fun p => decide (p.date = d)) =
        (s ++ qs).filter (fun p => decide (p.date = d)) := by
    induction qs with
    | nil => intro s hs; simpa using hs
    | cons q qs ih =>
      intro s hs
      obtain ⟨h1, h2, h3⟩ := ih (Cashflow.addPayment s q) (insortRight_sorted _ _ _ hs)
      refine ⟨h1, h2.trans ?_, fun d => ?_⟩
      · refine ((insortRight_perm Payment.date s q).append_right qs).trans ?_
        exact List.perm_middle.symm
      · rw [List.foldl_cons, h3, List.filter_append,
          show (Cashflow.addPayment s q).filter (fun p => decide (p.date = d)) = _ from
            insortRight_filter Payment.date s q hs d, ← List.filter_append]
        simp
  obtain ⟨h1, h2, h3⟩ := key (Cashflow.create ps) (pySorted_sorted _ _)
  refine ⟨h1, h2.trans ((pySorted_perm Payment.date ps).append_right qs), fun d => ?_⟩
  rw [h3, List.filter_append, List.filter_append]
  congr 1
  exact pySorted_filter Payment.date ps d

/-- C18. Hence the history does not matter: building from the first payments and adding the rest one by one gives the
same schedule as building from all of them at once. -/
theorem C18_add_equals_build (ps qs : List Payment) :
    qs.foldl Cashflow.addPayment (Cashflow.create ps) = Cashflow.create (ps ++ qs) := by
  obtain ⟨h1, _, h3⟩ := C18_schedule_sorted ps qs
  exact (pySorted_unique Payment.date h1 h3).symm

/-- C18. `create_from_date_and_float_iterables` raises ValueError exactly for iterables of different lengths, and
otherwise holds one payment per position. -/
theorem C18_create_from_iterables (dates : List PyDate) (amounts : List (Option ℚ)) :
    (dates.length ≠ amounts.length → Cashflow.createFromIterables dates amounts = .error .valueError) ∧
    (dates.length = amounts.length → ∃ s, Cashflow.createFromIterables dates amounts = .ok s ∧
      s.Pairwise (fun a b => a.date ≤ b.date) ∧ s.Perm (List.zipWith Payment.mk dates amounts)) := by
  constructor
  · intro h; unfold Cashflow.createFromIterables; rw [if_pos h]
  · intro h
    unfold Cashflow.createFromIterables
    rw [if_neg (by simpa using h)]
    refine ⟨_, rfl, pySorted_sorted _ _, ?_⟩
    refine (pySorted_perm _ _).trans ?_
    rw [List.zip, List.map_zipWith]

example : [⟨D 2023 1 5, some 2⟩, ⟨D 2022 1 1, none⟩].foldl Cashflow.addPayment
      (Cashflow.create [⟨D 2023 1 5, some 1⟩, ⟨D 2021 3 1, some 3⟩]) =
    [⟨D 2021 3 1, some 3⟩, ⟨D 2022 1 1, none⟩, ⟨D 2023 1 5, some 1⟩, ⟨D 2023 1 5, some 2⟩] := by decide +kernel

/-! ### C19 -/

/-- The contribution of one payment to the present value, when the discount factor at date `d` is `df d`: payments of
unknown amount or dated before the reference date contribute nothing. -/
def contribution (ref : PyDate) (df : PyDate → ℚ) (p : Payment) : ℚ :=
  match p.amount with
  | some a => if ref ≤ p.date then df p.date * a else 0
  | none => 0

theorem pySum_ok {α : Type} {f : α → Except PyErr ℚ} {g : α → ℚ} {l : List α} (h : ∀ a ∈ l, f a = .ok (g a)) :
    pySum f l = .ok (l.map g).sum := by
  unfold pySum
  have : collect f l = .ok (l.map g) := by
    induction l with
    | nil => rfl
    | cons a as ih =>
      simp only [collect, h a (by simp), ok_bind]
      rw [ih (fun b hb => h b (by simp [hb])), ok_bind]; rfl
  rw [this]; rfl

theorem presentValue_schedule (schedule : List Payment) (curve : DiscountFn) (df : PyDate → ℚ)
    (hdf : ∀ p ∈ schedule, p.amount ≠ none → curve.referenceDate ≤ p.date → curve.call p.date = .ok (df p.date)) :
    Cashflow.presentValue schedule curve = .ok (schedule.map (contribution curve.referenceDate df)).sum := by
  unfold Cashflow.presentValue
  rw [pySum_ok (g := fun pa : PyDate × ℚ => df pa.1 * pa.2)]
  · congr 1
    clear hdf
    induction schedule with
    | nil => rfl
    | cons p ps ih =>
      simp only [List.map_cons, List.sum_cons, ← ih, List.filterMap_cons, contribution]
      cases h : p.amount with
      | none => simp
      | some a =>
        simp only
        split_ifs <;> simp
  · rintro ⟨d, a⟩ hmem
    simp only [List.mem_filterMap] at hmem
    obtain ⟨p, hp, hpa⟩ := hmem
    cases ha : p.amount with
    | none => simp [ha] at hpa
    | some b =>
      simp only [ha] at hpa
      split_ifs at hpa with href
      simp only [Option.some.injEq, Prod.mk.injEq] at hpa
      obtain ⟨rfl, rfl⟩ := hpa
      simp only [hdf p hp (by simp [ha]) href, ok_bind]

/-- C19. The present value of the cashflow built from `ps` is the sum of discount factor times amount over exactly the
payments of known amount dated on or after the curve's reference date. -/
theorem C19_present_value (ps : List Payment) (curve : DiscountFn) (df : PyDate → ℚ)
    (hdf : ∀ p ∈ ps, p.amount ≠ none → curve.referenceDate ≤ p.date → curve.call p.date = .ok (df p.date)) :
    Cashflow.presentValue (Cashflow.create ps) curve =
      .ok (ps.map (contribution curve.referenceDate df)).sum := by
  have hp := pySorted_perm Payment.date ps
  rw [presentValue_schedule (df := df)]
  · congr 1
    exact (hp.map _).sum_eq
  · intro p hmem; exact hdf p (hp.mem_iff.1 hmem)

/-- C19. The value does not depend on the order in which payments were supplied. -/
theorem C19_order_independent (ps qs : List Payment) (h : ps.Perm qs) (curve : DiscountFn) (x : ℚ)
    (hx : Cashflow.presentValue (Cashflow.create ps) curve = .ok x) :
    Cashflow.presentValue (Cashflow.create qs) curve = .ok x := by
  classical
  -- every eligible date was priced
  have hcall : ∀ p ∈ ps, p.amount ≠ none → curve.referenceDate ≤ p.date → ∃ y, curve.call p.date = .ok y := by
    intro p hp ha href
    unfold Cashflow.presentValue pySum at hx
    rw [bind_ok] at hx
    obtain ⟨xs, hxs, _⟩ := hx
    cases hpa : p.amount with
    | none => exact absurd hpa ha
    | some a =>
      obtain ⟨b, hb⟩ := collect_ok_of_mem hxs (p.date, a) (by
        rw [List.mem_filterMap]
        refine ⟨p, (pySorted_perm Payment.date ps).mem_iff.2 hp, ?_⟩
        simp only [hpa]; rw [if_pos href])
      rw [bind_ok] at hb
      obtain ⟨y, hy, _⟩ := hb
      exact ⟨y, hy⟩
  let df : PyDate → ℚ := fun d => match curve.call d with | .ok y => y | .error _ => 0
  have hdf : ∀ p ∈ ps, p.amount ≠ none → curve.referenceDate ≤ p.date → curve.call p.date = .ok (df p.date) := by
    intro p hp ha href
    obtain ⟨y, hy⟩ := hcall p hp ha href
    simp [df, hy]
  rw [C19_present_value ps curve df hdf] at hx
  rw [C19_present_value qs curve df (fun p hp => hdf p (h.mem_iff.2 hp)), ← hx]
  congr 1
  exact ((h.symm).map _).sum_eq

/-- C19. The value of a cashflow built from two groups of payments is the sum of the values of the groups. -/
theorem C19_additive (ps qs : List Payment) (curve : DiscountFn) (df : PyDate → ℚ)
    (hdf : ∀ p ∈ ps ++ qs, p.amount ≠ none → curve.referenceDate ≤ p.date → curve.call p.date = .ok (df p.date)) :
    ∃ x y, Cashflow.presentValue (Cashflow.create ps) curve = .ok x ∧
      Cashflow.presentValue (Cashflow.create qs) curve = .ok y ∧
      Cashflow.presentValue (Cashflow.create (ps ++ qs)) curve = .ok (x + y) := by
  refine ⟨_, _, C19_present_value ps curve df (fun p hp => hdf p (by simp [hp])),
    C19_present_value qs curve df (fun p hp => hdf p (by simp [hp])), ?_⟩
  rw [C19_present_value (ps ++ qs) curve df hdf]
  simp

/-- C19. The value raises exactly when the curve raises at the date of some payment that counts. -/
theorem C19_raises_iff (ps : List Payment) (curve : DiscountFn) :
    (∃ e, Cashflow.presentValue (Cashflow.create ps) curve = .error e) ↔
      ∃ p ∈ ps, p.amount ≠ none ∧ curve.referenceDate ≤ p.date ∧ ∃ e, curve.call p.date = .error e := by
  constructor
  · rintro ⟨e, he⟩
    by_contra hc
    push Not at hc
    let df : PyDate → ℚ := fun d => match curve.call d with | .ok y => y | .error _ => 0
    rw [C19_present_value ps curve df ?_] at he
    · cases he
    · intro p hp ha href
      cases h : curve.call p.date with
      | error e => exact absurd h (hc p hp ha href e)
      | ok y => simp [df, h]
  · rintro ⟨p, hp, ha, href, e, he⟩
    cases hpv : Cashflow.presentValue (Cashflow.create ps) curve with
    | error x => exact ⟨x, rfl⟩
    | ok x =>
      exfalso
      unfold Cashflow.presentValue pySum at hpv
      rw [bind_ok] at hpv
      obtain ⟨xs, hxs, _⟩ := hpv
      cases hpa : p.amount with
      | none => exact ha hpa
      | some a =>
        obtain ⟨b, hb⟩ := collect_ok_of_mem hxs (p.date, a) (by
          rw [List.mem_filterMap]
          refine ⟨p, (pySorted_perm Payment.date ps).mem_iff.2 hp, ?_⟩
          simp only [hpa]; rw [if_pos href])
        rw [bind_ok] at hb
        obtain ⟨y, hy, _⟩ := hb
        simp only at hy
        rw [he] at hy; cases hy

/-- C19. A zero-coupon bond is worth the discount factor of its payment date, or nothing once that date is past. -/
theorem C19_zero_coupon (d : PyDate) (curve : DiscountFn) :
    (curve.referenceDate ≤ d → ∀ x, curve.call d = .ok x → ZeroCoupon.presentValue d curve = .ok x) ∧
    (d < curve.referenceDate → ZeroCoupon.presentValue d curve = .ok 0) := by
  constructor
  · intro h x hx
    have := C19_present_value [⟨d, some 1⟩] curve (fun _ => x) (by simp [hx])
    simpa [ZeroCoupon.presentValue, ZeroCoupon.cashflow, contribution, h] using this
  · intro h
    have := C19_present_value [⟨d, some 1⟩] curve (fun _ => 0) (by
      intro p hp _ hr; simp at hp; subst hp; exact absurd hr (not_le.2 h))
    simpa [ZeroCoupon.presentValue, ZeroCoupon.cashflow, contribution, h] using this

/-- A curve, a paid, an unknown and a future payment: only the last counts. -/
example : Cashflow.presentValue (Cashflow.create [⟨D 2025 1 1, some 100⟩, ⟨D 2020 1 1, some 7⟩, ⟨D 2026 1 1, none⟩])
    ⟨D 2023 1 1, fun _ => .ok (1 / 2)⟩ = .ok 50 := by
  rw [C19_present_value _ _ (fun _ => 1 / 2) (by simp)]
  simp only [List.map_cons, List.map_nil, contribution, List.sum_cons, List.sum_nil,
    show (D 2023 1 1 ≤ D 2025 1 1) = True from eq_true (by decide +kernel),
    show (D 2023 1 1 ≤ D 2020 1 1) = False from eq_false (by decide +kernel), if_true, if_false]
  norm_num

/-! ### C20 -/

variable {ν : Type}

/-- The latest value assigned to `k` in a history of assignments. -/
def latest (h : List (CashflowKey × ν)) (k : CashflowKey) : Option ν :=
  (h.reverse.find? (fun kv => decide (kv.1 = k))).map Prod.snd

theorem latest_append (h : List (CashflowKey × ν)) (k k' : CashflowKey) (v : ν) :
    latest (h ++ [(k, v)]) k' = if k = k' then some v else latest h k' := by
  unfold latest
  rw [List.reverse_append]
  simp only [List.reverse_cons, List.reverse_nil, List.nil_append, List.singleton_append, List.find?_cons]
  by_cases hk : k = k' <;> simp [hk]

/-- The collection after a history: construction from `ks`, `cs`, followed by assignments `ops`. -/
def afterHistory (ks : List CashflowKey) (cs : List ν) (ops : List (CashflowKey × ν)) : CashflowCollection ν :=
  ops.foldl (fun c kv => c.setItem kv.1 kv.2) (CashflowCollection.create cs ks)

theorem setItem_cashflows (c : CashflowCollection ν) (k : CashflowKey) (v : ν) :
    (c.setItem k v).cashflows = PyDict.set c.cashflows k v := by
  unfold CashflowCollection.setItem; split_ifs <;> rfl

theorem history_dict (ks : List CashflowKey) (cs : List ν) (ops : List (CashflowKey × ν)) :
    (afterHistory ks cs ops).cashflows = PyDict.ofList (ks.zip cs ++ ops) := by
  unfold afterHistory PyDict.ofList
  rw [List.foldl_append]
  have : ∀ (c : CashflowCollection ν), (ops.foldl (fun c kv => c.setItem kv.1 kv.2) c).cashflows =
      ops.foldl (fun d kv => PyDict.set d kv.1 kv.2) c.cashflows := by
    induction ops with
    | nil => intro c; rfl
    | cons o ops ih => intro c; rw [List.foldl_cons, List.foldl_cons, ih, setItem_cashflows]
  rw [this]; rfl

theorem ofList_get (h : List (CashflowKey × ν)) (k : CashflowKey) :
    PyDict.get? (PyDict.ofList h) k = latest h k := by
  induction h using List.reverseRec with
  | nil => rfl
  | append_singleton h kv ih =>
    obtain ⟨k', v⟩ := kv
    rw [latest_append]
    unfold PyDict.ofList at *
    rw [List.foldl_append]
    simp only [List.foldl_cons, List.foldl_nil]
    rw [PyDict.get?_set, ih]

theorem ofList_keys (h : List (CashflowKey × ν)) :
    ((PyDict.ofList h).map Prod.fst).Nodup ∧ ∀ k, k ∈ (PyDict.ofList h).map Prod.fst ↔ k ∈ h.map Prod.fst := by
  induction h using List.reverseRec with
  | nil => simp [PyDict.ofList]
  | append_singleton h kv ih =>
    obtain ⟨k', v⟩ := kv
    unfold PyDict.ofList at *
    rw [List.foldl_append]
    simp only [List.foldl_cons, List.foldl_nil]
    refine ⟨PyDict.nodup_set _ _ _ ih.1, fun k => ?_⟩
    rw [PyDict.keys_set]
    split_ifs with hk
    · rw [ih.2]
      have := (ih.2 k').1 hk
      simp only [List.map_append, List.mem_append, List.map_cons, List.map_nil, List.mem_singleton]
      constructor
      · exact Or.inl
      · rintro (h1 | rfl)
        · exact h1
        · exact this
    · rw [List.mem_append, ih.2]; simp

/-- C20. After any construction and any assignments, `c[key]` returns the latest cashflow assigned to `key`; `key in c`
holds iff the key was ever assigned; `len(c)` is the number of distinct keys assigned. -/
theorem C20_map_semantics (ks : List CashflowKey) (cs : List ν) (ops : List (CashflowKey × ν)) (k : CashflowKey) :
    (∀ v, latest (ks.zip cs ++ ops) k = some v → (afterHistory ks cs ops).getItem k = .ok v) ∧
    ((afterHistory ks cs ops).contains k = true ↔ k ∈ (ks.zip cs ++ ops).map Prod.fst) ∧
    (afterHistory ks cs ops).len = ((ks.zip cs ++ ops).map Prod.fst).dedup.length := by
  refine ⟨?_, ?_, ?_⟩
  · intro v hv
    unfold CashflowCollection.getItem
    rw [history_dict, ofList_get, hv]
  · unfold CashflowCollection.contains
    rw [history_dict, PyDict.get?_isSome, (ofList_keys _).2]
  · unfold CashflowCollection.len
    rw [history_dict]
    have h := ofList_keys (ks.zip cs ++ ops)
    have hp : ((PyDict.ofList (ks.zip cs ++ ops)).map Prod.fst).Perm ((ks.zip cs ++ ops).map Prod.fst).dedup :=
      (List.perm_ext_iff_of_nodup h.1 (List.nodup_dedup _)).2 (fun k => by rw [h.2, List.mem_dedup])
    rw [← hp.length_eq, List.length_map]

/-- C20. A key never assigned: an enumeration member is retried under its integer value and otherwise raises KeyError;
strings and integers raise AttributeError. -/
theorem C20_missing_key (ks : List CashflowKey) (cs : List ν) (ops : List (CashflowKey × ν)) (k : CashflowKey)
    (h : latest (ks.zip cs ++ ops) k = none) :
    (∀ n, k = .member n → latest (ks.zip cs ++ ops) (.int n) = none →
      (afterHistory ks cs ops).getItem k = .error .keyError) ∧
    (∀ n v, k = .member n → latest (ks.zip cs ++ ops) (.int n) = some v →
      (afterHistory ks cs ops).getItem k = .ok v) ∧
    (∀ s, k = .str s → (afterHistory ks cs ops).getItem k = .error .attributeError) := by
  unfold CashflowCollection.getItem
  rw [history_dict, ofList_get, h]
  refine ⟨?_, ?_, ?_⟩
  · rintro n rfl hn; simp [ofList_get, hn]
  · rintro n v rfl hn; simp [ofList_get, hn]
  · rintro s rfl; rfl

example : (afterHistory [.member 1] ["old"] [(.member 2, "float"), (.member 1, "new")]).getItem (.member 1) =
    .ok "new" ∧ latest ([(CashflowKey.member 1, "old")] ++ [(.member 2, "float"), (.member 1, "new")]) (.member 1) =
    some "new" := by decide

/-! ### C21 -/

/-- C21 (partial). As long as no key is assigned twice (and as many keys as cashflows are given), `cashflow_list` and
`keys` list exactly the cashflows and keys of the collection, in order.  Missing: replacing the cashflow of an existing
key, where it is false (`C21_stale_list`). -/
theorem C21_list_in_step_partial (ks : List CashflowKey) (cs : List ν) (ops : List (CashflowKey × ν))
    (hlen : ks.length = cs.length) (hnd : ((ks.zip cs ++ ops).map Prod.fst).Nodup) :
    (afterHistory ks cs ops).cashflowList = (afterHistory ks cs ops).cashflows.map Prod.snd ∧
    (afterHistory ks cs ops).keys = (afterHistory ks cs ops).cashflows.map Prod.fst := by
  have hset : ∀ (d : PyDict CashflowKey ν) k v, k ∉ d.map Prod.fst → PyDict.set d k v = d ++ [(k, v)] := by
    intro d k v hk
    induction d with
    | nil => rfl
    | cons a d ih =>
      obtain ⟨a, w⟩ := a
      simp only [List.map_cons, List.mem_cons, not_or] at hk
      simp only [PyDict.set]
      rw [if_neg (fun h => hk.1 h.symm), ih hk.2]; rfl
  have hof : ∀ (h : List (CashflowKey × ν)), (h.map Prod.fst).Nodup → PyDict.ofList h = h := by
    intro h
    induction h using List.reverseRec with
    | nil => intro _; rfl
    | append_singleton h kv ih =>
      intro hn
      rw [List.map_append] at hn
      have hn' := List.nodup_append.1 hn
      have e := ih hn'.1
      unfold PyDict.ofList at *
      rw [List.foldl_append, e]
      simp only [List.foldl_cons, List.foldl_nil]
      rw [hset]
      intro hc
      exact hn'.2.2 _ hc _ (by simp) rfl
  rw [history_dict, hof _ hnd]
  have hlist : ∀ (c : CashflowCollection ν) (ops : List (CashflowKey × ν)),
      (c.cashflows.map Prod.fst ++ ops.map Prod.fst).Nodup →
      (ops.foldl (fun c kv => c.setItem kv.1 kv.2) c).cashflowList = c.cashflowList ++ ops.map Prod.snd ∧
      (ops.foldl (fun c kv => c.setItem kv.1 kv.2) c).keys = c.keys ++ ops.map Prod.fst := by
    intro c ops
    induction ops generalizing c with
    | nil => intro _; simp
    | cons o ops ih =>
      intro hn
      have hno : o.1 ∉ c.cashflows.map Prod.fst := by
        intro hc; exact (List.nodup_append.1 hn).2.2 _ hc _ (by simp) rfl
      have hcon : c.contains o.1 = false := by
        unfold CashflowCollection.contains
        by_contra hc
        exact hno ((PyDict.get?_isSome _ _).1 (Bool.eq_true_of_not_eq_false hc))
      have hstep : c.setItem o.1 o.2 = ⟨c.cashflowList ++ [o.2], c.keys ++ [o.1], PyDict.set c.cashflows o.1 o.2⟩ := by
        unfold CashflowCollection.setItem; rw [hcon]; rfl
      rw [List.foldl_cons, hstep]
      obtain ⟨i1, i2⟩ := ih ⟨c.cashflowList ++ [o.2], c.keys ++ [o.1], PyDict.set c.cashflows o.1 o.2⟩ (by
        rw [hset _ _ _ hno, List.map_append, List.append_assoc]; simpa using hn)
      rw [i1, i2]; simp
  have hnd' := hnd
  rw [List.map_append] at hnd'
  obtain ⟨h1, h2⟩ := hlist (CashflowCollection.create cs ks) ops (by
    simp only [CashflowCollection.create]
    rw [hof _ (List.nodup_append.1 hnd').1]; exact hnd')
  refine ⟨?_, ?_⟩
  · unfold afterHistory; rw [h1, List.map_append]
    simp only [CashflowCollection.create]
    rw [List.map_snd_zip (by omega)]
  · unfold afterHistory; rw [h2, List.map_append]
    simp only [CashflowCollection.create]
    rw [List.map_fst_zip (by omega)]

/-- C21 fails in full: replacing the cashflow of an existing key leaves the old one in `cashflow_list` and the new one
out of it. -/
theorem C21_stale_list :
    (afterHistory [.member 1] ["old"] [(.member 1, "new")]).cashflowList = ["old"] ∧
    (afterHistory [.member 1] ["old"] [(.member 1, "new")]).cashflows.map Prod.snd = ["new"] := by decide

example : ([CashflowKey.member 2].zip ["fixed"] ++ [(CashflowKey.member 3, "float")]).map Prod.fst = [.member 2, .member 3] ∧
    ([CashflowKey.member 2, .member 3]).Nodup := by decide

end Verif.Props
