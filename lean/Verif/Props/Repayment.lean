import Verif.Props.Saving
import Mathlib.Algebra.BigOperators.Group.Finset.Basic
import Mathlib.Algebra.Order.BigOperators.Group.Finset
import Mathlib.Algebra.BigOperators.Ring.Finset
import Mathlib.Algebra.Order.Archimedean.Basic

/-!
# Property C107: paying off a debt over the years

Every year one pays what the debt's `max_inflows` (or `min_inflows`) says, at the dates it says, and
calls `next_year`. What is owed after any number of years has a closed form; from it follow when the
debt is paid off, and when it never is.
-/

set_option linter.unusedSectionVars false

namespace Forecaster.Account

open Forecaster Forecaster.Timing

variable {K : Type} [Field K] [LinearOrder K] [IsStrictOrderedRing K]

/-! ### Specification -/

/-- **Specification.** A year of repayment: ask what to pay, pay it, go on to the next year. -/
def PayYear (ask : Acct K → Except PyErr (Dict K (Ext K))) (a z : Acct K) : Prop :=
  ∃ d a', ask a = .ok (Dict.mapVals Ext.fin d) ∧ applyAll a d = .ok a' ∧ nextYear a' = .ok z

/-- **Specification.** `n` years of repayment lead from `a` to `z`. -/
def PayYears (ask : Acct K → Except PyErr (Dict K (Ext K))) : ℕ → Acct K → Acct K → Prop
  | 0, a, z => z = a
  | n + 1, a, z => ∃ m, PayYears ask n a m ∧ PayYear ask m z

/-- **Specification.** The part of a payment that falls on the date `k` of the timing. -/
def share (tm : Dict K K) (k : K) : K :=
  if Dict.total tm = 0 then (if k ∈ Dict.keys tm then 1 / (tm.length : K) else 0)
  else Dict.val tm k / Dict.total tm

/-- **Specification.** What a payment of 1, spread over the timing, is worth at the end of the year. -/
def worth (A : K → K) (tm : Dict K K) : K := ((Dict.keys tm).map fun k => share tm k * A (1 - k)).sum

/-! ### Proofs -/

theorem sum_over_keys {d : Dict K K} (hd : Dict.WF d) (g : K → K) {S : Finset K}
    (hS : ∀ k ∈ Dict.keys d, k ∈ S) :
    (d.map fun kv => kv.2 * g kv.1).sum = ∑ k ∈ S, Dict.val d k * g k := by
  induction d with
  | nil => simp [Dict.val_nil]
  | cons x d ih =>
    have hw := Dict.wf_cons.1 hd
    have hx : x.1 ∈ S := hS _ (by simp)
    have h1 := ih hw.2 fun k hk => hS k (by simp [hk])
    rw [List.map_cons, List.sum_cons, h1, ← Finset.add_sum_erase S _ hx,
      ← Finset.add_sum_erase S (fun k => Dict.val (x :: d) k * g k) hx]
    have e0 : Dict.val d x.1 = 0 := Dict.val_of_not_mem hw.1
    have e1 : Dict.val (x :: d) x.1 = x.2 := by simp [Dict.val, Dict.get?_cons]
    rw [e0, e1, zero_mul, zero_add]
    congr 1
    refine Finset.sum_congr rfl fun k hk => ?_
    have hne : x.1 ≠ k := (Finset.ne_of_mem_erase hk).symm
    simp [Dict.val, Dict.get?_cons, hne]

theorem grown_year {A : K → K} {d : Dict K K} (hd : Dated d) :
    grown A d 1 = (d.map fun kv => kv.2 * A (1 - kv.1)).sum := by
  unfold grown
  rw [List.filter_eq_self.2]
  intro kv hkv
  simpa using (hd.rng kv.1 (Dict.mem_keys_of_mem hkv)).2

theorem share_eq {tm d : Dict K K} (h : Proportional tm d) (k : K) :
    Dict.val d k = Dict.total d * share tm k := h k

theorem worth_eq {A : K → K} {tm d : Dict K K} (htm : GoodTiming tm) (hd : Dated d)
    (h : Proportional tm d) : grown A d 1 = Dict.total d * worth A tm := by
  classical
  rw [grown_year hd]
  set S := (Dict.keys d).toFinset ∪ (Dict.keys tm).toFinset with hS
  rw [sum_over_keys hd.wf (fun k => A (1 - k)) (S := S) fun k hk => by simp [hS, hk]]
  have hw : worth A tm = ∑ k ∈ S, share tm k * A (1 - k) := by
    have hnd : (Dict.keys tm).Nodup := htm.wf
    unfold worth
    rw [← List.sum_toFinset _ hnd]
    refine Finset.sum_subset (by simp [hS]) fun k _ hk => ?_
    have hk' : k ∉ Dict.keys tm := by simpa using hk
    have : share tm k = 0 := by
      unfold share
      rw [if_neg hk', Dict.val_of_not_mem hk', zero_div, ite_self]
    rw [this, zero_mul]
  rw [hw, Finset.mul_sum]
  refine Finset.sum_congr rfl fun k _ => ?_
  rw [share_eq h k, mul_assoc]

theorem applyAll_run {a a' : Acct K} {d : Dict K K} (h : applyAll a d = .ok a') :
    a' = run a (adds d) := by
  unfold applyAll at h
  induction d generalizing a with
  | nil => cases h; rfl
  | cons x d ih =>
    rw [List.foldlM_cons] at h
    cases e : addTransaction a x.2 (.num x.1) with
    | error _ => rw [e] at h; cases h
    | ok b =>
      rw [e] at h
      have := ih h
      rw [this]
      simp only [adds, List.map_cons, run, List.foldl_cons, step, e]

/-- The state of a debt at the start of a year of repayment. -/
structure Owing (A : K → K) (timing : Option (Arg K)) (tm : Dict K K) (a : Acct K) (b : K) : Prop where
  reach : Reachable a
  rates : ∀ y, a.growth y = A
  resolves : resolveTiming a timing = .ok tm
  none_yet : a.txns = []
  balance : balance a = .ok b
  nonpos : b ≤ 0

/-- What `Debt.max_inflows` and `Debt.min_inflows` ask for, with a limit of `P`. -/
def askFor (P : K) (timing : Option (Arg K)) (a : Acct K) : Except PyErr (Dict K (Ext K)) :=
  transactionsToBalance a (.fin 0) timing (some (inCap (.fin P) (inflows a none) none))
    (some (.fin 0)) none

theorem fin_injective {d d' : Dict K K} (h : Dict.mapVals Ext.fin d = Dict.mapVals Ext.fin d') :
    d = d' := by
  unfold Dict.mapVals at h
  refine List.map_injective_iff.2 ?_ h
  rintro ⟨k, v⟩ ⟨k', v'⟩ e
  simp only [Prod.mk.injEq, Ext.fin.injEq] at e
  simp [e]

theorem worth_nonneg {A : K → K} (hA : IsGrowth A) {tm : Dict K K} (htm : GoodTiming tm) :
    0 ≤ worth A tm := by
  refine List.sum_nonneg fun x hx => ?_
  obtain ⟨k, -, rfl⟩ := List.mem_map.1 hx
  refine mul_nonneg ?_ (hA.pos _).le
  unfold share
  split_ifs
  · positivity
  · exact le_rfl
  · refine div_nonneg ?_ (Dict.total_nonneg htm.nonneg)
    unfold Dict.val
    cases e : Dict.get? tm k with
    | none => exact le_rfl
    | some v => exact htm.nonneg _ (Dict.mem_of_get? e)

theorem pay_step {A : K → K} (hA : IsGrowth A) {timing : Option (Arg K)} {tm : Dict K K}
    (htm : GoodTiming tm) {a : Acct K} {b P : K} (hP : 0 ≤ P) (h : Owing A timing tm a b) :
    (∃ z, PayYear (askFor P timing) a z) ∧
    ∀ z, PayYear (askFor P timing) a z →
      Owing A timing tm z (min 0 (b * A 1 + P * worth A tm)) ∧ z.year = a.year + 1 := by
  have hready : Ready a timing none tm :=
    ⟨h.reach, by unfold Acct.A; rw [h.rates]; exact hA, h.resolves, htm, by simp⟩
  have hAa : a.A = A := h.rates _
  have hcap : inCap (.fin P) (inflows a none) none = .fin P := by
    have h0 : inflows a none = 0 := by
      unfold inflows; rw [h.none_yet]; simp [posSum, Dict.vals]
    unfold inCap
    rw [h0]
    simp [Ext.subFin, hP]
  obtain ⟨d, a', ref, e, h1, h2, h3, h4, h5, h6, h7, h8, h9, h10⟩ :=
    inflow_core (.fin P) a { timing := timing } tm hready 0
  simp only at h1 h4 h5 h6 h9 h10
  rw [hcap] at h9 h10
  have hbal := h.balance
  have hinv := h.reach.inv
  have h01 : (0 : K) ≤ 1 ∧ (1 : K) ≤ 1 := ⟨zero_le_one, le_rfl⟩
  have hdd : Dated d := by
    obtain ⟨nt, ref', hnt, hw, -, href, -⟩ := core hready.fit
    have e1 := ttb_eq (target := .fin 0) (M := some (inCap (.fin P) (inflows a none) none))
      (m := some (.fin 0)) href h.resolves hnt hready.growth hw
    rw [h1] at e1
    have e2 : Dict.keys d = Dict.keys nt := by
      have := congrArg Dict.keys (Except.ok.inj e1)
      simpa using this
    refine ⟨?_, fun k hk => hw.rng k (e2 ▸ hk)⟩
    have := hw.wf
    unfold Dict.WF at this ⊢
    rw [e2]
    exact this
  rw [applyAll_eq a hdd.rng] at h5
  cases h5
  have hbal' : balance { a with txns := addTransactions a.txns d } = .ok b := by
    rw [balance_txns_irrel]; exact hbal
  have hstep := nextYear_eq hbal'
  have hask : askFor P timing a = .ok (Dict.mapVals Ext.fin d) := h1
  refine ⟨⟨_, d, _, hask, applyAll_eq a hdd.rng, hstep⟩, ?_⟩
  rintro z ⟨d', a2, k1, k2, k3⟩
  rw [hask] at k1
  have hd' : d = d' := fin_injective (Except.ok.inj k1)
  subst hd'
  have hz : z = run a (adds d ++ [.nextYear]) := by
    rw [run_append, ← applyAll_run k2]
    simp only [run, List.foldl_cons, List.foldl_nil, step, k3]
  obtain ⟨i1, i2, i3, i4, i5⟩ := run_year hinv h.none_yet hbal d fun p hp =>
    hdd.rng p.1 (Dict.mem_keys_of_mem hp)
  rw [← hz] at i1 i2 i3 i4 i5
  rw [applyAll_eq a hdd.rng] at k2
  cases k2
  rw [hstep] at k3
  cases k3
  have hg : grown A d 1 = Dict.total d * worth A tm := worth_eq htm hdd h2
  have hA' : a.growth (a.year + 1) = A := h.rates _
  rw [hA', hg] at i5
  rw [balanceAtTime_end, balanceAtTime_eq hinv hbal h01 none (by simp), hAa] at h4
  simp only [Option.getD_none, grown_nil, add_zero, h.none_yet] at h4
  obtain ⟨a3, m1, -, m2⟩ := balanceAtTime_apply hinv hdd hbal h01 none (by simp)
  rw [applyAll_eq a hdd.rng] at m1
  cases m1
  rw [balanceAtTime_end, m2, hAa, hg] at h6
  simp only [Option.getD_none, grown_nil, add_zero, h.none_yet, Except.ok.injEq] at h6 h4
  have hW := worth_nonneg hA htm
  have hA1 := hA.pos 1
  have hT : Dict.total d ≤ P := by simpa using h9
  have hr0 : ref ≤ 0 := by
    rw [← h4]; exact mul_nonpos_of_nonpos_of_nonneg h.nonpos hA1.le
  have he0 : e ≤ 0 := h7 hr0
  have hm := mul_le_mul_of_nonneg_right hT hW
  have hval : e = min 0 (b * A 1 + P * worth A tm) := by
    rcases h10 with h10 | h10 | h10
    · rw [min_eq_left (by linarith), h10]
    · obtain ⟨t0, e0⟩ := h8 h10
      have : b * A 1 = 0 := by rw [h4]; exact le_antisymm hr0 h10
      rw [min_eq_left (by rw [this, zero_add]; exact mul_nonneg hP hW), e0, ← h4, this]
    · have hTP : Dict.total d = P := by simpa using h10
      rw [hTP] at h6
      rw [min_eq_right (by linarith), ← h6]
  have hreach : Reachable (run a (adds d ++ [.nextYear])) := by
    obtain ⟨y, b0, g, dt, ops, rfl⟩ := h.reach
    exact ⟨y, b0, g, dt, ops ++ (adds d ++ [.nextYear]), (run_append _ _ _).symm⟩
  rw [← hz] at hreach
  refine ⟨⟨hreach, fun y => h.rates y, ?_, i2, ?_, ?_⟩, i3⟩
  · exact h.resolves
  · rw [i5, ← hval, ← h6]
  · exact min_le_left _ _

/-- **Specification.** What is owed after `n` years, if it is never more than paid off: the debt and
the payments with interest. -/
def owed (B q F : K) (n : ℕ) : K := min 0 (-B * q ^ n + F * ∑ i ∈ Finset.range n, q ^ i)

theorem owed_succ {B q F : K} (hq : 0 < q) (hF : 0 ≤ F) (n : ℕ) :
    min 0 (owed B q F n * q + F) = owed B q F (n + 1) := by
  unfold owed
  rw [Finset.sum_range_succ', pow_succ]
  have e : F * (∑ i ∈ Finset.range n, q ^ (i + 1) + q ^ 0)
      = F * (∑ i ∈ Finset.range n, q ^ i) * q + F := by
    rw [mul_add, mul_assoc, Finset.sum_mul]
    simp [pow_succ]
  rw [e]
  generalize F * ∑ i ∈ Finset.range n, q ^ i = S
  rcases le_total 0 (-B * q ^ n + S) with h | h
  · rw [min_eq_left h, zero_mul, zero_add, min_eq_left hF, min_eq_left]
    nlinarith [mul_nonneg h hq.le]
  · rw [min_eq_right h]
    congr 1
    ring

theorem pay_years {A : K → K} (hA : IsGrowth A) {timing : Option (Arg K)} {tm : Dict K K}
    (htm : GoodTiming tm) {a : Acct K} {B P : K} (hP : 0 ≤ P) (hB : 0 ≤ B)
    (h : Owing A timing tm a (-B)) (n : ℕ) :
    (∃ z, PayYears (askFor P timing) n a z) ∧
    ∀ z, PayYears (askFor P timing) n a z →
      Owing A timing tm z (owed B (A 1) (P * worth A tm) n) ∧ z.year = a.year + n := by
  induction n with
  | zero =>
    refine ⟨⟨a, rfl⟩, ?_⟩
    rintro z rfl
    have e : owed B (A 1) (P * worth A tm) 0 = -B := by
      unfold owed
      simp [hB]
    rw [e]
    exact ⟨h, by simp⟩
  | succ n ih =>
    have hs := owed_succ (B := B) (hA.pos 1) (mul_nonneg hP (worth_nonneg hA htm)) n
    constructor
    · obtain ⟨⟨m, hm⟩, k⟩ := ih
      obtain ⟨z, hz⟩ := (pay_step hA htm hP (k m hm).1).1
      exact ⟨z, m, hm, hz⟩
    · rintro z ⟨m, hm, hz⟩
      obtain ⟨k1, k2⟩ := ih.2 m hm
      obtain ⟨k3, k4⟩ := (pay_step hA htm hP k1).2 z hz
      rw [hs] at k3
      exact ⟨k3, by rw [k4, k2]; push_cast; ring⟩

theorem debt_owing (y : ℤ) (B : K) (A : K → K) (dt : Dict K K) (timing : Option (Arg K))
    {tm : Dict K K} (hr : resolveTiming (debtInit y B (fun _ => A) dt) timing = .ok tm) :
    Owing A timing tm (debtInit y B (fun _ => A) dt) (-|B|) := by
  obtain ⟨h1, h2⟩ := C24_debt_balance_nonpos y B (fun _ => A) dt
  refine ⟨h2, ?_, hr, ?_, h1, by simp⟩
  · intro y'
    unfold debtInit
    split_ifs <;> rfl
  · unfold debtInit
    split_ifs <;> rfl

theorem debt_year (y : ℤ) (B : K) (g : ℤ → K → K) (dt : Dict K K) : (debtInit y B g dt).year = y := by
  unfold debtInit
  split_ifs <;> rfl

/-- **C107** (the schedule). If every year one pays what `max_inflows` says, the balance after `n`
years is that of a debt to which interest is added, and from which the maximum payment is taken, every
year, until nothing is owed: it is never overpaid. The same holds for `min_inflows` and the minimum
payment. -/
theorem C107_schedule (y : ℤ) (B mp ap : K) {A : K → K} (hA : IsGrowth A) (dt : Dict K K)
    (timing : Option (Arg K)) {tm : Dict K K} (htm : GoodTiming tm)
    (hr : resolveTiming (debtInit y B (fun _ => A) dt) timing = .ok tm) (n : ℕ) :
    (0 ≤ mp + ap →
      (∃ z, PayYears (fun a => debtMaxInflows (debtLimits mp (.fin ap)) a { timing := timing }) n
        (debtInit y B (fun _ => A) dt) z) ∧
      ∀ z, PayYears (fun a => debtMaxInflows (debtLimits mp (.fin ap)) a { timing := timing }) n
        (debtInit y B (fun _ => A) dt) z →
          balance z = .ok (owed |B| (A 1) ((mp + ap) * worth A tm) n) ∧ z.year = y + n) ∧
    (0 ≤ mp →
      (∃ z, PayYears (fun a => debtMinInflows (debtLimits mp (.fin ap)) a { timing := timing }) n
        (debtInit y B (fun _ => A) dt) z) ∧
      ∀ z, PayYears (fun a => debtMinInflows (debtLimits mp (.fin ap)) a { timing := timing }) n
        (debtInit y B (fun _ => A) dt) z →
          balance z = .ok (owed |B| (A 1) (mp * worth A tm) n) ∧ z.year = y + n) := by
  have key := fun P hP => pay_years (P := P) hA htm hP (abs_nonneg B) (debt_owing y B A dt timing hr) n
  have e1 : (fun a => debtMaxInflows (debtLimits mp (.fin ap)) a { timing := timing })
      = askFor (mp + ap) timing := rfl
  have e2 : (fun a => debtMinInflows (debtLimits mp (.fin ap)) a { timing := timing })
      = askFor mp timing := rfl
  rw [e1, e2]
  constructor
  · intro h0
    refine ⟨(key _ h0).1, fun z hz => ?_⟩
    obtain ⟨k1, k2⟩ := (key _ h0).2 z hz
    exact ⟨k1.balance, by rw [k2, debt_year]⟩
  · intro h0
    refine ⟨(key _ h0).1, fun z hz => ?_⟩
    obtain ⟨k1, k2⟩ := (key _ h0).2 z hz
    exact ⟨k1.balance, by rw [k2, debt_year]⟩

/-- Before it is cut off at zero, the debt changes every year by the first year's change, with
interest. -/
theorem owed_change (B q F : K) (n : ℕ) :
    (-B * q ^ (n + 1) + F * ∑ i ∈ Finset.range (n + 1), q ^ i)
      - (-B * q ^ n + F * ∑ i ∈ Finset.range n, q ^ i) = q ^ n * (F - B * (q - 1)) := by
  rw [Finset.sum_range_succ]
  ring

theorem owed_zero_of_paying {B q F : K} (hq : 1 ≤ q) (h : B * (q - 1) < F) (n : ℕ)
    (hn : B ≤ n * (F - B * (q - 1))) : owed B q F n = 0 := by
  have key : ∀ n : ℕ, -B + n * (F - B * (q - 1)) ≤ -B * q ^ n + F * ∑ i ∈ Finset.range n, q ^ i := by
    intro n
    induction n with
    | zero => simp
    | succ n ih =>
      have h1 := owed_change B q F n
      have h2 : F - B * (q - 1) ≤ q ^ n * (F - B * (q - 1)) :=
        le_mul_of_one_le_left (by linarith) (one_le_pow₀ hq)
      push_cast
      linarith
  unfold owed
  exact min_eq_left (by linarith [key n])

/-- **C107** (paid off). If the payments of a year, with interest to its end, exceed the first year's
interest, the debt is paid off: nothing is owed after any number of years that is at least
`|B| / (payment - interest)`; and there are such numbers. -/
theorem C107_paid_off [Archimedean K] (y : ℤ) (B mp ap : K) {A : K → K} (hA : IsGrowth A)
    (h1 : 1 ≤ A 1) (dt : Dict K K) (timing : Option (Arg K)) {tm : Dict K K} (htm : GoodTiming tm)
    (hr : resolveTiming (debtInit y B (fun _ => A) dt) timing = .ok tm) (h0 : 0 ≤ mp + ap)
    (hpay : |B| * (A 1 - 1) < (mp + ap) * worth A tm) :
    (∃ N : ℕ, |B| ≤ N * ((mp + ap) * worth A tm - |B| * (A 1 - 1))) ∧
    ∀ n : ℕ, |B| ≤ n * ((mp + ap) * worth A tm - |B| * (A 1 - 1)) → ∀ z,
      PayYears (fun a => debtMaxInflows (debtLimits mp (.fin ap)) a { timing := timing }) n
        (debtInit y B (fun _ => A) dt) z → balance z = .ok 0 := by
  have hpos : 0 < (mp + ap) * worth A tm - |B| * (A 1 - 1) := by linarith
  constructor
  · obtain ⟨N, hN⟩ := exists_nat_ge (|B| / ((mp + ap) * worth A tm - |B| * (A 1 - 1)))
    exact ⟨N, (div_le_iff₀ hpos).1 hN⟩
  · intro n hn z hz
    rw [(((C107_schedule y B mp ap hA dt timing htm hr n).1 h0).2 z hz).1,
      owed_zero_of_paying h1 hpay n hn]

/-- **C107** (never paid off). If the payments of a year, with interest to its end, do not exceed the
first year's interest, the debt is never less than it was at first. -/
theorem C107_never (y : ℤ) (B mp ap : K) {A : K → K} (hA : IsGrowth A) (dt : Dict K K)
    (timing : Option (Arg K)) {tm : Dict K K} (htm : GoodTiming tm)
    (hr : resolveTiming (debtInit y B (fun _ => A) dt) timing = .ok tm) (h0 : 0 ≤ mp + ap)
    (hpay : (mp + ap) * worth A tm ≤ |B| * (A 1 - 1)) (n : ℕ) (z : Acct K)
    (hz : PayYears (fun a => debtMaxInflows (debtLimits mp (.fin ap)) a { timing := timing }) n
      (debtInit y B (fun _ => A) dt) z) :
    ∃ b, balance z = .ok b ∧ b ≤ -|B| := by
  refine ⟨_, (((C107_schedule y B mp ap hA dt timing htm hr n).1 h0).2 z hz).1, ?_⟩
  have key : ∀ n : ℕ, -|B| * (A 1) ^ n
      + (mp + ap) * worth A tm * ∑ i ∈ Finset.range n, (A 1) ^ i ≤ -|B| := by
    intro n
    induction n with
    | zero => simp
    | succ n ih =>
      have h1 := owed_change |B| (A 1) ((mp + ap) * worth A tm) n
      have h2 : (A 1) ^ n * ((mp + ap) * worth A tm - |B| * (A 1 - 1)) ≤ 0 :=
        mul_nonpos_of_nonneg_of_nonpos (pow_nonneg (hA.pos 1).le n) (by linarith)
      linarith
  exact (min_le_right _ _).trans (key n)

/-- **C107** (paying more). Of two debts that differ only in the payments, the one with the greater
payments never stands worse. -/
theorem C107_more (y : ℤ) (B mp ap mp' ap' : K) {A : K → K} (hA : IsGrowth A) (dt : Dict K K)
    (timing : Option (Arg K)) {tm : Dict K K} (htm : GoodTiming tm)
    (hr : resolveTiming (debtInit y B (fun _ => A) dt) timing = .ok tm) (h0 : 0 ≤ mp + ap)
    (hle : mp + ap ≤ mp' + ap') (n : ℕ) (z z' : Acct K)
    (hz : PayYears (fun a => debtMaxInflows (debtLimits mp (.fin ap)) a { timing := timing }) n
      (debtInit y B (fun _ => A) dt) z)
    (hz' : PayYears (fun a => debtMaxInflows (debtLimits mp' (.fin ap')) a { timing := timing }) n
      (debtInit y B (fun _ => A) dt) z') :
    ∃ b b', balance z = .ok b ∧ balance z' = .ok b' ∧ b ≤ b' ∧ b' ≤ 0 := by
  refine ⟨_, _, (((C107_schedule y B mp ap hA dt timing htm hr n).1 h0).2 z hz).1,
    (((C107_schedule y B mp' ap' hA dt timing htm hr n).1 (h0.trans hle)).2 z' hz').1, ?_,
    min_le_left _ _⟩
  refine min_le_min le_rfl ?_
  have hs : 0 ≤ ∑ i ∈ Finset.range n, (A 1) ^ i :=
    Finset.sum_nonneg fun i _ => pow_nonneg (hA.pos 1).le i
  have := mul_le_mul_of_nonneg_right (mul_le_mul_of_nonneg_right hle (worth_nonneg hA htm)) hs
  linarith

/-! ### Examples -/

/-- Interest of 10% a year. -/
noncomputable def tenPercent : ℝ → ℝ := fun t => (11 / 10 : ℝ) ^ t

theorem tenPercent_growth : IsGrowth tenPercent :=
  ⟨by simp [tenPercent], fun s t => by
    unfold tenPercent
    exact Real.rpow_add (by norm_num) s t, fun t => Real.rpow_pos_of_pos (by norm_num) t⟩

theorem tenPercent_one : tenPercent 1 = 11 / 10 := by simp [tenPercent]

/-- At the end of the year. -/
def atEnd {K : Type} [Field K] : Dict K K := [(1, 1)]

theorem atEnd_good : GoodTiming (atEnd : Dict K K) :=
  ⟨⟨by simp [atEnd, Dict.WF], by simp [atEnd]⟩, by simp [atEnd], by simp [atEnd]⟩

theorem atEnd_worth {A : K → K} (hA : IsGrowth A) : worth A (atEnd : Dict K K) = 1 := by
  simp [worth, atEnd, share, Dict.val, Dict.get?_cons, hA.zero]

/-- A debt of 1000 at 10%, with 200 paid at the end of every year: 7 years leave something over 51
owed, 8 years nothing. With 100 a year the 1000 stay; with 50 a year they grow. -/
example : owed (1000 : ℝ) (11 / 10) 200 7 < -51 ∧ owed (1000 : ℝ) (11 / 10) 200 8 = 0 ∧
    owed (1000 : ℝ) (11 / 10) 100 7 = -1000 ∧ owed (1000 : ℝ) (11 / 10) 50 7 < -1400 := by
  unfold owed
  norm_num [Finset.sum_range_succ]

example : (∃ z, PayYears (fun a => debtMaxInflows (debtLimits 50 (.fin 150)) a
      { timing := some (.timing atEnd) }) 8 (debtInit 2000 1000 (fun _ => tenPercent) atEnd) z) ∧
    ∀ z, PayYears (fun a => debtMaxInflows (debtLimits 50 (.fin 150)) a
      { timing := some (.timing atEnd) }) 8 (debtInit 2000 1000 (fun _ => tenPercent) atEnd) z →
      balance z = .ok 0 ∧ z.year = 2000 + (8 : ℕ) := by
  have h := (C107_schedule 2000 1000 50 150 tenPercent_growth atEnd (some (.timing atEnd))
    atEnd_good rfl 8).1 (by norm_num)
  have e : owed |(1000 : ℝ)| (tenPercent 1) ((50 + 150) * worth tenPercent atEnd) 8 = 0 := by
    rw [tenPercent_one, atEnd_worth tenPercent_growth, abs_of_pos (by norm_num)]
    unfold owed
    norm_num [Finset.sum_range_succ]
  rw [e] at h
  exact h

/-- The hypotheses of `C107_paid_off` and of `C107_never`. -/
example : (1 : ℝ) ≤ tenPercent 1 ∧
    |(1000 : ℝ)| * (tenPercent 1 - 1) < (50 + 150) * worth tenPercent atEnd ∧
    (50 + 50) * worth tenPercent atEnd ≤ |(1000 : ℝ)| * (tenPercent 1 - 1) := by
  rw [tenPercent_one, atEnd_worth tenPercent_growth, abs_of_pos (by norm_num)]
  norm_num

/-- 20% up to 2000, 10% afterwards (only the start and the end of the year matter here). -/
def fallingRate : ℤ → ℚ → ℚ := fun y t => if t = 0 then 1 else if y ≤ 2000 then 6 / 5 else 11 / 10

/-- **C107, refuted** for rates that change: that a debt is never overpaid. When the rate falls, the
year's interest is worked out anew at the new rate (see C19), and paying off the debt at the end of the
year, as `max_inflows` says, turns it into an asset of 100. -/
theorem C107_falling_rate_refuted :
    debtMaxInflows (debtLimits 0 .posInf) (debtInit 2000 1000 fallingRate atEnd) {} = .ok [(1, .fin 1200)] ∧
    ((applyAll (debtInit 2000 1000 fallingRate atEnd) [(1, 1200)]).bind fun a =>
      (balanceAtTime a (.str "end") none)) = .ok 0 ∧
    ((applyAll (debtInit 2000 1000 fallingRate atEnd) [(1, 1200)]).bind fun a =>
      (nextYear a).bind balance) = .ok 100 := by
  refine ⟨?_, ?_, ?_⟩ <;> decide +kernel

end Forecaster.Account
