import Verif.Lemmas.Account
import Verif.Props.Accum
import Verif.Props.Timing
import Mathlib.Tactic.NormNum

/-!
# Properties of `forecaster/accounts/base.py` and `debt.py` (C18 - C24)
-/

set_option linter.unusedSectionVars false

namespace Forecaster.Account

open Forecaster Forecaster.Timing

variable {K : Type} [Field K] [LinearOrder K] [IsStrictOrderedRing K]

/-- Specification: an account in a state that a program can reach: constructed with any
balance, rates and default timing, and then used in any way (including failing calls). -/
def Reachable (a : Acct K) : Prop :=
  ∃ y b g dt ops, a = run (init y b g dt) ops

theorem Reachable.inv {a : Acct K} (h : Reachable a) : Inv a := by
  obtain ⟨y, b, g, dt, ops, rfl⟩ := h
  exact inv_run (inv_init y b g dt) ops

/-- The accumulation function of accounts/util.py is a growth function in the sense the
theorems below need. -/
theorem C18_accumulation_is_growth (rate : ℝ) (nper : Option ℝ) (h : Accum.Valid rate nper) :
    IsGrowth fun t => Accum.accumulationFunction t rate nper := by
  obtain ⟨h0, hp, ha, -⟩ := Accum.C16_exponential_law rate nper h
  exact ⟨h0, ha, hp⟩

/-! ## C18: `balance_at_time` -/

/-- **C18.** For every reachable account and every `t` in `[0,1]`, `balance_at_time(t)` is the
opening balance grown for `t` plus every transaction dated at or before `t`, each grown from
its own date to `t`. -/
theorem C18_balance_at_time (a : Acct K) (ha : Reachable a) (t : K) (h0 : 0 ≤ t) (h1 : t ≤ 1) :
    ∃ b, balance a = .ok b ∧ balanceAtTime a (.num t) none
      = .ok (b * a.A t + ((a.txns.filter fun kv => decide (kv.1 ≤ t)).map
          fun kv => kv.2 * a.A (t - kv.1)).sum) := by
  obtain ⟨b, hb⟩ := ha.inv.balance_ok
  refine ⟨b, hb, ?_⟩
  rw [balanceAtTime_eq ha.inv hb ⟨h0, h1⟩ none (by simp)]
  simp [grown]

/-- **C18.** A new transaction changes the balance at time `t` by its value grown from its date
to `t` if it is dated at or before `t`, and not at all if it is dated later. -/
theorem C18_effect_of_transaction (a : Acct K) (ha : Reachable a) (v w t : K)
    (hw : 0 ≤ w ∧ w ≤ 1) (ht : 0 ≤ t ∧ t ≤ 1) :
    ∃ a' x, addTransaction a v (.num w) = .ok a' ∧ balanceAtTime a (.num t) none = .ok x ∧
      balanceAtTime a' (.num t) none = .ok (x + if w ≤ t then v * a.A (t - w) else 0) := by
  obtain ⟨b, hb⟩ := ha.inv.balance_ok
  have e := addTransaction_eq (a := a) (v := v) (whenConv_ok hw.1 hw.2)
  have hi := inv_addTransaction ha.inv e
  refine ⟨_, _, e, balanceAtTime_eq ha.inv hb ht none (by simp), ?_⟩
  rw [balanceAtTime_eq hi (b := b) (by rw [balance_txns_irrel]; exact hb) ht none (by simp)]
  have : Acct.A { a with txns := Dict.set a.txns w (Dict.val a.txns w + v) } = a.A := rfl
  simp only [this, grown_set a.A ha.inv.tx.wf]
  congr 1
  split <;> ring

/-- **C18.** `balance_at_time(t, transactions=d)` answers "as if the account also had these
transactions recorded against it". -/
theorem C18_extra_transactions (a : Acct K) (ha : Reachable a) (d : Dict K K) (hd : Dated d)
    (t : K) (ht : 0 ≤ t ∧ t ≤ 1) :
    ∃ a', applyAll a d = .ok a' ∧
      balanceAtTime a (.num t) (some d) = balanceAtTime a' (.num t) none := by
  obtain ⟨b, hb⟩ := ha.inv.balance_ok
  obtain ⟨a', h1, -, h2⟩ := balanceAtTime_apply ha.inv hd hb ht none (by simp)
  refine ⟨a', h1, ?_⟩
  rw [h2, balanceAtTime_eq ha.inv hb ht (some d) (by simpa using hd)]
  simp only [Option.getD_some, Option.getD_none, grown_nil]
  congr 1; ring

/-- **C18.** Between transactions money just grows: if nothing is dated in `(s, t]`, the balance
at `t` is the balance at `s` times the growth over `t - s`. -/
theorem C18_growth_between (a : Acct K) (ha : Reachable a) (hA : IsGrowth a.A) (s t : K)
    (h0 : 0 ≤ s) (hst : s ≤ t) (h1 : t ≤ 1) (hno : ∀ k ∈ Dict.keys a.txns, ¬ (s < k ∧ k ≤ t)) :
    ∃ x, balanceAtTime a (.num s) none = .ok x ∧
      balanceAtTime a (.num t) none = .ok (x * a.A (t - s)) := by
  obtain ⟨b, hb⟩ := ha.inv.balance_ok
  refine ⟨_, balanceAtTime_eq ha.inv hb ⟨h0, hst.trans h1⟩ none (by simp), ?_⟩
  rw [balanceAtTime_eq ha.inv hb ⟨h0.trans hst, h1⟩ none (by simp)]
  have key : ∀ d : Dict K K, (∀ k ∈ Dict.keys d, ¬ (s < k ∧ k ≤ t)) →
      grown a.A d t = grown a.A d s * a.A (t - s) := by
    intro d hd
    induction d with
    | nil => simp
    | cons x d ih =>
      rw [grown_cons, grown_cons, ih fun k hk => hd k (by simp [hk]), add_mul]
      congr 1
      have hx := hd x.1 (by simp)
      by_cases h : x.1 ≤ s
      · rw [if_pos h, if_pos (h.trans hst), mul_assoc, ← hA.add]
        congr 2; ring
      · rw [if_neg h, if_neg fun h' => hx ⟨not_le.1 h, h'⟩, zero_mul]
  simp only [Option.getD_none, grown_nil, key _ hno]
  have : a.A t = a.A s * a.A (t - s) := by rw [← hA.add]; congr 1; ring
  rw [this]
  congr 1; ring

theorem returns_reconcile {a : Acct K} (ha : Inv a) :
    ∃ b r, balance a = .ok b ∧ returns a = .ok r ∧
      balanceAtTime a (.str "end") none = .ok (b + r + inflows a none + outflows a none) := by
  obtain ⟨b, hb⟩ := ha.balance_ok
  have hfold : ∀ (ks : List K) (s : K),
      ks.foldl (fun r w => r + Dict.val a.txns w * (a.A (1 - w) - 1)) s
        = s + (ks.map fun w => Dict.val a.txns w * a.A (1 - w)).sum
          - (ks.map (Dict.val a.txns)).sum := by
    intro ks
    induction ks with
    | nil => simp
    | cons k ks ih => intro s; simp only [List.foldl_cons, ih, List.map_cons, List.sum_cons]; ring
  refine ⟨b, _, hb, by unfold returns; rw [hb, ok_bind], ?_⟩
  rw [balanceAtTime_end, balanceAtTime_eq ha hb ⟨zero_le_one, le_rfl⟩ none (by simp)]
  have hp := pos_add_neg a.txns
  have hfil : ((Dict.keys a.txns).filter fun w => decide (w ≤ 1)) = Dict.keys a.txns :=
    List.filter_eq_self.2 fun w hw => by simpa using (ha.tx.rng w hw).2
  simp only [hfold, Option.getD_none, grown_nil, inflows, outflows,
    grown_eq_keys a.A ha.tx.wf, hfil]
  rw [← Dict.total_eq_sum_keys ha.tx.wf, ← hp]
  congr 1; ring

/-- **C18.** The year's accounts balance: opening balance + returns + inflows + outflows is the
closing balance. -/
theorem C18_returns_reconcile (a : Acct K) (ha : Reachable a) :
    ∃ b r, balance a = .ok b ∧ returns a = .ok r ∧
      balanceAtTime a (.str "end") none = .ok (b + r + inflows a none + outflows a none) :=
  returns_reconcile ha.inv

/-- **C18.** Taxable income of a plain account: the year's returns, or 0 for a loss. -/
theorem C18_taxable_income (a : Acct K) (ha : Reachable a) :
    ∃ r x, returns a = .ok r ∧ taxableIncome a = .ok x ∧ 0 ≤ x ∧ r ≤ x ∧ (x = r ∨ x = 0) := by
  obtain ⟨b, r, -, hr, -⟩ := C18_returns_reconcile a ha
  refine ⟨r, max r 0, hr, by unfold taxableIncome; rw [hr, ok_bind], le_max_right _ _,
    le_max_left _ _, ?_⟩
  rcases max_choice r 0 with h | h <;> rw [h] <;> simp

/-- A sample account used below: opened in 2000 with 100, zero growth, two transactions. -/
def sample : Acct ℚ :=
  run (init 2000 100 (fun _ _ => 1) [(1 / 2, 1)]) [.add 50 (.num (1 / 4)), .add (-20) (.str "end")]

theorem sample_reachable : Reachable sample := ⟨_, _, _, _, _, rfl⟩
theorem sample_growth : IsGrowth sample.A := by
  have : sample.A = fun _ => 1 := by unfold Acct.A sample; rw [(run_const _ _).1]; rfl
  rw [this]
  exact ⟨rfl, fun _ _ => (one_mul _).symm, fun _ => zero_lt_one⟩

example : sample.txns = [(1 / 4, 50), (1, -20)] := by decide +kernel
example : balanceAtTime sample (.num (1 / 2)) none = .ok 150 := by decide +kernel
example : balanceAtTime sample (.str "end") none = .ok 130 := by decide +kernel

/-! ## C19: carrying the balance over to next year -/

theorem closing_carries_over {a : Acct K} (ha : Inv a)
    (hrate : a.growth (a.year + 1) = a.growth a.year) :
    ∃ a' b, nextYear a = .ok a' ∧ a'.year = a.year + 1 ∧
      balanceAtTime a (.str "end") none = .ok b ∧ balance a' = .ok b := by
  obtain ⟨b, hb⟩ := ha.balance_ok
  refine ⟨_, _, nextYear_eq hb, rfl, by
    rw [balanceAtTime_end, balanceAtTime_eq ha hb ⟨zero_le_one, le_rfl⟩ none (by simp)], ?_⟩
  rw [balance_of_prev (b := b) (tx := a.txns) _ _ _ ha.tx]
  · simp only [Acct.A, hrate, Option.getD_none, grown_nil, add_zero]
  · simp only
    rw [Dict.get?_set_ne _ _ (by omega)]
    exact ha.future _ (by omega)
  · simp [Dict.get?_set]
  · simp [Dict.get?_set]

/-- **C19** (for constant rates; the full claim - for any rates - is refuted by
`C19_rate_change_regrows_last_year`). The opening balance after `next_year()` is what
`balance_at_time('end')` reported before, and the old transactions are gone. -/
theorem C19_closing_balance_carries_over (a : Acct K) (ha : Reachable a)
    (hrate : a.growth (a.year + 1) = a.growth a.year) :
    ∃ a' b, nextYear a = .ok a' ∧ a'.year = a.year + 1 ∧
      balanceAtTime a (.str "end") none = .ok b ∧ balance a' = .ok b :=
  closing_carries_over ha.inv hrate

/-- What the code does in general: last year's opening balance and transactions are grown at
the *new* year's rate. -/
theorem C19_next_balance_uses_new_rate (a : Acct K) (ha : Reachable a) (b : K)
    (hb : balance a = .ok b) :
    ∃ a', nextYear a = .ok a' ∧ balance a' = .ok
      (b * a.growth (a.year + 1) 1 +
        (a.txns.map fun kv => kv.2 * a.growth (a.year + 1) (1 - kv.1)).sum) := by
  refine ⟨_, nextYear_eq hb, ?_⟩
  rw [balance_of_prev (b := b) (tx := a.txns) _ _ _ ha.inv.tx]
  · simp only [Acct.A, grown]
    rw [List.filter_eq_self.2]
    intro kv hkv
    simpa using (ha.inv.tx.rng _ (Dict.mem_keys_of_mem hkv)).2
  · simp only
    rw [Dict.get?_set_ne _ _ (by omega)]
    exact ha.inv.future _ (by omega)
  · simp [Dict.get?_set]
  · simp [Dict.get?_set]

/-- **C19 is false in general**: an account with 100, growing at 0% in 2000 and 100% in 2001,
reports a closing balance of 100 for 2000 but opens 2001 with 200. -/
theorem C19_rate_change_regrows_last_year :
    ∃ (a a' : Acct ℝ), Reachable a ∧
      (∀ y, ∃ rate, a.growth y = fun t => Accum.accumulationFunction t rate (some 1)) ∧
      nextYear a = .ok a' ∧ balanceAtTime a (.str "end") none = .ok 100 ∧
      balance a' = .ok 200 := by
  let g : ℤ → ℝ → ℝ := fun y t => Accum.accumulationFunction t (if y ≤ 2000 then 0 else 1) (some 1)
  have hr : Reachable (init 2000 100 g []) := ⟨_, _, _, _, [], rfl⟩
  have hb : balance (init 2000 100 g []) = .ok 100 := by
    simp [balance, init, Dict.get?_cons]
  obtain ⟨a', h1, h2⟩ := C19_next_balance_uses_new_rate _ hr _ hb
  refine ⟨_, a', hr, fun y => ⟨_, rfl⟩, h1, ?_, ?_⟩
  · obtain ⟨b, hb', h⟩ := C18_balance_at_time _ hr 1 zero_le_one le_rfl
    rw [hb] at hb'; cases hb'
    rw [balanceAtTime_end, h]
    simp [init, Acct.A, g, Accum.accumulationFunction]
  · rw [h2]
    simp [init, g, Accum.accumulationFunction]
    norm_num

/-- **C19.** Compound growth over any number of years without transactions. -/
theorem C19_compound_growth (y : ℤ) (b : K) (g : ℤ → K → K) (dt : Dict K K) (n : ℕ) :
    (run (init y b g dt) (List.replicate n .nextYear)).year = y + n ∧
    balance (run (init y b g dt) (List.replicate n .nextYear))
      = .ok (b * ((List.range n).map fun (i : ℕ) => g (y + i + 1) 1).prod) := by
  have hrun : ∀ n : ℕ, run (init y b g dt) (List.replicate (n + 1) .nextYear)
      = run (run (init y b g dt) (List.replicate n .nextYear)) [.nextYear] := by
    intro n; simp [run, List.replicate_succ', List.foldl_append]
  have htx : ∀ n : ℕ, (run (init y b g dt) (List.replicate n .nextYear)).txns = [] ∧
      (run (init y b g dt) (List.replicate n .nextYear)).growth = g ∧
      (run (init y b g dt) (List.replicate n .nextYear)).year = y + n := by
    intro n
    induction n with
    | zero => simp [run, init]
    | succ n ih =>
      have hi := inv_run (inv_init y b g dt) (List.replicate n .nextYear)
      obtain ⟨c, hc⟩ := hi.balance_ok
      rw [hrun]
      generalize run (init y b g dt) (List.replicate n .nextYear) = a at *
      simp only [run, List.foldl_cons, List.foldl_nil, step, nextYear_eq hc]
      refine ⟨trivial, ih.2.1, ?_⟩
      rw [ih.2.2]; push_cast; ring
  induction n with
  | zero => simp [run, balance, init, Dict.get?_cons]
  | succ n ih =>
    refine ⟨(htx (n + 1)).2.2, ?_⟩
    have hr : Reachable (run (init y b g dt) (List.replicate n .nextYear)) := ⟨_, _, _, _, _, rfl⟩
    obtain ⟨a', h1, h2⟩ := C19_next_balance_uses_new_rate _ hr _ ih.2
    rw [hrun]
    have : run (run (init y b g dt) (List.replicate n .nextYear)) [.nextYear] = a' := by
      simp only [run, List.foldl_cons, List.foldl_nil, step] at h1 ⊢
      rw [h1]
    rw [this, h2, (htx n).1, (htx n).2.1, (htx n).2.2, List.range_succ]
    simp only [List.map_nil, List.sum_nil, add_zero, List.map_append, List.map_cons,
      List.prod_append, List.prod_cons, List.prod_nil, mul_one, mul_assoc]

/-- Three years at 10%, 20%, 50% (annual compounding; the first year's rate is never used). -/
example : balance (run (init 2000 (100 : ℚ) (fun y t => if y = 2000 then 1 + t / 10 else
      if y = 2001 then 1 + t / 5 else 1 + t / 2) []) [.nextYear, .nextYear]) = .ok 180 := by
  decide +kernel

/-! ## C20: recording transactions -/

/-- **C20.** `add_transaction(v, when)` is accepted exactly when `when` is "start", "end" or in
`[0,1]`; it adds `v` to the account's net transactions, at the date given and nowhere else,
and changes nothing else. -/
theorem C20_add_transaction (a : Acct K) (ha : Reachable a) (v : K) (w : When K) :
    (∀ e, whenConv w = .error e → addTransaction a v w = .error e) ∧
    (∀ t, whenConv w = .ok t → ∃ a', addTransaction a v w = .ok a' ∧
      Dict.val a'.txns t = Dict.val a.txns t + v ∧
      (∀ k, k ≠ t → Dict.get? a'.txns k = Dict.get? a.txns k) ∧
      Dict.total a'.txns = Dict.total a.txns + v ∧
      inflows a' none + outflows a' none = inflows a none + outflows a none + v ∧
      balance a' = balance a ∧ a'.year = a.year ∧ a'.balHist = a.balHist ∧
      a'.txHist = a.txHist) := by
  constructor
  · intro e h; simp [addTransaction, h]
  · intro t ht
    have htot : Dict.total (Dict.set a.txns t (Dict.val a.txns t + v)) = Dict.total a.txns + v := by
      rw [Dict.total_set ha.inv.tx.wf]; ring
    refine ⟨_, addTransaction_eq ht, by simp [Dict.val_set], ?_, htot, ?_, rfl, rfl, rfl, rfl⟩
    · intro k hk; exact Dict.get?_set_ne _ _ (Ne.symm hk)
    · simp only [inflows, outflows, zero_add, pos_add_neg]; exact htot

/-- **C20.** Inflows are non-negative, outflows non-positive, and together they are the net of
all transactions (recorded and, if given, hypothetical). -/
theorem C20_inflows_outflows (a : Acct K) (txs : Option (Dict K K)) :
    0 ≤ inflows a txs ∧ outflows a txs ≤ 0 ∧
      inflows a txs + outflows a txs = Dict.total (txs.getD []) + Dict.total a.txns := by
  have h1 := posSum_nonneg a.txns
  have h2 := negSum_nonpos a.txns
  have h3 := pos_add_neg a.txns
  cases txs with
  | none => simp only [inflows, outflows, Option.getD_none, Dict.total_nil]
            refine ⟨?_, ?_, ?_⟩ <;> linarith
  | some d =>
    have h4 := posSum_nonneg d
    have h5 := negSum_nonpos d
    have h6 := pos_add_neg d
    simp only [inflows, outflows, Option.getD_some]
    refine ⟨?_, ?_, ?_⟩ <;> linarith

/-- **C20.** `next_year()` always succeeds, starts with no transactions and files the old ones
under the old year. -/
theorem C20_next_year (a : Acct K) (ha : Reachable a) :
    ∃ a', nextYear a = .ok a' ∧ a'.txns = [] ∧ a'.year = a.year + 1 ∧
      Dict.get? a'.txHist a.year = some a.txns ∧
      Dict.get? a'.balHist a.year = (balance a).toOption ∧
      inflows a' none = 0 ∧ outflows a' none = 0 := by
  obtain ⟨b, hb⟩ := ha.inv.balance_ok
  refine ⟨_, nextYear_eq hb, rfl, rfl, by simp [Dict.get?_set], ?_, ?_, ?_⟩
  · simp [Dict.get?_set, hb, Except.toOption]
  · simp [inflows, posSum, Dict.vals]
  · simp [outflows, negSum, Dict.vals]

theorem step_past {a a' : Acct K} (ha : Inv a) {op : Op K} (h : step a op = .ok a') :
    a.year ≤ a'.year ∧ ∀ y, y < a.year →
      Dict.get? a'.txHist y = Dict.get? a.txHist y ∧
      Dict.get? a'.balHist y = Dict.get? a.balHist y := by
  have hadd : ∀ {a a' : Acct K} {v w}, addTransaction a v w = .ok a' →
      a'.year = a.year ∧ a'.txHist = a.txHist ∧ a'.balHist = a.balHist := by
    intro a a' v w h
    unfold addTransaction at h
    cases hw : whenConv w with
    | error e => simp [hw] at h
    | ok t => simp only [hw, ok_bind, Except.ok.injEq] at h; subst h; exact ⟨rfl, rfl, rfl⟩
  cases op with
  | add v w =>
    obtain ⟨h1, h2, h3⟩ := hadd h
    exact ⟨h1.ge, fun y _ => by rw [h2, h3]; exact ⟨rfl, rfl⟩⟩
  | setItem k v =>
    have : a'.year = a.year ∧ a'.txHist = a.txHist ∧ a'.balHist = a.balHist := by
      simp only [step, setItem] at h
      cases k with
      | str s => exact hadd h
      | num x =>
        simp only at h
        split_ifs at h with hx
        · have := hadd h; exact this
        · exact hadd h
    exact ⟨this.1.ge, fun y _ => by rw [this.2.1, this.2.2]; exact ⟨rfl, rfl⟩⟩
  | delItem k => obtain ⟨d, rfl⟩ := delItem_const h; exact ⟨le_rfl, fun y _ => ⟨rfl, rfl⟩⟩
  | clear => cases h; exact ⟨le_rfl, fun y _ => ⟨rfl, rfl⟩⟩
  | nextYear =>
    obtain ⟨b, hb⟩ := ha.balance_ok
    simp only [step, nextYear_eq hb, Except.ok.injEq] at h
    subst h
    refine ⟨by simp, fun y hy => ?_⟩
    simp only
    rw [Dict.get?_set_ne _ _ (by omega), Dict.get?_set_ne _ _ (by omega)]
    exact ⟨rfl, rfl⟩

/-- **C20.** The past is fixed: nothing done later changes the transactions or balance recorded
for an earlier year. -/
theorem C20_past_is_fixed (a : Acct K) (ha : Reachable a) (ops : List (Op K)) (y : ℤ)
    (hy : y < a.year) :
    Dict.get? (run a ops).txHist y = Dict.get? a.txHist y ∧
    Dict.get? (run a ops).balHist y = Dict.get? a.balHist y := by
  have hi := ha.inv
  clear ha
  induction ops generalizing a with
  | nil => exact ⟨rfl, rfl⟩
  | cons op ops ih =>
    have e : run a (op :: ops) = run (run a [op]) ops := by simp [run]
    rw [e]
    cases h : step a op with
    | error er =>
      have : run a [op] = a := by simp [run, h]
      rw [this]; exact ih a hy hi
    | ok a' =>
      have h1 : run a [op] = a' := by simp [run, h]
      obtain ⟨hle, hp⟩ := step_past hi h
      have hi' : Inv a' := h1 ▸ inv_run hi [op]
      have := ih a' (by omega) hi'
      rw [h1, this.1, this.2]
      exact hp y hy

/-- **C20.** `account[x] = v` with a numeric date replaces what was recorded at `x`. -/
theorem C20_setitem_number (a : Acct K) (ha : Reachable a) (x v : K) (hx : 0 ≤ x ∧ x ≤ 1) :
    ∃ a', setItem a (.num x) v = .ok a' ∧ Dict.val a'.txns x = v ∧
      ∀ k, k ≠ x → Dict.get? a'.txns k = Dict.get? a.txns k := by
  have hw : whenConv (.num x) = .ok x := whenConv_ok hx.1 hx.2
  unfold setItem
  simp only
  split_ifs with h
  · refine ⟨_, addTransaction_eq hw, ?_, ?_⟩
    · simp [Dict.val, Dict.get?_set, Dict.get?_del ha.inv.tx.wf]
    · intro k hk
      simp only
      rw [Dict.get?_set_ne _ _ (Ne.symm hk), Dict.get?_del ha.inv.tx.wf, if_neg (Ne.symm hk)]
  · refine ⟨_, addTransaction_eq hw, ?_, ?_⟩
    · simp [Dict.val_set, Dict.val_of_not_mem h]
    · intro k hk
      exact Dict.get?_set_ne _ _ (Ne.symm hk)

/-- With a string date the same assignment *adds* to what was recorded instead (a defect:
accounts/base.py:859 tests the unconverted key). -/
theorem C20_setitem_string_accumulates (a : Acct K) (v : K) :
    ∃ a', setItem a (.str "start") v = .ok a' ∧
      Dict.val a'.txns 0 = Dict.val a.txns 0 + v := by
  exact ⟨_, addTransaction_eq (t := 0) rfl, by simp [Dict.val_set]⟩

/-- **C20.** `del account[x]` removes exactly the transaction at `x`; a date with no transaction,
or one written as a string, raises `KeyError` - although `'start' in account` is `True` when there
is a transaction at 0. -/
theorem C20_delitem (a : Acct K) (ha : Reachable a) (x : K) :
    (x ∈ Dict.keys a.txns → ∃ a', delItem a (.num x) = .ok a' ∧ Dict.get? a'.txns x = none ∧
      ∀ k, k ≠ x → Dict.get? a'.txns k = Dict.get? a.txns k) ∧
    (x ∉ Dict.keys a.txns → delItem a (.num x) = .error .keyError) ∧
    (∀ s, delItem a (.str s) = .error .keyError) ∧
    (contains a (.str "start") = .ok true ↔ (0 : K) ∈ Dict.keys a.txns) := by
  refine ⟨fun h => ⟨{ a with txns := Dict.del a.txns x }, by simp [delItem, h], ?_, ?_⟩,
    fun h => by simp [delItem, h], fun s => rfl, ?_⟩
  · simp [Dict.get?_del ha.inv.tx.wf]
  · intro k hk
    simp only
    rw [Dict.get?_del ha.inv.tx.wf, if_neg (Ne.symm hk)]
  · simp [contains, whenConv_start]

/-- **C20.** `clear()` removes this year's transactions and leaves the past alone. -/
theorem C20_clear (a : Acct K) :
    (clear a).txns = [] ∧ (clear a).txHist = a.txHist ∧ (clear a).balHist = a.balHist ∧
      inflows (clear a) none = 0 ∧ outflows (clear a) none = 0 := by
  simp [clear, inflows, outflows, posSum, negSum, Dict.vals]

example : inflows sample none = 50 ∧ outflows sample none = -20 := by decide +kernel

/-! ## C21: `transactions_to_balance` -/

/-- Hypotheses of the flow theorems: a reachable account that grows sensibly, a timing argument
(or the default) with dates in `[0,1]` and non-negative weights, dated hypothetical
transactions. -/
structure Ready (a : Acct K) (timing : Option (Arg K)) (txs : Option (Dict K K))
    (tm : Dict K K) : Prop where
  reach : Reachable a
  growth : IsGrowth a.A
  resolves : resolveTiming a timing = .ok tm
  good : GoodTiming tm
  dated : ∀ d ∈ txs, Dated d

/-- The same for an account of which only the invariant of reachable accounts is known. -/
structure Fit (a : Acct K) (timing : Option (Arg K)) (txs : Option (Dict K K))
    (tm : Dict K K) : Prop where
  inv : Inv a
  growth : IsGrowth a.A
  resolves : resolveTiming a timing = .ok tm
  good : GoodTiming tm
  dated : ∀ d ∈ txs, Dated d

theorem Ready.fit {a : Acct K} {timing : Option (Arg K)} {txs : Option (Dict K K)}
    {tm : Dict K K} (h : Ready a timing txs tm) : Fit a timing txs tm :=
  ⟨h.reach.inv, h.growth, h.resolves, h.good, h.dated⟩

/-- Specification: `d` spreads its total over the timing `tm` in proportion to the weights
(uniformly over the dates if all weights are zero). -/
def Proportional (tm d : Dict K K) : Prop :=
  ∀ k, Dict.val d k = Dict.total d * (if Dict.total tm = 0 then
    (if k ∈ Dict.keys tm then 1 / (tm.length : K) else 0)
    else Dict.val tm k / Dict.total tm)

/-- A timing argument given as `{date: weight}` dict (not balanced to zero), as a `Timing`, or
omitted, meets the timing requirements. -/
theorem ready_timing (a : Acct K) (d : Dict K K) (hd : Dated d) (hne : d ≠ []) :
    ((∀ kv ∈ d, 0 ≤ kv.2) → resolveTiming a (some (.timing d)) = .ok d ∧ GoodTiming d) ∧
    ((Mixed d → Dict.total d ≠ 0) →
      ∃ tm, resolveTiming a (some (.dict d)) = .ok tm ∧ GoodTiming tm) ∧
    (a.defaultTiming = d → (∀ kv ∈ d, 0 ≤ kv.2) →
      resolveTiming a none = .ok d ∧ GoodTiming d) := by
  have hf : d.isEmpty = false := by simpa using hne
  refine ⟨fun h => ⟨by simp [resolveTiming, falsy, hf], hd, h, hne⟩, fun h => ?_,
    fun h1 h2 => ⟨by simp [resolveTiming, h1], hd, h2, hne⟩⟩
  obtain ⟨r, h1, h2, h3, h4, -⟩ := C02_timing_of_dict d hd.wf (.num 1)
  obtain ⟨r', h1', h5⟩ := C05_weights_pos d hd.wf hne h (.num 1)
  rw [h1] at h1'; cases h1'
  refine ⟨r, by simp [resolveTiming, falsy, hf, h1], ⟨h2, fun k hk => hd.rng k (h4 k hk)⟩, h3, ?_⟩
  rintro rfl; simp at h5

/-- **C21** (which timing is used). An omitted timing, an empty `Timing` or dict, the number zero
and the empty string all stand for the account's default timing; a non-empty `Timing` is used as
it is; and anything else is what `Timing(...)` makes of it. -/
theorem C21_timing_used (a : Acct K) (target : Ext K) (maxT minT : Option (Ext K))
    (txs : Option (Dict K K)) :
    (∀ arg ∈ [none, some (.timing []), some (.dict []), some (.scalar (.num 0)),
        some (.scalar (.str ""))],
      transactionsToBalance a target arg maxT minT txs
        = transactionsToBalance a target none maxT minT txs ∧
      resolveTiming a arg = .ok a.defaultTiming) ∧
    (∀ d, d ≠ [] → resolveTiming a (some (.timing d)) = .ok d) ∧
    (∀ d, d ≠ [] → resolveTiming a (some (.dict d)) = Timing.init (.dict d) (.num 1)) ∧
    (∀ x : K, x ≠ 0 → resolveTiming a (some (.scalar (.num x)))
      = Timing.init (.scalar (.num x)) (.num 1)) ∧
    (∀ s : String, s ≠ "" → resolveTiming a (some (.scalar (.str s)))
      = Timing.init (.scalar (.str s)) (.num 1)) := by
  refine ⟨?_, ?_, ?_, ?_, ?_⟩
  · intro arg harg
    have e : resolveTiming a arg = .ok a.defaultTiming := by
      simp only [List.mem_cons, List.not_mem_nil, or_false] at harg
      rcases harg with rfl | rfl | rfl | rfl | rfl <;> simp [resolveTiming, falsy]
    refine ⟨?_, e⟩
    have e' : resolveTiming a none = .ok a.defaultTiming := rfl
    simp only [transactionsToBalance, e, e']
  · intro d h; simp [resolveTiming, falsy, h]
  · intro d h; simp [resolveTiming, falsy, h]
  · intro d h; simp [resolveTiming, falsy, h]
  · intro d h; simp [resolveTiming, falsy, h]

theorem core {a : Acct K} {timing : Option (Arg K)} {txs : Option (Dict K K)}
    {tm : Dict K K} (h : Fit a timing txs tm) :
    ∃ nt ref, normalizedWeights tm = .ok nt ∧ Weights nt ∧
      0 < weightedAccum a.A nt ∧
      balanceAtTime a (.str "end") txs = .ok ref ∧
      ∀ c : K, Dated (Dict.mapVals (fun w => c * w) nt) ∧
        Dict.total (Dict.mapVals (fun w => c * w) nt) = c ∧
        (∀ kv ∈ Dict.mapVals (fun w => c * w) nt, (0 ≤ c → 0 ≤ kv.2) ∧ (c ≤ 0 → kv.2 ≤ 0)) ∧
        Proportional tm (Dict.mapVals (fun w => c * w) nt) ∧
        ∃ a', applyAll a (Dict.mapVals (fun w => c * w) nt) = .ok a' ∧
          balanceAtTime a' (.str "end") txs = .ok (ref + c * weightedAccum a.A nt) := by
  obtain ⟨nt, hnt, hw, hv⟩ := normalizedWeights_spec h.good
  obtain ⟨b, hb⟩ := h.inv.balance_ok
  have h01 : (0 : K) ≤ 1 ∧ (1 : K) ≤ 1 := ⟨zero_le_one, le_rfl⟩
  refine ⟨nt, _, hnt, hw, weightedAccum_pos h.growth hw,
    by rw [balanceAtTime_end, balanceAtTime_eq h.inv hb h01 txs h.dated], fun c => ?_⟩
  have hd := dated_mapVals hw.toDated fun w => c * w
  refine ⟨hd, by rw [total_mapVals_mul', hw.total, mul_one], ?_, ?_, ?_⟩
  · intro kv hkv
    obtain ⟨x, hx, rfl⟩ := List.mem_map.1 hkv
    have := hw.pos x hx
    exact ⟨fun hc => mul_nonneg hc this.le, fun hc => mul_nonpos_of_nonpos_of_nonneg hc this.le⟩
  · intro k
    rw [val_mapVals_mul, total_mapVals_mul', hw.total, mul_one, hv k]
  · obtain ⟨a', h1, -, h2⟩ := balanceAtTime_apply h.inv hd hb h01 txs h.dated
    refine ⟨a', h1, ?_⟩
    rw [balanceAtTime_end, h2, grown_map_mul, weightedAccum_eq a.A hw.toDated]

/-- **C21.** Without limits, recording the returned transactions makes the year-end balance
(with the hypothetical transactions, if any) exactly the one requested, and the transactions
are proportional to the timing's weights. -/
theorem C21_transactions_to_balance (a : Acct K) (timing : Option (Arg K))
    (txs : Option (Dict K K)) (tm : Dict K K) (h : Ready a timing txs tm) (target : K) :
    ∃ d a', transactionsToBalance a (.fin target) timing none none txs
        = .ok (Dict.mapVals Ext.fin d) ∧
      Proportional tm d ∧ applyAll a d = .ok a' ∧
      balanceAtTime a' (.str "end") txs = .ok target := by
  obtain ⟨nt, ref, hnt, hw, hpos, href, hc⟩ := core h.fit
  obtain ⟨h1, h2, h3, h4, a', h5, h6⟩ := hc ((target - ref) * (weightedAccum a.A nt)⁻¹)
  refine ⟨_, a', ?_, h4, h5, ?_⟩
  · rw [ttb_eq href h.resolves hnt h.growth hw]
    simp only [Ext.subFin, mulFin_fin]
    rw [← mapVals_fin]; rfl
  · rw [h6, inv_mul_cancel_right₀ hpos.ne']
    congr 1; ring

/-- **C21.** With finite `max_total`/`min_total` limits the total is the unlimited total clamped
to the limits (the minimum wins if they conflict), still spread in proportion; all transactions
have the sign of the total. -/
theorem C21_limited_total (a : Acct K) (timing : Option (Arg K))
    (txs : Option (Dict K K)) (tm : Dict K K) (h : Ready a timing txs tm) (target M m : K) :
    ∃ d₀ d a', transactionsToBalance a (.fin target) timing none none txs
        = .ok (Dict.mapVals Ext.fin d₀) ∧
      transactionsToBalance a (.fin target) timing (some (.fin M)) (some (.fin m)) txs
        = .ok (Dict.mapVals Ext.fin d) ∧
      Dict.total d = max (min (Dict.total d₀) M) m ∧ Proportional tm d ∧
      (∀ kv ∈ d, (0 ≤ Dict.total d → 0 ≤ kv.2) ∧ (Dict.total d ≤ 0 → kv.2 ≤ 0)) ∧
      applyAll a d = .ok a' := by
  obtain ⟨nt, ref, hnt, hw, hpos, href, hc⟩ := core h.fit
  obtain ⟨-, h2, -, -, -⟩ := hc ((target - ref) * (weightedAccum a.A nt)⁻¹)
  obtain ⟨-, h2', h3, h4, a', h5, -⟩ :=
    hc (max (min ((target - ref) * (weightedAccum a.A nt)⁻¹) M) m)
  refine ⟨Dict.mapVals (fun w => ((target - ref) * (weightedAccum a.A nt)⁻¹) * w) nt,
    _, a', ?_, ?_, ?_, h4, ?_, h5⟩
  · rw [ttb_eq href h.resolves hnt h.growth hw]
    simp only [Ext.subFin, mulFin_fin]
    rw [← mapVals_fin]; rfl
  · rw [ttb_eq href h.resolves hnt h.growth hw]
    simp only [Ext.subFin, mulFin_fin, Ext.min_fin_fin, Ext.max_fin_fin]
    rw [← mapVals_fin]; rfl
  · rw [h2, h2']
  · rw [h2']; exact h3

theorem sample_ready : Ready sample none (some [(3 / 4, 10)]) [(1 / 2, 1)] where
  reach := sample_reachable
  growth := sample_growth
  resolves := by unfold resolveTiming sample; simp only [(run_const _ _).2]; rfl
  good := ⟨⟨by unfold Dict.WF; decide +kernel, by decide +kernel⟩, by decide +kernel,
    by decide +kernel⟩
  dated := by
    intro d hd
    simp only [Option.mem_def, Option.some.injEq] at hd
    subst hd
    exact ⟨by unfold Dict.WF; decide +kernel, by decide +kernel⟩

example : transactionsToBalance sample (.fin 0) none none none (some [(3 / 4, 10)])
    = .ok [(1 / 2, .fin (-140))] := by decide +kernel

/-! ## C22: withdrawals -/

/-- Specification: what has been paid into the account this year, and would be by the given
further transactions. -/
def paidIn (a : Acct K) (transactions : Option (Dict K K)) : K :=
  (a.txns.map fun e => max e.2 0).sum + ((transactions.getD []).map fun e => max e.2 0).sum

/-- Specification: what has been taken out of the account this year (a negative number), and
would be by the given further transactions. -/
def takenOut (a : Acct K) (transactions : Option (Dict K K)) : K :=
  (a.txns.map fun e => min e.2 0).sum + ((transactions.getD []).map fun e => min e.2 0).sum

theorem posSum_eq (d : Dict K K) : posSum d = (d.map fun e => max e.2 0).sum := by
  unfold posSum Dict.vals
  induction d with
  | nil => rfl
  | cons x l ih =>
    rw [List.map_cons, List.filter_cons, List.map_cons, List.sum_cons, ← ih]
    by_cases h : 0 < x.2
    · rw [if_pos (by simpa using h), List.sum_cons, max_eq_left h.le]
    · rw [if_neg (by simpa using h), max_eq_right (not_lt.1 h), zero_add]

theorem negSum_eq (d : Dict K K) : negSum d = (d.map fun e => min e.2 0).sum := by
  unfold negSum Dict.vals
  induction d with
  | nil => rfl
  | cons x l ih =>
    rw [List.map_cons, List.filter_cons, List.map_cons, List.sum_cons, ← ih]
    by_cases h : x.2 < 0
    · rw [if_pos (by simpa using h), List.sum_cons, min_eq_left h.le]
    · rw [if_neg (by simpa using h), min_eq_right (not_lt.1 h), zero_add]

theorem inflows_eq (a : Acct K) (txs : Option (Dict K K)) : inflows a txs = paidIn a txs := by
  unfold inflows paidIn
  rw [posSum_eq a.txns, add_comm]
  cases txs with
  | none => simp
  | some d => simp [posSum_eq]

theorem outflows_eq (a : Acct K) (txs : Option (Dict K K)) : outflows a txs = takenOut a txs := by
  unfold outflows takenOut
  rw [negSum_eq a.txns, add_comm]
  cases txs with
  | none => simp
  | some d => simp [negSum_eq]

/-- **C22.** `max_outflows`: only withdrawals, spread over the timing; carrying them out leaves
at least the balance limit (default 0) at year end, or leaves the account alone if it was below
it anyway; total withdrawals stay within the account's outflow limit and the caller's
transaction limit; and no more could be withdrawn: something of these is exhausted. -/
theorem C22_max_outflows (L : Limits K) (a : Acct K) (k : FlowArgs K) (tm : Dict K K)
    (h : Ready a k.timing k.transactions tm) (bl : K)
    (hbl : k.balanceLimit.getD (.fin 0) = .fin bl) :
    ∃ d a' ref e, maxOutflows L a k = .ok (Dict.mapVals Ext.fin d) ∧
      Proportional tm d ∧ (∀ kv ∈ d, kv.2 ≤ 0) ∧
      balanceAtTime a (.str "end") k.transactions = .ok ref ∧
      applyAll a d = .ok a' ∧ balanceAtTime a' (.str "end") k.transactions = .ok e ∧
      (bl ≤ ref → bl ≤ e) ∧ (ref ≤ bl → d.all (fun kv => kv.2 = 0) ∧ e = ref) ∧
      (Dict.total d = 0 ∨ L.maxOut ≤ .fin (takenOut a k.transactions + Dict.total d)) ∧
      (∀ l, k.transactionLimit = some l → l ≤ .fin 0 → l ≤ .fin (Dict.total d)) ∧
      (e = bl ∨ ref ≤ bl ∨ L.maxOut = .fin (takenOut a k.transactions + Dict.total d) ∨
        k.transactionLimit = some (.fin (Dict.total d)) ∨ Dict.total d = 0 ∧
          (.fin (takenOut a k.transactions) ≤ L.maxOut ∨
           ∃ l, k.transactionLimit = some l ∧ .fin 0 ≤ l)) := by
  simp only [← outflows_eq]
  obtain ⟨nt, ref, hnt, hw, hpos, href, hc⟩ := core h.fit
  set T := (bl - ref) * (weightedAccum a.A nt)⁻¹ with hT
  set o := outflows a k.transactions with ho
  -- the limit on the total
  set m := outCap L.maxOut o k.transactionLimit with hm
  have hm0 : m ≤ .fin 0 := by rw [hm]; exact min_le_right _ _
  obtain ⟨c, hcm⟩ : ∃ c : K, max (min (.fin T) (.fin 0)) m = .fin c := by
    cases hme : m with
    | negInf => exact ⟨min T 0, by simp⟩
    | fin x => exact ⟨max (min T 0) x, by simp⟩
    | posInf => rw [hme] at hm0; simp at hm0
  have hc0 : c ≤ 0 := by
    have : (.fin c : Ext K) ≤ .fin 0 := by
      rw [← hcm]; exact max_le (min_le_right _ _) hm0
    simpa using this
  have hmc : m ≤ .fin c := by rw [← hcm]; exact le_max_right _ _
  have hTc : min T 0 ≤ c := by
    have : (.fin (min T 0) : Ext K) ≤ .fin c := by
      rw [← hcm, ← Ext.min_fin_fin]; exact le_max_left _ _
    simpa using this
  have hTW : T * weightedAccum a.A nt = bl - ref := by
    rw [hT, inv_mul_cancel_right₀ hpos.ne']
  obtain ⟨-, h2, h3, h4, a', h5, h6⟩ := hc c
  refine ⟨_, a', ref, _, ?_, h4, fun kv hkv => (h3 kv hkv).2 hc0, href, h5, h6, ?_, ?_, ?_, ?_, ?_⟩
  · unfold maxOutflows
    rw [hbl, ttb_eq href h.resolves hnt h.growth hw]
    simp only [Ext.subFin, mulFin_fin, ← hT, ← ho, ← hm, hcm]
    rw [← mapVals_fin]; rfl
  · intro hle
    have hT0 : T ≤ 0 := by
      rw [hT]; exact mul_nonpos_of_nonpos_of_nonneg (by linarith) (inv_pos.2 hpos).le
    rw [min_eq_left hT0] at hTc
    have := mul_le_mul_of_nonneg_right hTc hpos.le
    linarith
  · intro hle
    have hT0 : 0 ≤ T := by
      rw [hT]; exact mul_nonneg (by linarith) (inv_pos.2 hpos).le
    rw [min_eq_right hT0] at hTc
    have hc' : c = 0 := le_antisymm hc0 hTc
    subst hc'
    refine ⟨?_, by ring⟩
    rw [List.all_eq_true]
    intro kv hkv
    have := h3 kv hkv
    simpa using le_antisymm (this.2 le_rfl) (this.1 le_rfl)
  · rw [h2]
    by_cases hcz : c = 0
    · exact Or.inl hcz
    · right
      have hlt : (.fin c : Ext K) < .fin 0 := by
        rw [Ext.fin_lt_fin]; exact lt_of_le_of_ne hc0 hcz
      have hmlt : m < .fin 0 := lt_of_le_of_lt hmc hlt
      have : L.maxOut.subFin o ≤ m := by
        rw [hm] at hmlt ⊢
        unfold outCap at hmlt ⊢
        rcases min_lt_iff.1 hmlt with h | h
        · rw [min_eq_left h.le]
          cases k.transactionLimit with
          | none => exact le_rfl
          | some l => exact le_max_left _ _
        · exact absurd h (lt_irrefl _)
      have h7 := this.trans hmc
      revert h7
      cases L.maxOut with
      | negInf => intro _; simp
      | fin x => simp only [Ext.subFin, Ext.fin_le_fin]; intro h; linarith
      | posInf => simp [Ext.subFin]
  · intro l hl hl0
    rw [h2]
    refine le_trans ?_ hmc
    rw [hm]; unfold outCap
    rw [hl]
    exact le_min (le_max_right _ _) hl0
  · rw [h2]
    by_cases hle : ref ≤ bl
    · exact Or.inr (Or.inl hle)
    have hT0 : T ≤ 0 := by
      rw [hT]; exact mul_nonpos_of_nonpos_of_nonneg (by linarith [not_le.1 hle]) (inv_pos.2 hpos).le
    have hmax : max (.fin T) m = .fin c := by
      rw [← hcm, Ext.min_fin_fin, min_eq_left hT0]
    rcases max_choice (.fin T) m with h8 | h8
    · rw [h8] at hmax
      cases hmax
      left; rw [hTW]; ring
    · rw [h8] at hmax
      right; right
      rw [hm] at hmax
      unfold outCap at hmax
      cases htl : k.transactionLimit with
      | none =>
        rw [htl] at hmax
        simp only at hmax
        rcases min_choice (L.maxOut.subFin o) (.fin 0) with h9 | h9
        · rw [h9] at hmax
          left
          revert hmax
          cases L.maxOut <;> simp only [Ext.subFin, reduceCtorEq, Ext.fin.injEq, IsEmpty.forall_iff]
          intro h; linarith
        · right; right
          have hz : (0 : K) = c := by rw [h9] at hmax; simpa using hmax
          refine ⟨hz.symm, Or.inl ?_⟩
          have := min_eq_right_iff.1 h9
          revert this
          cases L.maxOut <;> simp [Ext.subFin]
      | some l =>
        rw [htl] at hmax
        simp only at hmax
        rcases min_choice (max (L.maxOut.subFin o) l) (.fin 0) with h9 | h9
        · rw [h9] at hmax
          rcases max_choice (L.maxOut.subFin o) l with h10 | h10
          · rw [h10] at hmax
            left
            revert hmax
            cases L.maxOut <;>
              simp only [Ext.subFin, reduceCtorEq, Ext.fin.injEq, IsEmpty.forall_iff]
            intro h; linarith
          · rw [h10] at hmax
            right; left; rw [hmax]
        · right; right
          have hz : (0 : K) = c := by rw [h9] at hmax; simpa using hmax
          refine ⟨hz.symm, ?_⟩
          have := min_eq_right_iff.1 h9
          rcases le_max_iff.1 this with h11 | h11
          · left
            revert h11
            cases L.maxOut <;> simp [Ext.subFin]
          · exact Or.inr ⟨l, rfl, h11⟩

/-- **C22.** A plain account can be emptied: with no limits given, `max_outflows` on an account
that ends the year in the black leaves exactly 0. -/
theorem C22_plain_account_emptied (a : Acct K) (timing : Option (Arg K)) (tm : Dict K K)
    (h : Ready a timing none tm) (ref : K) (href : balanceAtTime a (.str "end") none = .ok ref)
    (hr : 0 ≤ ref) :
    ∃ d a', maxOutflows plainLimits a { timing := timing } = .ok (Dict.mapVals Ext.fin d) ∧
      applyAll a d = .ok a' ∧ balanceAtTime a' (.str "end") none = .ok 0 := by
  obtain ⟨d, a', ref', e, h1, -, -, h2, h3, h4, -, h5, -, -, h6⟩ :=
    C22_max_outflows plainLimits a { timing := timing } tm h 0 rfl
  rw [href] at h2; cases h2
  refine ⟨d, a', h1, h3, ?_⟩
  rw [h4]
  rcases h6 with h6 | h6 | h6 | h6 | ⟨-, h6 | ⟨l, h6, -⟩⟩
  · rw [h6]
  · rw [(h5 h6).2, le_antisymm h6 hr]
  · simp [plainLimits] at h6
  · simp at h6
  · simp [plainLimits] at h6
  · simp at h6

/-- **C22.** `max_outflow(when)` is between minus the balance and 0 and within the limit;
withdrawing it at `when` does not overdraw the account at that time. -/
theorem C22_max_outflow (L : Limits K) (a : Acct K) (ha : Reachable a) (hA : IsGrowth a.A)
    (t : K) (ht : 0 ≤ t ∧ t ≤ 1) (hL : L.maxOut ≤ .fin 0) :
    ∃ b v a', balanceAtTime a (.num t) none = .ok b ∧ maxOutflow L a (.num t) = .ok (.fin v) ∧
      v ≤ 0 ∧ L.maxOut ≤ .fin v ∧ addTransaction a v (.num t) = .ok a' ∧
      balanceAtTime a' (.num t) none = .ok (b + v) ∧ (0 ≤ b → 0 ≤ b + v) ∧ (b ≤ 0 → v = 0) := by
  obtain ⟨-, b, -, hb, -⟩ := C18_effect_of_transaction a ha 0 t t ht ht
  obtain ⟨v, hv⟩ : ∃ v : K, max (min (.fin (-b)) (.fin 0)) L.maxOut = .fin v := by
    cases hme : L.maxOut with
    | negInf => exact ⟨min (-b) 0, by simp⟩
    | fin x => exact ⟨max (min (-b) 0) x, by simp⟩
    | posInf => rw [hme] at hL; simp at hL
  have hv0 : (.fin v : Ext K) ≤ .fin 0 := by
    rw [← hv]; exact max_le (min_le_right _ _) hL
  have hvL : L.maxOut ≤ .fin v := by rw [← hv]; exact le_max_right _ _
  have hvb : (.fin (min (-b) 0) : Ext K) ≤ .fin v := by
    rw [← hv, ← Ext.min_fin_fin]; exact le_max_left _ _
  simp only [Ext.fin_le_fin] at hv0 hvb
  obtain ⟨a', x, h1, h2, h3⟩ := C18_effect_of_transaction a ha v t t ht ht
  rw [hb] at h2; cases h2
  rw [if_pos le_rfl, sub_self, hA.zero, mul_one] at h3
  refine ⟨b, v, a', hb, by unfold maxOutflow; rw [hb, ok_bind, hv], hv0, hvL, h1, h3, ?_, ?_⟩
  · intro h
    rw [min_eq_left (by linarith)] at hvb; linarith
  · intro h
    rw [min_eq_right (by linarith)] at hvb; exact le_antisymm hv0 hvb

example : maxOutflows plainLimits sample {} = .ok [(1 / 2, .fin (-130))] := by decide +kernel
example : maxOutflows { (plainLimits : Limits ℚ) with maxOut := .fin (-50) } sample {}
    = .ok [(1 / 2, .fin (-30))] := by decide +kernel

/-! ## C23: contributions and minimum flows -/

/-- The general statement about inflows, for a limit `lim` (max or min) and a finite balance
limit. -/
theorem inflow_core (lim : Ext K) (a : Acct K) (k : FlowArgs K) (tm : Dict K K)
    (h : Ready a k.timing k.transactions tm) (bl : K) :
    ∃ d a' ref e, transactionsToBalance a (.fin bl) k.timing
        (some (inCap lim (inflows a k.transactions) k.transactionLimit)) (some (.fin 0))
        k.transactions = .ok (Dict.mapVals Ext.fin d) ∧
      Proportional tm d ∧ (∀ kv ∈ d, 0 ≤ kv.2) ∧
      balanceAtTime a (.str "end") k.transactions = .ok ref ∧
      applyAll a d = .ok a' ∧ balanceAtTime a' (.str "end") k.transactions = .ok e ∧
      (ref ≤ bl → e ≤ bl) ∧ (bl ≤ ref → Dict.total d = 0 ∧ e = ref) ∧
      (.fin (Dict.total d) ≤ inCap lim (inflows a k.transactions) k.transactionLimit) ∧
      (e = bl ∨ bl ≤ ref ∨
        .fin (Dict.total d) = inCap lim (inflows a k.transactions) k.transactionLimit) := by
  obtain ⟨nt, ref, hnt, hw, hpos, href, hc⟩ := core h.fit
  set T := (bl - ref) * (weightedAccum a.A nt)⁻¹ with hT
  set M := inCap lim (inflows a k.transactions) k.transactionLimit with hM
  have hM0 : .fin 0 ≤ M := by rw [hM]; exact le_max_right _ _
  obtain ⟨c, hcm⟩ : ∃ c : K, max (min (.fin T) M) (.fin 0) = .fin c := by
    cases hme : M with
    | posInf => exact ⟨max T 0, by simp⟩
    | fin x => exact ⟨max (min T x) 0, by simp⟩
    | negInf => rw [hme] at hM0; simp at hM0
  have hc0 : 0 ≤ c := by
    have : (.fin 0 : Ext K) ≤ .fin c := by rw [← hcm]; exact le_max_right _ _
    simpa using this
  have hcM : .fin c ≤ M := by rw [← hcm]; exact max_le (min_le_right _ _) hM0
  have hcT : c ≤ max T 0 := by
    have : (.fin c : Ext K) ≤ .fin (max T 0) := by
      rw [← hcm, ← Ext.max_fin_fin]; exact max_le_max (min_le_left _ _) le_rfl
    simpa using this
  have hTW : T * weightedAccum a.A nt = bl - ref := by
    rw [hT, inv_mul_cancel_right₀ hpos.ne']
  obtain ⟨-, h2, h3, h4, a', h5, h6⟩ := hc c
  refine ⟨_, a', ref, _, ?_, h4, fun kv hkv => (h3 kv hkv).1 hc0, href, h5, h6, ?_, ?_, ?_, ?_⟩
  · rw [ttb_eq href h.resolves hnt h.growth hw]
    simp only [Ext.subFin, mulFin_fin, ← hT, hcm]
    rw [← mapVals_fin]; rfl
  · intro hle
    have hT0 : 0 ≤ T := by rw [hT]; exact mul_nonneg (by linarith) (inv_pos.2 hpos).le
    rw [max_eq_left hT0] at hcT
    have := mul_le_mul_of_nonneg_right hcT hpos.le
    linarith
  · intro hle
    have hT0 : T ≤ 0 := by
      rw [hT]; exact mul_nonpos_of_nonpos_of_nonneg (by linarith) (inv_pos.2 hpos).le
    rw [max_eq_right hT0] at hcT
    have : c = 0 := le_antisymm hcT hc0
    subst this
    exact ⟨h2, by ring⟩
  · rw [h2]; exact hcM
  · rw [h2]
    by_cases hle : bl ≤ ref
    · exact Or.inr (Or.inl hle)
    have hT0 : 0 ≤ T := by
      rw [hT]; exact mul_nonneg (by linarith [not_le.1 hle]) (inv_pos.2 hpos).le
    have hmm : min (.fin T) M = .fin c := by
      rw [← hcm, max_eq_left]
      exact le_min (by simpa using hT0) hM0
    rcases min_choice (.fin T) M with h8 | h8
    · rw [h8] at hmm; cases hmm
      left; rw [hTW]; ring
    · rw [h8] at hmm; exact Or.inr (Or.inr hmm.symm)

/-- Unfolding of the caps into the documented limits. -/
theorem inCap_spec (lim : Ext K) (made : K) (tl : Option (Ext K)) :
    (∀ c : K, .fin c ≤ inCap lim made tl → c ≤ 0 ∨
      (.fin (made + c) ≤ lim ∧ ∀ l, tl = some l → .fin c ≤ l)) := by
  intro c h
  unfold inCap at h
  rcases le_max_iff.1 h with h | h
  · right
    have h1 : .fin c ≤ lim.subFin made := by
      cases tl with
      | none => exact h
      | some l => exact h.trans (min_le_left _ _)
    refine ⟨?_, ?_⟩
    · revert h1
      cases lim <;> simp only [Ext.subFin, Ext.fin_le_fin, Ext.le_posInf, imp_self,
        forall_const, Ext.not_fin_le_negInf]
      intro h; linarith
    · rintro l rfl
      exact h.trans (min_le_right _ _)
  · left; simpa using h

/-- **C23.** `max_inflows` with a finite balance limit: only contributions, spread over the
timing; total contributions stay within the contribution limit (counting what was already
contributed) and the caller's limit, and do not lift the year-end balance over the balance
limit. -/
theorem C23_max_inflows_balance_limit (L : Limits K) (a : Acct K) (k : FlowArgs K)
    (tm : Dict K K) (h : Ready a k.timing k.transactions tm) (bl : K)
    (hbl : k.balanceLimit = some (.fin bl)) :
    ∃ d a' ref e, maxInflows L a k = .ok (Dict.mapVals Ext.fin d) ∧
      Proportional tm d ∧ (∀ kv ∈ d, 0 ≤ kv.2) ∧
      balanceAtTime a (.str "end") k.transactions = .ok ref ∧
      applyAll a d = .ok a' ∧ balanceAtTime a' (.str "end") k.transactions = .ok e ∧
      (ref ≤ bl → e ≤ bl) ∧ (bl ≤ ref → Dict.total d = 0 ∧ e = ref) ∧
      (Dict.total d = 0 ∨
        (.fin (paidIn a k.transactions + Dict.total d) ≤ L.maxIn ∧
          ∀ l, k.transactionLimit = some l → .fin (Dict.total d) ≤ l)) := by
  simp only [← inflows_eq]
  obtain ⟨d, a', ref, e, h1, h2, h3, h4, h5, h6, h7, h8, h9, -⟩ := inflow_core L.maxIn a k tm h bl
  refine ⟨d, a', ref, e, ?_, h2, h3, h4, h5, h6, h7, h8, ?_⟩
  · unfold maxInflows; rw [hbl]; exact h1
  · rcases inCap_spec _ _ _ _ h9 with h | h
    · left; exact le_antisymm h (Dict.total_nonneg h3)
    · exact Or.inr h

/-- **C23.** Without a balance limit, `max_inflows` contributes exactly what is left of the
contribution limit (or the caller's limit if smaller; nothing if already exceeded). -/
theorem C23_max_inflows (L : Limits K) (a : Acct K) (k : FlowArgs K) (tm : Dict K K)
    (h : Ready a k.timing k.transactions tm) (hbl : k.balanceLimit = none) :
    (∀ lim, L.maxIn = .fin lim → k.transactionLimit = none →
      ∃ d, maxInflows L a k = .ok (Dict.mapVals Ext.fin d) ∧ Proportional tm d ∧
        (∀ kv ∈ d, 0 ≤ kv.2) ∧ Dict.total d = max (lim - paidIn a k.transactions) 0) ∧
    (∀ lim l, L.maxIn = .fin lim → k.transactionLimit = some (.fin l) →
      ∃ d, maxInflows L a k = .ok (Dict.mapVals Ext.fin d) ∧ Proportional tm d ∧
        (∀ kv ∈ d, 0 ≤ kv.2) ∧
        Dict.total d = max (min (lim - paidIn a k.transactions) l) 0) ∧
    (∀ l, L.maxIn = .posInf → k.transactionLimit = some (.fin l) →
      ∃ d, maxInflows L a k = .ok (Dict.mapVals Ext.fin d) ∧ Proportional tm d ∧
        (∀ kv ∈ d, 0 ≤ kv.2) ∧ Dict.total d = max l 0) ∧
    (L.maxIn = .posInf → k.transactionLimit = none →
      ∃ d, maxInflows L a k = .ok d ∧ d ≠ [] ∧ (∀ kv ∈ d, kv.2 = .posInf) ∧
        ∀ t ∈ Dict.keys d, t ∈ Dict.keys tm) := by
  simp only [← inflows_eq]
  obtain ⟨nt, ref, hnt, hw, hpos, href, hc⟩ := core h.fit
  obtain ⟨nt', hnt', -, hv⟩ := normalizedWeights_spec h.good
  rw [hnt] at hnt'; cases hnt'
  have hinv : ¬ (weightedAccum a.A nt)⁻¹ < 0 := not_lt.2 (inv_pos.2 hpos).le
  have e : maxInflows L a k = .ok (Dict.mapVals (fun w =>
      (inCap L.maxIn (inflows a k.transactions) k.transactionLimit).mulFin w) nt) := by
    unfold maxInflows
    rw [hbl, Option.getD_none, ttb_eq href h.resolves hnt h.growth hw]
    simp only [Ext.subFin, Ext.mulFin, hinv, if_false, Ext.min_posInf_left]
    have : max (inCap L.maxIn (inflows a k.transactions) k.transactionLimit) (.fin 0)
        = inCap L.maxIn (inflows a k.transactions) k.transactionLimit :=
      max_eq_left (le_max_right _ _)
    rw [this]
  have fin_case : ∀ c : K, 0 ≤ c →
      inCap L.maxIn (inflows a k.transactions) k.transactionLimit = .fin c →
      ∃ d, maxInflows L a k = .ok (Dict.mapVals Ext.fin d) ∧ Proportional tm d ∧
        (∀ kv ∈ d, 0 ≤ kv.2) ∧ Dict.total d = c := by
    intro c hc0 hcap
    obtain ⟨-, h2, h3, h4, -⟩ := hc c
    refine ⟨_, ?_, h4, fun kv hkv => (h3 kv hkv).1 hc0, h2⟩
    rw [e, hcap, ← mapVals_fin]
  refine ⟨?_, ?_, ?_, ?_⟩
  · intro lim h1 h2
    apply fin_case _ (le_max_right _ _)
    simp [inCap, h1, h2, Ext.subFin]
  · intro lim l h1 h2
    apply fin_case _ (le_max_right _ _)
    simp [inCap, h1, h2, Ext.subFin]
  · intro l h1 h2
    apply fin_case _ (le_max_right _ _)
    simp [inCap, h1, h2, Ext.subFin]
  · intro h1 h2
    refine ⟨_, e, ?_, ?_, ?_⟩
    · intro h0
      have : nt = [] := by simpa [Dict.mapVals] using h0
      have h3 := hw.total
      rw [this] at h3; simp at h3
    · intro kv hkv
      obtain ⟨x, hx, rfl⟩ := List.mem_map.1 hkv
      simp [inCap, h1, h2, Ext.subFin, Ext.mulFin, not_lt.2 (hw.pos x hx).le]
    · intro t ht
      rw [Dict.keys_mapVals] at ht
      by_contra hno
      obtain ⟨kv, hkv, rfl⟩ := List.mem_map.1 ht
      have := hv kv.1
      rw [val_of_mem hw.wf hkv, if_neg hno, Dict.val_of_not_mem hno] at this
      have hp := hw.pos kv hkv
      rw [this] at hp
      simp at hp

/-- **C23.** `min_inflows` tops contributions up to the minimum: it contributes exactly the
shortfall, nothing once the minimum is met. -/
theorem C23_min_inflows (L : Limits K) (a : Acct K) (k : FlowArgs K) (tm : Dict K K)
    (h : Ready a k.timing k.transactions tm) (hbl : k.balanceLimit = none) (lim : K)
    (hlim : L.minIn = .fin lim) (htl : k.transactionLimit = none) :
    ∃ d, minInflows L a k = .ok (Dict.mapVals Ext.fin d) ∧ Proportional tm d ∧
      (∀ kv ∈ d, 0 ≤ kv.2) ∧ Dict.total d = max (lim - paidIn a k.transactions) 0 := by
  have := (C23_max_inflows { L with maxIn := L.minIn } a k tm h hbl).1 lim hlim htl
  exact this

/-- **C23.** `min_outflows` withdraws exactly the shortfall to the minimum withdrawal, but never
more than the account holds, and nothing once the minimum is met. -/
theorem C23_min_outflows (L : Limits K) (a : Acct K) (k : FlowArgs K) (tm : Dict K K)
    (h : Ready a k.timing k.transactions tm) (hbl : k.balanceLimit = none) (lim : K)
    (hlim : L.minOut = .fin lim) (htl : k.transactionLimit = none) :
    ∃ d a' ref e, minOutflows L a k = .ok (Dict.mapVals Ext.fin d) ∧ Proportional tm d ∧
      (∀ kv ∈ d, kv.2 ≤ 0) ∧
      balanceAtTime a (.str "end") k.transactions = .ok ref ∧
      applyAll a d = .ok a' ∧ balanceAtTime a' (.str "end") k.transactions = .ok e ∧
      (0 ≤ ref → 0 ≤ e) ∧
      (takenOut a k.transactions ≤ lim → Dict.total d = 0) ∧
      (lim ≤ takenOut a k.transactions → lim ≤ takenOut a k.transactions + Dict.total d) ∧
      (e = 0 ∨ ref ≤ 0 ∨ Dict.total d = min (lim - takenOut a k.transactions) 0) := by
  obtain ⟨d, a', ref, e, h1, h2, h3, h4, h5, h6, h7, h8, h9, -, h11⟩ :=
    C22_max_outflows { L with maxOut := L.minOut } a k tm h 0 (by rw [hbl]; rfl)
  have hd0 : Dict.total d ≤ 0 := by
    have : ∀ l : Dict K K, (∀ kv ∈ l, kv.2 ≤ 0) → Dict.total l ≤ 0 := by
      intro l hl
      induction l with
      | nil => simp
      | cons x l ih =>
        rw [Dict.total_cons]
        have := hl x (by simp)
        have := ih fun y hy => hl y (by simp [hy])
        linarith
    exact this d h3
  refine ⟨d, a', ref, e, h1, h2, h3, h4, h5, h6, h7, ?_, ?_, ?_⟩
  · intro hle
    rcases h9 with h | h
    · exact h
    · simp only [hlim, Ext.fin_le_fin] at h
      linarith
  · intro hle
    rcases h9 with h | h
    · rw [h]; linarith
    · simpa only [hlim, Ext.fin_le_fin] using h
  · rcases h11 with h | h | h | h | ⟨h, h' | ⟨l, hl, -⟩⟩
    · exact Or.inl h
    · exact Or.inr (Or.inl h)
    · right; right
      simp only [hlim, Ext.fin.injEq] at h
      rw [h, add_sub_cancel_left, min_eq_left hd0]
    · rw [htl] at h; cases h
    · right; right
      simp only [hlim, Ext.fin_le_fin] at h'
      rw [h, min_eq_right (by linarith)]
    · rw [htl] at hl; cases hl

/-- **C23.** With consistent limits (`min_inflow_limit ≤ max_inflow_limit`) the minimum
contributions never exceed the maximum contributions, at any date. -/
theorem C23_min_le_max_inflows (L : Limits K) (a : Acct K) (k : FlowArgs K) (tm : Dict K K)
    (h : Ready a k.timing k.transactions tm) (hbl : k.balanceLimit = none)
    (htl : k.transactionLimit = none) (lo hi : K)
    (hlo : L.minIn = .fin lo) (hhi : L.maxIn = .fin hi) (hle : lo ≤ hi) :
    ∃ d d', minInflows L a k = .ok (Dict.mapVals Ext.fin d) ∧
      maxInflows L a k = .ok (Dict.mapVals Ext.fin d') ∧ ∀ t, Dict.val d t ≤ Dict.val d' t := by
  obtain ⟨d, h1, h2, h3, h4⟩ := C23_min_inflows L a k tm h hbl lo hlo htl
  obtain ⟨d', h1', h2', h3', h4'⟩ := (C23_max_inflows L a k tm h hbl).1 hi hhi htl
  refine ⟨d, d', h1, h1', fun t => ?_⟩
  rw [h2 t, h2' t, h4, h4']
  apply mul_le_mul_of_nonneg_right
  · exact max_le_max (by linarith) le_rfl
  · have hnn := h.good.nonneg
    split_ifs
    · positivity
    · exact le_rfl
    · apply div_nonneg _ (Dict.total_nonneg hnn)
      unfold Dict.val
      cases hg : Dict.get? tm t with
      | none => simp
      | some v => exact hnn _ (Dict.mem_of_get? hg)

theorem weight_nonneg {tm : Dict K K} (h : GoodTiming tm) (t : K) :
    0 ≤ (if Dict.total tm = 0 then (if t ∈ Dict.keys tm then 1 / (tm.length : K) else 0)
      else Dict.val tm t / Dict.total tm) := by
  have hnn := h.nonneg
  split_ifs
  · positivity
  · exact le_rfl
  · apply div_nonneg _ (Dict.total_nonneg hnn)
    unfold Dict.val
    cases hg : Dict.get? tm t with
    | none => simp
    | some v => exact hnn _ (Dict.mem_of_get? hg)

theorem subFin_mono {x y : Ext K} (h : x ≤ y) (z : K) : x.subFin z ≤ y.subFin z := by
  cases x <;> cases y <;> simp_all [Ext.subFin]

theorem outCap_mono {x y : Ext K} (h : x ≤ y) (z : K) (tl : Option (Ext K)) :
    outCap x z tl ≤ outCap y z tl := by
  unfold outCap
  apply min_le_min _ le_rfl
  cases tl with
  | none => exact subFin_mono h z
  | some l => exact max_le_max (subFin_mono h z) le_rfl

/-- Withdrawals computed with a tighter (greater) limit are no larger, at any date. -/
theorem outflows_mono_core (lim lim' : Ext K) (hle : lim ≤ lim') (a : Acct K) (k : FlowArgs K)
    (tm : Dict K K) (h : Ready a k.timing k.transactions tm) (bl : K) :
    ∃ d d', transactionsToBalance a (.fin bl) k.timing (some (.fin 0))
        (some (outCap lim (outflows a k.transactions) k.transactionLimit)) k.transactions
          = .ok (Dict.mapVals Ext.fin d) ∧
      transactionsToBalance a (.fin bl) k.timing (some (.fin 0))
        (some (outCap lim' (outflows a k.transactions) k.transactionLimit)) k.transactions
          = .ok (Dict.mapVals Ext.fin d') ∧ ∀ t, Dict.val d t ≤ Dict.val d' t := by
  obtain ⟨nt, ref, hnt, hw, hpos, href, hc⟩ := core h.fit
  have hval : ∀ (m : Ext K), m ≤ .fin 0 → ∃ c : K,
      max (min (.fin ((bl - ref) * (weightedAccum a.A nt)⁻¹)) (.fin 0)) m = .fin c := by
    intro m hm
    cases m with
    | negInf => exact ⟨_, by simp; rfl⟩
    | fin x => exact ⟨_, by simp; rfl⟩
    | posInf => simp at hm
  obtain ⟨c, hc1⟩ := hval (outCap lim (outflows a k.transactions) k.transactionLimit)
    (min_le_right _ _)
  obtain ⟨c', hc2⟩ := hval (outCap lim' (outflows a k.transactions) k.transactionLimit)
    (min_le_right _ _)
  have hcc : c ≤ c' := by
    have : (.fin c : Ext K) ≤ .fin c' := by
      rw [← hc1, ← hc2]; exact max_le_max le_rfl (outCap_mono hle _ _)
    simpa using this
  refine ⟨Dict.mapVals (fun w => c * w) nt, Dict.mapVals (fun w => c' * w) nt, ?_, ?_, ?_⟩
  · rw [ttb_eq href h.resolves hnt h.growth hw]
    simp only [Ext.subFin, mulFin_fin, hc1]
    rw [← mapVals_fin]; rfl
  · rw [ttb_eq href h.resolves hnt h.growth hw]
    simp only [Ext.subFin, mulFin_fin, hc2]
    rw [← mapVals_fin]; rfl
  · intro t
    obtain ⟨-, h2, -, h4, -⟩ := hc c
    obtain ⟨-, h2', -, h4', -⟩ := hc c'
    rw [h4 t, h4' t, h2, h2']
    exact mul_le_mul_of_nonneg_right hcc (weight_nonneg h.good t)

/-- **C22.** A looser outflow limit never allows less to be withdrawn, at any date. -/
theorem C22_max_outflows_monotone (L L' : Limits K) (hle : L.maxOut ≤ L'.maxOut) (a : Acct K)
    (k : FlowArgs K) (tm : Dict K K) (h : Ready a k.timing k.transactions tm) (bl : K)
    (hbl : k.balanceLimit.getD (.fin 0) = .fin bl) :
    ∃ d d', maxOutflows L a k = .ok (Dict.mapVals Ext.fin d) ∧
      maxOutflows L' a k = .ok (Dict.mapVals Ext.fin d') ∧
      ∀ t, Dict.val d t ≤ Dict.val d' t := by
  obtain ⟨d, d', h1, h2, h3⟩ := outflows_mono_core _ _ hle a k tm h bl
  exact ⟨d, d', by unfold maxOutflows; rw [hbl]; exact h1,
    by unfold maxOutflows; rw [hbl]; exact h2, h3⟩

/-- **C23.** With consistent limits (`max_outflow_limit ≤ min_outflow_limit`, outflows being
negative) minimum withdrawals never exceed maximum withdrawals, at any date. -/
theorem C23_min_le_max_outflows (L : Limits K) (hle : L.maxOut ≤ L.minOut) (a : Acct K)
    (k : FlowArgs K) (tm : Dict K K) (h : Ready a k.timing k.transactions tm) (bl : K)
    (hbl : k.balanceLimit.getD (.fin 0) = .fin bl) :
    ∃ d d', maxOutflows L a k = .ok (Dict.mapVals Ext.fin d) ∧
      minOutflows L a k = .ok (Dict.mapVals Ext.fin d') ∧
      ∀ t, Dict.val d t ≤ Dict.val d' t := by
  obtain ⟨d, d', h1, h2, h3⟩ := outflows_mono_core _ _ hle a k tm h bl
  exact ⟨d, d', by unfold maxOutflows; rw [hbl]; exact h1,
    by unfold minOutflows; rw [hbl]; exact h2, h3⟩

/-- **C23** (a plain `Account`). Nothing needs to be paid in or taken out, and anything may be paid in,
at every date of the timing. -/
theorem C23_plain_account (a : Acct K) (timing : Option (Arg K)) (tm : Dict K K)
    (h : Ready a timing none tm) :
    (∃ d, minInflows plainLimits a { timing := timing } = .ok (Dict.mapVals Ext.fin d) ∧
      ∀ t, Dict.val d t = 0) ∧
    (∃ d, minOutflows plainLimits a { timing := timing } = .ok (Dict.mapVals Ext.fin d) ∧
      ∀ t, Dict.val d t = 0) ∧
    (∃ d, maxInflows plainLimits a { timing := timing } = .ok d ∧ d ≠ [] ∧
      ∀ kv ∈ d, kv.2 = .posInf) := by
  have hin : 0 ≤ paidIn a none := by
    unfold paidIn
    refine add_nonneg (List.sum_nonneg ?_) (List.sum_nonneg ?_) <;>
      (intro x hx; obtain ⟨e, -, rfl⟩ := List.mem_map.1 hx; exact le_max_right _ _)
  have hout : takenOut a none ≤ 0 := by
    have neg : ∀ l : Dict K K, (l.map fun e => min e.2 0).sum ≤ 0 := by
      intro l
      induction l with
      | nil => simp
      | cons x l ih =>
        simp only [List.map_cons, List.sum_cons]
        exact add_nonpos (min_le_right _ _) ih
    exact add_nonpos (neg _) (neg _)
  refine ⟨?_, ?_, ?_⟩
  · obtain ⟨d, h1, h2, -, h4⟩ := C23_min_inflows plainLimits a { timing := timing } tm h rfl 0 rfl rfl
    refine ⟨d, h1, fun t => ?_⟩
    rw [h2 t, h4, max_eq_right (by show 0 - paidIn a none ≤ 0; linarith), zero_mul]
  · obtain ⟨d, a', ref, e, h1, h2, -, -, -, -, -, h8, -⟩ :=
      C23_min_outflows plainLimits a { timing := timing } tm h rfl 0 rfl rfl
    refine ⟨d, h1, fun t => ?_⟩
    rw [h2 t, h8 hout, zero_mul]
  · obtain ⟨d, h1, h2, h3, -⟩ :=
      (C23_max_inflows plainLimits a { timing := timing } tm h rfl).2.2.2 rfl rfl
    exact ⟨d, h1, h2, h3⟩

example : maxInflows { (plainLimits : Limits ℚ) with maxIn := .fin 80 } sample {}
    = .ok [(1 / 2, .fin 30)] := by decide +kernel
example : minOutflows { (plainLimits : Limits ℚ) with minOut := .fin (-60) } sample {}
    = .ok [(1 / 2, .fin (-40))] := by decide +kernel

/-! ## C24: debts -/

/-- **C24.** A debt's balance is never positive at construction, whatever sign is given, and its
size is the one given. -/
theorem C24_debt_balance_nonpos (y : ℤ) (b : K) (g : ℤ → K → K) (dt : Dict K K) :
    balance (debtInit y b g dt) = .ok (-|b|) ∧ Reachable (debtInit y b g dt) := by
  unfold debtInit
  split_ifs with h
  · exact ⟨by simp [balance, init, Dict.get?_cons, abs_of_pos h], _, _, _, _, [], rfl⟩
  · refine ⟨?_, _, _, _, _, [], rfl⟩
    rw [abs_of_nonpos (not_lt.1 h)]
    simp [balance, init, Dict.get?_cons]

/-- **C24.** Maximum and minimum debt payments are non-negative, never lift the year-end balance
above 0 if it was not, are zero if nothing is owed, and stay within
`minimum_payment + accelerated_payment` (resp. `minimum_payment`), counting payments already
made. -/
theorem C24_payments_never_overpay (mp : K) (ap : Ext K) (a : Acct K) (k : FlowArgs K)
    (tm : Dict K K) (h : Ready a k.timing k.transactions tm) (hbl : k.balanceLimit = none) :
    (∃ d a' ref e, debtMaxInflows (debtLimits mp ap) a k = .ok (Dict.mapVals Ext.fin d) ∧
      (∀ kv ∈ d, 0 ≤ kv.2) ∧ balanceAtTime a (.str "end") k.transactions = .ok ref ∧
      applyAll a d = .ok a' ∧ balanceAtTime a' (.str "end") k.transactions = .ok e ∧
      (ref ≤ 0 → e ≤ 0) ∧ (0 ≤ ref → Dict.total d = 0) ∧
      (Dict.total d = 0 ∨ .fin (paidIn a k.transactions + Dict.total d)
        ≤ Ext.add (.fin mp) ap)) ∧
    (∃ d a' ref e, debtMinInflows (debtLimits mp ap) a k = .ok (Dict.mapVals Ext.fin d) ∧
      (∀ kv ∈ d, 0 ≤ kv.2) ∧ balanceAtTime a (.str "end") k.transactions = .ok ref ∧
      applyAll a d = .ok a' ∧ balanceAtTime a' (.str "end") k.transactions = .ok e ∧
      (ref ≤ 0 → e ≤ 0) ∧ (0 ≤ ref → Dict.total d = 0) ∧
      (Dict.total d = 0 ∨ paidIn a k.transactions + Dict.total d ≤ mp)) := by
  constructor
  · obtain ⟨d, a', ref, e, h1, -, h3, h4, h5, h6, h7, h8, h9⟩ :=
      C23_max_inflows_balance_limit (debtLimits mp ap) a
        { k with balanceLimit := some (.fin 0) } tm h 0 rfl
    refine ⟨d, a', ref, e, ?_, h3, h4, h5, h6, h7, fun hr => (h8 hr).1, ?_⟩
    · unfold debtMaxInflows; rw [hbl]; exact h1
    · exact h9.imp id fun h => h.1
  · obtain ⟨d, a', ref, e, h1, -, h3, h4, h5, h6, h7, h8, h9⟩ :=
      C23_max_inflows_balance_limit { debtLimits mp ap with maxIn := .fin mp } a
        { k with balanceLimit := some (.fin 0) } tm h 0 rfl
    refine ⟨d, a', ref, e, ?_, h3, h4, h5, h6, h7, fun hr => (h8 hr).1, ?_⟩
    · unfold debtMinInflows; rw [hbl]; exact h1
    · exact h9.imp id fun h => by simpa using h.1

/-- **C24.** With unlimited accelerated payments (the default) `max_inflows` pays the debt off
exactly. -/
theorem C24_unlimited_acceleration_pays_off (mp : K) (a : Acct K) (timing : Option (Arg K))
    (tm : Dict K K) (h : Ready a timing none tm) (ref : K)
    (href : balanceAtTime a (.str "end") none = .ok ref) (hr : ref ≤ 0) :
    ∃ d a', debtMaxInflows (debtLimits mp .posInf) a { timing := timing }
        = .ok (Dict.mapVals Ext.fin d) ∧
      applyAll a d = .ok a' ∧ balanceAtTime a' (.str "end") none = .ok 0 := by
  obtain ⟨d, a', ref', e, h1, -, -, h4, h5, h6, -, h8, -, h10⟩ :=
    inflow_core (.posInf) a { timing := timing } tm h 0
  rw [href] at h4; cases h4
  refine ⟨d, a', h1, h5, ?_⟩
  rw [h6]
  rcases h10 with h | h | h
  · rw [h]
  · rw [(h8 h).2, le_antisymm hr h]
  · simp [inCap, Ext.subFin] at h

/-- **C24.** Nothing needs to be taken out of a debt, at any date. -/
theorem C24_no_min_withdrawals (mp : K) (ap : Ext K) (a : Acct K) (timing : Option (Arg K))
    (tm : Dict K K) (h : Ready a timing none tm) :
    ∃ d, minOutflows (debtLimits mp ap) a { timing := timing } = .ok (Dict.mapVals Ext.fin d) ∧
      ∀ t, Dict.val d t = 0 := by
  have hout : takenOut a none ≤ 0 := by
    have neg : ∀ l : Dict K K, (l.map fun e => min e.2 0).sum ≤ 0 := by
      intro l
      induction l with
      | nil => simp
      | cons x l ih =>
        simp only [List.map_cons, List.sum_cons]
        exact add_nonpos (min_le_right _ _) ih
    exact add_nonpos (neg _) (neg _)
  obtain ⟨d, a', ref, e, h1, h2, -, -, -, -, -, h8, -⟩ :=
    C23_min_outflows (debtLimits mp ap) a { timing := timing } tm h rfl 0 rfl rfl
  exact ⟨d, h1, fun t => by rw [h2 t, h8 hout, zero_mul]⟩

/-- **C24.** Nothing can be taken out of a debt: the maximum outflows are all zero. -/
theorem C24_no_withdrawals (mp : K) (ap : Ext K) (a : Acct K) (k : FlowArgs K) (tm : Dict K K)
    (h : Ready a k.timing k.transactions tm) (bl : K)
    (hbl : k.balanceLimit.getD (.fin 0) = .fin bl) :
    ∃ d, maxOutflows (debtLimits mp ap) a k = .ok (Dict.mapVals Ext.fin d) ∧ ∀ kv ∈ d, kv.2 = 0 := by
  obtain ⟨d, a', ref, e, h1, -, h3, -, -, -, -, -, h9, -⟩ :=
    C22_max_outflows (debtLimits mp ap) a k tm h bl hbl
  refine ⟨d, h1, ?_⟩
  have ht : ∀ l : Dict K K, (∀ kv ∈ l, kv.2 ≤ 0) → 0 ≤ Dict.total l → ∀ kv ∈ l, kv.2 = 0 := by
    intro l
    induction l with
    | nil => intro _ _ kv hkv; simp at hkv
    | cons x l ih =>
      intro hl hs
      rw [Dict.total_cons] at hs
      have hx := hl x (by simp)
      have hl' : ∀ kv ∈ l, kv.2 ≤ 0 := fun kv hkv => hl kv (by simp [hkv])
      have hle : Dict.total l ≤ 0 := by
        clear ih hl hs hx
        induction l with
        | nil => simp
        | cons y l ih =>
          rw [Dict.total_cons]
          have := ih fun kv hkv => hl' kv (by simp [hkv])
          have := hl' y (by simp)
          linarith
      intro kv hkv
      rcases List.mem_cons.1 hkv with rfl | hkv
      · linarith
      · exact ih hl' (by linarith) kv hkv
  apply ht d h3
  rcases h9 with h9 | h9
  · rw [h9]
  · have h10 : (0 : K) ≤ takenOut a k.transactions + Dict.total d := by
      simpa [debtLimits] using h9
    have h11 := (C20_inflows_outflows a k.transactions).2.1
    rw [outflows_eq] at h11
    linarith

/-- **C24.** `max_inflow`: never negative (for payments that are not), never more than what is
owed at that time, never more than `minimum_payment + accelerated_payment`; and with unlimited
acceleration it is just what is owed. -/
theorem C24_max_inflow (mp : K) (ap : Ext K) (hpay : .fin 0 ≤ Ext.add (.fin mp) ap) (a : Acct K)
    (w : When K) (b : K) (hb : balanceAtTime a w none = .ok b) :
    ∃ x, debtMaxInflow (debtLimits mp ap) a w = .ok x ∧ .fin 0 ≤ x ∧
      x ≤ .fin (max (-b) 0) ∧ x ≤ Ext.add (.fin mp) ap ∧ (ap = .posInf → x = .fin (max (-b) 0)) := by
  refine ⟨min (max (.fin (-b)) (.fin 0)) (Ext.add (.fin mp) ap), ?_, ?_, ?_, min_le_right _ _, ?_⟩
  · unfold debtMaxInflow; rw [hb]; rfl
  · exact le_min (le_max_right _ _) hpay
  · refine (min_le_left _ _).trans (max_le ?_ ?_) <;> simp
  · rintro rfl
    rw [min_eq_left]
    · rcases le_total (-b) 0 with h | h
      · rw [max_eq_right h, max_eq_right (by simpa using h)]
      · rw [max_eq_left h, max_eq_left (by simpa using h)]
    · simp [Ext.add]

/-- A debt of 100 at zero interest with a minimum payment of 30 and 20 more allowed. -/
def sampleDebt : Acct ℚ := debtInit 2000 100 (fun _ _ => 1) [(1, 1)]

example : debtMaxInflows (debtLimits 30 (.fin 20)) sampleDebt {} = .ok [(1, .fin 50)] := by
  decide +kernel
example : debtMaxInflows (debtLimits 30 .posInf) sampleDebt {} = .ok [(1, .fin 100)] := by
  decide +kernel
example : debtMinInflows (debtLimits 300 .posInf) sampleDebt {} = .ok [(1, .fin 100)] := by
  decide +kernel
example : debtMaxInflow (debtLimits 30 (.fin 20)) sampleDebt (.str "end") = .ok (.fin 50) := by
  decide +kernel
example : maxOutflows (debtLimits 30 (.fin 20)) sampleDebt {} = .ok [(1, .fin 0)] := by
  decide +kernel

end Forecaster.Account
