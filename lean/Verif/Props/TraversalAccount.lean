import Verif.Props.Traversal
import Verif.Props.Account

/-!
# C42, continued: real accounts

The theorems of C42 ask of accounts that their transactions for a limit have the sign of the
total and do not exceed it (`Answers`).  The accounts of C18 - C24 do.
-/

set_option linter.unusedSectionVars false

namespace Forecaster.Traversal

open Forecaster Forecaster.Timing Forecaster.Account

variable {K : Type} [Field K] [LinearOrder K] [IsStrictOrderedRing K] [FloorRing K]
variable {N A : Type} [DecidableEq N] [DecidableEq A]

/-- An account as the leaf of a tree: its state, its limits, whether it is a `Debt`. -/
structure Leaf (K : Type) where
  acct : Acct K
  limits : Limits K
  debt : Bool

/-- `transaction_default_methods` (strategy/transaction/util.py:21-34): which method answers for a limit. -/
def flowsOf (x : Leaf K) (lim : Lim) (k : FlowArgs K) : Except PyErr (Dict K (Ext K)) :=
  match lim with
  | .minIn => if x.debt then debtMinInflows x.limits x.acct k else minInflows x.limits x.acct k
  | .maxIn => if x.debt then debtMaxInflows x.limits x.acct k else maxInflows x.limits x.acct k
  | .minOut => minOutflows x.limits x.acct k
  | .maxOut => maxOutflows x.limits x.acct k

/-- The finite amounts of a dict of transactions; `none` if one is infinite. -/
def finiteVals (d : Dict K (Ext K)) : Option (Dict K K) :=
  d.mapM fun e => match e.2 with
    | .fin x => some (e.1, x)
    | _ => none

/-- `_get_transactions(account, limit, timing, total=x)` (util.py:161-205). An infinite amount,
which cannot occur (`C42_accounts_answer`), is an error here. -/
def accountTx (x : Leaf K) (timing : Option (Arg K)) (lim : Lim) (total : K) :
    Except PyErr (Dict K K) := do
  let d ← flowsOf x lim { timing := timing, transactionLimit := some (.fin total) }
  match finiteVals d with
  | some d => .ok d
  | none => .error .overflowError

/-- `sum(_get_transactions(account, limit, timing).values())` (base.py:1149-1151). -/
def accountLimit (x : Leaf K) (timing : Option (Arg K)) (lim : Lim) : Except PyErr (Ext K) := do
  let d ← flowsOf x lim { timing := timing }
  .ok ((Dict.vals d).foldl Ext.add (.fin 0))

/-- Specification: the environment's accounts are the given ones. -/
structure OfAccounts (E : Env N A K) (leaf : A → Leaf K) (timing : Option (Arg K)) : Prop where
  tx : ∀ a lim x, E.txOf a lim x = accountTx (leaf a) timing lim x
  limit : ∀ a lim, E.limitOf a lim = accountLimit (leaf a) timing lim

theorem finiteVals_fin (d : Dict K K) : finiteVals (Dict.mapVals Ext.fin d) = some d := by
  unfold finiteVals Dict.mapVals
  induction d with
  | nil => rfl
  | cons e d ih =>
    rw [List.map_cons, List.mapM_cons]
    simp only [Option.bind_eq_bind, Option.bind_some]
    rw [ih]
    rfl

/-- What an account that grows sensibly answers when asked for at most `x`. -/
theorem inflow_answer {a : Acct K} {timing : Option (Arg K)} {tm : Dict K K}
    (h : Fit a timing none tm) (lim : Ext K) (target : Ext K) {x : K} (hx : 0 ≤ x) :
    ∃ d, transactionsToBalance a target timing
        (some (inCap lim (inflows a none) (some (.fin x)))) (some (.fin 0)) none =
          .ok (Dict.mapVals Ext.fin d) ∧
      Dict.WF d ∧ (∀ e ∈ d, 0 ≤ e.2) ∧ Dict.total d ≤ x := by
  obtain ⟨nt, ref, hnt, hw, hpos, href, hc⟩ := core h
  set M := inCap lim (inflows a none) (some (.fin x)) with hM
  have hM0 : .fin 0 ≤ M := by rw [hM]; exact le_max_right _ _
  have hMx : M ≤ .fin x := by
    rw [hM]; unfold inCap
    exact max_le (min_le_right _ _) (by simpa using hx)
  set T := (target.subFin ref).mulFin (weightedAccum a.A nt)⁻¹ with hT
  have h0 : .fin 0 ≤ max (min T M) (.fin 0) := le_max_right _ _
  have h1 : max (min T M) (.fin 0) ≤ .fin x :=
    max_le ((min_le_right _ _).trans hMx) (by simpa using hx)
  obtain ⟨c, hcm⟩ : ∃ c : K, max (min T M) (.fin 0) = .fin c := by
    cases hz : max (min T M) (.fin 0) with
    | fin c => exact ⟨c, rfl⟩
    | posInf => rw [hz] at h1; simp at h1
    | negInf => rw [hz] at h0; simp at h0
  rw [hcm] at h0 h1
  obtain ⟨h2, h3, h4, -⟩ := hc c
  refine ⟨_, ?_, h2.wf, fun e he => (h4 e he).1 (by simpa using h0), ?_⟩
  · rw [ttb_eq href h.resolves hnt h.growth hw]
    simp only [← hT, hcm]
    rw [← mapVals_fin]
  · rw [h3]; simpa using h1

theorem outflow_answer {a : Acct K} {timing : Option (Arg K)} {tm : Dict K K}
    (h : Fit a timing none tm) (lim : Ext K) (target : Ext K) {x : K} (hx : x ≤ 0) :
    ∃ d, transactionsToBalance a target timing (some (.fin 0))
        (some (outCap lim (outflows a none) (some (.fin x)))) none =
          .ok (Dict.mapVals Ext.fin d) ∧
      Dict.WF d ∧ (∀ e ∈ d, e.2 ≤ 0) ∧ x ≤ Dict.total d := by
  obtain ⟨nt, ref, hnt, hw, hpos, href, hc⟩ := core h
  set M := outCap lim (outflows a none) (some (.fin x)) with hM
  have hM0 : M ≤ .fin 0 := by rw [hM]; exact min_le_right _ _
  have hMx : .fin x ≤ M := by
    rw [hM]; unfold outCap
    exact le_min (le_max_right _ _) (by simpa using hx)
  set T := (target.subFin ref).mulFin (weightedAccum a.A nt)⁻¹ with hT
  have h0 : max (min T (.fin 0)) M ≤ .fin 0 := max_le (min_le_right _ _) hM0
  have h1 : .fin x ≤ max (min T (.fin 0)) M := hMx.trans (le_max_right _ _)
  obtain ⟨c, hcm⟩ : ∃ c : K, max (min T (.fin 0)) M = .fin c := by
    cases hz : max (min T (.fin 0)) M with
    | fin c => exact ⟨c, rfl⟩
    | posInf => rw [hz] at h0; simp at h0
    | negInf => rw [hz] at h1; simp at h1
  rw [hcm] at h0 h1
  obtain ⟨h2, h3, h4, -⟩ := hc c
  refine ⟨_, ?_, h2.wf, fun e he => (h4 e he).2 (by simpa using h0), ?_⟩
  · rw [ttb_eq href h.resolves hnt h.growth hw]
    simp only [← hT, hcm]
    rw [← mapVals_fin]
  · rw [h3]; simpa using h1

theorem accounts_answer {E : Env N A K} {leaf : A → Leaf K} {timing : Option (Arg K)}
    (h : OfAccounts E leaf timing)
    (hr : ∀ a, ∃ tm, Fit (leaf a).acct timing none tm) :
    Answers E ∧
    (∀ a lim x, lim = .minIn ∨ lim = .maxIn → 0 ≤ x → ∃ d, E.txOf a lim x = .ok d) ∧
    (∀ a lim x, lim = .minOut ∨ lim = .maxOut → x ≤ 0 → ∃ d, E.txOf a lim x = .ok d) := by
  have hin : ∀ a lim x, lim = .minIn ∨ lim = .maxIn → 0 ≤ x →
      ∃ d, E.txOf a lim x = .ok d ∧ Dict.WF d ∧ (∀ e ∈ d, 0 ≤ e.2) ∧ Dict.total d ≤ x := by
    intro a lim x hl hx
    obtain ⟨tm, ht⟩ := hr a
    rw [h.tx]
    unfold accountTx
    obtain ⟨c, t, hct⟩ : ∃ c t, flowsOf (leaf a) lim
        { timing := timing, transactionLimit := some (.fin x) } =
        transactionsToBalance (leaf a).acct t timing
          (some (inCap c (inflows (leaf a).acct none) (some (.fin x)))) (some (.fin 0)) none := by
      rcases hl with rfl | rfl
      · unfold flowsOf debtMinInflows minInflows
        split_ifs <;> exact ⟨_, _, rfl⟩
      · unfold flowsOf debtMaxInflows maxInflows
        split_ifs <;> exact ⟨_, _, rfl⟩
    obtain ⟨d, h1, h2⟩ := inflow_answer ht c t hx
    refine ⟨d, ?_, h2⟩
    rw [hct, h1, ok_bind, finiteVals_fin]
  have hout : ∀ a lim x, lim = .minOut ∨ lim = .maxOut → x ≤ 0 →
      ∃ d, E.txOf a lim x = .ok d ∧ Dict.WF d ∧ (∀ e ∈ d, e.2 ≤ 0) ∧ x ≤ Dict.total d := by
    intro a lim x hl hx
    obtain ⟨tm, ht⟩ := hr a
    rw [h.tx]
    unfold accountTx
    obtain ⟨c, t, hct⟩ : ∃ c t, flowsOf (leaf a) lim
        { timing := timing, transactionLimit := some (.fin x) } =
        transactionsToBalance (leaf a).acct t timing (some (.fin 0))
          (some (outCap c (outflows (leaf a).acct none) (some (.fin x)))) none := by
      rcases hl with rfl | rfl
      · exact ⟨_, _, rfl⟩
      · exact ⟨_, _, rfl⟩
    obtain ⟨d, h1, h2⟩ := outflow_answer ht c t hx
    refine ⟨d, ?_, h2⟩
    rw [hct, h1, ok_bind, finiteVals_fin]
  refine ⟨⟨?_, ?_⟩, fun a lim x hl hx => ?_, fun a lim x hl hx => ?_⟩
  · intro a lim x d hl hx hd
    obtain ⟨d', h1, h2⟩ := hin a lim x hl hx
    rw [hd] at h1; cases h1
    exact h2
  · intro a lim x d hl hx hd
    obtain ⟨d', h1, h2⟩ := hout a lim x hl hx
    rw [hd] at h1; cases h1
    exact h2
  · obtain ⟨d, h1, -⟩ := hin a lim x hl hx
    exact ⟨d, h1⟩
  · obtain ⟨d, h1, -⟩ := hout a lim x hl hx
    exact ⟨d, h1⟩

/-- **C42.** What the theorems above ask of accounts holds of every account and debt that grows
sensibly, in every reachable state, whatever its limits and whatever the timing; and such an
account always answers. -/
theorem C42_accounts_answer {E : Env N A K} {leaf : A → Leaf K} {timing : Option (Arg K)}
    (h : OfAccounts E leaf timing)
    (hr : ∀ a, ∃ tm, Ready (leaf a).acct timing none tm) :
    Answers E ∧
    (∀ a lim x, lim = .minIn ∨ lim = .maxIn → 0 ≤ x → ∃ d, E.txOf a lim x = .ok d) ∧
    (∀ a lim x, lim = .minOut ∨ lim = .maxOut → x ≤ 0 → ∃ d, E.txOf a lim x = .ok d) :=
  accounts_answer h fun a => (hr a).imp fun _ h => h.fit

/-! ### A concrete case -/

section Cases

/-- Two copies of the sample account, one with a maximum contribution of 80 a year (50 of which
is used), one without a maximum. -/
def sampleLeaf (a : ℕ) : Leaf ℚ :=
  if a = 0 then ⟨sample, { (plainLimits : Limits ℚ) with maxIn := .fin 80 }, false⟩
  else ⟨sample, plainLimits, false⟩

/-- The two accounts in an ordered tree. -/
def sampleEnv : Env ℕ ℕ ℚ where
  tree := { root := 2, kind := fun n => if n = 2 then .ordered [0, 1] else .leaf n }
  precision := 1
  limitOf a lim := accountLimit (sampleLeaf a) none lim
  txOf a lim x := accountTx (sampleLeaf a) none lim x
  groupOf _ _ := none
  solve := checked greedy

theorem sample_answers : Answers sampleEnv := by
  have h : OfAccounts sampleEnv sampleLeaf none := ⟨fun _ _ _ => rfl, fun _ _ => rfl⟩
  refine (C42_accounts_answer h fun a => ⟨[(1 / 2, 1)], ?_⟩).1
  have hr : Ready sample none none [(1 / 2, 1)] :=
    ⟨sample_reachable, sample_growth, sample_ready.resolves, sample_ready.good, by simp⟩
  unfold sampleLeaf
  split_ifs
  · exact hr
  · exact hr

example : call sampleEnv 12 100 = .ok [(0, [(1 / 2, 30)]), (1, [(1 / 2, 70)])] := by
  decide +kernel

example : call sampleEnv 12 (-200) = .ok [(0, [(1 / 2, -130)]), (1, [(1 / 2, -70)])] := by
  decide +kernel

end Cases

end Forecaster.Traversal
