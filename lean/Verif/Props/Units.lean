import Verif.Lemmas.UnitsTraversal
import Verif.Props.CompletesStrategy
import Verif.Props.TraversalAccount

/-!
# C114, C115: forecasts do not depend on the unit money is counted in

The specification is in `Verif/Lemmas/Units.lean`: `acct c`, `pool c`, `dict c`, … multiply every
amount of money by `c` and leave dates, years, rates and shares alone; `SameInUnits c E E'` says that
the households `E` and `E'` differ only in the unit their money is counted in, `SameTraversal c E E'`
(`Verif/Lemmas/UnitsTraversal.lean`) says the same of two priority trees with their accounts.
-/

set_option linter.unusedSectionVars false

namespace Forecaster.Units

open Forecaster Forecaster.Timing Forecaster.Account Forecaster.SubForecast Forecaster.CashFlow
open Forecaster.Household

variable {K : Type} [Field K] [LinearOrder K] [IsStrictOrderedRing K]

/-! ### C114: a household -/

section Households

variable {N A : Type} [DecidableEq N] [DecidableEq A] {c : K} {E E' : Household.Env N A K}

/-- **C114** (figures). Somebody converts everything to another unit (dollars to cents, say). The
forecast runs to the same year, and every amount of money it ends with - cash on hand at every moment
of the year, the accounts' balances and transactions, every figure of every year of the report - is
the old one, converted. -/
theorem C114_figures (hc : 0 < c) (h : SameInUnits c E E') {initial : ℤ} {years : List ℤ}
    {accounts : A → Acct K} {s : Forecast.FS K (Home N A K)}
    (hs : forecast E initial years accounts = .ok s) :
    ∃ s', forecast E' initial years (fun a => acct c (accounts a)) = .ok s' ∧
      s'.year = s.year ∧
      s'.available = s.available.map (fun e => (e.1, c * e.2)) ∧
      (∀ a, (s'.w.accounts a).txns = (s.w.accounts a).txns.map (fun e => (e.1, c * e.2))) ∧
      (∀ a, balance (s'.w.accounts a) = (balance (s.w.accounts a)).map (c * ·)) ∧
      s'.w.report.length = s.w.report.length ∧
      ∀ (n : ℕ) (r : Row K), s.w.report[n]? = some r → ∃ r', s'.w.report[n]? = some r' ∧
        r'.income = c * r.income ∧ r'.livingExpenses = c * r.livingExpenses ∧
        r'.savings = c * r.savings ∧ r'.principal = c * r.principal ∧ r'.tax = c * r.tax ∧
        r'.withdrawals = ext c r.withdrawals := by
  refine ⟨fs c (home c) s, ?_, rfl, rfl, fun a => rfl, fun a => balance_acct _, ?_, ?_⟩
  · rw [forecast_home hc h, hs]; rfl
  · exact List.length_map _
  · intro n r hr
    refine ⟨row c r, ?_, rfl, rfl, rfl, rfl, rfl, rfl⟩
    show (s.w.report.map (row c))[n]? = _
    rw [List.getElem?_map, hr]
    rfl

/-- **C114** (failures). And if the forecast raises an exception, it raises the same one in every
unit. -/
theorem C114_fails_alike (hc : 0 < c) (h : SameInUnits c E E') (initial : ℤ) (years : List ℤ)
    (accounts : A → Acct K) (e : PyErr) :
    forecast E' initial years (fun a => acct c (accounts a)) = .error e ↔
      forecast E initial years accounts = .error e := by
  rw [forecast_home hc h]
  cases forecast E initial years accounts with
  | error e' => simp [Except.map]
  | ok s => simp [Except.map]

/-- **C114** (everything). The whole final state is the old one, converted. -/
theorem C114_everything (hc : 0 < c) (h : SameInUnits c E E') (initial : ℤ) (years : List ℤ)
    (accounts : A → Acct K) :
    forecast E' initial years (fun a => acct c (accounts a)) =
      (forecast E initial years accounts).map (fs c (home c)) :=
  forecast_home hc h initial years accounts

/-- The household `E`, with its money in another unit. -/
def converted (c : K) (E : Household.Env N A K) : Household.Env N A K :=
  { E with
    earner := fun i y => earner c (E.earner i y)
    limits := fun a x => limits c (E.limits a (acct c⁻¹ x))
    ttv := fun x b v => E.ttv (acct c⁻¹ x) (c⁻¹ * b) (c⁻¹ * v)
    expenses := fun y x => (E.expenses y fun a => acct c⁻¹ (x a)).map (c * ·)
    saving := fun y q => (E.saving y fun p => pool c⁻¹ (q p)).map (dict2 c)
    withdrawal := fun y q => (E.withdrawal y fun p => pool c⁻¹ (q p)).map (dict2 c)
    accountTax := fun a x => c * E.accountTax a (acct c⁻¹ x)
    owing := fun y x => (E.owing y fun a => acct c⁻¹ (x a)).map (c * ·) }

omit [LinearOrder K] [IsStrictOrderedRing K] [DecidableEq N] [DecidableEq A] in
theorem dict_inv {κ : Type} (hc : c ≠ 0) (d : Dict κ K) : dict c⁻¹ (dict c d) = d := by
  unfold dict Dict.mapVals
  rw [List.map_map]
  conv_rhs => rw [← List.map_id d]
  apply List.map_congr_left
  intro e _
  simp [hc]

theorem dict2_inv {κ : Type} (hc : c ≠ 0) (d : Dict κ (Dict K K)) : dict2 c⁻¹ (dict2 c d) = d := by
  unfold dict2 Dict.mapVals
  rw [List.map_map]
  conv_rhs => rw [← List.map_id d]
  apply List.map_congr_left
  intro e _
  simp [dict_inv hc]

theorem acct_inv (hc : c ≠ 0) (x : Acct K) : acct c⁻¹ (acct c x) = x := by
  unfold acct
  simp only [dict_inv hc, dict2_inv hc]

theorem ext_inv (hc : c ≠ 0) (x : Ext K) : ext c⁻¹ (ext c x) = x := by
  cases x <;> simp [ext, hc]

theorem pool_inv (hc : c ≠ 0) (q : Pool K) : pool c⁻¹ (pool c q) = q := by
  cases q with
  | dict f d => simp only [pool, dict_inv hc]
  | acct L x => simp only [pool, limits, acct_inv hc, ext_inv hc]

/-- **C114** (every household). Every household there is can be converted to every unit. -/
theorem C114_every_household (hc : c ≠ 0) (E : Household.Env N A K) :
    SameInUnits c E (converted c E) where
  people := rfl
  assets := rfl
  debts := rfl
  owner := rfl
  default := rfl
  refund := rfl
  payment := rfl
  earner _ _ := rfl
  limits a x := by simp only [converted, acct_inv hc]
  ttv x b v := by
    show E.ttv (acct c⁻¹ (acct c x)) (c⁻¹ * (c * b)) (c⁻¹ * (c * v)) = _
    rw [acct_inv hc, inv_mul_cancel_left₀ hc, inv_mul_cancel_left₀ hc]
  expenses y x := by simp only [converted, acct_inv hc]
  saving y q := by simp only [converted, pool_inv hc]
  withdrawal y q := by simp only [converted, pool_inv hc]
  accountTax a x := by simp only [converted, acct_inv hc]
  owing y x := by simp only [converted, acct_inv hc]

end Households

/-! ### C115: strategies -/

section Strategies

open Forecaster.Traversal

variable [FloorRing K] {N A : Type} [DecidableEq N] [DecidableEq A] {c : K}

/-- An account as a strategy sees it, in another unit. -/
def leaf (c : K) (x : Leaf K) : Leaf K := ⟨acct c x.acct, limits c x.limits, x.debt⟩

/-- A timing given as the amounts available at some dates (anything else contains no money). -/
def arg (c : K) : Arg K → Arg K
  | .dict d => .dict (dict c d)
  | a => a

/-- What a strategy knows about an account, in another unit. -/
def info (c : K) (i : TxStrategy.Info K) : TxStrategy.Info K := { i with balance := c * i.balance }

/-- **C115** (traversal). What a priority tree makes of an amount does not depend on the unit in which
the amount, the limits of nodes and accounts and the precision are given. -/
theorem C115_traversal (hc : 0 < c) {E E' : Traversal.Env N A K} (h : SameTraversal c E E')
    (fuel : ℕ) (total : K) :
    Traversal.call E' fuel (c * total) = (Traversal.call E fuel total).map (dict2 c) :=
  call_same hc h fuel total

theorem normalizedWeights_dict {k : K} (hk : 0 < k) (u : Dict K K) :
    normalizedWeights (dict k u) = normalizedWeights u := by
  unfold normalizedWeights
  simp only [total_dict]
  have hz : k * Dict.total u = 0 ↔ Dict.total u = 0 := by simp [hk.ne']
  by_cases h : Dict.total u = 0
  · rw [if_pos h, if_pos (hz.2 h)]
    have : (dict k u).map (fun kv => (kv.1, (1 : K))) = u.map fun kv => (kv.1, (1 : K)) := by
      unfold dict Dict.mapVals
      rw [List.map_map]
      rfl
    rw [this]
  · rw [if_neg h, if_neg (fun h' => h (hz.1 h'))]
    simp only [Except.ok.injEq]
    induction u with
    | nil => rfl
    | cons e u _ =>
      generalize Dict.total (e :: u) = t
      generalize e :: u = v
      clear h hz
      induction v with
      | nil => rfl
      | cons e v ih =>
        simp only [dict_cons, List.filter_cons]
        have : k * e.2 ≠ 0 ↔ e.2 ≠ 0 := by simp [hk.ne']
        by_cases he : e.2 ≠ 0
        · simp only [this.2 he, he, ne_eq, not_false_eq_true, decide_true, if_true, List.map_cons]
          rw [mul_div_mul_left _ _ hk.ne']
          exact congrArg _ ih
        · have he' : ¬ (k * e.2 ≠ 0) := fun h' => he (this.1 h')
          simp only [he, he', decide_false, Bool.false_eq_true, if_false]
          exact ih

theorem transactionsToBalance_arg (hc : 0 < c) (a : Acct K) (target : Ext K) (timing : Option (Arg K))
    (hi lo : Option (Ext K)) :
    transactionsToBalance a target (timing.map (arg c)) hi lo none =
      transactionsToBalance a target timing hi lo none := by
  cases timing with
  | none => rfl
  | some x =>
    cases x with
    | timing d => rfl
    | scalar w => rfl
    | dict d =>
      obtain ⟨k, hk, h⟩ := convertDict_dict hc d
      have hf : falsy (Arg.dict (dict c d)) = falsy (Arg.dict d) := by cases d <;> rfl
      have hr : ((resolveTiming a (some (.dict (dict c d)))) >>= fun tm => normalizedWeights tm) =
          (resolveTiming a (some (.dict d))) >>= fun tm => normalizedWeights tm := by
        simp only [resolveTiming, hf]
        by_cases hfd : falsy (Arg.dict d) = true
        · simp only [hfd, if_true]
        · simp only [hfd, Bool.false_eq_true, if_false, Timing.init, h]
          cases convertDict d with
          | error e => rfl
          | ok t => simp only [Except.map, ok_bind, update_dict, normalizedWeights_dict hk]
      show transactionsToBalance a target (some (.dict (dict c d))) hi lo none = _
      unfold transactionsToBalance
      cases balanceAtTime a (.str "end") none with
      | error e => rfl
      | ok ref =>
        simp only [ok_bind]
        rw [← bind_assoc, ← bind_assoc, hr]

theorem inCap_ext (hc : 0 < c) (m : Ext K) (x : K) (l : Option (Ext K)) :
    inCap (ext c m) (c * x) (l.map (ext c)) = ext c (inCap m x l) := by
  cases l <;> simp only [inCap, Option.map_some, Option.map_none] <;>
    rw [← ext_max hc, ext_zero] <;> simp only [ext_subFin, ext_min hc]

theorem outCap_ext' (hc : 0 < c) (m : Ext K) (x : K) (l : Option (Ext K)) :
    outCap (ext c m) (c * x) (l.map (ext c)) = ext c (outCap m x l) := by
  cases l <;> simp only [outCap, Option.map_some, Option.map_none] <;>
    rw [← ext_min hc, ext_zero] <;> simp only [ext_subFin, ext_max hc]

theorem inflow_leaf (hc : 0 < c) (a : Acct K) (target m : Ext K) (timing : Option (Arg K))
    (l : Option (Ext K)) :
    transactionsToBalance (acct c a) (ext c target) (timing.map (arg c))
      (some (inCap (ext c m) (inflows (acct c a) none) (l.map (ext c)))) (some (.fin 0)) none =
    (transactionsToBalance a target timing (some (inCap m (inflows a none) l)) (some (.fin 0))
      none).map (Dict.mapVals (ext c)) := by
  rw [transactionsToBalance_arg hc, inflows_acct hc, inCap_ext hc,
    ← transactionsToBalance_acct hc, ext_zero]

theorem outflow_leaf (hc : 0 < c) (a : Acct K) (target m : Ext K) (timing : Option (Arg K))
    (l : Option (Ext K)) :
    transactionsToBalance (acct c a) (ext c target) (timing.map (arg c)) (some (.fin 0))
      (some (outCap (ext c m) (outflows (acct c a) none) (l.map (ext c)))) none =
    (transactionsToBalance a target timing (some (.fin 0)) (some (outCap m (outflows a none) l))
      none).map (Dict.mapVals (ext c)) := by
  rw [transactionsToBalance_arg hc, outflows_acct hc, outCap_ext' hc,
    ← transactionsToBalance_acct hc, ext_zero]

theorem flowsOf_leaf (hc : 0 < c) (x : Leaf K) (lim : Lim) (timing : Option (Arg K))
    (l : Option (Ext K)) :
    flowsOf (leaf c x) lim { timing := timing.map (arg c), transactionLimit := l.map (ext c) } =
      (flowsOf x lim { timing := timing, transactionLimit := l }).map (Dict.mapVals (ext c)) := by
  have hz : (Ext.fin (0 : K)) = ext c (.fin 0) := ext_zero.symm
  have hp : (Ext.posInf : Ext K) = ext c .posInf := rfl
  obtain ⟨a, L, d⟩ := x
  cases lim with
  | minIn =>
    cases d with
    | true =>
      have := inflow_leaf hc a (.fin 0) L.minIn timing l
      rw [ext_zero] at this
      exact this
    | false => exact inflow_leaf hc a .posInf L.minIn timing l
  | maxIn =>
    cases d with
    | true =>
      have := inflow_leaf hc a (.fin 0) L.maxIn timing l
      rw [ext_zero] at this
      exact this
    | false => exact inflow_leaf hc a .posInf L.maxIn timing l
  | minOut =>
    have := outflow_leaf hc a (.fin 0) L.minOut timing l
    rw [ext_zero] at this
    exact this
  | maxOut =>
    have := outflow_leaf hc a (.fin 0) L.maxOut timing l
    rw [ext_zero] at this
    exact this

theorem finiteVals_ext (d : Dict K (Ext K)) :
    finiteVals (Dict.mapVals (ext c) d) = (finiteVals d).map (dict c) := by
  unfold finiteVals Dict.mapVals
  induction d with
  | nil => rfl
  | cons e d ih =>
    rw [List.map_cons, List.mapM_cons, List.mapM_cons, ih]
    obtain ⟨k, x⟩ := e
    cases x with
    | fin x =>
      simp only [ext, Option.bind_eq_bind, Option.bind_some]
      cases List.mapM (fun e : K × Ext K => match e.2 with | .fin x => some (e.1, x) | _ => none) d <;> rfl
    | negInf => rfl
    | posInf => rfl

/-- **C115** (accounts). What an account answers a strategy - how much it can take or give, and when -
is the same in every unit. -/
theorem C115_accounts (hc : 0 < c) (x : Leaf K) (timing : Option (Arg K)) (lim : Lim) :
    accountLimit (leaf c x) (timing.map (arg c)) lim = (accountLimit x timing lim).map (ext c) ∧
    ∀ total, Traversal.accountTx (leaf c x) (timing.map (arg c)) lim (c * total) =
      (Traversal.accountTx x timing lim total).map (dict c) := by
  constructor
  · unfold accountLimit
    have := flowsOf_leaf hc x lim timing none
    simp only [Option.map_none] at this
    rw [this]
    cases flowsOf x lim { timing := timing } with
    | error e => rfl
    | ok d =>
      simp only [Except.map, ok_bind, Except.ok.injEq]
      have key : ∀ (l : List (Ext K)) (z : Ext K),
          (l.map (ext c)).foldl Ext.add (ext c z) = ext c (l.foldl Ext.add z) := by
        intro l
        induction l with
        | nil => intro z; rfl
        | cons y l ih => intro z; simp only [List.map_cons, List.foldl_cons, ext_add, ih]
      have hv : Dict.vals (Dict.mapVals (ext c) d) = (Dict.vals d).map (ext c) := by
        unfold Dict.vals Dict.mapVals
        rw [List.map_map, List.map_map]
        rfl
      have hk := key (Dict.vals d) (.fin 0)
      rw [ext_zero] at hk
      rw [hv, hk]
  · intro total
    unfold Traversal.accountTx
    have := flowsOf_leaf hc x lim timing (some (.fin total))
    simp only [Option.map_some] at this
    have he : ext c (.fin total) = .fin (c * total) := rfl
    rw [he] at this
    rw [this]
    cases flowsOf x lim { timing := timing, transactionLimit := some (.fin total) } with
    | error e => rfl
    | ok d =>
      simp only [Except.map, ok_bind, finiteVals_ext]
      cases finiteVals d <;> rfl

theorem sortedBy_congr {D : Type} {key key' : D → K} (h : ∀ a b, key' a ≤ key' b ↔ key a ≤ key b)
    (l : List D) : Expenses.sortedBy key' l = Expenses.sortedBy key l := by
  unfold Expenses.sortedBy
  simp only [h]

theorem buildTree_info (hc : 0 < c) (S : TxStrategy.Strat K) (i : A → TxStrategy.Info K)
    (order : List A → List A) (accounts : List A) :
    TxStrategy.buildTree S (fun a => info c (i a)) order accounts =
      TxStrategy.buildTree S i order accounts := by
  have h1 : TxStrategy.divideDebts S (fun a => info c (i a)) = TxStrategy.divideDebts S i := by
    funext l
    unfold TxStrategy.divideDebts
    have : ∀ a, TxStrategy.owes (info c (i a)) = TxStrategy.owes (i a) := by
      intro a
      unfold TxStrategy.owes info
      have : c * (i a).balance < 0 ↔ (i a).balance < 0 :=
        ⟨fun h' => (pos_iff_neg_of_mul_neg h').1 hc, fun h' => mul_neg_of_pos_of_neg hc h'⟩
      simp only [this]
    simp only [this]
    rfl
  have h2 : TxStrategy.debtPriority S (fun a => info c (i a)) = TxStrategy.debtPriority S i := by
    funext l
    unfold TxStrategy.debtPriority
    have hs : Expenses.snowballPriority (fun a => (info c (i a)).balance) l =
        Expenses.snowballPriority (fun a => (i a).balance) l := by
      unfold Expenses.snowballPriority
      apply sortedBy_congr
      intro a b
      show |c * (i a).balance| ≤ |c * (i b).balance| ↔ _
      rw [abs_mul, abs_mul, abs_of_pos hc]
      exact mul_le_mul_iff_right₀ hc
    rw [hs]
    rfl
  have h3 : TxStrategy.weightGroups S.weights (fun a => info c (i a)) =
      TxStrategy.weightGroups S.weights i := rfl
  unfold TxStrategy.buildTree
  rw [h1, h2, h3]

/-- **C115** (strategies). A `TransactionStrategy` proposes the same plan whatever the unit: the
balances (which decide which debts are still owed and, for "Snowball", their order), the available
amounts, the accounts' limits and the precision all converted. -/
theorem C115_strategy (hc : 0 < c) (S : TxStrategy.Strat K) (i : A → TxStrategy.Info K)
    (order : List A → List A) {E E' : Traversal.Env (List ℕ) A K} (h : SameTraversal c E E')
    (fuel : ℕ) (accounts : List A) (available : Dict K K) :
    TxStrategy.call S (fun a => info c (i a)) order E' fuel accounts (dict c available) =
      (TxStrategy.call S i order E fuel accounts available).map (dict2 c) := by
  unfold TxStrategy.call
  rw [buildTree_info hc, total_dict]
  cases TxStrategy.buildTree S i order accounts with
  | error e => rfl
  | ok src =>
    simp only [ok_bind]
    have hS : SameTraversal c { E with tree := src.toTree } { E' with tree := src.toTree } :=
      ⟨rfl, rfl, fun n lim => rfl, h.precision, h.limitOf, h.txOf, h.groupOf, h.solve, h.setOrder,
        h.acctOrder⟩
    exact call_same hc hS fuel _

/-- **C115** (fixed precision, refuted). But the precision is not converted with the rest: every
`TransactionStrategy` uses the constant `EPSILON` (strategy/transaction/base.py:175, strategy.py:337).
Whenever a traversal would distribute an amount, there is a unit so large that a traversal with the
same precision distributes nothing of it - no matter how the rest has been converted. -/
theorem C115_fixed_precision_refuted {E : Traversal.Env N A K} {fuel : ℕ} {total : K}
    {plan : Dict A (Dict K K)} (hp : 0 < E.precision) (h : Traversal.call E fuel total = .ok plan)
    (hne : plan ≠ []) :
    ∃ c : K, 0 < c ∧ ∀ E' : Traversal.Env N A K, E'.precision = E.precision →
      Traversal.call E' fuel (c * total) = .ok [] ∧
      Traversal.call E' fuel (c * total) ≠ (Traversal.call E fuel total).map (dict2 c) := by
  have ht : 0 < |total| := by
    by_contra hn
    have h0 : total = 0 := abs_eq_zero.1 (le_antisymm (not_lt.1 hn) (abs_nonneg _))
    rw [h0, Traversal.C42_nothing hp.le (neg_nonpos.2 hp.le)] at h
    exact hne (Except.ok.inj h).symm
  have hc : 0 < E.precision / |total| := div_pos hp ht
  refine ⟨_, hc, fun E' hE => ?_⟩
  have hz : Traversal.call E' fuel (E.precision / |total| * total) = .ok [] := by
    have habs : |E.precision / |total| * total| = E.precision := by
      rw [abs_mul, abs_of_pos hc, div_mul_cancel₀ _ ht.ne']
    have := abs_le.1 habs.le
    rw [← hE] at this hc habs ⊢
    exact Traversal.C42_nothing this.2 this.1 fuel
  refine ⟨hz, ?_⟩
  rw [hz, h]
  intro h'
  have h2 : [] = dict2 (E.precision / |total|) plan := Except.ok.inj h'
  apply hne
  have h3 := congrArg List.length h2
  have h4 : (dict2 (E.precision / |total|) plan).length = plan.length := List.length_map _
  rw [h4] at h3
  exact List.eq_nil_of_length_eq_zero h3.symm

/-- 100 are distributed; half of it, in a unit worth two hundred times as much, are not. -/
example : 0 < caseEnv.precision ∧ (∃ plan, Traversal.call caseEnv 12 100 = .ok plan ∧ plan ≠ []) :=
  ⟨by show (0 : ℚ) < 1 / 2; norm_num, _, case_in, by simp⟩

end Strategies

/-! ### The household of C96, in every unit -/

section examples

open Forecaster.Traversal

/-- What the strategy of the household of C96 gets besides the tree; a cent is `u / 100` units. -/
noncomputable def unitGiven (u : ℝ)
    (solve : Traversal.Graph (List ℕ) Bool → Except PyErr (Traversal.Flows (List ℕ) Bool))
    (q : Option Bool → Pool ℝ) : Traversal.Env (List ℕ) Bool ℝ :=
  { realGiven solve q with
    precision := u * (1 / 100) }

/-- The household of C96, with its money in units of which a dollar is worth `u`. -/
noncomputable def unitFamily (u : ℝ) (income : ℤ → ℝ)
    (solve : Traversal.Graph (List ℕ) Bool → Except PyErr (Traversal.Flows (List ℕ) Bool)) :
    Household.Env Unit Bool ℝ :=
  { realFamily income solve with
    earner := fun _ y => { gross := u * income y, withheld := 0, net := u * income y,
                           timing := [(1 / 2, 1)], accounts := [some true, some false] }
    expenses := fun _ _ => .ok (u * 110)
    saving := fun _ q => TxStrategy.call realSettings (realInfo q) id (unitGiven u solve q) 1000
      [true, false] (q none).txns
    withdrawal := fun _ q => TxStrategy.call realSettings (realInfo q) id (unitGiven u solve q) 1000
      [true] (q none).txns }

theorem realLeaf_pool (c : ℝ) (q : Option Bool → Pool ℝ) (a : Bool) :
    realLeaf (fun p => pool c (q p)) a = leaf c (realLeaf q a) := by
  unfold realLeaf
  simp only
  cases q (some a) with
  | acct L x => rfl
  | dict f d =>
    simp only [pool, leaf]
    congr 1
    · simp [acct, Account.init, dict, dict2, Dict.mapVals]
    · simp [limits, plainLimits, ext]

theorem realInfo_pool (c : ℝ) (q : Option Bool → Pool ℝ) :
    realInfo (fun p => pool c (q p)) = fun a => info c (realInfo q a) := by
  funext a
  unfold realInfo info
  rw [realLeaf_pool]
  congr 1
  show opening (acct c _) = c * opening _
  unfold opening figure
  rw [balance_acct]
  cases balance (realLeaf q a).acct with
  | error e => exact (mul_zero c).symm
  | ok b => rfl

theorem unitGiven_pool {c : ℝ} (hc : 0 < c)
    (solve : Traversal.Graph (List ℕ) Bool → Except PyErr (Traversal.Flows (List ℕ) Bool))
    (q : Option Bool → Pool ℝ) :
    SameTraversal c (unitGiven 1 solve q) (unitGiven c solve fun p => pool c (q p)) where
  root := rfl
  kind := rfl
  limits _ _ := rfl
  precision := by show c * (1 / 100) = c * (1 * (1 / 100)); ring
  limitOf a lim := by
    show accountLimit (realLeaf (fun p => pool c (q p)) a)
      (some (.dict (pool c (q none)).txns)) lim = (accountLimit (realLeaf q a) _ lim).map _
    have ht : (some (Arg.dict (pool c (q none)).txns)) = (some (Arg.dict (q none).txns)).map (arg c) := by
      cases q none <;> rfl
    rw [realLeaf_pool, ht, (C115_accounts hc _ _ lim).1]
  txOf a lim x := by
    show Traversal.accountTx (realLeaf (fun p => pool c (q p)) a)
      (some (.dict (pool c (q none)).txns)) lim _ = (Traversal.accountTx (realLeaf q a) _ lim x).map _
    have ht : (some (Arg.dict (pool c (q none)).txns)) = (some (Arg.dict (q none).txns)).map (arg c) := by
      cases q none <;> rfl
    rw [realLeaf_pool, ht, (C115_accounts hc _ _ lim).2]
  groupOf := rfl
  solve := rfl
  setOrder := rfl
  acctOrder := rfl

/-- The hypothesis of C114 is met, by a household with `TransactionStrategy`s. -/
theorem unitFamily_same {c : ℝ} (hc : 0 < c) (income : ℤ → ℝ)
    (solve : Traversal.Graph (List ℕ) Bool → Except PyErr (Traversal.Flows (List ℕ) Bool)) :
    SameInUnits c (unitFamily 1 income solve) (unitFamily c income solve) where
  people := rfl
  assets := rfl
  debts := rfl
  owner := rfl
  default := rfl
  refund := rfl
  payment := rfl
  earner i y := by simp [unitFamily, earner]
  limits a x := by simp [unitFamily, realFamily, limits, plainLimits, ext]
  ttv x b v := by
    show (if c * b = 0 then _ else Except.ok (Ext.fin (c * v / (c * b)))) = if b = 0 then _ else _
    have : c * b = 0 ↔ b = 0 := by simp [hc.ne']
    simp only [this, mul_div_mul_left _ _ hc.ne']
  expenses y x := by simp [unitFamily, Except.map]
  saving y q := by
    show TxStrategy.call realSettings (realInfo fun p => pool c (q p)) id
      (unitGiven c solve fun p => pool c (q p)) 1000 [true, false] (pool c (q none)).txns = _
    have ht : (pool c (q none)).txns = dict c (q none).txns := by cases q none <;> rfl
    rw [realInfo_pool, ht, C115_strategy hc _ _ _ (unitGiven_pool hc solve q)]
    rfl
  withdrawal y q := by
    show TxStrategy.call realSettings (realInfo fun p => pool c (q p)) id
      (unitGiven c solve fun p => pool c (q p)) 1000 [true] (pool c (q none)).txns = _
    have ht : (pool c (q none)).txns = dict c (q none).txns := by cases q none <;> rfl
    rw [realInfo_pool, ht, C115_strategy hc _ _ _ (unitGiven_pool hc solve q)]
    rfl
  accountTax a x := (mul_zero c).symm
  owing y x := by simp [unitFamily, realFamily, Except.map]

/-- The couple of C79, in cents. -/
example : (forecast (converted 100 exHome) 2020 (Forecast.scenarioYears 2020 3)
      (fun a => acct 100 (exAccounts a))).map
      (fun s => s.w.report.map fun r => (r.income, r.livingExpenses, r.savings, r.principal, r.tax))
      = .ok [(12000, 6000, 6000, 10000, 3000), (12200, 6100, 6100, 11550, 3000)] := by
  decide +kernel

end examples

end Forecaster.Units
