import Verif.Lemmas.Calendar
import Verif.Props.CompletesStrategy
import Verif.Props.TraversalAccount

/-!
# C117: forecasts do not depend on the calendar

The specification is in `Verif/Lemmas/Calendar.lean`: `acct k` moves an account `k` years on (the year
it is in, the years its rates are for and the years of its records) and leaves all money alone;
`SameLater k E E'` says that what happens to the household `E` in the year `y` happens to the household
`E'` in the year `y + k`.
-/

set_option linter.unusedSectionVars false

namespace Forecaster.Calendar

open Forecaster Forecaster.Timing Forecaster.Account Forecaster.SubForecast Forecaster.CashFlow
open Forecaster.Household

variable {K : Type} [Field K] [LinearOrder K] [IsStrictOrderedRing K]
variable {N A : Type} [DecidableEq N] [DecidableEq A] {k : ℤ} {E E' : Household.Env N A K}

/-- **C117** (figures). A household lives `k` years later than another: the same happens to it, `k`
years on. Its forecast ends `k` years later, with the same cash, the same balances and transactions,
the same figures in each year of the report; what one account's records say about a year, the other's
say about the year `k` years on. -/
theorem C117_figures (h : SameLater k E E') {initial : ℤ} {years : List ℤ}
    {accounts : A → Acct K} {s : Forecast.FS K (Home N A K)}
    (hs : forecast E initial years accounts = .ok s) :
    ∃ s', forecast E' (initial + k) (years.map (· + k)) (fun a => acct k (accounts a)) = .ok s' ∧
      s'.year = s.year + k ∧
      s'.available = s.available ∧
      s'.w.report = s.w.report ∧
      ∀ a, (s'.w.accounts a).year = (s.w.accounts a).year + k ∧
        (s'.w.accounts a).txns = (s.w.accounts a).txns ∧
        balance (s'.w.accounts a) = balance (s.w.accounts a) ∧
        ∀ y, Dict.get? (s'.w.accounts a).balHist (y + k) = Dict.get? (s.w.accounts a).balHist y ∧
          Dict.get? (s'.w.accounts a).txHist (y + k) = Dict.get? (s.w.accounts a).txHist y := by
  refine ⟨fs k (home k) s, ?_, rfl, rfl, rfl, fun a => ⟨rfl, rfl, balance_acct _, fun y => ?_⟩⟩
  · rw [forecast_home h, hs]; rfl
  · exact ⟨get?_years _ _, get?_years _ _⟩

/-- **C117** (failures). And if the one forecast raises an exception, the other raises the same. -/
theorem C117_fails_alike (h : SameLater k E E') (initial : ℤ) (years : List ℤ)
    (accounts : A → Acct K) (e : PyErr) :
    forecast E' (initial + k) (years.map (· + k)) (fun a => acct k (accounts a)) = .error e ↔
      forecast E initial years accounts = .error e := by
  rw [forecast_home h]
  cases forecast E initial years accounts with
  | error e' => simp [Except.map]
  | ok s => simp [Except.map]

/-- **C117** (everything). The whole final state is the old one, `k` years on. -/
theorem C117_everything (h : SameLater k E E') (initial : ℤ) (years : List ℤ)
    (accounts : A → Acct K) :
    forecast E' (initial + k) (years.map (· + k)) (fun a => acct k (accounts a)) =
      (forecast E initial years accounts).map (fs k (home k)) :=
  forecast_home h initial years accounts

/-- The household `E`, `k` years on. -/
def moved (k : ℤ) (E : Household.Env N A K) : Household.Env N A K :=
  { E with
    earner := fun i y => E.earner i (y - k)
    limits := fun a x => E.limits a (acct (-k) x)
    ttv := fun x b v => E.ttv (acct (-k) x) b v
    expenses := fun y x => E.expenses (y - k) fun a => acct (-k) (x a)
    saving := fun y q => E.saving (y - k) fun p => pool (-k) (q p)
    withdrawal := fun y q => E.withdrawal (y - k) fun p => pool (-k) (q p)
    accountTax := fun a x => E.accountTax a (acct (-k) x)
    owing := fun y x => E.owing (y - k) fun a => acct (-k) (x a) }

theorem years_inv {V : Type} (d : Dict ℤ V) : years (-k) (years k d) = d := by
  unfold years
  rw [List.map_map]
  conv_rhs => rw [← List.map_id d]
  apply List.map_congr_left
  intro e _
  simp

theorem acct_inv (x : Acct K) : acct (-k) (acct k x) = x := by
  unfold acct
  simp [years_inv]

theorem pool_inv (q : Pool K) : pool (-k) (pool k q) = q := by
  cases q with
  | dict f d => rfl
  | acct L x => simp only [pool, acct_inv]

/-- **C117** (every household). Every household there is can be moved to every year. -/
theorem C117_every_household (k : ℤ) (E : Household.Env N A K) : SameLater k E (moved k E) where
  people := rfl
  assets := rfl
  debts := rfl
  owner := rfl
  default := rfl
  refund := rfl
  payment := rfl
  earner _ _ := by simp only [moved, add_sub_cancel_right]
  limits a x := by simp only [moved, acct_inv]
  ttv x b v := by simp only [moved, acct_inv]
  expenses y x := by simp only [moved, acct_inv, add_sub_cancel_right]
  saving y q := by simp only [moved, pool_inv, add_sub_cancel_right]
  withdrawal y q := by simp only [moved, pool_inv, add_sub_cancel_right]
  accountTax a x := by simp only [moved, acct_inv]
  owing y x := by simp only [moved, acct_inv, add_sub_cancel_right]

/-- The couple of C79, whose income and expenses change from year to year, in the fifties. -/
example : (forecast (moved (-70) exHome) 1950 (Forecast.scenarioYears 1950 3)
      (fun a => acct (-70) (exAccounts a))).map
      (fun s => s.w.report.map fun r => (r.income, r.livingExpenses, r.savings, r.principal, r.tax))
      = .ok [(120, 60, 60, 100, 30), (122, 61, 61, 231 / 2, 30)] := by
  decide +kernel

/-! ### A household with real strategies -/

section examples

open Forecaster.Traversal

variable [FloorRing K]

theorem flows_acct (x : Leaf K) (lim : Lim) (f : FlowArgs K) (hf : f.transactions = none) :
    flowsOf { x with acct := acct k x.acct } lim f = flowsOf x lim f := by
  have h : ∀ (target : Ext K) (hi lo : Option (Ext K)),
      transactionsToBalance (acct k x.acct) target f.timing hi lo none =
        transactionsToBalance x.acct target f.timing hi lo none := by
    intro target hi lo
    unfold transactionsToBalance
    rw [balanceAtTime_acct, acct_A]
    rfl
  cases lim <;>
    simp only [flowsOf, maxInflows, maxOutflows, minInflows, minOutflows, debtMaxInflows,
      debtMinInflows, hf, h] <;> rfl

theorem realLeaf_pool (q : Option Bool → Pool ℝ) (a : Bool) :
    ∃ j, realLeaf (fun p => pool k (q p)) a =
      { realLeaf q a with acct := acct j (realLeaf q a).acct } := by
  unfold realLeaf
  simp only
  cases q (some a) with
  | acct L x => exact ⟨k, rfl⟩
  | dict f d =>
    refine ⟨0, ?_⟩
    simp [pool, acct, Account.init, years]

theorem realGiven_pool
    (solve : Traversal.Graph (List ℕ) Bool → Except PyErr (Traversal.Flows (List ℕ) Bool))
    (q : Option Bool → Pool ℝ) : realGiven solve (fun p => pool k (q p)) = realGiven solve q := by
  have ht : (pool k (q none)).txns = (q none).txns := by cases q none <;> rfl
  unfold realGiven
  congr 1
  · funext a lim
    obtain ⟨j, hj⟩ := realLeaf_pool (k := k) q a
    rw [hj, ht]
    unfold accountLimit
    rw [flows_acct _ _ _ rfl]
  · funext a lim x
    obtain ⟨j, hj⟩ := realLeaf_pool (k := k) q a
    rw [hj, ht]
    unfold accountTx
    rw [flows_acct _ _ _ rfl]

theorem realInfo_pool (q : Option Bool → Pool ℝ) :
    realInfo (fun p => pool k (q p)) = realInfo q := by
  funext a
  obtain ⟨j, hj⟩ := realLeaf_pool (k := k) q a
  unfold realInfo
  rw [hj]
  congr 1
  show opening (acct j _) = opening _
  unfold opening figure
  rw [balance_acct]

/-- The hypothesis of C117 is met by the household of C96, whose strategies are
`TransactionStrategy`s, if its raises come `k` years later. -/
theorem realFamily_later (k : ℤ) (income : ℤ → ℝ)
    (solve : Traversal.Graph (List ℕ) Bool → Except PyErr (Traversal.Flows (List ℕ) Bool)) :
    SameLater k (realFamily income solve) (realFamily (fun y => income (y - k)) solve) where
  people := rfl
  assets := rfl
  debts := rfl
  owner := rfl
  default := rfl
  refund := rfl
  payment := rfl
  earner i y := by simp [realFamily]
  limits a x := rfl
  ttv x b v := rfl
  expenses y x := rfl
  saving y q := by
    have ht : (pool k (q none)).txns = (q none).txns := by cases q none <;> rfl
    show TxStrategy.call realSettings (realInfo fun p => pool k (q p)) id
      (realGiven solve fun p => pool k (q p)) 1000 [true, false] (pool k (q none)).txns = _
    rw [realInfo_pool, realGiven_pool, ht]
    rfl
  withdrawal y q := by
    have ht : (pool k (q none)).txns = (q none).txns := by cases q none <;> rfl
    show TxStrategy.call realSettings (realInfo fun p => pool k (q p)) id
      (realGiven solve fun p => pool k (q p)) 1000 [true] (pool k (q none)).txns = _
    rw [realInfo_pool, realGiven_pool, ht]
    rfl
  accountTax a x := rfl
  owing y x := rfl

end examples

end Forecaster.Calendar
