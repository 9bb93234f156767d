import Verif.Model.SubForecast

/-!
# The five sub-forecasts: `forecast/{income,living_expenses,saving,withdrawal,tax}.py`

What they read from people (net income, payment timing, retirement date, tax withheld) and
from strategies are parameters: values, or results that may be exceptions.  A transaction
strategy may look at all pools but does not change them.

Not modelled: that the properties are recorded and cached per year
(`Verif/Model/Ledger.lean`), and `high_precision`.
-/

namespace Forecaster.CashFlow

open Forecaster Forecaster.Timing Forecaster.Account Forecaster.SubForecast

variable {K : Type} [Field K] [LinearOrder K] [IsStrictOrderedRing K]
variable {P : Type} [DecidableEq P]

/-- What the sub-forecasts read of a `Person`: `gross_income`, `tax_withheld`,
`net_income`, `payment_timing` (a `Timing`), `accounts`. -/
structure Earner (P K : Type) where
  gross : K
  withheld : K
  net : K
  timing : Dict K K
  accounts : List P := []

/-! ### Income (forecast/income.py) -/

/-- The transactions of `IncomeForecast.__call__` (forecast/income.py:44-62): the sale of an
asset (always 0, lines 64-68), with the default timing, and everybody's net income. -/
def incomeReqs (available : P) (people : List (Earner P K)) : List (Req P K) :=
  { value := 0, dst := some available } ::
    people.map fun e => { value := e.net, timing := some (.timing e.timing), dst := some available }

/-- `IncomeForecast.__call__` (forecast/income.py:44-62). -/
def incomeCall (ttv : Acct K → K → K → Except PyErr (Ext K)) (default : Dict K K) (available : P)
    (people : List (Earner P K)) (s : St P K) : St P K × Option PyErr :=
  callWith ttv default available (incomeReqs available people) s

/-- `IncomeForecast.gross_income` (forecast/income.py:82-87). -/
def grossIncome (people : List (Earner P K)) : K := people.foldl (fun a e => a + e.gross) 0
/-- `IncomeForecast.tax_withheld` (forecast/income.py:89-94). -/
def incomeTaxWithheld (people : List (Earner P K)) : K := people.foldl (fun a e => a + e.withheld) 0
/-- `IncomeForecast.net_income` (forecast/income.py:96-101). -/
def netIncome (people : List (Earner P K)) : K := people.foldl (fun a e => a + e.net) 0
/-- `IncomeForecast.carryover` (forecast/income.py:70-80). -/
def carryover (s : St P K) : Ext K := s.totalAvailable

/-! ### Living expenses (forecast/living_expenses.py) -/

/-- The transactions of `LivingExpensesForecast.__call__` (forecast/living_expenses.py:41-58):
the division at line 53 raises `ZeroDivisionError`; the strategy (`expenses`) is only asked if
there is somebody. -/
def livingReqs (available : P) (people : List (Earner P K)) (expenses : Except PyErr K) :
    Except PyErr (List (Req P K)) :=
  match people with
  | [] => .ok []
  | _ =>
    if netIncome people = 0 then .error .zeroDivisionError
    else do
      let x ← expenses
      .ok (people.map fun e => { value := x * (e.net / netIncome people),
                                 timing := some (.timing e.timing), src := some available })

/-- `LivingExpensesForecast.__call__` (forecast/living_expenses.py:41-58). -/
def livingCall (ttv : Acct K → K → K → Except PyErr (Ext K)) (default : Dict K K) (available : P)
    (people : List (Earner P K)) (expenses : Except PyErr K) (s : St P K) : St P K × Option PyErr :=
  match call s available with
  | (s', some e) => (s', some e)
  | (s', none) =>
    match livingReqs available people expenses with
    | .error e => (s', some e)
    | .ok reqs => forEach (addTransaction ttv default) s' reqs

/-- `person.retirement_date.year` (forecast/living_expenses.py:68): `None.year` raises
`AttributeError`. -/
def yearOf : Option ℤ → Except PyErr ℤ
  | some y => .ok y
  | none => .error .attributeError

/-- The retirement year given to the strategy (forecast/living_expenses.py:67-68): the
*earliest* one; `min` of nothing raises `ValueError`. -/
def firstRetirement (years : List (Option ℤ)) : Except PyErr ℤ := do
  let ys ← years.mapM yearOf
  match ys.min? with
  | some y => .ok y
  | none => .error .valueError

/-! ### Saving (forecast/saving.py) -/

/-- A `SavingForecast` or `WithdrawalForecast`: its `SubForecast` part, `account_transactions`
and `tax_withheld`. -/
structure Alloc (P K : Type) where
  s : St P K
  txs : Dict P (Dict K K)
  withheld : K

/-- The loop of `SavingForecast.__call__` (forecast/saving.py:59-63). -/
def moveAll (ttv : Acct K → K → K → Except PyErr (Ext K)) (default : Dict K K) (available : P)
    (s : St P K) (txs : Dict P (Dict K K)) : St P K × Option PyErr :=
  forEach (fun s e => addTransactions ttv default s e.2 (some available) (some e.1) false) s txs

/-- `SavingForecast.__call__` (forecast/saving.py:46-63). -/
def savingCall (ttv : Acct K → K → K → Except PyErr (Ext K)) (default : Dict K K) (available : P)
    (strategy : (P → Pool K) → Except PyErr (Dict P (Dict K K))) (f : Alloc P K) :
    Alloc P K × Option PyErr :=
  match call f.s available with
  | (s', some e) => ({ f with s := s' }, some e)
  | (s', none) =>
    match strategy s'.pools with
    | .error e => ({ f with s := s' }, some e)
    | .ok txs =>
      let r := moveAll ttv default available s' txs
      ({ f with s := r.1, txs }, r.2)

/-- `sum(sum(self.account_transactions[a].values()) for a in accounts if a in …)`. -/
def sumOver (txs : Dict P (Dict K K)) (accounts : List P) : K :=
  accounts.foldl (fun t a => match Dict.get? txs a with
    | some d => t + Dict.total d
    | none => t) 0

/-- `SavingForecast.debt_repayment` (forecast/saving.py:70-79): it sums over the *retirement*
accounts. -/
def debtRepayment (f : Alloc P K) (retirement _debts : List P) : K := sumOver f.txs retirement
/-- `SavingForecast.retirement_savings` (forecast/saving.py:81-87). -/
def retirementSavings (f : Alloc P K) (retirement _debts : List P) : K := sumOver f.txs retirement
/-- `SavingForecast.total` (forecast/saving.py:89-94). -/
def savingTotal (f : Alloc P K) : K := sumOver f.txs (Dict.keys f.txs)

/-! ### Withdrawals (forecast/withdrawal.py) -/

/-- `_update_tax_withheld` (forecast/withdrawal.py:85-124). `tax` is `account.tax_withheld`
as a function of the account's state. -/
def updateTaxWithheld (ttv : Acct K → K → K → Except PyErr (Ext K)) (default : Dict K K)
    (available : P) (tax : P → Pool K → Except PyErr K) (f : Alloc P K) (p : P) (d : Dict K K)
    (old : K) : Alloc P K × Option PyErr :=
  match tax p (f.s.pools p) with
  | .error e => (f, some e)
  | .ok x =>
    if x = old then (f, none)
    else
      match transactionsFromArg (.dict d) (x - old) with
      | .error e => (f, some e)
      | .ok t =>
        match addTransactions ttv default f.s t none (some available) false with
        | (s', some e) => ({ f with s := s' }, some e)
        | (s', none) => ({ f with s := s', withheld := f.withheld + (x - old) }, none)

/-- The loop of `WithdrawalForecast.__call__` (forecast/withdrawal.py:74-83). `old` is the
dict built at lines 69-70; an account that is not in it raises `KeyError`. -/
def withdrawAll (ttv : Acct K → K → K → Except PyErr (Ext K)) (default : Dict K K)
    (available : P) (tax : P → Pool K → Except PyErr K) (old : Dict P K) :
    Alloc P K → Dict P (Dict K K) → Alloc P K × Option PyErr
  | f, [] => (f, none)
  | f, e :: txs =>
    match addTransactions ttv default f.s e.2 (some available) (some e.1) false with
    | (s', some err) => ({ f with s := s' }, some err)
    | (s', none) =>
      match Dict.get? old e.1 with
      | none => ({ f with s := s' }, some .keyError)
      | some o =>
        match updateTaxWithheld ttv default available tax { f with s := s' } e.1 e.2 o with
        | (f', some err) => (f', some err)
        | (f', none) => withdrawAll ttv default available tax old f' txs

/-- `{account: account.tax_withheld for account in self.accounts}`
(forecast/withdrawal.py:69-70). -/
def taxSnapshot (tax : P → Pool K → Except PyErr K) (pools : P → Pool K) (accounts : List P) :
    Except PyErr (Dict P K) :=
  accounts.foldlM (fun d p => do
    let x ← tax p (pools p)
    .ok (Dict.set d p x)) []

/-- `WithdrawalForecast.__call__` (forecast/withdrawal.py:54-83) with the overridden
`undo_transactions` (lines 126-130), which also sets `tax_withheld` to 0, unless the undoing
raises. -/
def withdrawalCall (ttv : Acct K → K → K → Except PyErr (Ext K)) (default : Dict K K)
    (available : P) (strategy : (P → Pool K) → Except PyErr (Dict P (Dict K K)))
    (tax : P → Pool K → Except PyErr K) (accounts : List P) (f : Alloc P K) :
    Alloc P K × Option PyErr :=
  match call f.s available with
  | (s', some e) =>
    ({ f with s := s'
              withheld := if f.s.called ∧ (undo f.s).2 = none then 0 else f.withheld }, some e)
  | (s', none) =>
    let f := { f with s := s', withheld := if f.s.called then 0 else f.withheld }
    match strategy s'.pools with
    | .error e => (f, some e)
    | .ok txs =>
      match taxSnapshot tax s'.pools accounts with
      | .error e => ({ f with txs }, some e)
      | .ok old => withdrawAll ttv default available tax old { f with txs } txs

/-- `gross_withdrawals` (forecast/withdrawal.py:132-139). -/
def grossWithdrawals (f : Alloc P K) : Ext K := negExt f.s.totalAvailable
/-- `net_withdrawals` (forecast/withdrawal.py:141-144). -/
def netWithdrawals (f : Alloc P K) : Ext K := Ext.add (grossWithdrawals f) (.fin f.withheld)

/-- `next_year` of a `WithdrawalForecast`: inherited (subforecast.py:161-174), so that
`tax_withheld` stays. -/
def allocNextYear (f : Alloc P K) : Alloc P K := { f with s := nextYear f.s }

/-! ### Tax (forecast/tax.py) -/

/-- `TaxForecast.tax_withheld` (forecast/tax.py:45-55): `set.union()` of nothing raises
`TypeError`; the union is a set, so each account counts once. -/
def taxWithheld (people : List (Earner P K)) (accountTax : P → K) : Except PyErr K :=
  match people with
  | [] => .error .typeError
  | _ =>
    .ok ((people.flatMap Earner.accounts).dedup.foldl (fun a p => a + accountTax p)
      (people.foldl (fun a e => a + e.withheld) 0))

/-- `TaxForecast.tax_adjustment` (forecast/tax.py:62-68). -/
def taxAdjustment (people : List (Earner P K)) (accountTax : P → K) (owing : Except PyErr K) :
    Except PyErr K := do
  let w ← taxWithheld people accountTax
  let o ← owing
  .ok (w - o)

end Forecaster.CashFlow
