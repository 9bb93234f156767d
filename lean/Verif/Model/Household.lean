import Verif.Model.CashFlow
import Verif.Model.Forecast

/-!
# A household's forecast: `forecast/base.py` driving the concrete sub-forecasts

`Verif/Model/Forecast.lean` models a `Forecast` over abstract components.  Here the components
are the ones `Forecaster` builds: the five sub-forecasts of `Verif/Model/CashFlow.lean`, people
and accounts (`Verif/Model/Account.lean`).  A pool of money is `none` (the `Forecast`'s
`available`) or `some a` (account `a`).

Parameters (`Env`): what a person earns in a year, the limits of an account and the tax withheld
from it as functions of its state, the strategies (functions of the year and of what they can
see), and the tax owing.  The strategies get the pools before the transactions they propose, and
change nothing.

Simplifications: an account's `tax_withheld` and a component's recorded properties can always be
read; the report keeps its rows in order instead of in one dict per property.
-/

namespace Forecaster.Household

open Forecaster Forecaster.Timing Forecaster.Account Forecaster.SubForecast Forecaster.CashFlow

variable {K : Type} [Field K] [LinearOrder K] [IsStrictOrderedRing K]
variable {N A : Type} [DecidableEq N] [DecidableEq A]

/-- The five sub-forecasts (forecast/base.py:156-161). -/
inductive Kind
  | income | living | saving | withdrawal | tax
  deriving DecidableEq

/-- What a `Forecast` advances (forecast/base.py:202-212). -/
inductive Comp (N A : Type)
  | sub (k : Kind)
  | person (i : N)
  | account (a : A)

/-- A household. -/
structure Env (N A K : Type) where
  /-- `income_forecast.people` -/
  people : List N
  /-- `withdrawal_forecast.accounts` (forecast/base.py:176-179) -/
  assets : List A
  /-- `saving_forecast.debt_accounts` (forecast/base.py:181-184) -/
  debts : List A
  /-- `account.owner` (accounts/base.py:177-197) -/
  owner : A → Option N
  /-- what a person earns in the year the person is in -/
  earner : N → ℤ → Earner (Option A) K
  /-- the limit properties of an account -/
  limits : A → Acct K → Limits K
  /-- `default_timing` of each sub-forecast (subforecast.py:136-141) -/
  default : Kind → Dict K K
  /-- `time_to_value` (accounts/util.py:153-168) -/
  ttv : Acct K → K → K → Except PyErr (Ext K)
  /-- `LivingExpensesForecast.living_expenses` (forecast/living_expenses.py:60-72) -/
  expenses : ℤ → (A → Acct K) → Except PyErr K
  /-- `SavingForecast.transaction_strategy` (forecast/saving.py:53-56) -/
  saving : ℤ → (Option A → Pool K) → Except PyErr (Dict A (Dict K K))
  /-- `WithdrawalForecast.transaction_strategy` (forecast/withdrawal.py:60-61) -/
  withdrawal : ℤ → (Option A → Pool K) → Except PyErr (Dict A (Dict K K))
  /-- `account.tax_withheld` -/
  accountTax : A → Acct K → K
  /-- `tax_treatment(people, year)` (forecast/tax.py:57-60) -/
  owing : ℤ → (A → Acct K) → Except PyErr K
  /-- `tax_treatment.refund_timing`, `.payment_timing` (forecast/tax.py:70-78) -/
  refund : Dict K K
  payment : Dict K K

/-- A sub-forecast's own state (subforecast.py:147-154) and, for the two that have them,
`account_transactions` and `tax_withheld` (forecast/withdrawal.py:51-52). -/
structure Sub (A K : Type) where
  year : ℤ
  record : Dict (Option (Option A)) (Dict K K)
  called : Bool
  total : Ext K
  txs : Dict (Option A) (Dict K K)
  withheld : K

/-- `SubForecast.__init__` (subforecast.py:130-154), and the constructors of the five classes, which only
keep what they are given (income.py:33-42, living_expenses.py:28-39, saving.py:30-44,
forecast/withdrawal.py:35-52, forecast/tax.py:36-43). -/
def Sub.new (year : ℤ) : Sub A K := ⟨year, [], false, .fin 0, [], 0⟩

/-- A year of the `Forecast`'s report (forecast/base.py:279-312). -/
structure Row (K : Type) where
  income : K
  livingExpenses : K
  savings : K
  principal : K
  withdrawals : Ext K
  tax : K

/-- Everything a `Forecast` works on. `living` is the cached `living_expenses` of the year. -/
structure Home (N A K : Type) where
  accounts : A → Acct K
  personYear : N → ℤ
  sub : Kind → Sub A K
  living : K
  report : List (Row K)

/-- A household at the start of the scenario. -/
def Home.new (year : ℤ) (accounts : A → Acct K) : Home N A K :=
  ⟨accounts, fun _ => year, fun _ => Sub.new year, 0, []⟩

/-- Replace a value of a function. -/
def put {X Y : Type} [DecidableEq X] (f : X → Y) (x : X) (y : Y) : X → Y :=
  fun x' => if x' = x then y else f x'

/-- The people as the sub-forecasts see them this year. -/
def earners (E : Env N A K) (w : Home N A K) : List (Earner (Option A) K) :=
  E.people.map fun i => E.earner i (w.personYear i)

/-- All the pools of money: `available` is a `defaultdict` (forecast/base.py:151-152). -/
def pools (E : Env N A K) (w : Home N A K) (available : Dict K K) : Option A → Pool K
  | none => .dict true available
  | some a => .acct (E.limits a (w.accounts a)) (w.accounts a)

/-- A sub-forecast about to be called with `available`. -/
def enter (E : Env N A K) (w : Home N A K) (k : Kind) (available : Dict K K) :
    St (Option A) K :=
  ⟨pools E w available, (w.sub k).record, (w.sub k).called, (w.sub k).total⟩

/-- The same, with the plan and the tax withheld. -/
def enterAlloc (E : Env N A K) (w : Home N A K) (k : Kind) (available : Dict K K) :
    Alloc (Option A) K :=
  ⟨enter E w k available, (w.sub k).txs, (w.sub k).withheld⟩

/-- The accounts after a call. -/
def accountsAfter (w : Home N A K) (s : St (Option A) K) : A → Acct K := fun a =>
  match s.pools (some a) with
  | .acct _ x => x
  | .dict _ _ => w.accounts a

/-- The world after a call of sub-forecast `k`. -/
def leave (w : Home N A K) (k : Kind) (f : Alloc (Option A) K) : Home N A K × Dict K K :=
  ({ w with
      accounts := accountsAfter w f.s
      sub := put w.sub k { w.sub k with
        record := f.s.record, called := f.s.called, total := f.s.totalAvailable
        txs := f.txs, withheld := f.withheld } },
    (f.s.pools none).txns)

/-- An exception leaves the call. -/
def finish (w : Home N A K) (k : Kind) (r : Alloc (Option A) K × Option PyErr) :
    Except PyErr (Home N A K × Dict K K) :=
  match r.2 with
  | some e => .error e
  | none => .ok (leave w k r.1)

/-- The same for the sub-forecasts without a plan. -/
def finishPlain (w : Home N A K) (k : Kind) (r : St (Option A) K × Option PyErr) :
    Except PyErr (Home N A K × Dict K K) :=
  finish w k (⟨r.1, (w.sub k).txs, (w.sub k).withheld⟩, r.2)

/-- A strategy's plan, keyed by pools. -/
def plan (d : Dict A (Dict K K)) : Dict (Option A) (Dict K K) := d.map fun e => (some e.1, e.2)

/-- The plan of a strategy that may raise. -/
def planOf (r : Except PyErr (Dict A (Dict K K))) : Except PyErr (Dict (Option A) (Dict K K)) := do
  let d ← r
  .ok (plan d)

/-- `account.tax_withheld` of a pool. -/
def poolTax (E : Env N A K) : Option A → Pool K → Except PyErr K
  | some a, .acct _ x => .ok (E.accountTax a x)
  | _, _ => .error .attributeError

/-- Remember the year's living expenses. -/
def noteLiving (x : Except PyErr K) (r : Home N A K × Dict K K) : Home N A K × Dict K K :=
  match x with
  | .ok v => ({ r.1 with living := v }, r.2)
  | .error _ => r

/-- `forecast(available)` for each of the five (forecast/base.py:186-189); a `TaxForecast` has
only the base class's `__call__`. -/
def call (E : Env N A K) (k : Kind) (w : Home N A K) (available : Dict K K) :
    Except PyErr (Home N A K × Dict K K) :=
  match k with
  | .income =>
    finishPlain w .income
      (incomeCall E.ttv (E.default .income) none (earners E w) (enter E w .income available))
  | .living =>
    let x := E.expenses (w.sub .living).year w.accounts
    (finishPlain w .living
      (livingCall E.ttv (E.default .living) none (earners E w) x
        (enter E w .living available))).map (noteLiving x)
  | .saving =>
    finish w .saving
      (savingCall E.ttv (E.default .saving) none
        (fun q => planOf (E.saving (w.sub .saving).year q)) (enterAlloc E w .saving available))
  | .withdrawal =>
    finish w .withdrawal
      (withdrawalCall E.ttv (E.default .withdrawal) none
        (fun q => planOf (E.withdrawal (w.sub .withdrawal).year q)) (poolTax E)
        (E.assets.map some) (enterAlloc E w .withdrawal available))
  | .tax => finishPlain w .tax (SubForecast.call (enter E w .tax available) none)

/-- `component.this_year`. -/
def yearOf (w : Home N A K) : Comp N A → ℤ
  | .sub k => (w.sub k).year
  | .person i => w.personYear i
  | .account a => (w.accounts a).year

/-- `SubForecast.next_year` (subforecast.py:161-174): `account_transactions`, `tax_withheld` and
`total_available` stay. -/
def Sub.next (s : Sub A K) : Sub A K := { s with year := s.year + 1, record := [], called := false }

/-- `while owner.this_year < self.this_year: owner.next_year()` (accounts/base.py:395-397). -/
def bringOwner (E : Env N A K) (w : Home N A K) (a : A) : N → ℤ :=
  match E.owner a with
  | none => w.personYear
  | some i => put w.personYear i (max (w.personYear i) (w.accounts a).year)

/-- `component.next_year()`: subforecast.py:161-174; ledger/base.py:94-111 for a person;
accounts/base.py:388-406. -/
def advance (E : Env N A K) : Comp N A → Home N A K → Except PyErr (Home N A K)
  | .sub k, w => .ok { w with sub := put w.sub k (w.sub k).next }
  | .person i, w => .ok { w with personYear := put w.personYear i (w.personYear i + 1) }
  | .account a, w => do
    let x ← Account.nextYear (w.accounts a)
    .ok { w with accounts := put w.accounts a x, personYear := bringOwner E w a }

/-- `account.tax_withheld` of every account, for `TaxForecast` (forecast/tax.py:53-54). -/
def taxOf (E : Env N A K) (w : Home N A K) : Option A → K
  | some a => E.accountTax a (w.accounts a)
  | none => 0

/-- `tax_forecast.tax_adjustment` (forecast/tax.py:62-68). -/
def adjustment (E : Env N A K) (w : Home N A K) : Except PyErr K :=
  CashFlow.taxAdjustment (earners E w) (taxOf E w) (E.owing (w.sub .tax).year w.accounts)

/-- The adjustment as `Forecast._get_tax_adjustment` gets it (forecast/base.py:220-231). -/
def taxAdjustment (E : Env N A K) (w : Home N A K) : Except PyErr (Option K × Home N A K) := do
  let x ← adjustment E w
  .ok (some x, w)

/-- The `Forecast`'s own figures for the year (forecast/base.py:279-312). -/
def row (E : Env N A K) (w : Home N A K) : Except PyErr (Row K) := do
  let balances ← E.assets.mapM fun a => balance (w.accounts a)
  let tax ← E.owing (w.sub .tax).year w.accounts
  .ok { income := netIncome (earners E w)
        livingExpenses := w.living
        savings := Forecast.savings (netIncome (earners E w)) w.living
        principal := Forecast.principal balances
        withdrawals := negExt (w.sub .withdrawal).total
        tax }

/-- `Ledger.next_year` of the `Forecast` records the year's figures (ledger/base.py:94-111). -/
def record (E : Env N A K) (w : Home N A K) (_available : Dict K K) : Except PyErr (Home N A K) := do
  let r ← row E w
  .ok { w with report := w.report ++ [r] }

/-- The world a `Forecast` of this household works in. -/
def world (E : Env N A K) : Forecast.World K (Home N A K) (Comp N A) where
  forecasts := [.sub .income, .sub .living, .sub .saving, .sub .withdrawal, .sub .tax]
  people := E.people.map .person
  accounts := (E.assets ++ E.debts).dedup.map .account
  year c w := yearOf w c
  advance := advance E
  call c w available := match c with
    | .sub k => call E k w available
    | _ => .error .typeError
  taxAdjustment := taxAdjustment E
  refundTiming _ := some E.refund
  paymentTiming _ := some E.payment
  record := record E

/-- `Forecast(...)` of a household over the years of a scenario (forecast/base.py:113-169). -/
def forecast (E : Env N A K) (initial : ℤ) (years : List ℤ) (accounts : A → Acct K) :
    Except PyErr (Forecast.FS K (Home N A K)) :=
  Forecast.init (world E) initial years (Home.new initial accounts)

end Forecaster.Household
