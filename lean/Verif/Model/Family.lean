import Verif.Model.Household
import Verif.Model.Person
import Verif.Model.Expenses
import Verif.Model.Tax

/-!
# A household made of the parts that are modelled elsewhere

`Verif/Model/Household.lean` models the forecast of a household whose people, living expenses and
taxes are whatever the forecast gets to know about them. Here they are the objects of
`forecaster/person.py`, `forecaster/strategy/gross_transaction.py` and `forecaster/tax.py`, wired
together as `Forecaster.run_forecast` does (forecaster/forecaster.py:204-284).

Simplified: a property that cannot be read counts as 0 (the forecast would raise; the theorems are
about families whose properties can be read); a person is read from the state in which the year
begins, which C38 shows to make no difference; the tax object is asked as it was when the forecast
began, which C30 shows to make no difference; a person's records are those of the years forecast.
-/

namespace Forecaster.Family

open Forecaster Forecaster.Account

variable {K : Type} [Field K] [LinearOrder K] [IsStrictOrderedRing K]

/-- A `Person` (person.py:53-157): what has to do with income, `payment_timing` and the spouse. -/
structure Member (K : Type) where
  person : Person.Earner K
  timing : Dict K K
  spouse : Option ℕ

/-- An account: its owner, its limits and what it is asked about taxes (`taxable_income`,
`tax_deduction`, `tax_credit`, `tax_withheld`, ledger/base.py:149-183), which subclasses override. -/
structure Holding (K : Type) where
  owner : ℕ
  limits : Acct K → Limits K
  taxableIncome : Acct K → Except PyErr K
  deduction : Acct K → Except PyErr K
  credit : Acct K → Except PyErr K
  withheld : Acct K → K

/-- A plain `Account` (accounts/base.py:408-455, 835-838; ledger/base.py:158-183). -/
def plainHolding (owner : ℕ) : Holding K :=
  { owner
    limits := fun _ => plainLimits
    taxableIncome := Account.taxableIncome
    deduction := fun _ => .ok 0
    credit := fun _ => .ok 0
    withheld := fun _ => 0 }

/-- What `run_forecast(people, accounts, debts)` is given or builds (forecaster/forecaster.py:204-284):
people are numbered `0 .. size - 1`. -/
structure Family (K : Type) where
  initial : ℤ
  size : ℕ
  member : ℕ → Member K
  assets : List ℕ
  debts : List ℕ
  holding : ℕ → Holding K
  plan : Expenses.Plan K
  tax : Tax.Jur K
  refund : Dict K K
  payment : Dict K K
  default : Household.Kind → Dict K K
  ttv : Acct K → K → K → Except PyErr (Ext K)
  saving : ℤ → (Option ℕ → SubForecast.Pool K) → Except PyErr (Dict ℕ (Dict K K))
  withdrawal : ℤ → (Option ℕ → SubForecast.Pool K) → Except PyErr (Dict ℕ (Dict K K))

/-- A property that cannot be read counts as 0. -/
def value {S : Type} (x : Except PyErr (K × S)) : K :=
  match x with
  | .ok v => v.1
  | .error _ => 0

/-- The person when the year `y` begins (ledger/base.py:94-111). -/
def personIn (F : Family K) (i : ℕ) (y : ℤ) : Person.Earner K :=
  Person.run (F.member i).person (List.replicate (y - F.initial).toNat .nextYear)

/-- `person.gross_income` (person.py:322-340). -/
def gross (F : Family K) (i : ℕ) (y : ℤ) : K := value (Person.grossIncome (personIn F i y))

/-- `person.net_income` (person.py:346-350). -/
def net (F : Family K) (i : ℕ) (y : ℤ) : K := value (Person.netIncome (personIn F i y))

/-- `person.tax_withheld` (person.py:414-421). -/
def withheld (F : Family K) (i : ℕ) (y : ℤ) : K := value (Person.taxWithheld (personIn F i y))

/-- `person.accounts` (accounts/base.py:182-197). -/
def owned (F : Family K) (i : ℕ) : List ℕ :=
  (F.assets ++ F.debts).dedup.filter fun a => decide ((F.holding a).owner = i)

/-- A history of a person (ledger/recorded_property.py:111-122, 168-173) for the years forecast. -/
def records (F : Family K) (f : ℤ → K) (y : ℤ) : Dict ℤ K :=
  (List.range ((y - F.initial).toNat + 1)).map fun (k : ℕ) => (F.initial + k, f (F.initial + k))

/-- A person as a living expenses strategy sees it (strategy/gross_transaction.py:93-174). -/
def plannee (F : Family K) (y : ℤ) (i : ℕ) : Expenses.Plannee K :=
  { netIncome := net F i y
    grossIncome := gross F i y
    netIncomeHistory := records F (net F i) y
    grossIncomeHistory := records F (gross F i) y
    accounts := owned F i }

/-- `account.balance_history` (ledger/recorded_property.py:168-173): the current year is included. -/
def balances (acc : ℕ → Acct K) (a : ℕ) : Dict ℤ K :=
  match balance (acc a) with
  | .ok b => Dict.set (acc a).balHist (acc a).year b
  | .error _ => (acc a).balHist

/-- `LivingExpensesForecast.living_expenses` (forecast/living_expenses.py:60-72). -/
def expenses (F : Family K) (y : ℤ) (acc : ℕ → Acct K) : Except PyErr K :=
  match ((List.range F.size).map fun i => (F.member i).person.retirement.year).min? with
  | none => .error .valueError
  | some retirement =>
    F.plan.call (balances acc) (some ((List.range F.size).map (plannee F y))) (some y)
      (some retirement)

/-- `sum(account.... for account in self.accounts)` (person.py:396-412). -/
def sumOwned (F : Family K) (f : ℕ → Except PyErr K) (i : ℕ) : Except PyErr K :=
  Expenses.sumM f (owned F i)

/-- A person as the tax code sees it: `taxable_income`, `tax_deduction` and `tax_credit` of the year
(person.py:394-412). -/
def payer (F : Family K) (y : ℤ) (acc : ℕ → Acct K) (i : ℕ) : Except PyErr (Tax.Payer K) := do
  let income ← sumOwned F (fun a => (F.holding a).taxableIncome (acc a)) i
  let deduction ← sumOwned F (fun a => (F.holding a).deduction (acc a)) i
  let credit ← sumOwned F (fun a => (F.holding a).credit (acc a)) i
  .ok { id := i
        spouse := (F.member i).spouse
        taxableIncome := fun z => if z = y then some (gross F i y + income) else none
        taxDeduction := fun z => if z = y then some deduction else none
        taxCredit := fun z => if z = y then some credit else none }

/-- `TaxForecast.tax_owing` (forecast/tax.py:57-60). -/
def owing (F : Family K) (y : ℤ) (acc : ℕ → Acct K) : Except PyErr K := do
  let people ← (List.range F.size).mapM (payer F y acc)
  let r ← Tax.call F.tax (.people people) y none none
  .ok r.1

/-- The household (forecaster/forecaster.py:204-284, forecast/base.py:121-184). -/
def household (F : Family K) : Household.Env ℕ ℕ K where
  people := List.range F.size
  assets := F.assets
  debts := F.debts
  owner a := some (F.holding a).owner
  earner i y :=
    { gross := gross F i y
      withheld := withheld F i y
      net := net F i y
      timing := (F.member i).timing
      accounts := (owned F i).map some }
  limits a := (F.holding a).limits
  default := F.default
  ttv := F.ttv
  expenses := expenses F
  saving := F.saving
  withdrawal := F.withdrawal
  accountTax a := (F.holding a).withheld
  owing := owing F
  refund := F.refund
  payment := F.payment

end Forecaster.Family
