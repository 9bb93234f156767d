import Verif.Model.RecordedHousehold
import Verif.Model.CashFlow

/-!
# A forecast and its sub-forecasts as ledgers

The recorded properties of `Forecast` (forecast/base.py:279-313) and of the five sub-forecasts, which
read those of people and accounts (`Verif/Model/RecordedHousehold.lean`), with their caches.

Simplifications: the money at hand (`available`) is in `Verif/Model/Forecast.lean`; a sub-forecast's
recorded `transactions` are in `Verif/Model/TxDict.lean`; `total_available` is a number (a `Forecast`
calls its sub-forecasts with a dict); what the sub-forecasts do when called is in
`Verif/Model/CashFlow.lean`: here it is a change of `FWorld`.
-/

namespace Forecaster.Recorded

open Forecaster

/-- The same getter, reading renamed properties. -/
def Prog.rename {κ κ' V : Type} (f : κ → κ') : Prog κ V → Prog κ' V
  | .done r => .done r
  | .ask k next => .ask (f k) fun v => (next v).rename f
  | .past k y next => .past (f k) y fun v => (next v).rename f

/-- The five sub-forecasts (forecast/base.py:156-161). -/
inductive Sub
  | income | living | saving | withdrawal | tax
  deriving DecidableEq

/-- The recorded properties of the sub-forecasts and of the forecast. -/
inductive FProp
  /- forecast/income.py:64-101 -/
  | assetSale | carryover | grossIncome | incomeTaxWithheld | netIncome
  /- forecast/living_expenses.py:60-73 -/
  | livingExpenses
  /- forecast/saving.py:70-94 -/
  | debtRepayment | retirementSavings | savingTotal
  /- forecast/withdrawal.py:132-144 -/
  | grossWithdrawals | netWithdrawals
  /- forecast/tax.py:45-68 -/
  | taxWithheld | taxOwing | taxAdjustment
  /- forecast/base.py:279-313 -/
  | income | expenses | savings | principal | withdrawals | tax
  deriving DecidableEq

/-- A ledger: a person, an account, a sub-forecast or the forecast. -/
inductive FObj (N A : Type)
  | base (o : Who N A)
  | sub (f : Sub)
  | forecast
  deriving DecidableEq

/-- A recorded property of one of them. -/
inductive FKey (N A : Type)
  | base (k : Key N A)
  | own (p : FProp)
  deriving DecidableEq

/-- A computation that reads properties of people and accounts: what a strategy or a tax treatment
does. -/
inductive Asks (N A K : Type)
  | done (r : Except PyErr K)
  | ask (k : Key N A) (next : Val K → Asks N A K)

/-- Everything that is not recorded. -/
structure FWorld (N A K : Type) where
  home : World N A K
  /-- `people` of the sub-forecasts -/
  people : List N
  /-- `withdrawal_forecast.accounts`: the forecast's `assets` -/
  assets : List A
  /-- `saving_forecast.retirement_accounts` -/
  retirementAccounts : List A
  /-- `saving_forecast.debt_accounts`: the forecast's `debts` -/
  debts : List A
  /-- `saving_forecast.account_transactions` -/
  savingTxns : Dict A (Dict K K)
  /-- `total_available` of the income and of the withdrawal forecast -/
  incomeAvailable : K
  withdrawalAvailable : K
  /-- `withdrawal_forecast.tax_withheld` -/
  withheld : K
  /-- `living_expenses_strategy`, of the year and the retirement year -/
  strategy : ℤ → ℤ → Asks N A K
  /-- `tax_treatment(people, year)` -/
  treatment : ℤ → Asks N A K

variable {N A K : Type} [DecidableEq N] [DecidableEq A] [Field K] [LinearOrder K]
  [IsStrictOrderedRing K]

/-- As a getter. -/
def Asks.prog : Asks N A K → Prog (FKey N A) (Val K)
  | .done r => .done (r.map .num)
  | .ask k next => .ask (.base k) fun v => (next v).prog

/-- Reading an amount. -/
def fNum (k : FKey N A) (f : K → Prog (FKey N A) (Val K)) : Prog (FKey N A) (Val K) :=
  .ask k fun
    | .num x => f x
    | .txns _ => .done (.error .typeError)

/-- Return an amount. -/
def fRet (x : K) : Prog (FKey N A) (Val K) := .done (.ok (.num x))

/-- `sum(... for ... in ...)`, and then something else. -/
def fSum (ks : List (FKey N A)) (start : K) (f : K → Prog (FKey N A) (Val K)) :
    Prog (FKey N A) (Val K) :=
  match ks with
  | [] => f start
  | k :: ks => fNum k fun x => fSum ks (start + x) f

/-- A property of everybody. -/
def ofPeople (w : FWorld N A K) (p : PProp) : List (FKey N A) :=
  w.people.map fun i => .base (.person i p)

/-- Living expenses (forecast/living_expenses.py:60-73). -/
def livingGet (y : ℤ) (w : FWorld N A K) : Prog (FKey N A) (Val K) :=
  match CashFlow.firstRetirement (w.people.map w.home.retirement) with
  | .ok r => (w.strategy y r).prog
  | .error e => .done (.error e)

/-- Tax withheld (forecast/tax.py:45-55): `set.union()` of nothing raises `TypeError`. -/
def taxGet (w : FWorld N A K) : Prog (FKey N A) (Val K) :=
  fSum (ofPeople w .taxWithheld) 0 fun x =>
    match w.people with
    | [] => .done (.error .typeError)
    | _ => fSum ((w.people.flatMap w.home.accounts).dedup.map
        fun a => .base (.account a .taxWithheld)) x fRet

/-- The getters of the sub-forecasts and of the forecast, in year `y`. -/
def ownGet (y : ℤ) (w : FWorld N A K) : FProp → Prog (FKey N A) (Val K)
  | .assetSale => fRet 0 -- income.py:64-68
  | .carryover => fRet w.incomeAvailable -- income.py:70-80
  | .grossIncome => fSum (ofPeople w .grossIncome) 0 fRet -- income.py:82-87
  | .incomeTaxWithheld => fSum (ofPeople w .taxWithheld) 0 fRet -- income.py:89-94
  | .netIncome => fSum (ofPeople w .netIncome) 0 fRet -- income.py:96-101
  | .livingExpenses => livingGet y w
  | .debtRepayment => fRet (CashFlow.sumOver w.savingTxns w.retirementAccounts) -- saving.py:70-79
  | .retirementSavings => fRet (CashFlow.sumOver w.savingTxns w.retirementAccounts) -- saving.py:81-87
  | .savingTotal => fRet (CashFlow.sumOver w.savingTxns (Dict.keys w.savingTxns)) -- saving.py:89-94
  | .grossWithdrawals => fRet (-w.withdrawalAvailable) -- withdrawal.py:132-139
  | .netWithdrawals => fNum (.own .grossWithdrawals) fun x => fRet (x + w.withheld) -- withdrawal.py:141-144
  | .taxWithheld => taxGet w
  | .taxOwing => (w.treatment y).prog -- tax.py:57-60
  | .taxAdjustment => -- tax.py:62-68
    fNum (.own .taxWithheld) fun x => fNum (.own .taxOwing) fun o => fRet (x - o)
  | .income => fNum (.own .netIncome) fRet -- base.py:279-282
  | .expenses => fNum (.own .livingExpenses) fRet -- base.py:284-287
  | .savings => -- base.py:289-295
    fNum (.own .income) fun x => fNum (.own .expenses) fun e => fRet (max (x - e) 0)
  | .principal => -- base.py:297-302
    fSum (w.assets.map fun a => .base (.account a .balance)) 0 fRet
  | .withdrawals => fNum (.own .grossWithdrawals) fRet -- base.py:304-307
  | .tax => fNum (.own .taxOwing) fRet -- base.py:309-312

/-- Whose property it is. -/
def FProp.obj : FProp → FObj N A
  | .assetSale | .carryover | .grossIncome | .incomeTaxWithheld | .netIncome => .sub .income
  | .livingExpenses => .sub .living
  | .debtRepayment | .retirementSavings | .savingTotal => .sub .saving
  | .grossWithdrawals | .netWithdrawals => .sub .withdrawal
  | .taxWithheld | .taxOwing | .taxAdjustment => .sub .tax
  | .income | .expenses | .savings | .principal | .withdrawals | .tax => .forecast

/-- Whose property it is. -/
def FKey.obj : FKey N A → FObj N A
  | .base k => .base k.who
  | .own p => p.obj

/-- The recorded properties of each object, in some order. -/
def fprops : FObj N A → List (FKey N A)
  | .base o => (recordedProps o).map .base
  | .sub .income => [FProp.assetSale, .carryover, .grossIncome, .incomeTaxWithheld, .netIncome].map .own
  | .sub .living => [FProp.livingExpenses].map .own
  | .sub .saving => [FProp.debtRepayment, .retirementSavings, .savingTotal].map .own
  | .sub .withdrawal => [FProp.grossWithdrawals, .netWithdrawals].map .own
  | .sub .tax => [FProp.taxWithheld, .taxOwing, .taxAdjustment].map .own
  | .forecast => [FProp.income, .expenses, .savings, .principal, .withdrawals, .tax].map .own

/-- Which are `recorded_property_cached`. -/
def FKey.isCached : FKey N A → Bool
  | .base k => k.isCached
  | .own .assetSale | .own .carryover | .own .grossIncome | .own .incomeTaxWithheld
  | .own .netIncome => false
  | .own .netWithdrawals => false
  | .own .withdrawals | .own .tax => false
  | .own _ => true

/-- The getter of a property. -/
def fgetter (k : FKey N A) (years : FObj N A → ℤ) (w : FWorld N A K) : Prog (FKey N A) (Val K) :=
  match k with
  | .base k => (getter k (fun o => years (.base o)) w.home).rename .base
  | .own p => ownGet (years p.obj) w p

/-- The forecast, its sub-forecasts, people and accounts. -/
def planned : Sys (FObj N A) (FKey N A) (Val K) (FWorld N A K) where
  obj := FKey.obj
  props := fprops
  cached := FKey.isCached
  fget := fgetter

/-- Their state. -/
abbrev FSt (N A K : Type) := St (FObj N A) (FKey N A) (Val K) (FWorld N A K)

/-- `self._transactions = defaultdict(...)` at the end of `Account.next_year`
(accounts/base.py:402-406); nothing else changes the rest of the program when a year is closed. -/
def afterwards : FObj N A → FWorld N A K → FWorld N A K
  | .base (.account a), w => { w with home := clearTx a w.home }
  | _, w => w

/-- `Ledger.next_year` of one object, and what its class does next (subforecast.py:161-174,
accounts/base.py:399-406). -/
def closeOne (n : ℕ) (o : FObj N A) (s : FSt N A K) : Option PyErr × FSt N A K :=
  match nextYear planned n o s with
  | (none, s') => (none, { s' with world := afterwards o s'.world })
  | (some e, s') => (some e, s')

/-- `obj.next_year()` repeated. -/
def turns (step : FSt N A K → Option PyErr × FSt N A K) : ℕ → FSt N A K → Option PyErr × FSt N A K
  | 0, s => (none, s)
  | m + 1, s =>
    match step s with
    | (none, s') => turns step m s'
    | (some e, s') => (some e, s')

/-- `obj.next_year()`: an account first brings its owner up to its own year
(accounts/base.py:388-406). -/
def objNextYear (n : ℕ) (o : FObj N A) (s : FSt N A K) : Option PyErr × FSt N A K :=
  match o with
  | .base (.account a) =>
    match s.world.home.owner a with
    | none => closeOne n o s
    | some i =>
      match turns (closeOne n (.base (.person i)))
          (s.year o - s.year (.base (.person i))).toNat s with
      | (none, s') => closeOne n o s'
      | (some e, s') => (some e, s')
  | _ => closeOne n o s

/-- `for o in os: while o.this_year < self.this_year: o.next_year()`
(forecast/base.py:202-204, 207-212). -/
def bringAll (n : ℕ) (year : ℤ) : List (FObj N A) → FSt N A K → Option PyErr × FSt N A K
  | [], s => (none, s)
  | o :: os, s =>
    match turns (objNextYear n o) (year - s.year o).toNat s with
    | (none, s') => bringAll n year os s'
    | (some e, s') => (some e, s')

/-- What `Forecast.next_year` advances after itself (forecast/base.py:202-212); `accounts` is
`assets.union(debts)` in its order of iteration. -/
def parts (people : List N) (accounts : List A) : List (FObj N A) :=
  ([Sub.income, .living, .saving, .withdrawal, .tax].map .sub) ++
    (people.map fun i => .base (.person i)) ++ accounts.map fun a => .base (.account a)

/-- `hasattr` turns an `AttributeError` into "no adjustment" (forecast/base.py:224-231). -/
def ifPresent {V : Type} : Except PyErr V → Except PyErr (Option V)
  | .ok v => .ok (some v)
  | .error .attributeError => .ok none
  | .error e => .error e

/-- `Forecast.next_year` (forecast/base.py:191-213), with the tax adjustment it carries over. -/
def fnextYear (n : ℕ) (accounts : List A) (s : FSt N A K) :
    Except PyErr (Option (Val K)) × FSt N A K :=
  match read planned n (.own .taxAdjustment) s with
  | (r, s1) =>
    match ifPresent r with
    | .error e => (.error e, s1)
    | .ok adj =>
      match closeOne n .forecast s1 with
      | (some e, s2) => (.error e, s2)
      | (none, s2) =>
        match bringAll n (s2.year .forecast) (parts s2.world.people accounts) s2 with
        | (some e, s3) => (.error e, s3)
        | (none, s3) => (.ok adj, s3)

end Forecaster.Recorded
