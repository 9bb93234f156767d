import Verif.Model.Allocation

/-!
# `forecaster/strategy/gross_transaction.py` and `forecaster/strategy/debt_payment/util.py`

People are read only through `net_income`, `gross_income`, their histories and `accounts`; accounts
only through `balance_history`. Accounts are identified by a number, because `accounts` is a *set*
of objects and joint accounts belong to several people.

Simplifications. Positional arguments and additional keyword arguments (ignored by the code) are
left out. `base_amount` and `rate` are plain fields (see `Verif/Model/Allocation.lean`).
-/

namespace Forecaster.Expenses

open Forecaster Forecaster.Allocation

variable {K : Type} [Field K] [LinearOrder K] [IsStrictOrderedRing K]

/-- What a living expenses strategy reads of a `Person`. -/
structure Plannee (K : Type) where
  netIncome : K
  grossIncome : K
  netIncomeHistory : Dict ℤ K
  grossIncomeHistory : Dict ℤ K
  accounts : List ℕ

/-- The strategies of `LivingExpensesStrategy` (gross_transaction.py:93-151). -/
inductive Kind
  | constContribution | constLivingExpenses | netPercent | grossPercent | percentOverBase
  | principalPercentRet | netPercentRet | grossPercentRet
  deriving DecidableEq

/-- The key of a strategy (gross_transaction.py:93-151). -/
def Kind.key : Kind → String
  | .constContribution => "Constant contribution"
  | .constLivingExpenses => "Constant living expenses"
  | .netPercent => "Percentage of net income"
  | .grossPercent => "Percentage of gross income"
  | .percentOverBase => "Percentage of earnings growth"
  | .principalPercentRet => "Percentage of principal at retirement"
  | .netPercentRet => "Percentage of net income at retirement"
  | .grossPercentRet => "Percentage of gross income at retirement"

/-- All strategies. -/
def Kind.all : List Kind :=
  [.constContribution, .constLivingExpenses, .netPercent, .grossPercent, .percentOverBase,
    .principalPercentRet, .netPercentRet, .grossPercentRet]

/-- The state of a `LivingExpensesStrategy` (gross_transaction.py:69-84). `adjust year base` is
`inflation_adjust(year[, base])`; it may raise. -/
structure Strat (K : Type) where
  kind : Kind
  baseAmount : K
  rate : K
  adjust : Option ℤ → Option ℤ → Except PyErr K

/-- `LivingExpensesStrategy.__init__` (gross_transaction.py:69-83). -/
def init (strategy : StrategyArg) (baseAmount rate : K)
    (adjust : Option (Option ℤ → Option ℤ → Except PyErr K)) : Except PyErr (Strat K) := do
  let key ← strategyInit (Kind.all.map Kind.key) strategy
  match Kind.all.find? (fun k => k.key == key) with
  | some k => .ok ⟨k, baseAmount, rate, adjust.getD fun _ _ => .ok 1⟩
  | none => .error .valueError

/-- `sum(f(x) for x in iterable)` where `f` may raise. -/
def sumM {α : Type} (f : α → Except PyErr K) : List α → Except PyErr K
  | [] => .ok 0
  | x :: l => do
    let a ← f x
    let b ← sumM f l
    .ok (a + b)

/-- `history[year]` (`KeyError` for a year without a record, or for `None`). -/
def atYear (h : Dict ℤ K) : Option ℤ → Except PyErr K
  | none => .error .keyError
  | some y =>
    match Dict.get? h y with
    | some v => .ok v
    | none => .error .keyError

/-- `for person in people` with `people` possibly `None`. -/
def each (people : Option (List (Plannee K))) : Except PyErr (List (Plannee K)) :=
  match people with
  | none => .error .typeError
  | some l => .ok l

/-- The strategy methods (gross_transaction.py:93-151); `balances` gives each account's
`balance_history`. -/
def formula (s : Strat K) (balances : ℕ → Dict ℤ K) (people : Option (List (Plannee K)))
    (accounts : Option (List ℕ)) (year ret : Option ℤ) : Except PyErr K :=
  match s.kind with
  | .constContribution => do
    let l ← each people
    let c ← s.adjust year none
    .ok ((l.map Plannee.netIncome).sum - s.baseAmount * c)
  | .constLivingExpenses => do
    let c ← s.adjust year none
    .ok (s.baseAmount * c)
  | .netPercent => do
    let l ← each people
    .ok (s.rate * (l.map Plannee.netIncome).sum)
  | .grossPercent => do
    let l ← each people
    .ok (s.rate * (l.map Plannee.grossIncome).sum)
  | .percentOverBase => do
    let c ← s.adjust year none
    let base := s.baseAmount * c
    let l ← each people
    .ok (base + ((l.map Plannee.netIncome).sum - base) * s.rate)
  | .principalPercentRet =>
    match accounts with
    | none => .error .typeError
    | some accs => do
      let b ← sumM (fun a => atYear (balances a) ret) accs
      let c ← s.adjust year ret
      .ok (s.rate * b * c)
  | .netPercentRet => do
    let l ← each people
    let b ← sumM (fun p => atYear p.netIncomeHistory ret) l
    let c ← s.adjust year ret
    .ok (s.rate * b * c)
  | .grossPercentRet => do
    let l ← each people
    let b ← sumM (fun p => atYear p.grossIncomeHistory ret) l
    let c ← s.adjust year ret
    .ok (s.rate * b * c)

/-- `set.union(*[person.accounts for person in people])` (gross_transaction.py:161); without people
`set.union()` raises `TypeError`. -/
def allAccounts : Option (List (Plannee K)) → Except PyErr (Option (List ℕ))
  | none => .ok none
  | some [] => .error .typeError
  | some l => .ok (some (l.flatMap Plannee.accounts).dedup)

/-- `LivingExpensesStrategy.__call__` (gross_transaction.py:155-174). -/
def call (s : Strat K) (balances : ℕ → Dict ℤ K) (people : Option (List (Plannee K)))
    (year ret : Option ℤ) : Except PyErr K := do
  let accounts ← allAccounts people
  let x ← formula s balances people accounts year ret
  .ok (max x 0)

/-- A `LivingExpensesStrategy`, or a `LivingExpensesStrategySchedule` of such (gross_transaction.py:
177-223: "may be a `LivingExpensesStrategySchedule`"). -/
inductive Plan (K : Type)
  | strategy (s : Strat K)
  | schedule (working retirement : Plan K)
  | scheduleMin (working retirement minimum : Plan K)

/-- The test of `LivingExpensesStrategySchedule.__call__` (gross_transaction.py:229-232). -/
def retired (year ret : Option ℤ) : Bool :=
  match year, ret with
  | some y, some r => decide (r < y)
  | _, _ => false

/-- `LivingExpensesStrategySchedule.__call__` (gross_transaction.py:225-249). -/
def Plan.call : Plan K → (ℕ → Dict ℤ K) → Option (List (Plannee K)) → Option ℤ → Option ℤ →
    Except PyErr K
  | .strategy s, balances, people, year, ret => Expenses.call s balances people year ret
  | .schedule w r, balances, people, year, ret =>
    if retired year ret then r.call balances people year ret else w.call balances people year ret
  | .scheduleMin w r m, balances, people, year, ret => do
    let x ← if retired year ret then r.call balances people year ret
      else w.call balances people year ret
    let y ← m.call balances people year ret
    .ok (max x y)

/-! ## Debt priorities -/

/-- `sorted(l, key=key)`: a stable sort. -/
def sortedBy {D : Type} (key : D → K) (l : List D) : List D :=
  l.insertionSort fun a b => key a ≤ key b

/-- `sorted(l, key=key, reverse=True)`: CPython reverses the list, sorts it stably and reverses the
result, so that equal elements keep their order. -/
def sortedByDesc {D : Type} (key : D → K) (l : List D) : List D :=
  (sortedBy key l.reverse).reverse

/-- `avalanche_priority` (debt_payment/util.py:11-24). -/
def avalanchePriority {D : Type} (rate : D → K) (debts : List D) : List D := sortedByDesc rate debts

/-- `snowball_priority` (debt_payment/util.py:26-39). -/
def snowballPriority {D : Type} (balance : D → K) (debts : List D) : List D :=
  sortedBy (fun d => |balance d|) debts

end Forecaster.Expenses
