import Verif.Model.TxStrategy

/-!
# `forecaster/strategy/debt_payment/base.py`

A `DebtPaymentStrategy` puts the debts in order and lets a `TransactionTraversal` over that list
distribute the money.
-/

namespace Forecaster.DebtPayment

open Forecaster Forecaster.Allocation Forecaster.Expenses Forecaster.Traversal Forecaster.TxStrategy

variable {K : Type} [Field K] [LinearOrder K] [IsStrictOrderedRing K]
variable {A : Type} [DecidableEq A]

/-- The strategies (debt_payment/base.py:66, 72). -/
inductive Method
  | snowball | avalanche
  deriving DecidableEq

/-- The keys of the strategies (debt_payment/util.py:44-45). -/
def Method.key : Method → String
  | .snowball => "Snowball"
  | .avalanche => "Avalanche"

/-- `DebtPaymentStrategy(strategy)`: `Strategy.__init__` (strategy/base.py:84-102). -/
def init (strategy : StrategyArg) : Except PyErr Method := do
  let key ← strategyInit [Method.snowball.key, Method.avalanche.key] strategy
  .ok (if key = Method.snowball.key then .snowball else .avalanche)

/-- The order of the debts (debt_payment/base.py:66-76): `snowball_priority` or `avalanche_priority`. -/
def Method.order (m : Method) (rate balance : A → K) (debts : List A) : List A :=
  match m with
  | .snowball => snowballPriority balance debts
  | .avalanche => avalanchePriority rate debts

/-- The `available` argument: an amount, or amounts by date. -/
inductive Available (K : Type)
  | amount (x : K)
  | dated (d : Dict K K)

/-- `DebtPaymentStrategy.__call__` (debt_payment/base.py:42-82). What the debts answer, the precision (the
default) and the flow algorithm are given by `E`. `assign_min_first` is not looked at by
`TransactionTraversal.__call__` (strategy/transaction/base.py:226-236), which takes `available.values()`:
an amount has no such method. -/
def call [FloorRing K] (m : Method) (rate balance : A → K) (E : Env (List ℕ) A K) (fuel : ℕ)
    (debts : List A) (available : Available K) : Except PyErr (Dict A (Dict K K)) :=
  match available with
  | .amount _ => .error .attributeError
  | .dated d =>
    Traversal.call { E with tree := (Src.list ((m.order rate balance debts).map .acct)).toTree } fuel
      (Dict.total d)

end Forecaster.DebtPayment
