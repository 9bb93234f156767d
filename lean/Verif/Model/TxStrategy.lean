import Verif.Model.Traversal
import Verif.Model.Expenses

/-!
# `forecaster/strategy/transaction/strategy.py` and `node.py`

Sets of accounts are lists in the order in which they are walked; `order` is that (unspecified)
order. Accounts are read only through the names of their types, whether they are debts, their
balance and their rate.

Simplifications. `weights` has no `None` key; `debt_strategy` and `high_interest_threshold` are
plain fields. Positional and additional keyword arguments (ignored by the code) are left out.
-/

namespace Forecaster.TxStrategy

open Forecaster Forecaster.Traversal Forecaster.Expenses Forecaster.Allocation

variable {K : Type} [Field K] [LinearOrder K] [IsStrictOrderedRing K]
variable {A : Type} [DecidableEq A]

/-- What users write down as a priority tree (transaction/node.py:22-35): an account, a list (in
order) or a dict (with weights). -/
inductive Src (A K : Type)
  | acct (a : A)
  | list (cs : List (Src A K))
  | dict (cs : List (Src A K × K))

/-- The `i`-th child of a source node. -/
def Src.child : Src A K → ℕ → Option (Src A K)
  | .acct _, _ => none
  | .list cs, i => cs[i]?
  | .dict cs, i => (cs[i]?).map Prod.fst

/-- The source node at the end of a path of child numbers. -/
def Src.sub (s : Src A K) (p : List ℕ) : Option (Src A K) :=
  p.foldl (fun o i => o.bind fun t => t.child i) (some s)

/-- `TransactionNode(source)` (transaction/node.py:51-77, 137-171): every source node gets a node
of its own, which is identified here by the path to it; the children keep their order and
weights. -/
def Src.toTree (s : Src A K) : Tree (List ℕ) A K where
  root := []
  kind p :=
    match s.sub p with
    | some (.acct a) => .leaf a
    | some (.list cs) => .ordered ((List.range cs.length).map fun i => p ++ [i])
    | some (.dict cs) => .weighted (cs.zipIdx.map fun e => (p ++ [e.2], e.1.2))
    | none => .ordered []

/-- What the strategy reads of an account: the `__name__`s of `type(account).__mro__` (the type
itself first), `isinstance(account, Debt)`, `balance` and `rate`. -/
structure Info (K : Type) where
  mro : List String
  debt : Bool
  balance : K
  rate : K

/-- The strategies (strategy.py:86, 140). -/
inductive Kind | ordered | weighted
  deriving DecidableEq

/-- A `TransactionStrategy` (strategy.py:70-84). -/
structure Strat (K : Type) where
  kind : Kind
  weights : Dict String K
  debtStrategy : String
  threshold : Option K

/-- `TransactionStrategy.__init__` (strategy.py:70-84). -/
def init (strategy : StrategyArg) (weights : Dict String K) (debtStrategy : Option String)
    (threshold : Option K) : Except PyErr (Strat K) := do
  let key ← strategyInit ["Ordered", "Weighted"] strategy
  .ok ⟨if key = "Ordered" then .ordered else .weighted, weights, debtStrategy.getD "Avalanche",
    threshold⟩

/-- `_get_weight_key` (strategy.py:233-245). -/
def weightKey (weights : Dict String K) (i : Info K) : Option String :=
  i.mro.find? fun k => decide (k ∈ Dict.keys weights)

/-- One pass of the loop of `_weight_account_groups` (strategy.py:220-225). -/
def groupStep (weights : Dict String K) (info : A → Info K) (d : Dict String (List A)) (a : A) :
    Dict String (List A) :=
  match weightKey weights (info a) with
  | some k => Dict.set d k ((Dict.get? d k).getD [] ++ [a])
  | none => d

/-- `_weight_account_groups` (strategy.py:202-231). -/
def weightGroups (weights : Dict String K) (info : A → Info K) (accounts : List A) :
    List (List A × K) :=
  (accounts.foldl (groupStep weights info) []).map fun e => (e.2, Dict.val weights e.1)

/-- Debts with a balance owing (strategy.py:259-262). -/
def owes (i : Info K) : Bool := i.debt && decide (i.balance < 0)

/-- The test for low interest (strategy.py:263-274): without a threshold every debt passes. -/
def lowInterest (threshold : Option K) (i : Info K) : Bool :=
  match threshold with
  | some t => decide (i.rate < t)
  | none => true

/-- `divide_debts` (strategy.py:247-275): low-interest and high-interest debts. -/
def divideDebts (S : Strat K) (info : A → Info K) (accounts : List A) : List A × List A :=
  let debts := accounts.filter fun a => owes (info a)
  (debts.filter fun a => lowInterest S.threshold (info a),
    debts.filter fun a => !lowInterest S.threshold (info a))

/-- `debt_priority` (strategy.py:277-303), `PRIORITY_METHODS` (debt_payment/util.py:47-49); the
result `None` is the empty list. -/
def debtPriority (S : Strat K) (info : A → Info K) (debts : List A) : Except PyErr (List A) :=
  if debts = [] then .ok []
  else if S.debtStrategy = "Avalanche" then .ok (avalanchePriority (fun a => (info a).rate) debts)
  else if S.debtStrategy = "Snowball" then .ok (snowballPriority (fun a => (info a).balance) debts)
  else .error .keyError

/-- `group in subtrees` for the only group in `subtrees` (strategy.py:192-193, 322). -/
def sameSet (s t : List A) : Bool := s.all (fun a => decide (a ∈ t)) && t.all (fun a => decide (a ∈ s))

/-- `_get_subtree` (strategy.py:188-200). -/
def subtree (order : List A → List A) (low lowPriority group : List A) : Src A K :=
  if sameSet group low then .list (lowPriority.map .acct)
  else
    match group with
    | [a] => .acct a
    | g => .dict ((order g).map fun a => (.acct a, 1))

/-- The strategy methods (strategy.py:86-186). -/
def basicTree (S : Strat K) (order : List A → List A) (low lowPriority : List A)
    (groups : List (List A × K)) : Src A K :=
  match S.kind with
  | .ordered => .list ((sortedBy Prod.snd groups).map fun g => subtree order low lowPriority g.1)
  | .weighted => .dict (groups.map fun g => (subtree order low lowPriority g.1, g.2))

/-- The tree built by `TransactionStrategy.__call__` (strategy.py:305-338). -/
def buildTree (S : Strat K) (info : A → Info K) (order : List A → List A) (accounts : List A) :
    Except PyErr (Src A K) := do
  let debts := divideDebts S info (order accounts.dedup)
  let lowPriority ← debtPriority S info (order debts.1)
  let highPriority ← debtPriority S info (order debts.2)
  let groups := weightGroups S.weights info
    (order (accounts.dedup.filter fun a => decide (a ∉ debts.2)))
  let priority := basicTree S order debts.1 lowPriority groups
  .ok (if highPriority = [] then priority else .list [.list (highPriority.map .acct), priority])

/-- `TransactionStrategy.__call__` (strategy.py:305-338): what is known about the accounts'
limits, the flow algorithm etc. is given by `E`. -/
def call [FloorRing K] (S : Strat K) (info : A → Info K) (order : List A → List A)
    (E : Env (List ℕ) A K) (fuel : ℕ) (accounts : List A) (available : Dict K K) :
    Except PyErr (Dict A (Dict K K)) := do
  let src ← buildTree S info order accounts
  Traversal.call { E with tree := src.toTree } fuel (Dict.total available)

end Forecaster.TxStrategy
