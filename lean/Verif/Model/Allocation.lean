import Verif.Model.Inflation

/-!
# `forecaster/strategy/base.py` and `forecaster/strategy/allocation.py`

Simplifications. Parameters that the constructor converts with `int(...)`/`bool(...)` are given as
integers and booleans. The high-precision descriptors `min_equity`, `max_equity` and `target` are
plain fields: that is what they are when no `high_precision` conversion is used; the descriptor
cache has its own model (`Verif/Model/Precision.lean`). Division by zero is Python's
`ZeroDivisionError`.
-/

namespace Forecaster.Allocation

open Forecaster Forecaster.Inflation

/-- The `strategy` argument of a `Strategy` (strategy/base.py:84-95): a key, a decorated strategy
method (which carries its key), or something else. -/
inductive StrategyArg
  | str (key : String)
  | method (key : String)
  | other
  deriving DecidableEq

/-- `Strategy.__init__` (strategy/base.py:84-102); `keys` are the keys of `type(self).strategies`. -/
def strategyInit (keys : List String) : StrategyArg → Except PyErr String
  | .other => .error .typeError
  | .str k => if k ∈ keys then .ok k else .error .valueError
  | .method k => if k ∈ keys then .ok k else .error .valueError

/-- `AssetAllocation` (allocation.py:8). -/
structure Alloc (K : Type) where
  stocks : K
  bonds : K
  other : K
  deriving DecidableEq

/-- The strategies of `AllocationStrategy` (allocation.py:141, 165). -/
inductive Kind | nAge | transition
  deriving DecidableEq

/-- The state of an `AllocationStrategy` (allocation.py:121-139). -/
structure Strat (K : Type) where
  kind : Kind
  target : K
  minEquity : K
  maxEquity : K
  standardRetirementAge : ℤ
  riskTransitionPeriod : ℤ
  adjust : Bool
  deriving DecidableEq

/-- The keys registered by `@strategy_method` (allocation.py:141, 165). -/
def strategyKeys : List String := ["n-age", "Transition to constant"]

variable {K : Type} [Field K] [LinearOrder K] [IsStrictOrderedRing K]

/-- `AllocationStrategy.__init__` (allocation.py:121-139). -/
def init (strategy : StrategyArg) (target minEquity maxEquity : K) (std period : ℤ) (adjust : Bool) :
    Except PyErr (Strat K) := do
  let key ← strategyInit strategyKeys strategy
  if maxEquity < minEquity then .error .valueError
  else .ok ⟨if key = "n-age" then .nAge else .transition, target, minEquity, maxEquity, std, period,
    adjust⟩

/-- The first lines of both strategies (allocation.py:152-156, 175-178): the retirement age is
required if the strategy adjusts for it, and replaced by the standard one otherwise. -/
def retirementAge (s : Strat K) (ret : Option K) : Except PyErr K :=
  if s.adjust then
    match ret with
    | none => .error .valueError
    | some r => .ok r
  else .ok s.standardRetirementAge

/-- `strategy_n_minus_age` (allocation.py:141-163). -/
def nMinusAge (s : Strat K) (age : K) (ret : Option K) : Except PyErr (Alloc K) := do
  let r ← retirementAge s ret
  let age := if s.adjust then age + ((s.standardRetirementAge : K) - r) else age
  let target := (s.target - age) / 100
  .ok ⟨target, 1 - target, 0⟩

/-- `strategy_transition_to_const` (allocation.py:165-195). -/
def transitionToConst (s : Strat K) (age : K) (ret : Option K) : Except PyErr (Alloc K) := do
  let r ← retirementAge s ret
  if age ≤ r - s.riskTransitionPeriod then .ok ⟨s.maxEquity, 1 - s.maxEquity, 0⟩
  else if r ≤ age then
    let m := max s.minEquity s.target
    .ok ⟨m, 1 - m, 0⟩
  else if (s.riskTransitionPeriod : K) = 0 then .error .zeroDivisionError
  else
    let target := s.target + (s.maxEquity - s.target) * (r - age) / s.riskTransitionPeriod
    .ok ⟨target, 1 - target, 0⟩

/-- `_balance_allocation` (allocation.py:220-260). -/
def balance (s : Strat K) (a : Alloc K) : Except PyErr (Alloc K) :=
  if s.maxEquity < a.stocks then
    if a.bonds + a.other = 0 then .error .zeroDivisionError
    else .ok
      ⟨s.maxEquity,
        a.bonds + (a.stocks - s.maxEquity) * a.bonds / (a.bonds + a.other),
        a.other + (a.stocks - s.maxEquity) * a.other / (a.bonds + a.other)⟩
  else if a.stocks < s.minEquity then
    if a.bonds + a.other = 0 then .error .zeroDivisionError
    else .ok
      ⟨s.minEquity,
        a.bonds - (s.minEquity - a.stocks) * a.bonds / (a.bonds + a.other),
        a.other - (s.maxEquity - a.stocks) * a.other / (a.bonds + a.other)⟩
  else .ok a

/-- `Strategy.__call__` (strategy/base.py:104-109): dispatch on the strategy. -/
def formula (s : Strat K) (age : K) (ret : Option K) : Except PyErr (Alloc K) :=
  match s.kind with
  | .nAge => nMinusAge s age ret
  | .transition => transitionToConst s age ret

/-- `AllocationStrategy.__call__` (allocation.py:262-273). -/
def call (s : Strat K) (age : K) (ret : Option K) : Except PyErr (Alloc K) := do
  let a ← formula s age ret
  balance s a

/-- The returns of a scenario in one year (`stock_return[year]` etc.). -/
structure Returns (K : Type) where
  stock : K
  bond : K
  other : K

/-- `rate_function(person, scenario)`, called: `RateFunction.__call__` (allocation.py:19-48, 197-218). `age` is what `person.age(year)` returns. -/
def rate (s : Strat K) (age : Except PyErr K) (ret : Option K) (r : Except PyErr (Returns K)) :
    Except PyErr K := do
  let x ← age
  let a ← call s x ret
  let r ← r
  if a.stocks + a.bonds + a.other = 0 then .error .zeroDivisionError
  else .ok ((a.stocks * r.stock + a.bonds * r.bond + a.other * r.other)
    / (a.stocks + a.bonds + a.other))

end Forecaster.Allocation
