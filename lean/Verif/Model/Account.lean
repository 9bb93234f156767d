import Verif.Model.Timing
import Verif.Model.Ext

/-!
# `forecaster/accounts/base.py` and `forecaster/accounts/debt.py`

The growth of money during year `y` is a function `growth y`, standing for
`t ↦ accumulation_function(t, rate_callable(y), nper)` (accounts/util.py:19-73, modelled
over the reals in `Verif/Model/Accum.lean`; `Verif/Props/Account.lean` shows that it has
the properties assumed of `growth`).

Not modelled: the owner (accounts/base.py:177-197, 395-397), `inputs` overriding recorded
properties, reassigning `balance`, `rate_callable` or `nper` after construction, and the
caching of `balance` and `rate` (they are pure functions of data that no longer changes).
-/

namespace Forecaster.Account

open Forecaster Forecaster.Timing

variable {K : Type} [Field K] [LinearOrder K] [IsStrictOrderedRing K]

/-- The state of an `Account` (accounts/base.py:100-175). `balHist` and `txHist` are the
histories of the recorded properties `balance` and `transactions`. -/
structure Acct (K : Type) where
  year : ℤ
  growth : ℤ → K → K
  balHist : Dict ℤ K
  txns : Dict K K
  txHist : Dict ℤ (Dict K K)
  defaultTiming : Dict K K

/-- The four limit properties (accounts/base.py:408-455), which subclasses override. -/
structure Limits (K : Type) where
  maxOut : Ext K
  maxIn : Ext K
  minOut : Ext K
  minIn : Ext K

/-- Limits of a plain `Account` (accounts/base.py:425, 435, 445, 455). -/
def plainLimits : Limits K := ⟨.negInf, .posInf, .fin 0, .fin 0⟩

/-- `Account.__init__` (accounts/base.py:100-174); `balance=None` is `0`. -/
def init (year : ℤ) (balance : K) (growth : ℤ → K → K) (defaultTiming : Dict K K) : Acct K :=
  { year, growth, balHist := [(year, balance)], txns := [], txHist := [], defaultTiming }

/-- The growth function of the current year: `rate`/`nper` (accounts/base.py:285-290). -/
def Acct.A (a : Acct K) : K → K := a.growth a.year

/-- Dict lookup raising `KeyError`. -/
def look {κ ν : Type} [DecidableEq κ] (d : Dict κ ν) (k : κ) : Except PyErr ν :=
  match Dict.get? d k with
  | some v => .ok v
  | none => .error .keyError

/-- `value_at_time(value, rate, now, time, nper)` (accounts/util.py:127-150). -/
def valueAtTime (A : K → K) (value : K) (now time : When K) : Except PyErr K := do
  let t ← whenConv time
  let s ← whenConv now
  .ok (value * A (t - s))

/-- `Account.balance` (accounts/base.py:218-249): the recorded opening balance of the year
or, if there is none yet, last year's balance and transactions grown to year end (with this
year's rate, line 235). -/
def balance (a : Acct K) : Except PyErr K :=
  match Dict.get? a.balHist a.year with
  | some b => .ok b
  | none => do
    let b0 ← look a.balHist (a.year - 1)
    let b1 ← valueAtTime a.A b0 (.str "start") (.str "end")
    let tx ← look a.txHist (a.year - 1)
    tx.foldlM (fun b kv => do
      let v ← valueAtTime a.A kv.2 (.num kv.1) (.str "end")
      .ok (b + v)) b1

/-- `Account.add_transaction` (accounts/base.py:346-368). -/
def addTransaction (a : Acct K) (value : K) (when : When K) : Except PyErr (Acct K) := do
  let w ← whenConv when
  .ok { a with txns := Dict.set a.txns w (Dict.val a.txns w + value) }

/-- `Account.next_year` (accounts/base.py:388-406): `Ledger.next_year` records the year's
balance and transactions, then the year advances and transactions are emptied. -/
def nextYear (a : Acct K) : Except PyErr (Acct K) := do
  let b ← balance a
  .ok { a with
    year := a.year + 1
    balHist := Dict.set a.balHist a.year b
    txHist := Dict.set a.txHist a.year a.txns
    txns := [] }

/-- `sum(val for val in d.values() if val > 0)` (accounts/base.py:373, 376). -/
def posSum (d : Dict K K) : K := ((Dict.vals d).filter fun v => decide (v > 0)).sum

/-- `sum(val for val in d.values() if val < 0)` (accounts/base.py:382, 385). -/
def negSum (d : Dict K K) : K := ((Dict.vals d).filter fun v => decide (v < 0)).sum

/-- `Account.inflows` (accounts/base.py:370-377). -/
def inflows (a : Acct K) (transactions : Option (Dict K K)) : K :=
  (match transactions with | some d => posSum d | none => 0) + posSum a.txns

/-- `Account.outflows` (accounts/base.py:379-386). -/
def outflows (a : Acct K) (transactions : Option (Dict K K)) : K :=
  (match transactions with | some d => negSum d | none => 0) + negSum a.txns

/-- `Account.returns` (accounts/base.py:302-330). -/
def returns (a : Acct K) : Except PyErr K := do
  let b ← balance a
  .ok ((Dict.keys a.txns).foldl
    (fun r w => r + Dict.val a.txns w * (a.A (1 - w) - 1)) (b * (a.A 1 - 1)))

/-- `Account.taxable_income` (accounts/base.py:836-838). -/
def taxableIncome (a : Acct K) : Except PyErr K := do
  let r ← returns a
  .ok (max r 0)

/-- `Account.balance_at_time` (accounts/base.py:889-923). -/
def balanceAtTime (a : Acct K) (time : When K) (transactions : Option (Dict K K)) :
    Except PyErr K := do
  let t ← whenConv time
  let b ← balance a
  let b1 ← valueAtTime a.A b (.str "start") (.num t)
  let d := match transactions with
    | some d => addTransactions d a.txns
    | none => a.txns
  ((Dict.keys d).filter fun w => decide (w ≤ t)).foldlM (fun b w => do
    let v ← valueAtTime a.A (Dict.val d w) (.num w) (.num t)
    .ok (b + v)) b1

/-- `Account.max_outflow` (accounts/base.py:469-477). -/
def maxOutflow (L : Limits K) (a : Acct K) (when : When K) : Except PyErr (Ext K) := do
  let b ← balanceAtTime a when none
  .ok (max (min (.fin (-b)) (.fin 0)) L.maxOut)

/-- Python truthiness of a timing argument (accounts/base.py:531: `not timing`). -/
def falsy : Arg K → Bool
  | .timing d => d.isEmpty
  | .dict d => d.isEmpty
  | .scalar (.num x) => decide (x = 0)
  | .scalar (.str s) => s == ""

/-- The timing used by `transactions_to_balance` (accounts/base.py:530-553). -/
def resolveTiming (a : Acct K) : Option (Arg K) → Except PyErr (Dict K K)
  | none => .ok a.defaultTiming
  | some arg =>
    if falsy arg then .ok a.defaultTiming
    else match arg with
      | .timing d => .ok d
      | arg => Timing.init arg (.num 1)

/-- Normalised nonzero weights (accounts/base.py:556-573). -/
def normalizedWeights (timing : Dict K K) : Except PyErr (Dict K K) := do
  let total := Dict.total timing
  if total = 0 then
    let t ← Timing.init (.dict (timing.map fun kv => (kv.1, (1 : K)))) (.num 1)
    .ok ((t.filter fun kv => decide (kv.2 ≠ 0)).map fun kv => (kv.1, kv.2 / (t.length : K)))
  else
    .ok ((timing.filter fun kv => decide (kv.2 ≠ 0)).map fun kv => (kv.1, kv.2 / total))

/-- `weighted_accum` (accounts/base.py:590-596). -/
def weightedAccum (A : K → K) (nt : Dict K K) : K :=
  nt.foldl (fun s kv => s + kv.2 * A (1 - kv.1)) 0

/-- `change / weighted_accum` for a possibly infinite change (accounts/base.py:597). -/
def divExt (c : Ext K) (w : K) : Except PyErr (Ext K) :=
  if w = 0 then .error .zeroDivisionError else .ok (c.mulFin w⁻¹)

/-- `Account.transactions_to_balance` (accounts/base.py:485-610). -/
def transactionsToBalance (a : Acct K) (target : Ext K) (timing : Option (Arg K))
    (maxTotal minTotal : Option (Ext K)) (transactions : Option (Dict K K)) :
    Except PyErr (Dict K (Ext K)) := do
  let ref ← balanceAtTime a (.str "end") transactions
  let change := target.subFin ref
  let tm ← resolveTiming a timing
  let nt ← normalizedWeights tm
  let total ← divExt change (weightedAccum a.A nt)
  let total := match maxTotal with | some m => min total m | none => total
  let total := match minTotal with | some m => max total m | none => total
  .ok (Dict.mapVals (fun w => total.mulFin w) nt)

/-- Keyword arguments shared by the four flow methods. -/
structure FlowArgs (K : Type) where
  timing : Option (Arg K) := none
  transactionLimit : Option (Ext K) := none
  balanceLimit : Option (Ext K) := none
  transactions : Option (Dict K K) := none

/-- `min_total` of `max_outflows`/`min_outflows` (accounts/base.py:653-660, 762-769). -/
def outCap (limit : Ext K) (made : K) (transactionLimit : Option (Ext K)) : Ext K :=
  let m := limit.subFin made
  let m := match transactionLimit with | some l => max m l | none => m
  min m (.fin 0)

/-- `max_total` of `max_inflows`/`min_inflows` (accounts/base.py:709-714, 818-823). -/
def inCap (limit : Ext K) (made : K) (transactionLimit : Option (Ext K)) : Ext K :=
  let m := limit.subFin made
  let m := match transactionLimit with | some l => min m l | none => m
  max m (.fin 0)

/-- `Account.max_outflows` (accounts/base.py:612-670). -/
def maxOutflows (L : Limits K) (a : Acct K) (k : FlowArgs K) : Except PyErr (Dict K (Ext K)) :=
  transactionsToBalance a (k.balanceLimit.getD (.fin 0)) k.timing (some (.fin 0))
    (some (outCap L.maxOut (outflows a k.transactions) k.transactionLimit)) k.transactions

/-- `Account.max_inflows` (accounts/base.py:672-724). -/
def maxInflows (L : Limits K) (a : Acct K) (k : FlowArgs K) : Except PyErr (Dict K (Ext K)) :=
  transactionsToBalance a (k.balanceLimit.getD .posInf) k.timing
    (some (inCap L.maxIn (inflows a k.transactions) k.transactionLimit)) (some (.fin 0))
    k.transactions

/-- `Account.min_outflows` (accounts/base.py:726-779). -/
def minOutflows (L : Limits K) (a : Acct K) (k : FlowArgs K) : Except PyErr (Dict K (Ext K)) :=
  transactionsToBalance a (k.balanceLimit.getD (.fin 0)) k.timing (some (.fin 0))
    (some (outCap L.minOut (outflows a k.transactions) k.transactionLimit)) k.transactions

/-- `Account.min_inflows` (accounts/base.py:781-833). -/
def minInflows (L : Limits K) (a : Acct K) (k : FlowArgs K) : Except PyErr (Dict K (Ext K)) :=
  transactionsToBalance a (k.balanceLimit.getD .posInf) k.timing
    (some (inCap L.minIn (inflows a k.transactions) k.transactionLimit)) (some (.fin 0))
    k.transactions

/-- `Account.__setitem__` (accounts/base.py:858-861): the membership test and the deletion
use the key as given, `add_transaction` the converted one. -/
def setItem (a : Acct K) (key : When K) (value : K) : Except PyErr (Acct K) :=
  let a' := match key with
    | .num x => if x ∈ Dict.keys a.txns then { a with txns := Dict.del a.txns x } else a
    | .str _ => a
  addTransaction a' value key

/-- `Account.__delitem__` (accounts/base.py:863-864): the key is used as given. -/
def delItem (a : Acct K) (key : When K) : Except PyErr (Acct K) :=
  match key with
  | .num x =>
    if x ∈ Dict.keys a.txns then .ok { a with txns := Dict.del a.txns x } else .error .keyError
  | .str _ => .error .keyError

/-- `Account.clear` (accounts/base.py:882-884). -/
def clear (a : Acct K) : Acct K := { a with txns := [] }

/-- `Account.__contains__` (accounts/base.py:851-853). -/
def contains (a : Acct K) (key : When K) : Except PyErr Bool := do
  let w ← whenConv key
  .ok (decide (w ∈ Dict.keys a.txns))

/-! ### Debt -/

/-- `Debt.__init__` (accounts/debt.py:36-70): a positive balance is negated. -/
def debtInit (year : ℤ) (bal : K) (growth : ℤ → K → K) (defaultTiming : Dict K K) : Acct K :=
  if bal > 0 then init year (-bal) growth defaultTiming else init year bal growth defaultTiming

/-- `Debt` limits (accounts/debt.py:91-107), from the attributes `minimum_payment` and
`accelerated_payment` (accounts/debt.py:73-89). -/
def debtLimits (minimumPayment : K) (acceleratedPayment : Ext K) : Limits K :=
  { maxOut := .fin 0
    maxIn := Ext.add (.fin minimumPayment) acceleratedPayment
    minOut := .fin 0
    minIn := .fin minimumPayment }

/-- `Debt.max_inflow` (accounts/debt.py:111-121). -/
def debtMaxInflow (L : Limits K) (a : Acct K) (when : When K) : Except PyErr (Ext K) := do
  let b ← balanceAtTime a when none
  .ok (min (max (.fin (-b)) (.fin 0)) L.maxIn)

/-- `Debt.max_inflows` (accounts/debt.py:123-157). -/
def debtMaxInflows (L : Limits K) (a : Acct K) (k : FlowArgs K) :
    Except PyErr (Dict K (Ext K)) :=
  maxInflows L a { k with balanceLimit := some (k.balanceLimit.getD (.fin 0)) }

/-- `Debt.min_inflows` (accounts/debt.py:159-193). -/
def debtMinInflows (L : Limits K) (a : Acct K) (k : FlowArgs K) :
    Except PyErr (Dict K (Ext K)) :=
  minInflows L a { k with balanceLimit := some (k.balanceLimit.getD (.fin 0)) }

/-! ### Histories -/

/-- What a forecast does to an account. -/
inductive Op (K : Type)
  | add (value : K) (when : When K)
  | setItem (key : When K) (value : K)
  | delItem (key : When K)
  | clear
  | nextYear

/-- Effect of one operation. -/
def step (a : Acct K) : Op K → Except PyErr (Acct K)
  | .add v w => addTransaction a v w
  | .setItem k v => setItem a k v
  | .delItem k => delItem a k
  | .clear => .ok (clear a)
  | .nextYear => nextYear a

/-- Effect of a sequence of operations; those that raise change nothing (the exception
propagates to the caller, who may go on using the account). -/
def run (a : Acct K) (ops : List (Op K)) : Acct K :=
  ops.foldl (fun a op => match step a op with | .ok a' => a' | .error _ => a) a

end Forecaster.Account
