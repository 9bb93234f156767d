import Verif.Model.Account

/-!
# `forecaster/forecast/subforecast.py`

Pools of money (`Account` objects, or dicts such as `available`) are identified by `P`
(object identity); the outside world (`None`) is `none : Option P`.  `TransactionDict`
(subforecast.py:9-77) is a `defaultdict` keyed by that identity (C86); its overridden `keys()`
is not used by the modelled code.

`time_to_value` (accounts/util.py:153-168) involves a logarithm: it is a parameter `ttv`
(result for account `a`, present balance, target value).

An operation that raises leaves the pools and the record as they are at that moment, so
the result of an operation is the new state together with the exception, if any.

Not modelled: `high_precision`, and the `Ledger` part (histories are in
`Verif/Model/Ledger.lean`).
-/

namespace Forecaster.SubForecast

open Forecaster Forecaster.Timing Forecaster.Account

variable {K : Type} [Field K] [LinearOrder K] [IsStrictOrderedRing K]
variable {P : Type} [DecidableEq P]

/-- A pool of money: a dict of transactions (`dflt`: it is a `defaultdict`), or an
`Account` with its transaction limits. -/
inductive Pool (K : Type)
  | dict (dflt : Bool) (d : Dict K K)
  | acct (L : Limits K) (a : Acct K)

/-- The `{when: value}` transactions of a pool: `pool.items()`
(`Account.items`, accounts/base.py:874-876). -/
def Pool.txns : Pool K → Dict K K
  | .dict _ d => d
  | .acct _ a => a.txns

/-- All the pools, and the state of the sub-forecast: `_transactions`, `_call_invoked` and
`total_available` (subforecast.py:147-154). -/
structure St (P K : Type) where
  pools : P → Pool K
  record : Dict (Option P) (Dict K K)
  called : Bool
  totalAvailable : Ext K

/-- `SubForecast.__init__` (subforecast.py:130-154). -/
def fresh (pools : P → Pool K) : St P K := ⟨pools, [], false, .fin 0⟩

/-- Replace one pool. -/
def setPool (s : St P K) (p : P) (q : Pool K) : St P K :=
  { s with pools := fun p' => if p' = p then q else s.pools p' }

/-- `if when in pool: pool[when] += delta else: pool[when] = delta`
(subforecast.py:350-353, 366-369). -/
def poolAdd (q : Pool K) (when delta : K) : Except PyErr (Pool K) :=
  match q with
  | .dict f d =>
    match Dict.get? d when with
    | some x => .ok (.dict f (Dict.set d when (x + delta)))
    | none => .ok (.dict f (Dict.set d when delta))
  | .acct L a => do
    let isIn ← contains a (.num when)
    let a' ← setItem a (.num when) (if isIn then Dict.val a.txns when + delta else delta)
    .ok (.acct L a')

/-- `self.transactions[account][when] += delta` on the two nested `defaultdict`s
(subforecast.py:354, 370). -/
def recAdd (r : Dict (Option P) (Dict K K)) (o : Option P) (when delta : K) :
    Dict (Option P) (Dict K K) :=
  let d := (Dict.get? r o).getD []
  Dict.set r o (Dict.set d when (Dict.val d when + delta))

/-- One leg of `_add_transaction` (subforecast.py:347-354 or 364-370). -/
def leg (s : St P K) (o : Option P) (when delta : K) : Except PyErr (St P K) :=
  match o with
  | none => .ok { s with record := recAdd s.record none when delta }
  | some p => do
    let q ← poolAdd (s.pools p) when delta
    .ok { setPool s p q with record := recAdd s.record (some p) when delta }

/-- The keys considered by `_shift_when`: `account.keys() | {when}`, from `when` on
(subforecast.py:386-393, 429-435). -/
def materialTimes (d : Dict K K) (when : K) : List K :=
  (when :: Dict.keys d).filter fun t => decide (t ≥ when)

/-- Amounts available, for a pool that is not an `Account` (subforecast.py:386-393). -/
def accumDict (d : Dict K K) (when : K) : Dict K (Ext K) :=
  (materialTimes d when).map fun t =>
    (t, .fin (((Dict.keys d).filter fun r => decide (r ≤ t)).map fun r => Dict.val d r).sum)

/-- `Account.time_to_balance` (accounts/base.py:925-962). The recursion visits later and
later transactions of the account, so `fuel` = their number plus one is enough. -/
def timeToBalance (ttv : Acct K → K → K → Except PyErr (Ext K)) (a : Acct K) (value : K) :
    ℕ → K → Except PyErr (Ext K)
  | 0, _ => .error .recursionError
  | fuel + 1, when => do
    let w ← whenConv (.num when)
    let b ← balanceAtTime a (.num w) none
    let dt ← ttv a b value
    let time := Ext.add (.fin w) dt
    match ((Dict.keys a.txns).filter fun k => decide (k > w)).min? with
    | none => .ok time
    | some n => if .fin n < time then timeToBalance ttv a value fuel n else .ok time

/-- `-x` for a possibly infinite amount. -/
def negExt : Ext K → Ext K
  | .negInf => .posInf
  | .fin x => .fin (-x)
  | .posInf => .negInf

/-- One pass of the interpolation loop (subforecast.py:442-473). -/
def interpolate (ttv : Acct K → K → K → Except PyErr (Ext K)) (L : Limits K) (a : Acct K)
    (value : K) (accum : Dict K (Ext K)) (pair : K × K) : Except PyErr (Dict K (Ext K)) := do
  let x ← look accum pair.1
  let y ← look accum pair.2
  if (y > .fin value ∧ x < .fin value) ∨ (y < .fin value ∧ x > .fin value) then
    let time ← timeToBalance ttv a value (a.txns.length + 1) pair.1
    match time with
    | .fin t =>
      if t > pair.1 ∧ t < pair.2 then do
        let m ← maxOutflows L a { timing := some (.scalar (.num t)) }
        .ok (Dict.set accum t (negExt ((Dict.vals m).foldl Ext.add (.fin 0))))
      else .ok accum
    | _ => .ok accum
  else .ok accum

/-- `-account.max_outflow(t)` for one material time (subforecast.py:431-432). -/
def accumEntry (L : Limits K) (a : Acct K) (t : K) : Except PyErr (K × Ext K) := do
  let m ← maxOutflow L a (.num t)
  .ok (t, negExt m)

/-- `_accum_account` (subforecast.py:408-474). -/
def accumAccount (ttv : Acct K → K → K → Except PyErr (Ext K)) (L : Limits K) (a : Acct K)
    (when value : K) : Except PyErr (Dict K (Ext K)) := do
  let accum ← (materialTimes a.txns when).dedup.mapM (accumEntry L a)
  let times := (Dict.keys accum).insertionSort (· ≤ ·)
  (times.zip times.tail).foldlM (interpolate ttv L a value) accum

/-- The last part of `_shift_when` (subforecast.py:395-405). -/
def earliest (accum : Dict K (Ext K)) (value when : K) : K :=
  (((Dict.keys accum).filter fun t =>
    decide (∀ kv ∈ accum, kv.1 ≥ t → kv.2 ≥ .fin value)).min?).getD when

/-- `_shift_when` (subforecast.py:372-405). -/
def shiftWhen (ttv : Acct K → K → K → Except PyErr (Ext K)) (q : Pool K) (value when : K) :
    Except PyErr K :=
  match q with
  | .dict _ d => .ok (earliest (accumDict d when) value when)
  | .acct L a => do
    let accum ← accumAccount ttv L a when value
    .ok (earliest accum value when)

/-- The date used by `_add_transaction` (subforecast.py:336-338). -/
def dateFor (ttv : Acct K → K → K → Except PyErr (Ext K)) (s : St P K) (value when : K)
    (src : Option P) (strict : Bool) : Except PyErr K :=
  match src with
  | none => .ok when
  | some p => if strict then .ok when else shiftWhen ttv (s.pools p) value when

/-- `_add_transaction` (subforecast.py:326-370). -/
def addTransaction1 (ttv : Acct K → K → K → Except PyErr (Ext K)) (s : St P K)
    (value when : K) (src dst : Option P) (strict : Bool) : St P K × Option PyErr :=
  match dateFor ttv s value when src strict with
  | .error e => (s, some e)
  | .ok w =>
    match leg s src w (-value) with
    | .error e => (s, some e)
    | .ok s1 =>
      match leg s1 dst w value with
      | .error e => (s1, some e)
      | .ok s2 => (s2, none)

/-- A `for` loop whose body may raise: it stops at the first exception. -/
def forEach {α : Type} (body : St P K → α → St P K × Option PyErr) :
    St P K → List α → St P K × Option PyErr
  | s, [] => (s, none)
  | s, x :: xs =>
    match body s x with
    | (s', none) => forEach body s' xs
    | (s', some e) => (s', some e)

/-- The `timing` argument of `add_transaction` (subforecast.py:298-306). -/
def resolve (default : Dict K K) : Option (Arg K) → Except PyErr (Dict K K)
  | none => .ok default
  | some (.timing d) => .ok d
  | some arg => Timing.init arg (.num 1)

/-- Arguments of `add_transaction` (subforecast.py:249-252). -/
structure Req (P K : Type) where
  value : K
  timing : Option (Arg K) := none
  src : Option P := none
  dst : Option P := none
  strict : Bool := false

/-- A negative value is a transfer the other way (subforecast.py:308-312). -/
def orient (q : Req P K) : K × Option P × Option P :=
  if q.value < 0 then (-q.value, q.dst, q.src) else (q.value, q.src, q.dst)

/-- `add_transaction` (subforecast.py:249-324). A zero weight sum raises
`ZeroDivisionError` at the first timing (line 320). -/
def addTransaction (ttv : Acct K → K → K → Except PyErr (Ext K)) (default : Dict K K)
    (s : St P K) (q : Req P K) : St P K × Option PyErr :=
  match resolve default q.timing with
  | .error e => (s, some e)
  | .ok timing =>
    let o := orient q
    let totalWeight := Dict.total timing
    forEach (fun s kv =>
      if totalWeight = 0 then (s, some .zeroDivisionError)
      else addTransaction1 ttv s (o.1 * (kv.2 / totalWeight)) kv.1 o.2.1 o.2.2 q.strict)
      s timing

/-- `add_transactions` (subforecast.py:218-242). -/
def addTransactions (ttv : Acct K → K → K → Except PyErr (Ext K)) (default : Dict K K)
    (s : St P K) (txs : Dict K K) (src dst : Option P) (strict : Bool) :
    St P K × Option PyErr :=
  forEach (fun s kv => addTransaction ttv default s
    { value := kv.2, timing := some (.scalar (.num kv.1)), src, dst, strict }) s txs

/-- `pool[when] -= value` (subforecast.py:209): a plain dict without that entry raises
`KeyError`; a `defaultdict` and an `Account` (whose transactions are a `defaultdict`) take
it to be 0. -/
def poolSub (q : Pool K) (when value : K) : Except PyErr (Pool K) :=
  match q with
  | .dict f d =>
    match Dict.get? d when with
    | some x => .ok (.dict f (Dict.set d when (x - value)))
    | none => if f then .ok (.dict f (Dict.set d when (0 - value))) else .error .keyError
  | .acct L a => do
    let a' ← setItem a (.num when) (Dict.val a.txns when - value)
    .ok (.acct L a')

/-- The inner loop of `undo_transactions` (subforecast.py:208-209). -/
def undoPool (s : St P K) (p : P) (kv : K × K) : St P K × Option PyErr :=
  match poolSub (s.pools p) kv.1 kv.2 with
  | .ok q => (setPool s p q, none)
  | .error e => (s, some e)

/-- The outer loop of `undo_transactions` (subforecast.py:206-209). -/
def undoEntry (s : St P K) (e : Option P × Dict K K) : St P K × Option PyErr :=
  match e.1 with
  | none => (s, none)
  | some p => forEach (fun s kv => undoPool s p kv) s e.2

/-- `undo_transactions` (subforecast.py:203-216). The record itself is *not* emptied. -/
def undo (s : St P K) : St P K × Option PyErr :=
  match forEach undoEntry s s.record with
  | (s', some e) => (s', some e)
  | (s', none) => ({ s' with called := false }, none)

/-- `total_available` (subforecast.py:188-201). -/
def totalOf (q : Pool K) : Except PyErr (Ext K) :=
  match q with
  | .dict _ d => .ok (.fin (Dict.total d))
  | .acct L a => maxOutflow L a (.num 1)

/-- The part of `__call__` after the undoing (subforecast.py:182-201). -/
def begin (s : St P K) (available : P) : St P K × Option PyErr :=
  match totalOf (s.pools available) with
  | .ok x => ({ s with called := true, totalAvailable := x }, none)
  | .error e => ({ s with called := true }, some e)

/-- `__call__` (subforecast.py:176-201). -/
def call (s : St P K) (available : P) : St P K × Option PyErr :=
  if s.called then
    match undo s with
    | (s', some e) => (s', some e)
    | (s', none) => begin s' available
  else begin s available

/-- A concrete sub-forecast's `__call__`: the base class's, then its transactions
(e.g. forecast/income.py:44-62). -/
def callWith (ttv : Acct K → K → K → Except PyErr (Ext K)) (default : Dict K K)
    (available : P) (reqs : List (Req P K)) (s : St P K) : St P K × Option PyErr :=
  match call s available with
  | (s', some e) => (s', some e)
  | (s', none) => forEach (addTransaction ttv default) s' reqs

/-- `next_year` (subforecast.py:161-174) as far as the transactions are concerned. -/
def nextYear (s : St P K) : St P K := { s with record := [], called := false }

end Forecaster.SubForecast
