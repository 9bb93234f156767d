import Verif.Model.Account
import Mathlib.Data.List.Sort

/-!
# An account as a mapping from dates to transactions

`len(account)`, `account[key]`, iteration etc. (accounts/base.py:840-884). `_transactions` is a
`defaultdict`, so that looking up a missing key inserts it; a key given as text ('start', 'end' or
anything else) is not converted first. The state is an account of `Verif/Model/Account.lean` (numeric
dates) together with the entries that have text keys.
-/

namespace Forecaster.Mapping

open Forecaster Forecaster.Timing Forecaster.Account

variable {K : Type} [Field K] [LinearOrder K] [IsStrictOrderedRing K]

/-- An account and the text-keyed entries of `_transactions`. -/
structure MA (K : Type) where
  acct : Acct K
  text : Dict String K

/-- `len(account)` (accounts/base.py:844-845). -/
def len (m : MA K) : ℕ := m.acct.txns.length + m.text.length

/-- What iteration yields. -/
inductive Keys (K : Type)
  | nums (l : List K)
  | strs (l : List String)
  deriving DecidableEq

/-- `list(account)` (accounts/base.py:847-849): sorting a mixture of numbers and text raises
TypeError. -/
def iter (m : MA K) : Except PyErr (Keys K) :=
  if m.text = [] then .ok (.nums ((Dict.keys m.acct.txns).mergeSort fun x y => decide (x ≤ y)))
  else if m.acct.txns = [] then .ok (.strs ((Dict.keys m.text).mergeSort fun x y => decide (x ≤ y)))
  else .error .typeError

/-- `key in account` (accounts/base.py:851-853). -/
def contains (m : MA K) (key : When K) : Except PyErr Bool := Account.contains m.acct key

/-- `account[key]` (accounts/base.py:855-856). -/
def getItem (m : MA K) (key : When K) : K × MA K :=
  match key with
  | .num x =>
    match Dict.get? m.acct.txns x with
    | some v => (v, m)
    | none => (0, { m with acct := { m.acct with txns := Dict.set m.acct.txns x 0 } })
  | .str t =>
    match Dict.get? m.text t with
    | some v => (v, m)
    | none => (0, { m with text := Dict.set m.text t 0 })

/-- `account[key] = value` (accounts/base.py:858-861); a call that raises leaves the state it has
reached. -/
def setItem (m : MA K) (key : When K) (value : K) : Option PyErr × MA K :=
  match key with
  | .num _ =>
    match Account.setItem m.acct key value with
    | .ok a => (none, { m with acct := a })
    | .error e => (some e, m)
  | .str t =>
    let m' := { m with text := Dict.del m.text t }
    match addTransaction m'.acct value key with
    | .ok a => (none, { m' with acct := a })
    | .error e => (some e, m')

/-- `del account[key]` (accounts/base.py:863-864). -/
def delItem (m : MA K) (key : When K) : Option PyErr × MA K :=
  match key with
  | .num _ =>
    match Account.delItem m.acct key with
    | .ok a => (none, { m with acct := a })
    | .error e => (some e, m)
  | .str t =>
    if t ∈ Dict.keys m.text then (none, { m with text := Dict.del m.text t })
    else (some .keyError, m)

/-- `account.get(key, default)` (accounts/base.py:878-880): `dict.get` takes no keyword arguments. -/
def get (_ : MA K) (_ : When K) : Except PyErr (Option K) := .error .typeError

/-- `account.clear()` (accounts/base.py:882-884). -/
def clear (m : MA K) : MA K := ⟨Account.clear m.acct, []⟩

/-- `account.balance_at_time(time)` (accounts/base.py:889-923): `w <= time` raises TypeError for text, in
a comprehension that comes before the loop. -/
def balanceAtTime (m : MA K) (time : When K) : Except PyErr K :=
  if m.text = [] then Account.balanceAtTime m.acct time none
  else do
    let _ ← whenConv time
    let _ ← Account.balance m.acct
    .error .typeError

/-- `account.returns` (accounts/base.py:302-330): `one - when` raises TypeError for text. -/
def returns (m : MA K) : Except PyErr K := do
  let x ← Account.returns m.acct
  if m.text = [] then .ok x else .error .typeError

/-- `account.next_year()` (accounts/base.py:388-406), which records `returns`. (Simplification: what is
on record when it raises is left out.) -/
def nextYear (m : MA K) : Option PyErr × MA K :=
  match returns m with
  | .error e => (some e, m)
  | .ok _ =>
    match Account.nextYear m.acct with
    | .ok a => (none, ⟨a, []⟩)
    | .error e => (some e, m)

/-- `account.add_transaction(value, when)` -/
def add (m : MA K) (value : K) (when : When K) : Option PyErr × MA K :=
  match addTransaction m.acct value when with
  | .ok a => (none, { m with acct := a })
  | .error e => (some e, m)

/-- What can be done with an account. -/
inductive Op (K : Type)
  | look (key : When K)
  | other (op : Account.Op K)

/-- One operation. -/
def step (m : MA K) : Op K → MA K
  | .look k => (getItem m k).2
  | .other (.add v w) => (add m v w).2
  | .other (.setItem k v) => (setItem m k v).2
  | .other (.delItem k) => (delItem m k).2
  | .other .clear => clear m
  | .other .nextYear => (nextYear m).2

/-- A program. -/
def run (m : MA K) (ops : List (Op K)) : MA K := ops.foldl step m

end Forecaster.Mapping
