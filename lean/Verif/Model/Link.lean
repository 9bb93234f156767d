import Verif.Model.Account

/-!
# `forecaster/accounts/link.py` and `forecaster/accounts/linked_limit.py`
-/

namespace Forecaster.Link

open Forecaster Forecaster.Timing Forecaster.Account

/-- `LinkRecord` (link.py:10-15): the set of linked accounts and the shared data. -/
structure Record (Acc V : Type) where
  group : List Acc
  data : V

/-- An `AccountLink` object (link.py:66-88); `default` is what `default_factory()` returns. -/
structure AccountLink (O T V : Type) where
  owner : O
  token : T
  default : V

/-- `owner.data` for every owner. (`Person.data` could also hold other things under other
tokens; they are not modelled.) -/
abbrev Store (O T Acc V : Type) := O → Dict T (Record Acc V)

variable {O T Acc V : Type} [DecidableEq O] [DecidableEq T] [DecidableEq Acc]

/-- `AccountLink._record` getter (link.py:114-120). -/
def record (s : Store O T Acc V) (l : AccountLink O T V) : Option (Record Acc V) :=
  Dict.get? (s l.owner) l.token

/-- `AccountLink._record` setter (link.py:122-126). -/
def putRecord (s : Store O T Acc V) (l : AccountLink O T V) (r : Record Acc V) :
    Store O T Acc V :=
  fun o => if o = l.owner then Dict.set (s o) l.token r else s o

/-- `AccountLink.is_registered` (link.py:134-136). -/
def isRegistered (s : Store O T Acc V) (l : AccountLink O T V) : Bool :=
  (record s l).isSome

/-- `AccountLink.register` (link.py:138-149), called by `__init__` (link.py:86-88). -/
def register (s : Store O T Acc V) (l : AccountLink O T V) : Store O T Acc V :=
  if isRegistered s l then s else putRecord s l ⟨[], l.default⟩

/-- `AccountLink.unregister` (link.py:151-158), with the deleter of `_record` (link.py:128-132). -/
def unregister (s : Store O T Acc V) (l : AccountLink O T V) : Store O T Acc V :=
  if isRegistered s l then
    fun o => if o = l.owner then Dict.del (s o) l.token else s o
  else s

/-- `AccountLink.data` getter (link.py:90-96). -/
def getData (s : Store O T Acc V) (l : AccountLink O T V) : Option V :=
  (record s l).map Record.data

/-- `AccountLink.data` setter (link.py:98-104). -/
def setData (s : Store O T Acc V) (l : AccountLink O T V) (v : V) :
    Except PyErr (Store O T Acc V) :=
  match record s l with
  | some r => .ok (putRecord s l { r with data := v })
  | none => .error .attributeError

/-- `AccountLink.group` (link.py:106-112). -/
def getGroup (s : Store O T Acc V) (l : AccountLink O T V) : Option (List Acc) :=
  (record s l).map Record.group

/-- `AccountLink.link_account` (link.py:166-173): `set.add`. -/
def linkAccount (s : Store O T Acc V) (l : AccountLink O T V) (a : Acc) :
    Except PyErr (Store O T Acc V) :=
  match record s l with
  | some r =>
    .ok (putRecord s l { r with group := if a ∈ r.group then r.group else r.group ++ [a] })
  | none => .error .keyError

/-- `AccountLink.unlink_account` (link.py:175-179): `set.remove`, which raises `KeyError` for
an absent account; `None.remove` raises `AttributeError`. -/
def unlinkAccount (s : Store O T Acc V) (l : AccountLink O T V) (a : Acc) :
    Except PyErr (Store O T Acc V) :=
  match record s l with
  | some r =>
    if a ∈ r.group then .ok (putRecord s l { r with group := r.group.filter (fun b => b ≠ a) })
    else .error .keyError
  | none => .error .attributeError

/-- The operations on links. `create` is the constructor. -/
inductive Op (O T Acc V : Type)
  | create (l : AccountLink O T V)
  | unregister (l : AccountLink O T V)
  | setData (l : AccountLink O T V) (v : V)
  | link (l : AccountLink O T V) (a : Acc)
  | unlink (l : AccountLink O T V) (a : Acc)

/-- The `AccountLink` an operation goes through. -/
def Op.via : Op O T Acc V → AccountLink O T V
  | .create l | .unregister l | .setData l _ | .link l _ | .unlink l _ => l

/-- One operation. -/
def step (s : Store O T Acc V) : Op O T Acc V → Except PyErr (Store O T Acc V)
  | .create l => .ok (register s l)
  | .unregister l => .ok (unregister s l)
  | .setData l v => setData s l v
  | .link l a => linkAccount s l a
  | .unlink l a => unlinkAccount s l a

/-- A program; operations that raise change nothing. -/
def run (s : Store O T Acc V) (ops : List (Op O T Acc V)) : Store O T Acc V :=
  ops.foldl (fun s op => match step s op with | .ok s' => s' | .error _ => s) s

/-! ### `LinkedLimitAccount` -/

/-- The four links of a `LinkedLimitAccount` (linked_limit.py:61-81). -/
structure Links (O T V : Type) where
  maxIn : Option (AccountLink O T V)
  minIn : Option (AccountLink O T V)
  maxOut : Option (AccountLink O T V)
  minOut : Option (AccountLink O T V)

/-- `_get_limit` (linked_limit.py:127-141), which the four getters call with their own link and the limit of
a plain account (linked_limit.py:83-87, 94-98, 105-109, 116-120). The outer `none` of the result is Python's
`None`. -/
def getLimit (s : Store O T Acc V) (link : Option (AccountLink O T V)) (default : V) : Option V :=
  match link with
  | some l => getData s l
  | none => some default

/-- `_set_limit` (linked_limit.py:144-160). -/
def setLimit (s : Store O T Acc V) (link : Option (AccountLink O T V)) (v : V) :
    Except PyErr (Store O T Acc V) :=
  match link with
  | some l => setData s l v
  | none => .error .attributeError

/-- `_process_link` (linked_limit.py:162-196) for a link given as a tuple, or as an
`AccountLink` which was therefore registered when it was constructed. -/
def processLink (s : Store O T Acc V) (self : Acc) (link : Option (AccountLink O T V))
    (limit : Option V) : Except PyErr (Store O T Acc V) :=
  match link with
  | none => .ok s
  | some l => do
    let s1 := register s l
    let s2 ← linkAccount s1 l self
    match limit with
    | some v => setData s2 l v
    | none => .ok s2

/-- `max_inflow_limit` setter (linked_limit.py:89-92). -/
def setMaxInflowLimit (s : Store O T Acc V) (L : Links O T V) (v : V) := setLimit s L.maxIn v
/-- `min_inflow_limit` setter (linked_limit.py:100-103). -/
def setMinInflowLimit (s : Store O T Acc V) (L : Links O T V) (v : V) := setLimit s L.minIn v
/-- `max_outflow_limit` setter (linked_limit.py:111-114): it passes the *inflow* link. -/
def setMaxOutflowLimit (s : Store O T Acc V) (L : Links O T V) (v : V) := setLimit s L.maxIn v
/-- `min_outflow_limit` setter (linked_limit.py:122-125): it passes the *inflow* link. -/
def setMinOutflowLimit (s : Store O T Acc V) (L : Links O T V) (v : V) := setLimit s L.minIn v

/-! ### Merging linked accounts' transactions -/

section Merge

variable {K : Type} [Field K] [LinearOrder K] [IsStrictOrderedRing K]

/-- One pass of the loop of `_merge_transactions` (linked_limit.py:250-257); a linked account is
represented by its recorded transactions and its entry in `group_transactions`. -/
def mergeOne (t : Dict K K) (o : Dict K K × Option (Dict K K)) : Dict K K :=
  let t := addTransactions t o.1
  match o.2 with
  | some e => addTransactions t e
  | none => t

/-- `_merge_transactions` (linked_limit.py:198-258). `own` is `group_transactions[self]`;
`others = none` means that there is no link. -/
def mergeTransactions (transactions own : Option (Dict K K))
    (others : Option (List (Dict K K × Option (Dict K K)))) : Dict K K :=
  let base := match transactions with
    | some t => t
    | none => own.getD []
  match others with
  | none => base
  | some os => os.foldl mergeOne base

/-- `LinkedLimitAccount.max_inflows` (linked_limit.py:260-289). -/
def linkedMaxInflows (L : Limits K) (a : Acct K) (k : FlowArgs K) (own : Option (Dict K K))
    (others : Option (List (Dict K K × Option (Dict K K)))) : Except PyErr (Dict K (Ext K)) :=
  maxInflows L a { k with transactions := some (mergeTransactions k.transactions own others) }

/-- `LinkedLimitAccount.max_outflows` (linked_limit.py:291-320). -/
def linkedMaxOutflows (L : Limits K) (a : Acct K) (k : FlowArgs K) (own : Option (Dict K K))
    (others : Option (List (Dict K K × Option (Dict K K)))) : Except PyErr (Dict K (Ext K)) :=
  maxOutflows L a { k with transactions := some (mergeTransactions k.transactions own others) }

/-- `LinkedLimitAccount.min_inflows` (linked_limit.py:322-351). -/
def linkedMinInflows (L : Limits K) (a : Acct K) (k : FlowArgs K) (own : Option (Dict K K))
    (others : Option (List (Dict K K × Option (Dict K K)))) : Except PyErr (Dict K (Ext K)) :=
  minInflows L a { k with transactions := some (mergeTransactions k.transactions own others) }

/-- `LinkedLimitAccount.min_outflows` (linked_limit.py:353-382). -/
def linkedMinOutflows (L : Limits K) (a : Acct K) (k : FlowArgs K) (own : Option (Dict K K))
    (others : Option (List (Dict K K × Option (Dict K K)))) : Except PyErr (Dict K (Ext K)) :=
  minOutflows L a { k with transactions := some (mergeTransactions k.transactions own others) }

/-- The finite amounts of a schedule (`none` if some amount is infinite). -/
def finVals (d : Dict K (Ext K)) : Option (Dict K K) :=
  d.mapM fun kv => match kv.2 with | .fin x => some (kv.1, x) | _ => none

/-- User-level scenario: account number `i` of a group of linked accounts with contribution
limit `lim` contributes everything `max_inflows()` permits. -/
def contribute (lim : K) (as : List (Acct K)) (i : ℕ) : Except PyErr (List (Acct K)) :=
  match as[i]? with
  | none => .error .indexError
  | some a => do
    let others := (as.eraseIdx i).map fun b => (b.txns, (none : Option (Dict K K)))
    let d ← linkedMaxInflows { plainLimits with maxIn := .fin lim } a {} none (some others)
    match finVals d with
    | none => .error .overflowError
    | some d => do
      let a' ← d.foldlM (fun a kv => addTransaction a kv.2 (.num kv.1)) a
      .ok (as.set i a')

/-- User-level scenario: account number `i` of a group of accounts with the linked withdrawal limit
`lim` (a negative number or zero) withdraws everything `max_outflows()` permits. -/
def withdraw (lim : K) (as : List (Acct K)) (i : ℕ) : Except PyErr (List (Acct K)) :=
  match as[i]? with
  | none => .error .indexError
  | some a => do
    let others := (as.eraseIdx i).map fun b => (b.txns, (none : Option (Dict K K)))
    let d ← linkedMaxOutflows { plainLimits with maxOut := .fin lim } a {} none (some others)
    match finVals d with
    | none => .error .overflowError
    | some d => do
      let a' ← d.foldlM (fun a kv => addTransaction a kv.2 (.num kv.1)) a
      .ok (as.set i a')

end Merge
end Forecaster.Link
