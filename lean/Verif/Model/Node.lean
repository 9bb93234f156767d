import Verif.Model.Traversal

/-!
# `forecaster/strategy/transaction/node.py`, and how a `TransactionTraversal` is set up

`TransactionNode` objects live in a heap and are referred to by their numbers (which carry no
meaning: children happen to get theirs before their parents). What users write down (`Item`) may
contain objects made before.

`TransactionTraversal.__init__`, the `priority` property and the choice of methods
(transaction/base.py:172-224, transaction/util.py:11-66).

Simplifications. Lists and tuples are not told apart. The keys of a dict are any items (in Python
lists and dicts cannot be keys; tuples and nodes can). The docstring's `limit` keyword for
`TransactionNode` is `limits`.
-/

namespace Forecaster.Node

open Forecaster Forecaster.Traversal

variable {K : Type} [Field K] [LinearOrder K]
variable {A : Type} [DecidableEq A]

/-- A priority tree as written down (node.py:22-35). -/
inductive Item (A K : Type)
  | acct (a : A)
  | list (cs : List (Item A K))
  | dict (cs : List (Item A K × K))
  /-- a `TransactionNode` that exists already -/
  | node (n : ℕ)

/-- `LimitTuple` (accounts/util.py:8-12). -/
structure LimitTuple (V : Type) where
  minIn : V
  maxIn : V
  minOut : V
  maxOut : V

/-- `getattr(limits, limit)`. -/
def LimitTuple.get {V : Type} (t : LimitTuple V) : Lim → V
  | .minIn => t.minIn
  | .maxIn => t.maxIn
  | .minOut => t.minOut
  | .maxOut => t.maxOut

/-- `LimitTuple(*args)`: a `namedtuple` whose fields have a default (accounts/util.py:9-10). -/
def limitTuple {V : Type} (default : V) : List V → Except PyErr (LimitTuple V)
  | [] => .ok ⟨default, default, default, default⟩
  | [a] => .ok ⟨a, default, default, default⟩
  | [a, b] => .ok ⟨a, b, default, default⟩
  | [a, b, c] => .ok ⟨a, b, c, default⟩
  | [a, b, c, d] => .ok ⟨a, b, c, d⟩
  | _ => .error .typeError

/-- No limits (node.py:69-73). -/
def noLimits : LimitTuple (Option K) := ⟨none, none, none, none⟩

/-- `children` (node.py:40-49): a tuple, or a dict of weights. -/
inductive Children (K : Type)
  | tuple (cs : List ℕ)
  | dict (cs : Dict ℕ K)

/-- A `TransactionNode`; `children` is `none` if the attribute does not exist. -/
structure Obj (A K : Type) where
  source : Item A K
  limits : LimitTuple (Option K)
  children : Option (Children K)

/-- All `TransactionNode`s. -/
abbrev Heap (A K : Type) := List (Obj A K)

mutual

/-- `child` as a `TransactionNode` (node.py:157-159, 168-170): a node stays what it is, anything
else becomes a new node (node.py:51-77, 137-149) with the given limits. -/
def build (h : Heap A K) (lt : LimitTuple (Option K)) : Item A K → Heap A K × ℕ
  | .node n => (h, n)
  | .acct a => (h ++ [⟨.acct a, lt, some (.tuple [])⟩], h.length)
  | .list cs =>
    let r := buildTuple h cs
    (r.1 ++ [⟨.list cs, lt, some (.tuple r.2)⟩], r.1.length)
  | .dict cs =>
    let r := buildDict h [] cs
    (r.1 ++ [⟨.dict cs, lt, some (.dict r.2)⟩], r.1.length)

/-- `_children_from_source_ordered` (node.py:151-160). -/
def buildTuple (h : Heap A K) : List (Item A K) → Heap A K × List ℕ
  | [] => (h, [])
  | c :: cs =>
    let r := build h noLimits c
    let r' := buildTuple r.1 cs
    (r'.1, r.2 :: r'.2)

/-- `_children_from_source_weighted` (node.py:162-171); `children` so far. -/
def buildDict (h : Heap A K) (children : Dict ℕ K) : List (Item A K × K) → Heap A K × Dict ℕ K
  | [] => (h, children)
  | (c, w) :: cs =>
    let r := build h noLimits c
    buildDict r.1 (Dict.set children r.2 w) cs

end

/-- `TransactionNode(source, limits)` (node.py:51-77). Copying a node (lines 53-57) leaves
`children` unset and ignores `limits`. (A number that refers to nothing cannot occur.) -/
def new (h : Heap A K) (source : Item A K) (limits : Option (List (Option K))) :
    Except PyErr (Heap A K × ℕ) :=
  match source with
  | .node n =>
    match h[n]? with
    | some o => .ok (h ++ [⟨o.source, o.limits, none⟩], h.length)
    | none => .error .typeError
  | s => do
    let lt ← match limits with
      | none => .ok noLimits
      | some l => limitTuple none l
    .ok (build h lt s)

/-- `self.children[child]` with its key (node.py:123). -/
def weighed (cs : Dict ℕ K) (c : ℕ) : Except PyErr (ℕ × K) :=
  match Dict.get? cs c with
  | some w => .ok (c, w)
  | none => .error .keyError

/-- `children_subset` (node.py:103-131). -/
def childrenSubset (h : Heap A K) (n : ℕ) (subset : List ℕ) : Except PyErr (Children K) :=
  match (h[n]?).bind Obj.children with
  | none => .error .attributeError
  | some (.dict cs) => do
    let l ← subset.mapM (weighed cs)
    .ok (.dict (l.foldl (fun d e => Dict.set d e.1 e.2) []))
  | some (.tuple cs) =>
    if ∃ c ∈ subset, c ∉ cs then .error .keyError
    else .ok (.tuple (cs.filter fun c => decide (c ∈ subset)))

/-- `is_parent_node` (node.py:83-85). -/
def isParent : Item A K → Bool
  | .list _ => true
  | .dict _ => true
  | _ => false

/-- The tree that the traversal walks (`is_weighted`, `is_ordered`, `is_leaf_node`, `children`,
`limits`; node.py:79-97). -/
def treeOf (h : Heap A K) (root : ℕ) : Tree ℕ A K where
  root := root
  kind n :=
    match h[n]? with
    | some ⟨.acct a, _, _⟩ => .leaf a
    | some ⟨_, _, some (.tuple cs)⟩ => .ordered cs
    | some ⟨_, _, some (.dict cs)⟩ => .weighted cs
    | _ => .ordered []
  limits n lim := (h[n]?).bind fun o => o.limits.get lim

/-! ### The traversal object -/

/-- What a field of `transaction_methods` (or `group_methods`) holds: nothing, a function of an
account, or something that cannot be called (a tuple). -/
inductive Slot (A M : Type)
  | none
  | fn (f : A → Except PyErr M)
  | tuple

/-- Calling it. -/
def Slot.call {M : Type} : Slot A M → A → Except PyErr M
  | .none, _ => .error .typeError
  | .tuple, _ => .error .typeError
  | .fn f, a => f a

/-- `TRANSACTION_LIMIT_FIELD_NAMES` (util.py:16-19). -/
def transactionFields : LimitTuple String :=
  ⟨"min_inflows", "max_inflows", "min_outflows", "max_outflows"⟩

/-- `LINK_FIELD_NAMES` (util.py:13-15). -/
def linkFields : LimitTuple String :=
  ⟨"min_inflow_link", "max_inflow_link", "min_outflow_link", "max_outflow_link"⟩

/-- `LimitTuple(*methods)` where `methods` has one entry for each of the names
(util.py:21-34, 38-64). -/
def forEach {M : Type} (f : String → A → Except PyErr M) (names : LimitTuple String) :
    LimitTuple (Slot A M) :=
  ⟨.fn (f names.minIn), .fn (f names.maxIn), .fn (f names.minOut), .fn (f names.maxOut)⟩

/-- `transaction_default_methods` (util.py:21-34); `getattr` looks a method of an account up. -/
def transactionDefaults {M : Type} (getattr : A → String → Except PyErr M) :
    LimitTuple (Slot A M) :=
  forEach (fun name a => getattr a name) transactionFields

/-- `group_default_methods` (util.py:38-64); `link` looks a link of an account up: `none` if there
is no such attribute, `some none` if it is `None`, else the link's group. -/
def groupDefaults (link : A → String → Option (Option (Finset A))) :
    LimitTuple (Slot A (Option (Finset A))) :=
  forEach (fun name a => match link a name with
    | some (some g) => .ok (some g)
    | _ => .ok none) linkFields

/-- What becomes of the arguments `transaction_methods` and `group_methods`
(base.py:186-193): `LimitTuple(x)` has `x` as its first field. -/
def methodsArg {M : Type} (default : LimitTuple (Slot A M)) : Option (Slot A M) →
    LimitTuple (Slot A M)
  | none => default
  | some x => ⟨x, .none, .none, .none⟩

/-- A `TransactionTraversal` (base.py:172-209). `priority` is what the held object contains now. -/
structure Trav (A K M : Type) where
  priority : Option (Item A K)
  tree : Option ℕ
  methods : LimitTuple (Slot A M)
  groups : LimitTuple (Slot A (Option (Finset A)))

/-- The setter of `priority` (base.py:216-224); `same` is Python's `==` with the current one. -/
def setPriority {M : Type} (same : Item A K → Item A K → Bool) (h : Heap A K) (T : Trav A K M)
    (val : Item A K) : Except PyErr (Heap A K × Trav A K M) :=
  match T.priority with
  | some p =>
    if same val p then .ok (h, T)
    else do
      let r ← new h val none
      .ok (r.1, { T with priority := some val, tree := some r.2 })
  | none => do
    let r ← new h val none
    .ok (r.1, { T with priority := some val, tree := some r.2 })

/-- `TransactionTraversal(priority, transaction_methods, group_methods)` (base.py:172-209). -/
def init {M : Type} (same : Item A K → Item A K → Bool) (getattr : A → String → Except PyErr M)
    (link : A → String → Option (Option (Finset A))) (h : Heap A K) (priority : Item A K)
    (transactionMethods : Option (Slot A M)) (groupMethods : Option (Slot A (Option (Finset A)))) :
    Except PyErr (Heap A K × Trav A K M) :=
  setPriority same h
    { priority := none
      tree := none
      methods := methodsArg (transactionDefaults getattr) transactionMethods
      groups := methodsArg (groupDefaults link) groupMethods } priority

/-- `TransactionTraversal(None, ...)` (base.py:172-209): `None` equals the `_priority` of the new object
(base.py:183, 219), so no tree is built. -/
def initNone {M : Type} (getattr : A → String → Except PyErr M)
    (link : A → String → Option (Option (Finset A)))
    (transactionMethods : Option (Slot A M)) (groupMethods : Option (Slot A (Option (Finset A)))) :
    Trav A K M :=
  { priority := none
    tree := none
    methods := methodsArg (transactionDefaults getattr) transactionMethods
    groups := methodsArg (groupDefaults link) groupMethods }

/-- The rest of what a call needs: what a method of an account answers (with and without a
total), the flow algorithm, the order of sets. -/
structure Rest (A K M : Type) where
  precision : K
  /-- `sum(method(timing, transaction_limit=None).values())` -/
  limit : M → Except PyErr (Ext K)
  /-- `method(timing, transaction_limit=total)` -/
  tx : M → K → Except PyErr (Dict K K)
  solve : Graph ℕ A → Except PyErr (Flows ℕ A)
  setOrder : List ℕ → List ℕ := id
  acctOrder : List A → List A := id

/-- What `Traversal.call` works with: `_get_transactions` (util.py:198-205) and `_get_group`
(util.py:235-238) call the chosen field of the tuples. A group method that raises makes
`_add_node_account` raise; here the account's limit raises instead, one statement earlier. -/
def envOf {M : Type} (R : Rest A K M) (h : Heap A K) (T : Trav A K M) (root : ℕ) : Env ℕ A K where
  tree := treeOf h root
  precision := R.precision
  limitOf a lim := do
    let m ← (T.methods.get lim).call a
    let x ← R.limit m
    let _ ← (T.groups.get lim).call a
    .ok x
  txOf a lim total := do
    let m ← (T.methods.get lim).call a
    R.tx m total
  groupOf a lim := match (T.groups.get lim).call a with
    | .ok g => g
    | .error _ => none
  solve := R.solve
  setOrder := R.setOrder
  acctOrder := R.acctOrder

/-- `TransactionTraversal.__call__` (base.py:226-278): `node.children` of the root is read as soon
as the root's successors are added (base.py:538-539). Without a priority tree networkx refuses `None`
as a node (`ValueError`). (A copied node inside a tree is not covered.) -/
def call [FloorRing K] {M : Type} (R : Rest A K M) (h : Heap A K) (T : Trav A K M) (fuel : ℕ)
    (total : K) : Except PyErr (Dict A (Dict K K)) :=
  match T.tree with
  | none => if total > R.precision ∨ total < -R.precision then .error .valueError else .ok []
  | some root =>
    if (total > R.precision ∨ total < -R.precision) ∧
        (∃ o ∈ h[root]?, isParent o.source ∧ o.children.isNone) then .error .attributeError
    else Traversal.call (envOf R h T root) fuel total

end Forecaster.Node
