import Verif.Model.Timing
import Verif.Model.Ext
import Mathlib.Algebra.Order.Floor.Defs
import Mathlib.Data.Finset.Basic

/-!
# `forecaster/strategy/transaction/{base,graph,node,util}.py`

Priority-tree nodes (`TransactionNode` objects, compared by identity) are named by `N`, accounts
by `A`.  The tree is given by what each node object holds, so that nodes may be shared, as in
the program; a cyclic "tree" makes the recursions run out of `fuel` (Python: `RecursionError`).

Parameters (see `Env`): the flow algorithm of networkx (`solve`), what accounts answer
(`limitOf`, `txOf`, `groupOf`) and the iteration order of sets (`setOrder`, `acctOrder`).

Simplifications: numbers are exact (no `high_precision`); the `limit` attribute of edges, which
nothing reads, is left out; per-node limits are finite; `outbound_nodes` maps every tree node `n`
to `(n, "limit")` and `overflow_nodes` maps `(n, "limit")` to `((n, "limit"), "overflow")` for
every weighted node, because every node is visited by `_add_successors` before they are used.
-/

namespace Forecaster.Traversal

open Forecaster Forecaster.Timing

variable {K : Type} [Field K] [LinearOrder K] [IsStrictOrderedRing K] [FloorRing K]
variable {N A : Type} [DecidableEq N] [DecidableEq A]

/-- The fields of `LimitTuple` (accounts/util.py `LIMIT_TUPLE_FIELDS`). -/
inductive Lim
  | minIn | maxIn | minOut | maxOut
  deriving DecidableEq

/-- What a `TransactionNode` holds (node.py:51-97): a leaf wraps an account, an ordered node
has a tuple of children, a weighted one a dict of children to weights. -/
inductive Kind (N A K : Type)
  | leaf (a : A)
  | ordered (cs : List N)
  | weighted (cs : Dict N K)

/-- A priority tree (node.py:15-77): the root, and the `source`/`children` and `limits` of
every node. -/
structure Tree (N A K : Type) where
  root : N
  kind : N → Kind N A K
  limits : N → Lim → Option K := fun _ _ => none

/-- The nodes of the graph: `source` is 0 and `sink` is 1 (base.py:444-447), `limit n` is
`(n, "limit")` (base.py:596), `overflow n` is `((n, "limit"), "overflow")` (base.py:681),
`group s` is `frozenset(s)` (base.py:1169). -/
inductive G (N A : Type)
  | source
  | sink
  | node (n : N)
  | limit (n : N)
  | overflow (n : N)
  | acct (a : A)
  | group (s : Finset A)
  deriving DecidableEq

/-- The attributes of an edge; an absent capacity is infinite, an absent weight is 0. -/
structure Edge where
  capacity : Option ℤ
  weight : Option ℤ
  deriving DecidableEq

/-- `networkx.DiGraph` (graph.py:12-18): the attributes of every edge. -/
abbrev Graph (N A : Type) := Dict (G N A × G N A) Edge

/-- Flows, `from_node: (to_node: flow)` (graph.py:248-276). -/
abbrev Flows (N A : Type) := Dict (G N A) (Dict (G N A) ℤ)

/-- What a traversal is given. -/
structure Env (N A K : Type) where
  tree : Tree N A K
  precision : K
  /-- `sum(_get_transactions(account, limit, timing).values())` (base.py:1151-1153) -/
  limitOf : A → Lim → Except PyErr (Ext K)
  /-- `_get_transactions(account, limit, timing, total=total)` (util.py:129-131) -/
  txOf : A → Lim → K → Except PyErr (Dict K K)
  /-- `_get_group(account, limit)` (util.py:207-238) -/
  groupOf : A → Lim → Option (Finset A)
  /-- `networkx.algorithms.flow.max_flow_min_cost` (graph.py:272-273) -/
  solve : Graph N A → Except PyErr (Flows N A)
  /-- the order in which a set of nodes is walked -/
  setOrder : List N → List N := id
  /-- the order in which the set of accounts is walked -/
  acctOrder : List A → List A := id

/-- Python's `int(x)`: truncation towards zero. -/
def pyInt (x : K) : ℤ := if 0 ≤ x then ⌊x⌋ else ⌈x⌉

/-- `_flows_through(from_node, to_node, flows=flows)` (graph.py:198-246). -/
def flowsTo (flows : Flows N A) (u v : G N A) : ℤ :=
  match Dict.get? flows u with
  | none => 0
  | some d => Dict.val d v

/-- `_flows_through(from_node, flows=flows)` (graph.py:198-246). -/
def flowsFrom (flows : Flows N A) (u : G N A) : ℤ :=
  match Dict.get? flows u with
  | none => 0
  | some d => Dict.total d

/-- `flows[u][v]`, raising `KeyError`. -/
def flowAt (flows : Flows N A) (u v : G N A) : Except PyErr ℤ :=
  match Dict.get? flows u with
  | none => .error .keyError
  | some d =>
    match Dict.get? d v with
    | none => .error .keyError
    | some x => .ok x

/-- `sum(flows[u][child] for child in children)`. -/
def flowsAt (flows : Flows N A) (u : G N A) (children : List N) : Except PyErr ℤ := do
  let xs ← children.mapM fun c => flowAt flows u (.node c)
  .ok xs.sum

/-- `_flows_through(from_node, flows=flows, children=children)` (graph.py:198-234). -/
def flowsToChildren (flows : Flows N A) (u : G N A) (children : List N) : Except PyErr ℤ :=
  match Dict.get? flows u with
  | none => .ok 0
  | some _ => flowsAt flows u children

/-- `_merge_flows` (graph.py:174-196), one entry of the inner dict. -/
def mergeOne (first : Flows N A) (u : G N A) (e : G N A × ℤ) : Flows N A :=
  let d := (Dict.get? first u).getD []
  Dict.set first u (Dict.set d e.1 (Dict.val d e.1 + e.2))

/-- `_merge_flows` (graph.py:174-196). -/
def mergeFlows (first second : Flows N A) : Flows N A :=
  second.foldl (fun f e => e.2.foldl (fun f x => mergeOne f e.1 x) f) first

/-- The capacity attribute given by `_add_edge` (graph.py:141-164): not set if infinite. -/
def edgeCapacity (capacity : Ext K) (used : ℤ) : Option ℤ :=
  match capacity with
  | .fin x => some (pyInt (|x| - (used : K)))
  | _ => none

/-- `graph.add_edge`: given attributes replace old ones, others stay. -/
def putEdge (g : Graph N A) (u v : G N A) (capacity weight : Option ℤ) : Graph N A :=
  let old := (Dict.get? g (u, v)).getD ⟨none, none⟩
  Dict.set g (u, v) ⟨capacity <|> old.capacity, weight <|> old.weight⟩

/-- `_add_edge` (graph.py:115-172) with a capacity (weights are integers here). -/
def addEdge (g : Graph N A) (u v : G N A) (capacity : Ext K) (weight : Option ℤ := none)
    (memo : Flows N A := []) : Graph N A :=
  putEdge g u v (edgeCapacity capacity (flowsTo memo u v)) weight

/-- `_inbound_capacity` (graph.py:20-43). -/
def inboundCapacity (g : Graph N A) (v : G N A) : ℤ :=
  ((g.filter fun e => decide (e.1.2 = v)).map fun e => e.2.capacity.getD 0).sum

/-- `_sum_weight` (graph.py:88-113). -/
def sumWeight (g : Graph N A) : ℕ → G N A → Except PyErr ℤ
  | 0, _ => .error .recursionError
  | fuel + 1, u => (g.filter fun e => decide (e.1.1 = u)).foldlM (fun w e => do
      let x ← sumWeight g fuel e.1.2
      .ok (w + e.2.weight.getD 0 + x)) 0

/-- `x / precision`. -/
def scale (precision : K) : Ext K → Ext K
  | .fin x => .fin (x / precision)
  | x => x

/-- `x - n` for a finite `n`. -/
def lessFlow : Ext K → ℤ → Ext K
  | .fin x, n => .fin (x - n)
  | x, _ => x

/-- `_add_node_account` (base.py:1105-1188), which `_add_successors` calls for anything that is
not a `TransactionNode` (base.py:518-520, 582-583). -/
def addAccount (E : Env N A K) (lim : Lim) (memo : Flows N A) (g : Graph N A) (a : A) :
    Except PyErr (Graph N A) := do
  let x ← E.limitOf a lim
  let capacity := scale E.precision x
  match E.groupOf a lim with
  | some s =>
    let c := lessFlow capacity (flowsFrom memo (.group s))
    .ok (addEdge (addEdge g (.acct a) (.group s) c) (.group s) .sink c)
  | none =>
    let c := lessFlow capacity (flowsFrom memo (.acct a))
    .ok (addEdge g (.acct a) .sink c)

/-- `_embed_limit` (base.py:554-629): the new graph and the capacity. -/
def embedLimit (E : Env N A K) (lim : Lim) (memo : Flows N A) (g : Graph N A) (n : N)
    (capacity : K) : Graph N A × K :=
  match E.tree.limits n lim with
  | none => (putEdge g (.node n) (.limit n) none none, capacity)
  | some l =>
    let v := l / E.precision - (flowsFrom memo (.node n) : K)
    (addEdge g (.node n) (.limit n) (.fin v), min capacity v)

/-- One pass of the loop of `_add_node_ordered` (base.py:1053-1062); `next` adds the successors
of a node. -/
def orderedStep (next : Graph N A → N → Except PyErr (Graph N A)) (fuel : ℕ) (n : N)
    (capacity : K) (st : Graph N A × ℤ) (child : N) : Except PyErr (Graph N A × ℤ) := do
  let g ← next (addEdge st.1 (.limit n) (.node child) (.fin capacity) (some st.2)) child
  let w ← sumWeight g fuel (.node child)
  .ok (g, max st.2 w + 1)

/-- Add an edge from `(n, "limit")` to each child and the child's successors
(base.py:798-803). -/
def childEdges (next : Graph N A → N → Except PyErr (Graph N A)) (n : N) (g : Graph N A)
    (totals : Dict N K) : Except PyErr (Graph N A) :=
  totals.foldlM (fun g e => next (addEdge g (.limit n) (.node e.1) (.fin e.2)) e.1) g

/-- `_add_weighted_children` (base.py:716-803). The recursion is on fewer and fewer children;
`fuel` = their number is enough. -/
def addWeightedChildren (memo : Flows N A) (next : Graph N A → N → Except PyErr (Graph N A))
    (n : N) : ℕ → Graph N A → Dict N K → K → Except PyErr (Graph N A)
  | fuel, g, children, capacity => do
    let flows ← flowsToChildren memo (.limit n) (Dict.keys children)
    let normalization := Dict.total children
    if normalization = 0 ∧ children ≠ [] then .error .zeroDivisionError
    else
      let totals : Dict N K := children.map fun e =>
        (e.1, (capacity + flows) * e.2 / normalization - (flowsTo memo (.limit n) (.node e.1) : K))
      if ∃ e ∈ totals, e.2 < 0 then
        match fuel with
        | 0 => .error .recursionError
        | fuel + 1 => do
          let g ← addWeightedChildren memo next n fuel g
            (children.filter fun e => decide (0 < Dict.val totals e.1))
            (capacity + ((totals.filter fun e => decide (e.2 < 0)).map Prod.snd).sum)
          childEdges next n g
            ((totals.filter fun e => decide (e.2 ≤ 0)).map fun e => (e.1, (0 : K)))
      else childEdges next n g totals

/-- The edges to and from the overflow node (base.py:689-691). -/
def overflowEdges (g : Graph N A) (n : N) (children : Dict N K) (capacity : K) : Graph N A :=
  children.foldl (fun g e => addEdge g (.overflow n) (.node e.1) (.fin capacity))
    (addEdge g (.limit n) (.overflow n) (.fin capacity))

/-- The penalty for the overflow node (base.py:705-707): `max` of no children raises
`ValueError`. -/
def overflowWeight (fuel : ℕ) (g : Graph N A) (n : N) (children : Dict N K) :
    Except PyErr (Graph N A) := do
  let ws ← (Dict.keys children).mapM fun c => sumWeight g fuel (.node c)
  match ws.max? with
  | none => .error .valueError
  | some w => .ok (putEdge g (.limit n) (.overflow n) none (some (1 + w)))

/-- `_add_node_weighted` (base.py:631-707). -/
def addWeighted (memo : Flows N A) (next : Graph N A → N → Except PyErr (Graph N A)) (fuel : ℕ)
    (n : N) (overflow : Bool) (g : Graph N A) (children : Dict N K) (capacity : K) :
    Except PyErr (Graph N A) :=
  if overflow then do
    let g ← addWeightedChildren memo next n children.length (overflowEdges g n children capacity)
      children capacity
    overflowWeight fuel g n children
  else addWeightedChildren memo next n children.length g children capacity

/-- `_add_successors` (base.py:487-552) for a `TransactionNode`; `children` (a subset of the
children) is only ever given for weighted nodes. A leaf's account is added by `_add_node_leaf`
(base.py:1064-1103). -/
def addSuccessors (E : Env N A K) (lim : Lim) (memo : Flows N A) (overflow : Bool) :
    ℕ → Graph N A → N → Option K → Option (Dict N K) → Except PyErr (Graph N A)
  | 0, _, _, _, _ => .error .recursionError
  | fuel + 1, g, n, capacity, children =>
    let r := embedLimit E lim memo g n (capacity.getD (inboundCapacity g (.node n) : K))
    let next := fun g c => addSuccessors E lim memo overflow fuel g c none none
    match E.tree.kind n with
    | .weighted cs => addWeighted memo next fuel n overflow r.1 (children.getD cs) r.2
    | .ordered cs => do
      let st ← cs.foldlM (orderedStep next fuel n r.2) (r.1, 0)
      .ok st.1
    | .leaf a => addAccount E lim memo (addEdge r.1 (.limit n) (.acct a) (.fin r.2)) a

/-- `node.children` as a collection of nodes (node.py:137-171). -/
def childNodes (E : Env N A K) (n : N) : List N :=
  match E.tree.kind n with
  | .leaf _ => []
  | .ordered cs => cs
  | .weighted cs => Dict.keys cs

/-- The first loop of `_balance_weighted_flows` (base.py:822-833): the weighted nodes, breadth
first. -/
def weightedNodes (E : Env N A K) : ℕ → List N → Except PyErr (List N)
  | _, [] => .ok []
  | 0, _ :: _ => .error .recursionError
  | fuel + 1, n :: q => do
    let rest ← weightedNodes E fuel (q ++ childNodes E n)
    match E.tree.kind n with
    | .weighted _ => .ok (n :: rest)
    | _ => .ok rest

/-- The class of one child in `_classify_children_by_flows` (graph.py:492-559): `lt` for
underflow, `gt` for overflow, `eq` for saturated. -/
def classify (g : Graph N A) (flows : Flows N A) (n c : N) : Except PyErr Ordering :=
  match (Dict.get? g (.limit n, .node c)).bind Edge.capacity with
  | none => .error .keyError
  | some cap => do
    let f ← flowAt flows (.limit n) (.node c)
    if cap > f then .ok .lt
    else do
      let o ← flowAt flows (.overflow n) (.node c)
      .ok (if o > 0 then .gt else .eq)

/-- The children of one class. -/
def ofClass (classes : List (N × Ordering)) (o : Ordering) : List N :=
  (classes.filter fun e => decide (e.2 = o)).map Prod.fst

/-- `_restrict_overflow` (graph.py:370-414). The limit and overflow nodes of a node, which the code looks up
in dicts (graph.py:278-368), are here constructors of `G`. -/
def restrictOverflow (E : Env N A K) (g : Graph N A) (n : N) (children : List N)
    (flows : Flows N A) : Graph N A :=
  ((childNodes E n).filter fun c => decide (c ∉ children)).foldl (fun g c =>
    putEdge g (.overflow n) (.node c) (some (flowsTo flows (.overflow n) (.node c))) none) g

/-- `_swap_saturated` (graph.py:448-490): which of `saturated` stay. `graph[..]["capacity"]` or
`flows[..]` may raise `KeyError`. -/
def stillSaturated (g : Graph N A) (flows : Flows N A) (n : N) (c : N) : Except PyErr Bool :=
  match (Dict.get? g (.limit n, .node c)).bind Edge.capacity with
  | none => .error .keyError
  | some cap => do
    let f ← flowAt flows (.limit n) (.node c)
    .ok (decide (cap = f))

/-- `_balance_flows_recurse` (base.py:961-1022); `again` is `_balance_flows` on the children.
`_unrestrict_overflow` (graph.py:416-446) is called without `outbound_nodes`, so it looks up
the overflow node of `n` instead of `(n, "limit")`, does not find it, and does nothing. -/
def balanceRecurse (E : Env N A K) (lim : Lim) (memo : Flows N A) (fuel : ℕ)
    (again : Graph N A → List N → Except PyErr (Graph N A)) (g : Graph N A) (n : N)
    (cs : Dict N K) (children : List N) (flows : Flows N A) : Except PyErr (Graph N A) := do
  let f ← flowsAt flows (.limit n) children
  let o ← flowsAt flows (.overflow n) children
  let subset : Dict N K := children.map fun c => (c, Dict.val cs c)
  let g ← addSuccessors E lim memo false fuel g n (some ((f + o : ℤ) : K)) (some subset)
  if children.length > 1 then again (restrictOverflow E g n children flows) children
  else .ok g

/-- `_balance_flows` (base.py:840-959). -/
def balanceFlows (E : Env N A K) (lim : Lim) (memo : Flows N A) (n : N) (cs : Dict N K) :
    ℕ → Graph N A → List N → Bool → Except PyErr (Graph N A)
  | 0, _, _, _ => .error .recursionError
  | fuel + 1, g, children, all =>
    match children with
    | [] => .ok g
    | _ => do
      let flows ← E.solve g
      let classes ← children.mapM fun c => do
        let o ← classify g flows n c
        .ok (c, o)
      let under := ofClass classes .lt
      let over := ofClass classes .gt
      let sat := ofClass classes .eq
      if under = [] ∧ over = [] then .ok g
      else if (under = [] ∨ over = []) ∧ all = true then
        balanceRecurse E lim memo fuel (fun g cs' => balanceFlows E lim memo n cs fuel g cs' false)
          g n cs children flows
      else if (under = [] ∨ over = []) ∧ sat = [] then .ok g
      else
        let swapped := decide (under = [] ∨ over = [])
        let u := if swapped ∧ under = [] then sat else under
        let o := if swapped ∧ over = [] then sat else over
        let s := if swapped then [] else sat
        let again := fun g cs' => balanceFlows E lim memo n cs fuel g cs' true
        let g ← balanceRecurse E lim memo fuel again g n cs (E.setOrder (u ++ s)) flows
        let flags ← s.mapM fun c => do
          let b ← stillSaturated g flows n c
          .ok (c, b)
        let s' := (flags.filter fun e => e.2).map Prod.fst
        balanceRecurse E lim memo fuel again g n cs (E.setOrder (o ++ s')) flows

/-- `_balance_weighted_flows` (base.py:805-838). -/
def balanceAll (E : Env N A K) (lim : Lim) (memo : Flows N A) (fuel : ℕ) (g : Graph N A) :
    Except PyErr (Graph N A) := do
  let ns ← weightedNodes E fuel [E.tree.root]
  ns.foldlM (fun g n =>
    match E.tree.kind n with
    | .weighted cs => balanceFlows E lim memo n cs fuel g (Dict.keys cs) true
    | _ => .ok g) g

/-- `total` in units of `precision` (base.py:453-463). -/
def units (precision : K) : Ext K → Ext K
  | .fin x => .fin (pyInt (x / precision) : K)
  | x => x

/-- `_build_graph` (base.py:333-485). -/
def buildGraph (E : Env N A K) (lim : Lim) (memo : Flows N A) (fuel : ℕ) (total : Ext K) :
    Except PyErr (Graph N A) := do
  let g ← addSuccessors E lim memo true fuel
    (addEdge [] .source (.node E.tree.root) (units E.precision total) none memo)
    E.tree.root none none
  balanceAll E lim memo fuel g

/-- `_get_accounts` (util.py:134-159). -/
def getAccounts (E : Env N A K) : ℕ → N → Except PyErr (List A)
  | 0, _ => .error .recursionError
  | fuel + 1, n =>
    match E.tree.kind n with
    | .leaf a => .ok [a]
    | .ordered cs => do
      let l ← cs.mapM (getAccounts E fuel)
      .ok l.flatten
    | .weighted cs => do
      let l ← (Dict.keys cs).mapM (getAccounts E fuel)
      .ok l.flatten

/-- The total for one account (util.py:119-125). -/
def amountFor (E : Env N A K) (total : Ext K) (d : Dict (G N A) ℤ) : K :=
  if total < .fin 0 then -(E.precision * (Dict.total d : ℤ)) else E.precision * (Dict.total d : ℤ)

/-- `_convert_flows_to_transactions` (util.py:68-132). -/
def convertFlows (E : Env N A K) (lim : Lim) (total : Ext K) (flows : Flows N A)
    (accounts : List A) : Except PyErr (Dict A (Dict K K)) :=
  accounts.foldlM (fun r a =>
    match Dict.get? flows (.acct a) with
    | none => .ok r
    | some d => do
      let t ← E.txOf a lim (amountFor E total d)
      .ok (Dict.set r a t)) []

/-- `_traverse_priority` (base.py:280-331): the transactions and the new memo. -/
def traverse (E : Env N A K) (fuel : ℕ) (lim : Lim) (total : Ext K) (memo : Flows N A) :
    Except PyErr (Dict A (Dict K K) × Flows N A) := do
  let g ← buildGraph E lim memo fuel total
  let flows ← E.solve g
  let accounts ← getAccounts E fuel E.tree.root
  let txs ← convertFlows E lim total flows (E.acctOrder accounts.dedup)
  .ok (txs, mergeFlows memo flows)

/-- One step of combining the transactions of the two traversals (base.py:273-277). -/
def combineOne (r : Dict A (Dict K K)) (e : A × Dict K K) : Dict A (Dict K K) :=
  match Dict.get? r e.1 with
  | some d => Dict.set r e.1 (addTransactions d e.2)
  | none => Dict.set r e.1 e.2

/-- Combining the transactions of the two traversals (base.py:273-277). -/
def combine (first second : Dict A (Dict K K)) : Dict A (Dict K K) :=
  first.foldl combineOne second

/-- `TransactionTraversal.__call__` (base.py:226-278). `assign_min` is not looked at. -/
def call (E : Env N A K) (fuel : ℕ) (total : K) : Except PyErr (Dict A (Dict K K)) :=
  if total > E.precision then do
    let r ← traverse E fuel .minIn (.fin total) []
    let r' ← traverse E fuel .maxIn (.fin total) r.2
    .ok (combine r.1 r'.1)
  else if total < -E.precision then do
    let r ← traverse E fuel .minOut .negInf []
    let r' ← traverse E fuel .maxOut (.fin total) r.2
    .ok (combine r.1 r'.1)
  else .ok []

end Forecaster.Traversal
