import Verif.Props.TraversalOrder

/-!
# C69: priorities in nested lists, and weighted splits
-/

set_option linter.unusedSectionVars false

namespace Forecaster.Traversal

open Forecaster Forecaster.Timing

variable {K : Type} [Field K] [LinearOrder K] [IsStrictOrderedRing K] [FloorRing K]
variable {N A : Type} [DecidableEq N] [DecidableEq A]

/-! ### An oracle that follows given paths -/

/-- The edges of a path. -/
def pathEdges : List (G N A) → List (G N A × G N A)
  | u :: v :: p => (u, v) :: pathEdges (v :: p)
  | _ => []

/-- The room on a path. -/
def pathRoom (g : Graph N A) (st : Dict (G N A × G N A) ℤ) : List (G N A × G N A) → ℤ → ℤ
  | [], x => x
  | e :: p, x => pathRoom g st p (match Dict.get? g e with
    | none => 0
    | some ⟨none, _⟩ => x
    | some ⟨some c, _⟩ => min x (c - Dict.val st e))

/-- As much as possible along each path in turn. -/
def alongPaths (paths : List (List (G N A))) (g : Graph N A) : Flows N A :=
  let st := paths.foldl (fun st p =>
    let es := pathEdges p
    let x := pathRoom g st es 1000000
    es.foldl (fun st e => Dict.set st e (Dict.val st e + x)) st) []
  let us := ((Dict.keys g).map Prod.fst ++ (Dict.keys g).map Prod.snd).dedup
  us.map fun u => (u, (g.filter fun e => decide (e.1.1 = u)).map fun e => (e.1.2, Dict.val st e.1))

/-! ### Nested lists -/

/-- Specification: the accounts of a tree in the order of priority. -/
inductive LeafOrder (t : Tree N A K) : N → List A → Prop
  | leaf {n a} : t.kind n = .leaf a → LeafOrder t n [a]
  | ordered {n cs ls} : t.kind n = .ordered cs → List.Forall₂ (LeafOrder t) cs ls →
      LeafOrder t n ls.flatten

/-- The list `x, y, v, [b0, b1, b2], z` (accounts 1 - 3, 5 - 7 and 8; every account takes up to
100). -/
def nestedTree : Tree ℕ ℕ ℚ where
  root := 0
  kind n := if n = 0 then .ordered [1, 2, 3, 4, 8] else if n = 4 then .ordered [5, 6, 7]
    else .leaf n

/-- From the source to account `n`. -/
def topPath (n : ℕ) : List (G ℕ ℕ) :=
  [.source, .node 0, .limit 0, .node n, .limit n, .acct n, .sink]

/-- From the source to account `n` of the inner list. -/
def innerPath (n : ℕ) : List (G ℕ ℕ) :=
  [.source, .node 0, .limit 0, .node 4, .limit 4, .node n, .limit n, .acct n, .sink]

/-- The cost of getting somewhere in the graph, if the last unit costs `k`. -/
def nestedCost (k : ℤ) : Dict (G ℕ ℕ) ℤ :=
  ([(1, 0), (2, 1), (3, 2), (4, 3), (5, 3), (6, 4), (7, 5), (8, 4)] : List (ℕ × ℤ)).flatMap
    (fun e => [(.node e.1, e.2), (.limit e.1, e.2), (.acct e.1, e.2)]) ++ [(.sink, k)]

/-- The accounts of the nested list. -/
def nestedEnv : Env ℕ ℕ ℚ where
  tree := nestedTree
  precision := 1
  limitOf _ lim := .ok (.fin (if lim = .maxIn then 100 else 0))
  txOf _ _ x := .ok [(1 / 2, x)]
  groupOf _ _ := none
  solve := certifiedBy [[(.source, -1)], [(.sink, 1)]] [nestedCost 5, nestedCost 4] (alongPaths
    [topPath 1, topPath 2, topPath 3, innerPath 5, innerPath 6, topPath 8, innerPath 7])

theorem nested_call : call nestedEnv 12 650 = .ok [(1, [(1 / 2, 100)]), (2, [(1 / 2, 100)]),
    (3, [(1 / 2, 100)]), (5, [(1 / 2, 100)]), (6, [(1 / 2, 100)]), (7, [(1 / 2, 50)]),
    (8, [(1 / 2, 100)])] := by
  decide +kernel

theorem nested_optimal : Optimal nestedEnv :=
  ⟨fun _ _ h => certifiedBy_sound h, fun _ _ h => h, fun _ _ => Iff.rfl⟩

/-- Accounts that take what they are given answer exactly. -/
theorem plain_answers {N A : Type} {E : Env N A ℚ} (h : ∀ a lim x, E.txOf a lim x = .ok [(1 / 2, x)]) :
    Answers E ∧ Exact E := by
  refine ⟨⟨?_, ?_⟩, ⟨?_, ?_⟩⟩
  · intro a lim x d _ hx hd
    rw [h] at hd; cases hd
    exact ⟨by simp [Dict.WF, Dict.keys], by simpa using hx, by simp [Dict.total]⟩
  · intro a lim x d _ hx hd
    rw [h] at hd; cases hd
    exact ⟨by simp [Dict.WF, Dict.keys], by simpa using hx, by simp [Dict.total]⟩
  · intro a lim l x d _ _ _ _ hd
    rw [h] at hd; cases hd
    exact ⟨by simp [Dict.WF, Dict.keys], by simp [Dict.total]⟩
  · intro a lim l x d _ _ _ _ hd
    rw [h] at hd; cases hd
    exact ⟨by simp [Dict.WF, Dict.keys], by simp [Dict.total]⟩

theorem nested_order : LeafOrder nestedTree 0 [1, 2, 3, 5, 6, 7, 8] := by
  have leaf : ∀ n, n ≠ 0 → n ≠ 4 → LeafOrder nestedTree n [n] := fun n h0 h4 =>
    .leaf (by simp [nestedTree, h0, h4])
  have inner : LeafOrder nestedTree 4 [5, 6, 7] :=
    .ordered (ls := [[5], [6], [7]]) (cs := [5, 6, 7]) (by simp [nestedTree])
      (.cons (leaf 5 (by decide) (by decide)) (.cons (leaf 6 (by decide) (by decide))
        (.cons (leaf 7 (by decide) (by decide)) .nil)))
  exact .ordered (ls := [[1], [2], [3], [5, 6, 7], [8]]) (cs := [1, 2, 3, 4, 8])
    (by simp [nestedTree])
    (.cons (leaf 1 (by decide) (by decide)) (.cons (leaf 2 (by decide) (by decide))
      (.cons (leaf 3 (by decide) (by decide)) (.cons inner
        (.cons (leaf 8 (by decide) (by decide)) .nil)))))

/-- **C69.** Priorities do not carry over to nested lists: with a flow algorithm that is optimal,
accounts that are exact, no minimums, no shared limits and no limits on nodes, an account of an
inner list (number 7) has room for more although an account that comes later (number 8) has
been filled. -/
theorem C69_nested_priority_refuted : ∃ (E : Env ℕ ℕ ℚ) (r : Dict ℕ (Dict ℚ ℚ)),
    Optimal E ∧ Answers E ∧ Exact E ∧ E.precision = 1 ∧
    (∀ a lim, E.groupOf a lim = none) ∧ (∀ n lim, E.tree.limits n lim = none) ∧
    (∀ a, E.limitOf a .minIn = .ok (.fin 0) ∧ E.limitOf a .maxIn = .ok (.fin 100)) ∧
    LeafOrder E.tree E.tree.root [1, 2, 3, 5, 6, 7, 8] ∧
    call E 12 650 = .ok r ∧ given r 7 = 50 ∧ given r 8 = 100 := by
  obtain ⟨h1, h2⟩ := plain_answers (E := nestedEnv) fun _ _ _ => rfl
  exact ⟨nestedEnv, _, nested_optimal, h1, h2, rfl, fun _ _ => rfl, fun _ _ => rfl,
    fun _ => ⟨rfl, rfl⟩, nested_order, nested_call, by decide +kernel, by decide +kernel⟩

/-! ### Weighted children and limits on withdrawals -/

/-- A list of one entry: two accounts in proportion 1 : 3, without and with a limit of 100 on what
may be taken out of both; each account has 100. (A limit can only be set on an inner node, or on a
single account: `C94_root_node_refuted`.) -/
def pairEnv (limited : Bool) : Env ℕ ℕ ℚ where
  tree :=
    { root := 0
      kind := fun n => if n = 0 then .ordered [3]
        else if n = 3 then .weighted [(1, 1), (2, 3)] else .leaf n
      limits := fun n lim => if n = 3 ∧ lim = .maxOut ∧ limited = true then some (-100) else none }
  precision := 1
  limitOf _ lim := .ok (.fin (if lim = .maxOut then -100 else 0))
  txOf _ _ x := .ok [(1 / 2, x)]
  groupOf _ _ := none
  solve := certifiedBy [[(.source, -1)], [(.sink, 1)]]
    [[(.overflow 3, 1), (.node 1, 1), (.limit 1, 1), (.acct 1, 1),
      (.node 2, 1), (.limit 2, 1), (.acct 2, 1), (.sink, 1)], []]
    (alongPaths [
      [.source, .node 0, .limit 0, .node 3, .limit 3, .node 1, .limit 1, .acct 1, .sink],
      [.source, .node 0, .limit 0, .node 3, .limit 3, .node 2, .limit 2, .acct 2, .sink],
      [.source, .node 0, .limit 0, .node 3, .limit 3, .overflow 3, .node 1, .limit 1, .acct 1, .sink],
      [.source, .node 0, .limit 0, .node 3, .limit 3, .overflow 3, .node 2, .limit 2, .acct 2, .sink]])

theorem pair_optimal (b : Bool) : Optimal (pairEnv b) :=
  ⟨fun _ _ h => certifiedBy_sound h, fun _ _ h => h, fun _ _ => Iff.rfl⟩

/-- Taking 40 out of the pair: 10 and 30. -/
theorem pair_call : call (pairEnv false) 12 (-40) = .ok [(1, [(1 / 2, -10)]), (2, [(1 / 2, -30)])] := by
  decide +kernel

/-- The same with a limit that does not matter: 40 and nothing. -/
theorem pair_call_limited :
    call (pairEnv true) 12 (-40) = .ok [(1, [(1 / 2, -40)]), (2, [(1 / 2, 0)])] := by
  decide +kernel

/-- **C69.** A limit on the outflows of a weighted node, even one that is not reached, switches the
weights off: of two accounts in proportion 1 : 3 the first can be asked for everything, although
without the limit they are asked for 10 and 30. -/
theorem C69_outflow_limit_refuted : ∃ (E E' : Env ℕ ℕ ℚ) (r r' : Dict ℕ (Dict ℚ ℚ)),
    Optimal E ∧ Answers E ∧ Exact E ∧ E.precision = 1 ∧
    (∀ a lim, E.groupOf a lim = none) ∧
    E.tree.kind E.tree.root = .ordered [3] ∧ E.tree.kind 3 = .weighted [(1, 1), (2, 3)] ∧
    E.tree.kind 1 = .leaf 1 ∧ E.tree.kind 2 = .leaf 2 ∧
    E.tree.limits 3 .maxOut = some (-100) ∧
    (∀ n lim, n ≠ 3 ∨ lim ≠ .maxOut → E.tree.limits n lim = none) ∧
    (∀ a, E.limitOf a .maxOut = .ok (.fin (-100))) ∧
    E' = { E with tree := { E.tree with limits := fun _ _ => none } } ∧
    call E 12 (-40) = .ok r ∧ given r 1 = -40 ∧ given r 2 = 0 ∧
    call E' 12 (-40) = .ok r' ∧ given r' 1 = -10 ∧ given r' 2 = -30 := by
  obtain ⟨h1, h2⟩ := plain_answers (E := pairEnv true) fun _ _ _ => rfl
  refine ⟨pairEnv true, pairEnv false, _, _, pair_optimal _, h1, h2, rfl, fun _ _ => rfl, rfl, rfl,
    rfl, rfl, rfl, ?_, fun _ => rfl, ?_, pair_call_limited, by decide +kernel, by decide +kernel,
    pair_call, by decide +kernel, by decide +kernel⟩
  · rintro n lim h
    refine if_neg ?_
    rintro ⟨h1, h2, -⟩
    rcases h with h | h
    · exact h h1
    · exact h h2
  · unfold pairEnv
    congr 2
    funext n lim
    simp

/-! ### What one weighted account cannot take -/

/-- From the source to account `n`, directly or through the overflow node. -/
def trioPath (over : Bool) (n : ℕ) : List (G ℕ ℕ) :=
  [.source, .node 0, .limit 0] ++ (if over then [.overflow 0] else []) ++
    [.node n, .limit n, .acct n, .sink]

/-- Three accounts in proportion 1 : 2 : 1, of which the second takes up to 12 and the others up
to 1000. The flow algorithm returns a cheapest maximum flow; which one depends on the network. -/
def trioEnv : Env ℕ ℕ ℚ where
  tree :=
    { root := 0
      kind := fun n => if n = 0 then .weighted [(1, 1), (2, 2), (3, 1)] else .leaf n }
  precision := 1
  limitOf a lim := .ok (.fin (if lim = .maxIn then (if a = 2 then 12 else 1000) else 0))
  txOf _ _ x := .ok [(1 / 2, x)]
  groupOf _ _ := none
  solve g := certifiedBy [[(.source, -1)], [(.sink, 1)]]
    [[(.overflow 0, 1), (.node 1, 1), (.limit 1, 1), (.acct 1, 1),
      (.node 3, 1), (.limit 3, 1), (.acct 3, 1), (.sink, 1)], []]
    (fun g => alongPaths ([1, 3, 2].map (trioPath false) ++
      (if (Dict.get? g (.overflow 0, .node 1)).bind Edge.capacity = some 8 then [3, 1, 2]
        else [1, 3, 2]).map (trioPath true)) g) g

theorem trio_optimal : Optimal trioEnv :=
  ⟨fun _ _ h => certifiedBy_sound h, fun _ _ h => h, fun _ _ => Iff.rfl⟩

set_option maxRecDepth 100000 in
theorem trio_call : call trioEnv 12 40 =
    .ok [(1, [(1 / 2, 18)]), (2, [(1 / 2, 4)]), (3, [(1 / 2, 18)])] := by
  decide +kernel

/-- **C69.** Where one of three weighted accounts cannot take its share, the others need not get
the rest in proportion, and the account itself may get less than it could take: of 40 in
proportion 1 : 2 : 1, where the second account takes no more than 12, it can get 4 and the others
18 each (its share is 20, and 12 would fit). The flow algorithm is optimal; the recursion that
balances the flows asks it several times and combines answers that do not belong together. -/
theorem C69_excess_refuted : ∃ (E : Env ℕ ℕ ℚ) (r : Dict ℕ (Dict ℚ ℚ)),
    Optimal E ∧ Answers E ∧ Exact E ∧ E.precision = 1 ∧
    (∀ a lim, E.groupOf a lim = none) ∧ (∀ n lim, E.tree.limits n lim = none) ∧
    E.tree.kind E.tree.root = .weighted [(1, 1), (2, 2), (3, 1)] ∧
    E.tree.kind 1 = .leaf 1 ∧ E.tree.kind 2 = .leaf 2 ∧ E.tree.kind 3 = .leaf 3 ∧
    (∀ a, E.limitOf a .minIn = .ok (.fin 0)) ∧
    E.limitOf 1 .maxIn = .ok (.fin 1000) ∧ E.limitOf 2 .maxIn = .ok (.fin 12) ∧
    E.limitOf 3 .maxIn = .ok (.fin 1000) ∧
    call E 12 40 = .ok r ∧ given r 1 = 18 ∧ given r 2 = 4 ∧ given r 3 = 18 := by
  obtain ⟨h1, h2⟩ := plain_answers (E := trioEnv) fun _ _ _ => rfl
  exact ⟨trioEnv, _, trio_optimal, h1, h2, rfl, fun _ _ => rfl, fun _ _ => rfl, rfl, rfl, rfl,
    rfl, fun _ => rfl, rfl, rfl, rfl, trio_call, by decide +kernel, by decide +kernel,
    by decide +kernel⟩

end Forecaster.Traversal
