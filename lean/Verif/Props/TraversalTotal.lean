import Verif.Lemmas.TraversalTotal
import Verif.Lemmas.TraversalFuel
import Verif.Props.TraversalTree

/-!
# C88: filling a priority tree ends with an answer
-/

set_option linter.unusedSectionVars false

namespace Forecaster.Traversal

open Forecaster Forecaster.Timing Forecaster.Account

variable {K : Type} [Field K] [LinearOrder K] [IsStrictOrderedRing K] [FloorRing K]
variable {N A : Type} [DecidableEq N] [DecidableEq A]

/-- **C88.** The limit on recursion changes nothing but whether there is a `RecursionError`: with a
higher limit, any other answer or exception stays the same. -/
theorem C88_recursion_limit (E : Env N A K) (total : K) {m n : ℕ} (h : m ≤ n)
    (hm : call E m total ≠ .error .recursionError) : call E n total = call E m total := by
  rcases call_le E total h with h | h
  · exact absurd h hm
  · exact h.symm

/-- From answers for every higher limit to one answer. -/
theorem same_answer {E : Env N A K} {total : K} {F : ℕ}
    (h : ∀ fuel, F ≤ fuel → ∃ r, call E fuel total = .ok r) :
    ∃ r F, ∀ fuel, F ≤ fuel → call E fuel total = .ok r := by
  obtain ⟨r, hr⟩ := h F le_rfl
  refine ⟨r, F, fun fuel hf => ?_⟩
  rw [C88_recursion_limit E total hf (by rw [hr]; simp), hr]

/-- How much recursion is enough to put money into accounts. -/
theorem inflows_enough {E : Env N A K} {rank : N → ℕ} (hP : Proper E rank) (hleaf : HasLeaf E)
    (hw : Willing E) (hC : Complete E) (hset : ∀ l, (E.setOrder l).Perm l)
    (hp : 0 < E.precision) {total : K} (ht : E.precision < total) {fuel : ℕ}
    (hf : enough E rank ≤ fuel) : ∃ r, call E fuel total = .ok r := by
  have hpos : ¬ (Ext.fin total < (Ext.fin 0 : Ext K)) := by
    simpa using (hp.trans ht).le
  obtain ⟨g, f, txs, e1, -, -, G1, F1, hs, hmemo⟩ := traverse_ok (lim := .minIn) (memo := [])
    (total := .fin total) hP hw hC hp.le hset hleaf (fun m _ => .inl rfl) hf
    (.inl ⟨.inl rfl, hpos⟩) (by
      rintro x hx
      simp only [edgeCapacity, units, flowsTo, Dict.get?_nil, Int.cast_zero, sub_zero,
        Option.some.injEq] at hx
      rw [← hx]; exact pyInt_abs_nonneg _)
  have hflow : flowsTo (mergeFlows [] f) .source (.node E.tree.root) =
      flow f .source (.node E.tree.root) := by
    rw [(merge_spec f [] (by intro u d h; simp [Dict.get?_nil] at h) F1.wf.1 F1.wf.2).2.1]
    simp [flowsTo, Dict.get?_nil, flow]
  obtain ⟨g', f', txs', e2, -⟩ := traverse_ok (lim := .maxIn) (memo := mergeFlows [] f)
    (total := .fin total) hP hw hC hp.le hset hleaf hmemo hf (.inl ⟨.inr rfl, hpos⟩) (by
      rintro x hx
      obtain ⟨e, he⟩ := Dict.mem_keys_iff.1 hs
      have hal := G1.shape _ _ he
      simp only [Allowed, true_and] at hal
      have hc : e.capacity = some (pyInt |((pyInt (total / E.precision) : ℤ) : K)|) := by
        rw [hal]; simp [edgeCapacity, units, flowsTo, Dict.get?_nil]
      have hle := F1.capacity _ _ e _ he hc
      have h1 : ((pyInt |((pyInt (total / E.precision) : ℤ) : K)| : ℤ) : K) ≤
          |((pyInt (total / E.precision) : ℤ) : K)| := by
        rw [pyInt_of_nonneg (abs_nonneg _)]; exact Int.floor_le _
      have h2 : ((flow f .source (.node E.tree.root) : ℤ) : K) ≤
          |((pyInt (total / E.precision) : ℤ) : K)| := le_trans (by exact_mod_cast hle) h1
      rw [hflow] at hx
      simp only [edgeCapacity, units, Option.some.injEq] at hx
      rw [← hx, pyInt_of_nonneg (sub_nonneg.2 h2)]
      exact Int.floor_nonneg.2 (sub_nonneg.2 h2))
  refine ⟨combine txs txs', ?_⟩
  unfold call
  rw [if_pos ht, e1, ok_bind]
  simp only
  rw [e2, ok_bind]

/-- **C88.** Money that is put into accounts: if the priority tree has no cycles, has an account
and only positive weights, if the accounts answer and if the flow algorithm answers for every
network that it accepts, then the traversal ends with an answer, whatever the amount, the
accounts' limits, the limits of nodes and the sharing of nodes and of limits. -/
theorem C88_inflows_end {E : Env N A K} {rank : N → ℕ} (hP : Proper E rank) (hleaf : HasLeaf E)
    (hw : Willing E) (hC : Complete E) (hset : ∀ l, (E.setOrder l).Perm l)
    (hp : 0 < E.precision) {total : K} (ht : E.precision < total) :
    ∃ r F, ∀ fuel, F ≤ fuel → call E fuel total = .ok r :=
  same_answer (F := enough E rank) fun _ hf => inflows_enough hP hleaf hw hC hset hp ht hf

/-- How much recursion is enough to take money out. -/
theorem outflows_enough {E : Env N A K} {rank : N → ℕ} (hP : Proper E rank) (hleaf : HasLeaf E)
    (hw : Willing E) (hC : Complete E) (hS : ∀ g f, E.solve g = .ok f → Feasible g f)
    (hset : ∀ l, (E.setOrder l).Perm l) (hp : 0 < E.precision)
    (hroot : ∀ n, E.tree.root ∉ childNodes E n)
    (hlim : E.tree.limits E.tree.root .minOut = none) {total : K} (ht : total < -E.precision)
    {fuel : ℕ} (hf : enough E rank ≤ fuel) : ∃ r, call E fuel total = .ok r := by
  have hneg : Ext.fin total < (Ext.fin 0 : Ext K) := by
    simpa using ht.trans (by linarith)
  obtain ⟨g, f, txs, e1, hb, -, G1, F1, hs, hmemo⟩ := traverse_ok (lim := .minOut) (memo := [])
    (total := .negInf) hP hw hC hp.le hset hleaf (fun m _ => .inl rfl) hf
    (.inr ⟨.inl rfl, lt_of_not_ge Ext.not_fin_le_negInf⟩) (by simp [edgeCapacity, units])
  have hdead := dead_buildGraph hS (fun l c hc => (hset l).mem_iff.1 hc) hroot hlim hb
  have hzero : flowsTo (mergeFlows [] f) .source (.node E.tree.root) = 0 := by
    rw [(merge_spec f [] (by intro u d h; simp [Dict.get?_nil] at h) F1.wf.1 F1.wf.2).2.1]
    have h1 := flow_le_out F1 .source (.node E.tree.root) (by simp) (by simp)
    rw [out_node_zero G1.shape F1 rank hP.rank (dead_out hdead F1) E.tree.root] at h1
    have h2 := F1.nonneg .source (.node E.tree.root)
    unfold flow at h1 h2
    simp only [flowsTo, Dict.get?_nil] at h1 h2 ⊢
    omega
  obtain ⟨g', f', txs', e2, -⟩ := traverse_ok (lim := .maxOut) (memo := mergeFlows [] f)
    (total := .fin total) hP hw hC hp.le hset hleaf hmemo hf (.inr ⟨.inr rfl, hneg⟩) (by
      rintro x hx
      rw [hzero] at hx
      simp only [edgeCapacity, units, Int.cast_zero, sub_zero, Option.some.injEq] at hx
      rw [← hx]; exact pyInt_abs_nonneg _)
  refine ⟨combine txs txs', ?_⟩
  unfold call
  rw [if_neg (by linarith [hp] : ¬ total > E.precision), if_pos ht, e1, ok_bind]
  simp only
  rw [e2, ok_bind]

/-- **C88.** Money that is taken out of accounts: likewise, if the root of the tree is nobody's
child and has no minimum outflow of its own. -/
theorem C88_outflows_end {E : Env N A K} {rank : N → ℕ} (hP : Proper E rank) (hleaf : HasLeaf E)
    (hw : Willing E) (hC : Complete E) (hS : ∀ g f, E.solve g = .ok f → Feasible g f)
    (hset : ∀ l, (E.setOrder l).Perm l) (hp : 0 < E.precision)
    (hroot : ∀ n, E.tree.root ∉ childNodes E n)
    (hlim : E.tree.limits E.tree.root .minOut = none) {total : K} (ht : total < -E.precision) :
    ∃ r F, ∀ fuel, F ≤ fuel → call E fuel total = .ok r :=
  same_answer (F := enough E rank) fun _ hf =>
    outflows_enough hP hleaf hw hC hS hset hp hroot hlim ht hf

/-! ### What is asked for can be had -/

/-- **C88.** There are flow algorithms that answer for every network they accept, and give flows of
maximal value and minimal cost. -/
theorem C88_solver_exists : ∃ solve : Graph N A → Except PyErr (Flows N A),
    (∀ g f, solve g = .ok f → MinCostMaxFlow g f) ∧
    ∀ g, Solvable g → ∃ f, solve g = .ok f ∧ Feasible g f ∧ Reports g f := by
  classical
  refine ⟨fun g => if h : Solvable g then .ok (exists_minCostMaxFlow h).choose
    else .error .valueError, ?_, ?_⟩
  · intro g f h
    simp only at h
    split_ifs at h with hs
    cases h
    exact (exists_minCostMaxFlow hs).choose_spec.1
  · intro g hs
    have := (exists_minCostMaxFlow hs).choose_spec
    exact ⟨_, dif_pos hs, this.1.feasible, this.2⟩

/-- Accounts answer whatever they are asked. -/
theorem accounts_willing {E : Env N A K} {leaf : A → Leaf K} {timing : Option (Arg K)}
    (h : OfAccounts E leaf timing)
    (hr : ∀ a, ∃ tm, Fit (leaf a).acct timing none tm) : Willing E := by
  obtain ⟨-, h1, h2⟩ := accounts_answer h hr
  refine ⟨fun a lim => ?_, h1, h2⟩
  obtain ⟨tm, ht⟩ := hr a
  rw [h.limit]
  unfold accountLimit
  have : ∃ t x y, flowsOf (leaf a) lim { timing := timing } =
      transactionsToBalance (leaf a).acct t timing (some x) (some y) none := by
    cases lim
    · unfold flowsOf debtMinInflows minInflows
      by_cases hb : (leaf a).debt = true
      · simp only [if_pos hb]; exact ⟨_, _, _, rfl⟩
      · simp only [if_neg hb]; exact ⟨_, _, _, rfl⟩
    · unfold flowsOf debtMaxInflows maxInflows
      by_cases hb : (leaf a).debt = true
      · simp only [if_pos hb]; exact ⟨_, _, _, rfl⟩
      · simp only [if_neg hb]; exact ⟨_, _, _, rfl⟩
    · unfold flowsOf minOutflows; exact ⟨_, _, _, rfl⟩
    · unfold flowsOf maxOutflows; exact ⟨_, _, _, rfl⟩
  obtain ⟨t, x, y, e⟩ := this
  obtain ⟨nt, ref, hnt, hw, hpos, href, hc⟩ := core ht
  rw [e, ttb_eq href ht.resolves hnt ht.growth hw]
  exact ⟨_, rfl⟩

/-- **C88.** Accounts that grow sensibly answer whatever they are asked. -/
theorem C88_accounts_willing {E : Env N A K} {leaf : A → Leaf K} {timing : Option (Arg K)}
    (h : OfAccounts E leaf timing)
    (hr : ∀ a, ∃ tm, Ready (leaf a).acct timing none tm) : Willing E :=
  accounts_willing h fun a => (hr a).imp fun _ => Ready.fit

/-- **C88.** So money put into an ordered list of accounts does end up where it should: the answer
exists, and the accounts are filled in order (`C68_inflows_greedy`). -/
theorem C88_inflows_filled {E : Env N A K} {rank : N → ℕ} (hP : Proper E rank) (hw : Willing E)
    (hC : Complete E) (hset : ∀ l, (E.setOrder l).Perm l) (hE : Optimal E) (hA : Answers E)
    (hX : Exact E) {cs : List N} {acc : N → A} (hne : cs ≠ []) (hp : 0 < E.precision) {total : K}
    (ht : E.precision < total) (hmin : Flat E .minIn cs acc) (hmax : Flat E .maxIn cs acc)
    (hi : N → Ext K) (hlo : ∀ c ∈ cs, E.limitOf (acc c) .minIn = .ok (.fin 0))
    (hhi : ∀ c ∈ cs, E.limitOf (acc c) .maxIn = .ok (hi c) ∧ .fin 0 ≤ hi c) :
    ∃ r F, (∀ fuel, F ≤ fuel → call E fuel total = .ok r) ∧
      cs.map (fun c => given r (acc c)) =
        (fill ⌊total / E.precision⌋ (cs.map fun c => wholeUnits E.precision (hi c))).map
          fun x : ℤ => E.precision * (x : K) := by
  have hleaf : HasLeaf E := by
    obtain ⟨c, l, rfl⟩ := List.exists_cons_of_ne_nil hne
    exact ⟨c, acc c, .single (by simp [childNodes, hmin.root]), hmin.leaf c (by simp)⟩
  obtain ⟨r, F, hF⟩ := C88_inflows_end hP hleaf hw hC hset hp ht
  exact ⟨r, F, hF, C68_inflows_greedy hE hA hX hp ht hmin hmax hi hlo hhi (hF F le_rfl)⟩

/-! ### Where the conditions fail -/

/-- Two accounts, the first with room for 50, the second without limit and with weight 0. -/
def zeroEnv : Env ℕ ℕ ℚ where
  tree :=
    { root := 0
      kind := fun n => if n = 0 then .weighted [(1, 1), (2, 0)] else .leaf n }
  precision := 1
  limitOf a lim := .ok (if lim = .maxIn then (if a = 1 then .fin 50 else .posInf) else .fin 0)
  txOf _ _ x := .ok [(1 / 2, x)]
  groupOf _ _ := none
  solve := certifiedBy [[(.source, -1)], [(.sink, 1)]]
    [[(.overflow 0, 1), (.node 2, 1), (.limit 2, 1), (.acct 2, 1), (.sink, 1)], []]
    (alongPaths [
      [.source, .node 0, .limit 0, .node 1, .limit 1, .acct 1, .sink],
      [.source, .node 0, .limit 0, .node 2, .limit 2, .acct 2, .sink],
      [.source, .node 0, .limit 0, .overflow 0, .node 1, .limit 1, .acct 1, .sink],
      [.source, .node 0, .limit 0, .overflow 0, .node 2, .limit 2, .acct 2, .sink]])

/-- **C88.** A child of weight 0 can make the traversal raise `ZeroDivisionError`: 100 for two
accounts, the first with room for 50, the second without a limit and with weight 0. (1000 is
Python's limit on recursion.) -/
theorem C88_zero_weight_refuted : ∃ E : Env ℕ ℕ ℚ,
    Optimal E ∧ Willing E ∧ E.precision = 1 ∧ (∀ n lim, E.tree.limits n lim = none) ∧
    (∀ a lim, E.groupOf a lim = none) ∧
    E.tree.kind E.tree.root = .weighted [(1, 1), (2, 0)] ∧
    E.tree.kind 1 = .leaf 1 ∧ E.tree.kind 2 = .leaf 2 ∧
    E.limitOf 1 .maxIn = .ok (.fin 50) ∧ E.limitOf 2 .maxIn = .ok .posInf ∧
    (∀ a, E.limitOf a .minIn = .ok (.fin 0)) ∧
    call E 1000 100 = .error .zeroDivisionError :=
  ⟨zeroEnv, ⟨fun _ _ h => certifiedBy_sound h, fun _ _ h => h, fun _ _ => Iff.rfl⟩,
    ⟨fun _ _ => ⟨_, rfl⟩, fun _ _ _ _ _ => ⟨_, rfl⟩, fun _ _ _ _ _ => ⟨_, rfl⟩⟩, rfl,
    fun _ _ => rfl, fun _ _ => rfl, rfl, rfl, rfl, rfl, rfl, fun _ => rfl, by decide +kernel⟩

/-- One account from which at least 500 must be taken, in a node of its own that says so too. -/
def minOutEnv : Env ℕ ℕ ℚ where
  tree :=
    { root := 0
      kind := fun n => .leaf n
      limits := fun n lim => if n = 0 ∧ lim = .minOut then some (-500) else none }
  precision := 1
  limitOf _ lim := .ok (.fin (if lim = .maxOut then -1000 else if lim = .minOut then -500 else 0))
  txOf _ _ x := .ok [(1 / 2, x)]
  groupOf _ _ := none
  solve := certifiedBy [[(.sink, 1)]] [[]]
    (alongPaths [[.source, .node 0, .limit 0, .acct 0, .sink]])

/-- **C88.** A minimum outflow of the root of the tree that is more than what is to be taken out
leaves the flow algorithm with a network in which there is no flow at all (an edge has a negative
capacity), so it must fail (networkx raises `NetworkXUnfeasible`). -/
theorem C88_minimum_outflow_refuted : ∃ (E : Env ℕ ℕ ℚ) (memo : Flows ℕ ℕ)
    (txs : Dict ℕ (Dict ℚ ℚ)) (g : Graph ℕ ℕ),
    Optimal E ∧ Willing E ∧ E.precision = 1 ∧ (∀ a lim, E.groupOf a lim = none) ∧
    E.tree.kind E.tree.root = .leaf 0 ∧
    E.tree.limits E.tree.root .minOut = some (-500) ∧
    E.limitOf 0 .minOut = .ok (.fin (-500)) ∧ E.limitOf 0 .maxOut = .ok (.fin (-1000)) ∧
    traverse E 1000 .minOut .negInf [] = .ok (txs, memo) ∧
    buildGraph E .maxOut memo 1000 (.fin (-100)) = .ok g ∧ (∀ f, ¬ Feasible g f) ∧
    ∀ r, call E 1000 (-100) ≠ .ok r := by
  have hO : Optimal minOutEnv :=
    ⟨fun _ _ h => certifiedBy_sound h, fun _ _ h => h, fun _ _ => Iff.rfl⟩
  obtain ⟨txs, memo, h1⟩ : ∃ txs memo,
      traverse minOutEnv 1000 .minOut .negInf [] = .ok (txs, memo) ∧
      ∃ g, buildGraph minOutEnv .maxOut memo 1000 (.fin (-100)) = .ok g ∧
        Dict.get? g (.source, .node 0) = some ⟨some (-400), none⟩ := by
    have key : (match traverse minOutEnv 1000 .minOut .negInf [] with
        | .error _ => false
        | .ok (_, memo) =>
          match buildGraph minOutEnv .maxOut memo 1000 (.fin (-100)) with
          | .error _ => false
          | .ok g => decide (Dict.get? g (.source, .node 0) = some ⟨some (-400), none⟩)) = true := by
      decide +kernel
    cases h1 : traverse minOutEnv 1000 .minOut .negInf [] with
    | error e => rw [h1] at key; cases key
    | ok x =>
      rw [h1] at key
      simp only at key
      cases h2 : buildGraph minOutEnv .maxOut x.2 1000 (.fin (-100)) with
      | error e => rw [h2] at key; cases key
      | ok g =>
        rw [h2] at key
        exact ⟨x.1, x.2, rfl, g, h2, of_decide_eq_true key⟩
  obtain ⟨h1, g, h2, h3⟩ := h1
  have hno : ∀ f, ¬ Feasible g f := by
    intro f hf
    have := hf.capacity _ _ _ _ h3 rfl
    have := hf.nonneg (.source) (.node 0)
    omega
  refine ⟨minOutEnv, memo, txs, g, hO, ⟨fun _ _ => ⟨_, rfl⟩, fun _ _ _ _ _ => ⟨_, rfl⟩,
    fun _ _ _ _ _ => ⟨_, rfl⟩⟩, rfl, fun _ _ => rfl, rfl, rfl, rfl, rfl, h1, h2, hno, ?_⟩
  intro r hr
  unfold call at hr
  rw [if_neg (by decide +kernel), if_pos (by decide +kernel), h1, ok_bind] at hr
  simp only [traverse] at hr
  rw [h2, ok_bind] at hr
  cases hs : minOutEnv.solve g with
  | ok f => exact hno f (hO.solver g f hs).feasible
  | error e => rw [hs] at hr; cases hr

/-! ### A concrete case -/

/-- The weights 1 and 3, limits of 50 and 200, a shared limit, with any flow algorithm. -/
def totalEnv (solve : Graph ℕ ℕ → Except PyErr (Flows ℕ ℕ)) : Env ℕ ℕ ℚ where
  tree :=
    { root := 0
      kind := fun n => if n = 0 then .ordered [1, 4] else if n = 1 then .weighted [(2, 1), (3, 3)]
        else .leaf n
      limits := fun n lim => if n = 1 ∧ lim = .maxIn then some 120 else none }
  precision := 1
  limitOf a lim := .ok (if lim = .maxIn then (if a = 2 then .fin 50 else if a = 3 then .fin 200
    else .posInf) else .fin 0)
  txOf _ _ x := .ok [(1 / 2, x)]
  groupOf a _ := if a = 2 ∨ a = 3 then some {2, 3} else none
  solve := solve

theorem total_proper (solve) : Proper (totalEnv solve) (fun n => if n = 0 then 2 else if n = 1
    then 1 else 0) := by
  have h0 : (totalEnv solve).tree.kind 0 = .ordered [1, 4] := rfl
  have h1 : (totalEnv solve).tree.kind 1 = .weighted [(2, 1), (3, 3)] := rfl
  have h2 : ∀ n, n ≠ 0 → n ≠ 1 → (totalEnv solve).tree.kind n = .leaf n := by
    intro n h0 h1; simp [totalEnv, h0, h1]
  constructor
  · intro n c hc
    by_cases hn : n = 0
    · subst hn
      simp only [childNodes, h0, List.mem_cons, List.not_mem_nil, or_false] at hc
      rcases hc with rfl | rfl <;> simp
    · by_cases hn1 : n = 1
      · subst hn1
        simp only [childNodes, h1, Dict.keys, List.map_cons, List.map_nil, List.mem_cons,
          List.not_mem_nil, or_false] at hc
        rcases hc with rfl | rfl <;> simp
      · simp [childNodes, h2 n hn hn1] at hc
  · intro n cs hk
    by_cases hn : n = 0
    · subst hn; rw [h0] at hk; cases hk
    · by_cases hn1 : n = 1
      · subst hn1; rw [h1] at hk; cases hk
        exact ⟨by simp, by simp [Dict.WF, Dict.keys], by simp⟩
      · rw [h2 n hn hn1] at hk; cases hk

/-- The conditions of `C88_inflows_end` and `C88_outflows_end` can be met, by any flow algorithm
as in `C88_solver_exists`. -/
theorem C88_example : ∃ solve, ∀ total : ℚ, 1 < total ∨ total < -1 →
    ∃ r F, ∀ fuel, F ≤ fuel → call (totalEnv solve) fuel total = .ok r := by
  obtain ⟨solve, h1, h2⟩ := C88_solver_exists (N := ℕ) (A := ℕ)
  have hleaf : HasLeaf (totalEnv solve) := ⟨4, 4, .single (show 4 ∈ [1, 4] by decide), rfl⟩
  have hw : Willing (totalEnv solve) :=
    ⟨fun _ _ => ⟨_, rfl⟩, fun _ _ _ _ _ => ⟨_, rfl⟩, fun _ _ _ _ _ => ⟨_, rfl⟩⟩
  refine ⟨solve, fun total ht => ?_⟩
  rcases ht with ht | ht
  · exact C88_inflows_end (total_proper solve) hleaf hw h2 (fun l => .refl l) one_pos ht
  · refine C88_outflows_end (total_proper solve) hleaf hw h2 (fun g f h => (h1 g f h).feasible)
      (fun l => .refl l) one_pos ?_ rfl ht
    intro n hn
    have := (total_proper solve).rank n _ hn
    simp only [show (totalEnv solve).tree.root = 0 from rfl] at this
    split_ifs at this <;> omega

end Forecaster.Traversal
