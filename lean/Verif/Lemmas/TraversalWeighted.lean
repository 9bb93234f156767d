import Verif.Lemmas.TraversalFlat

/-!
# The graph of weighted accounts
-/

set_option linter.unusedSectionVars false

namespace Forecaster.Traversal

open Forecaster Forecaster.Timing

variable {K : Type} [Field K] [LinearOrder K] [IsStrictOrderedRing K] [FloorRing K]
variable {N A : Type} [DecidableEq N] [DecidableEq A]

/-- Specification: the tree is a collection of different accounts with positive weights, without
limits on nodes and without limits shared between the accounts. -/
structure FlatW (E : Env N A K) (lim : Lim) (ws : Dict N K) (acc : N → A) : Prop where
  root : E.tree.kind E.tree.root = .weighted ws
  wf : Dict.WF ws
  ne : ws ≠ []
  pos : ∀ e ∈ ws, 0 < e.2
  notroot : E.tree.root ∉ Dict.keys ws
  leaf : ∀ c ∈ Dict.keys ws, E.tree.kind c = .leaf (acc c)
  inj : ∀ c ∈ Dict.keys ws, ∀ d ∈ Dict.keys ws, acc c = acc d → c = d
  free : ∀ n, n = E.tree.root ∨ n ∈ Dict.keys ws → E.tree.limits n lim = none
  alone : ∀ c ∈ Dict.keys ws, E.groupOf (acc c) lim = none

/-- The edges of the graph when the children `done` have been added; `over` are the children that
have an edge from the overflow node. -/
def wEdge (root : N) (acc : N → A) (cap : A → Option ℤ) (T : ℤ) (s : N → ℤ) (hasOver : Bool)
    (over done : List N) (wt : Option ℤ) : G N A × G N A → Option Edge
  | (.source, .node n) => if n = root then some ⟨some T, none⟩ else none
  | (.node n, .limit m) => if n = m ∧ (n = root ∨ n ∈ done) then some ⟨none, none⟩ else none
  | (.limit n, .overflow m) =>
    if n = root ∧ m = root ∧ hasOver = true then some ⟨some |T|, wt⟩ else none
  | (.overflow n, .node c) => if n = root ∧ c ∈ over then some ⟨some |T|, none⟩ else none
  | (.limit n, .node c) => if n = root ∧ c ∈ done then some ⟨some |s c|, none⟩ else none
  | (.limit n, .acct a) =>
    if n ∈ done ∧ acc n = a then some ⟨some |(|T| + |s n|)|, none⟩ else none
  | (.acct a, .sink) => if ∃ n ∈ done, acc n = a then some ⟨cap a, none⟩ else none
  | _ => none

/-- What has been built. -/
structure BuiltW (E : Env N A K) (lim : Lim) (memo : Flows N A) (acc : N → A) (T : ℤ) (s : N → ℤ)
    (hasOver : Bool) (over done : List N) (wt : Option ℤ) (g : Graph N A) : Prop where
  wf : Dict.WF g
  edge : ∀ k, Dict.get? g k =
    wEdge E.tree.root acc (capOf E lim memo) T s hasOver over done wt k

/-- The capacity that arrives at a node. -/
theorem inbound_sum {g : Graph N A} (hw : Dict.WF g) {v : G N A} {S : Finset (G N A)}
    (h : ∀ w e, Dict.get? g (w, v) = some e → w ∈ S) :
    inboundCapacity g v = ∑ u ∈ S, ((Dict.get? g (u, v)).bind Edge.capacity).getD 0 := by
  unfold inboundCapacity
  induction g with
  | nil => simp
  | cons x l ih =>
    obtain ⟨h1, h2⟩ := Dict.wf_cons.1 hw
    have hrest : ∀ w e, Dict.get? l (w, v) = some e → w ∈ S := by
      intro w e' he'
      apply h w e'
      rw [Dict.get?_cons, if_neg]
      · exact he'
      · rintro hx
        apply h1; rw [hx]
        exact Dict.get?_isSome.1 (by simp [he'])
    have ih' := ih h2 hrest
    by_cases hxv : x.1.2 = v
    · rw [List.filter_cons, if_pos (by simpa using hxv), List.map_cons, List.sum_cons, ih']
      have hx : x.1 = (x.1.1, v) := by rw [← hxv]
      have hmem : x.1.1 ∈ S := h x.1.1 x.2 (by rw [Dict.get?_cons, if_pos hx])
      rw [← Finset.add_sum_erase S _ hmem, ← Finset.add_sum_erase S
        (fun u => ((Dict.get? (x :: l) (u, v)).bind Edge.capacity).getD 0) hmem]
      have hn : Dict.get? l (x.1.1, v) = none := Dict.get?_eq_none.2 (hx ▸ h1)
      rw [hn, Dict.get?_cons, if_pos hx]
      have : ∑ u ∈ S.erase x.1.1, ((Dict.get? (x :: l) (u, v)).bind Edge.capacity).getD 0 =
          ∑ u ∈ S.erase x.1.1, ((Dict.get? l (u, v)).bind Edge.capacity).getD 0 := by
        apply Finset.sum_congr rfl
        intro u hu
        rw [Dict.get?_cons, if_neg]
        intro he
        exact (Finset.ne_of_mem_erase hu) (by rw [he])
      rw [this]
      simp
    · rw [List.filter_cons, if_neg (by simpa using hxv), ih']
      apply Finset.sum_congr rfl
      intro u _
      rw [Dict.get?_cons, if_neg]
      intro he
      exact hxv (by rw [he])

section Build

variable {E : Env N A K} {lim : Lim} {memo : Flows N A} {ws : Dict N K} {acc : N → A} {s : N → ℤ}

theorem builtW_step (hF : FlatW E lim ws acc) {T : ℤ} {done : List N} {g : Graph N A}
    (hg : BuiltW E lim memo acc T s true (Dict.keys ws) done none g) {c : N}
    (hc : c ∈ Dict.keys ws) (hd : ∀ d ∈ done, d ∈ Dict.keys ws) (hcd : c ∉ done) {fuel : ℕ}
    {g' : Graph N A}
    (h : addSuccessors E lim memo true fuel
      (addEdge g (.limit E.tree.root) (.node c) (.fin ((s c : ℤ) : K))) c none none = .ok g') :
    BuiltW E lim memo acc T s true (Dict.keys ws) (done ++ [c]) none g' := by
  have hcr : c ≠ E.tree.root := fun h => hF.notroot (h ▸ hc)
  have hacc : ∀ d ∈ done, acc d ≠ acc c := fun d hd' h => hcd (hF.inj d (hd d hd') c hc h ▸ hd')
  -- the edge to the child
  have e1 : addEdge g (.limit E.tree.root) (.node c) (.fin ((s c : ℤ) : K)) =
      Dict.set g (.limit E.tree.root, .node c) ⟨some |s c|, none⟩ := by
    unfold addEdge
    rw [show flowsTo ([] : Flows N A) (.limit E.tree.root) (.node c) = 0 from rfl,
      edgeCapacity_cast, putEdge_fresh]
    rw [hg.edge]; simp [wEdge, hcd]
  rw [e1] at h
  set G1 := Dict.set g (.limit E.tree.root, .node c) ⟨some |s c|, none⟩ with hG1
  have w1 : Dict.WF G1 := Dict.wf_set hg.wf _ _
  have k1 : ∀ k, Dict.get? G1 k = if (.limit E.tree.root, .node c) = k then
      some ⟨some |s c|, none⟩ else
        wEdge E.tree.root acc (capOf E lim memo) T s true (Dict.keys ws) done none k := by
    intro k; rw [hG1, Dict.get?_set, hg.edge]
  cases fuel with
  | zero => rw [addSuccessors.eq_def] at h; cases h
  | succ fuel =>
    rw [addSuccessors.eq_def] at h
    simp only [hF.leaf c hc, Option.getD_none] at h
    have hin : inboundCapacity G1 (.node c) = |T| + |s c| := by
      rw [inbound_sum w1 (S := {.overflow E.tree.root, .limit E.tree.root}), Finset.sum_pair (by simp)]
      · rw [k1, if_neg (by simp), k1, if_pos rfl]
        simp [wEdge, hc]
      · intro u e hu
        rw [k1] at hu
        by_cases hne : u = .limit E.tree.root
        · simp [hne]
        · rw [if_neg (fun h => hne (by injection h with h1 h2; exact h1.symm))] at hu
          cases u with
          | overflow n =>
            simp only [wEdge] at hu
            split_ifs at hu with hh
            simp [hh.1]
          | limit n =>
            simp only [wEdge] at hu
            rw [if_neg (fun h => hcd h.2)] at hu; cases hu
          | _ => simp [wEdge, hcr] at hu
    rw [hin] at h
    unfold embedLimit at h
    rw [hF.free c (.inr hc)] at h
    simp only at h
    have e2 : putEdge G1 (.node c) (.limit c) none none =
        Dict.set G1 (.node c, .limit c) ⟨none, none⟩ := by
      apply putEdge_fresh
      rw [k1, if_neg (by simp)]; simp [wEdge, hcd, hcr]
    rw [e2] at h
    set G2 := Dict.set G1 (.node c, .limit c) ⟨none, none⟩ with hG2
    have w2 : Dict.WF G2 := Dict.wf_set w1 _ _
    have k2 : ∀ k, Dict.get? G2 k = if (.node c, .limit c) = k then some ⟨none, none⟩
        else Dict.get? G1 k := by
      intro k; rw [hG2, Dict.get?_set]
    have e3 : addEdge G2 (.limit c) (.acct (acc c)) (.fin (((|T| + |s c| : ℤ)) : K)) =
        Dict.set G2 (.limit c, .acct (acc c)) ⟨some |(|T| + |s c|)|, none⟩ := by
      unfold addEdge
      rw [show flowsTo ([] : Flows N A) (.limit c) (.acct (acc c)) = 0 from rfl,
        edgeCapacity_cast, putEdge_fresh]
      rw [k2, if_neg (by simp), k1, if_neg (by simp)]; simp [wEdge, hcd]
    rw [e3] at h
    set G3 := Dict.set G2 (.limit c, .acct (acc c)) ⟨some |(|T| + |s c|)|, none⟩ with hG3
    have w3 : Dict.WF G3 := Dict.wf_set w2 _ _
    have k3 : ∀ k, Dict.get? G3 k = if (.limit c, .acct (acc c)) = k then
        some ⟨some |(|T| + |s c|)|, none⟩ else Dict.get? G2 k := by
      intro k; rw [hG3, Dict.get?_set]
    unfold addAccount at h
    rw [bind_ok_iff] at h
    obtain ⟨y, hy, h⟩ := h
    rw [hF.alone c hc] at h
    simp only at h
    have e4 : addEdge G3 (.acct (acc c)) .sink
        (lessFlow (scale E.precision y) (flowsFrom memo (.acct (acc c)))) =
        Dict.set G3 (.acct (acc c), .sink) ⟨capOf E lim memo (acc c), none⟩ := by
      unfold addEdge
      rw [show flowsTo ([] : Flows N A) (.acct (acc c)) .sink = 0 from rfl, putEdge_fresh]
      · unfold capOf; rw [hy]; rfl
      · rw [k3, if_neg (by simp), k2, if_neg (by simp), k1, if_neg (by simp)]
        simp only [wEdge]
        rw [if_neg]
        rintro ⟨n, hn, hna⟩
        exact hacc n hn hna
    rw [e4] at h
    cases h
    set G4 := Dict.set G3 (.acct (acc c), .sink) ⟨capOf E lim memo (acc c), none⟩ with hG4
    have w4 : Dict.WF G4 := Dict.wf_set w3 _ _
    refine ⟨w4, ?_⟩
    rintro ⟨u, v⟩
    rw [hG4, Dict.get?_set, k3, k2, k1]
    cases u <;> cases v <;> simp only [wEdge, Prod.mk.injEq, reduceCtorEq, false_and,
      and_false, if_false, G.node.injEq, G.limit.injEq, G.acct.injEq, and_true,
      List.mem_append, List.mem_singleton]
    · rename_i n m
      by_cases h1 : c = n
      · subst h1
        by_cases h2 : c = m
        · subst h2; simp
        · simp [h2]
      · have : ¬ n = c := fun h => h1 h.symm
        simp [h1, this]
    · rename_i n d
      by_cases h1 : c = d
      · subst h1
        by_cases h2 : E.tree.root = n
        · subst h2; simp
        · have : ¬ n = E.tree.root := fun h => h2 h.symm
          simp [h2, this]
      · have h1' : ¬ d = c := fun h => h1 h.symm
        rw [if_neg (by tauto)]
        by_cases h3 : n = E.tree.root ∧ d ∈ done
        · rw [if_pos h3, if_pos (by tauto)]
        · rw [if_neg h3, if_neg (by tauto)]
    · rename_i n a
      by_cases h1 : c = n
      · subst h1
        by_cases h2 : acc c = a
        · simp [h2]
        · simp [h2]
      · have : ¬ n = c := fun h => h1 h.symm
        simp [h1, this]
    · rename_i a
      by_cases h1 : acc c = a
      · subst h1
        rw [if_pos rfl, if_pos ⟨c, by simp, rfl⟩]
      · rw [if_neg h1]
        by_cases h2 : ∃ n ∈ done, acc n = a
        · obtain ⟨n, hn, hna⟩ := h2
          rw [if_pos ⟨n, hn, hna⟩, if_pos ⟨n, by simp [hn], hna⟩]
        · rw [if_neg h2, if_neg]
          rintro ⟨n, hn, hna⟩
          rcases List.mem_append.1 hn with hn | hn
          · exact h2 ⟨n, hn, hna⟩
          · rw [List.mem_singleton.1 hn] at hna; exact h1 hna

theorem builtW_fold (hF : FlatW E lim ws acc) {T : ℤ} {fuel : ℕ} :
    ∀ (l done : List N) (g g' : Graph N A), done ++ l = Dict.keys ws →
      BuiltW E lim memo acc T s true (Dict.keys ws) done none g →
      childEdges (fun g c => addSuccessors E lim memo true fuel g c none none) E.tree.root g
        (l.map fun c => (c, ((s c : ℤ) : K))) = .ok g' →
      BuiltW E lim memo acc T s true (Dict.keys ws) (Dict.keys ws) none g' := by
  intro l
  induction l with
  | nil =>
    intro done g g' hcs hg h
    unfold childEdges at h
    rw [List.map_nil, List.foldlM_nil] at h
    cases h
    rw [List.append_nil] at hcs
    rw [hcs] at hg; exact hg
  | cons c l ih =>
    intro done g g' hcs hg h
    unfold childEdges at h
    rw [List.map_cons, List.foldlM_cons, bind_ok_iff] at h
    obtain ⟨g₁, h1, h⟩ := h
    have hnd : (done ++ c :: l).Nodup := hcs ▸ hF.wf
    have hcd : c ∉ done := by
      intro hc
      have := (List.nodup_append.1 hnd).2.2 c hc c (by simp)
      exact this rfl
    have b := builtW_step hF hg (c := c) (by rw [← hcs]; simp)
      (fun d hd => by rw [← hcs]; simp [hd]) hcd h1
    exact ih (done ++ [c]) g₁ g' (by rw [← hcs]; simp) b h

/-- The edges to and from the overflow node. -/
theorem builtW_over (hF : FlatW E lim ws acc) {T S : ℤ} (hS : |S| = |T|) {g : Graph N A}
    (hg : BuiltW E lim memo acc T s false [] [] none g) :
    BuiltW E lim memo acc T s true (Dict.keys ws) [] none
      (overflowEdges g E.tree.root ws ((S : ℤ) : K)) := by
  have h0 : BuiltW E lim memo acc T s true [] [] none
      (addEdge g (.limit E.tree.root) (.overflow E.tree.root) (.fin ((S : ℤ) : K))) := by
    have e : addEdge g (.limit E.tree.root) (.overflow E.tree.root) (.fin ((S : ℤ) : K)) =
        Dict.set g (.limit E.tree.root, .overflow E.tree.root) ⟨some |T|, none⟩ := by
      unfold addEdge
      rw [show flowsTo ([] : Flows N A) (.limit E.tree.root) (.overflow E.tree.root) = 0 from rfl,
        edgeCapacity_cast, hS, putEdge_fresh]
      rw [hg.edge]; simp [wEdge]
    rw [e]
    refine ⟨Dict.wf_set hg.wf _ _, ?_⟩
    rintro ⟨u, v⟩
    rw [Dict.get?_set, hg.edge]
    cases u <;> cases v <;> simp [wEdge]
    rename_i n m
    by_cases h1 : E.tree.root = n
    · subst h1
      by_cases h2 : E.tree.root = m
      · subst h2; simp
      · have h2' : ¬ m = E.tree.root := fun h => h2 h.symm
        simp [h2, h2']
    · have h1' : ¬ n = E.tree.root := fun h => h1 h.symm
      simp [h1, h1']
  have key : ∀ (l : Dict N K) (over : List N) (g : Graph N A), over ++ Dict.keys l = Dict.keys ws →
      BuiltW E lim memo acc T s true over [] none g →
      BuiltW E lim memo acc T s true (Dict.keys ws) [] none
        (l.foldl (fun g e => addEdge g (.overflow E.tree.root) (.node e.1) (.fin ((S : ℤ) : K))) g) := by
    intro l
    induction l with
    | nil =>
      intro over g hcs hg
      simp only [Dict.keys, List.map_nil, List.append_nil] at hcs
      rw [hcs] at hg; exact hg
    | cons x l ih =>
      intro over g hcs hg
      rw [List.foldl_cons]
      apply ih (over ++ [x.1])
      · rw [← hcs]; simp [Dict.keys]
      have hnd : (over ++ Dict.keys (x :: l)).Nodup := hcs ▸ hF.wf
      have hcd : x.1 ∉ over := by
        intro hc
        have := (List.nodup_append.1 hnd).2.2 x.1 hc x.1 (by simp [Dict.keys])
        exact this rfl
      have e : addEdge g (.overflow E.tree.root) (.node x.1) (.fin ((S : ℤ) : K)) =
          Dict.set g (.overflow E.tree.root, .node x.1) ⟨some |T|, none⟩ := by
        unfold addEdge
        rw [show flowsTo ([] : Flows N A) (.overflow E.tree.root) (.node x.1) = 0 from rfl,
          edgeCapacity_cast, hS, putEdge_fresh]
        rw [hg.edge]; simp [wEdge, hcd]
      rw [e]
      refine ⟨Dict.wf_set hg.wf _ _, ?_⟩
      rintro ⟨u, v⟩
      rw [Dict.get?_set, hg.edge]
      cases u <;> cases v <;> simp [wEdge]
      rename_i n m
      by_cases h1 : E.tree.root = n
      · subst h1
        by_cases h2 : x.1 = m
        · subst h2; simp
        · have h2' : ¬ m = x.1 := fun h => h2 h.symm
          simp [h2, h2']
      · have h1' : ¬ n = E.tree.root := fun h => h1 h.symm
        simp [h1, h1']
  unfold overflowEdges
  exact key ws [] _ (by simp) h0

/-- Below the children there are no weights. -/
theorem sumWeight_child (hF : FlatW E lim ws acc) {T : ℤ} {g : Graph N A}
    (hg : BuiltW E lim memo acc T s true (Dict.keys ws) (Dict.keys ws) none g) {c : N}
    (hc : c ∈ Dict.keys ws) {fuel : ℕ} {x : ℤ} (hx : sumWeight g fuel (.node c) = .ok x) : x = 0 := by
  have hcr : c ≠ E.tree.root := fun h => hF.notroot (h ▸ hc)
  refine sumWeight_zero (g := g)
    (fun u => u = .node c ∨ u = .limit c ∨ (∃ a, u = .acct a) ∨ u = .sink) ?_ fuel _ x
    (.inl rfl) hx
  rintro ⟨⟨u, v⟩, e⟩ he hu
  have hk := hg.edge (u, v)
  rw [Dict.get?_of_mem hg.wf he] at hk
  simp only at hu ⊢
  rcases hu with rfl | rfl | ⟨a, rfl⟩ | rfl
  · cases v <;> simp only [wEdge, reduceCtorEq] at hk
    split_ifs at hk with hh
    cases hk
    obtain ⟨rfl, -⟩ := hh
    simp
  · cases v <;> simp only [wEdge, reduceCtorEq] at hk
    · rw [if_neg (fun h => hcr h.1)] at hk; cases hk
    · rw [if_neg (fun h => hcr h.1)] at hk; cases hk
    · split_ifs at hk with hh
      cases hk
      simp
  · cases v <;> simp only [wEdge, reduceCtorEq] at hk
    split_ifs at hk with hh
    cases hk
    simp
  · cases v <;> simp [wEdge] at hk


theorem max_zero : ∀ {l : List ℤ} {w : ℤ}, (∀ x ∈ l, x = 0) → l.max? = some w → w = 0 := by
  intro l w h hw
  exact h w (List.max?_mem hw)

/-- The weight of the overflow edge. -/
theorem builtW_weight (hF : FlatW E lim ws acc) {T : ℤ} {fuel : ℕ} {g g' : Graph N A}
    (hg : BuiltW E lim memo acc T s true (Dict.keys ws) (Dict.keys ws) none g)
    (h : overflowWeight fuel g E.tree.root ws = .ok g') :
    BuiltW E lim memo acc T s true (Dict.keys ws) (Dict.keys ws) (some 1) g' := by
  unfold overflowWeight at h
  rw [bind_ok_iff] at h
  obtain ⟨l, h1, h⟩ := h
  have h0 : ∀ x ∈ l, x = 0 := by
    intro x hx
    obtain ⟨c, hc, hcx⟩ := mem_mapM h1 hx
    exact sumWeight_child hF hg hc hcx
  cases hm : l.max? with
  | none => rw [hm] at h; cases h
  | some w =>
    rw [hm] at h
    have := max_zero h0 hm
    subst this
    cases h
    unfold putEdge
    have hk : Dict.get? g (.limit E.tree.root, .overflow E.tree.root) = some ⟨some |T|, none⟩ := by
      rw [hg.edge]; simp [wEdge]
    rw [hk]
    refine ⟨Dict.wf_set hg.wf _ _, ?_⟩
    rintro ⟨u, v⟩
    rw [Dict.get?_set, hg.edge]
    cases u <;> cases v <;> simp [wEdge]
    rename_i n m
    by_cases h1 : E.tree.root = n
    · subst h1
      by_cases h2 : E.tree.root = m
      · subst h2; simp
      · have h2' : ¬ m = E.tree.root := fun h => h2 h.symm
        simp [h2, h2']
    · have h1' : ¬ n = E.tree.root := fun h => h1 h.symm
      simp [h1, h1']

/-- The graph of weighted accounts, before it is balanced, if the shares are whole. -/
theorem weighted_graph (hF : FlatW E lim ws acc) {T : ℤ} (hT : 0 ≤ T)
    (hm : ∀ v, flowsTo memo (.limit E.tree.root) v = 0)
    (hs : ∀ e ∈ ws, (s e.1 : K) * Dict.total ws = (T : K) * e.2) {fuel : ℕ} {g : Graph N A}
    (h : addSuccessors E lim memo true fuel
      [((.source, .node E.tree.root), ⟨some T, none⟩)] E.tree.root none none = .ok g) :
    BuiltW E lim memo acc T s true (Dict.keys ws) (Dict.keys ws) (some 1) g := by
  have hW : 0 < Dict.total ws := by
    unfold Dict.total
    apply List.sum_pos
    · intro x hx
      obtain ⟨e, he, rfl⟩ := List.mem_map.1 hx
      exact hF.pos e he
    · simpa [Dict.vals] using hF.ne
  have hs0 : ∀ e ∈ ws, (0 : K) ≤ (s e.1 : K) := by
    intro e he
    have h1 : (0 : K) ≤ (s e.1 : K) * Dict.total ws := by
      rw [hs e he]
      exact mul_nonneg (by exact_mod_cast hT) (hF.pos e he).le
    exact nonneg_of_mul_nonneg_left h1 hW
  cases fuel with
  | zero => rw [addSuccessors.eq_def] at h; cases h
  | succ fuel =>
    rw [addSuccessors.eq_def] at h
    simp only [hF.root, Option.getD_none] at h
    unfold embedLimit at h
    rw [hF.free _ (.inl rfl)] at h
    simp only at h
    have hin : inboundCapacity ([((.source, .node E.tree.root), ⟨some T, none⟩)] : Graph N A)
        (.node E.tree.root) = T := by
      simp [inboundCapacity]
    rw [hin] at h
    set G0 := putEdge ([((.source, .node E.tree.root), ⟨some T, none⟩)] : Graph N A)
      (.node E.tree.root) (.limit E.tree.root) none none with hG0
    have hG0' : G0 = [((.source, .node E.tree.root), ⟨some T, none⟩),
        ((.node E.tree.root, .limit E.tree.root), ⟨none, none⟩)] := by
      rw [hG0, putEdge_fresh (by simp [Dict.get?])]
      simp [Dict.set]
    have hb : BuiltW E lim memo acc T s false [] [] none G0 := by
      rw [hG0']
      constructor
      · simp [Dict.WF, Dict.keys]
      · rintro ⟨u, v⟩
        rw [Dict.get?_cons, Dict.get?_cons]
        cases u <;> cases v <;> simp [wEdge, eq_comm]
        rename_i n m
        by_cases h1 : n = E.tree.root
        · subst h1
          by_cases h2 : E.tree.root = m
          · subst h2; simp
          · have h2' : ¬ m = E.tree.root := fun h => h2 h.symm
            simp [h2, h2']
        · have h1' : ¬ E.tree.root = n := fun h => h1 h.symm
          simp [h1, h1']
    unfold addWeighted at h
    rw [if_pos rfl, bind_ok_iff] at h
    obtain ⟨g₁, h1, h⟩ := h
    refine builtW_weight hF ?_ h
    rw [addWeightedChildren.eq_def, bind_ok_iff] at h1
    obtain ⟨fl, h2, h1⟩ := h1
    have hfl : fl = 0 := by
      unfold flowsToChildren at h2
      cases hx : Dict.get? memo (.limit E.tree.root) with
      | none => rw [hx] at h2; cases h2; rfl
      | some d => rw [hx] at h2; exact flowsAt_zero hm h2
    subst hfl
    simp only at h1
    rw [if_neg (fun h => hW.ne' h.1)] at h1
    have htot : (ws.map fun e => (e.1, ((T : K) + ((0 : ℤ) : K)) * e.2 / Dict.total ws -
        (flowsTo memo (.limit E.tree.root) (.node e.1) : K))) =
        (Dict.keys ws).map fun c => (c, ((s c : ℤ) : K)) := by
      unfold Dict.keys
      rw [List.map_map]
      apply List.map_congr_left
      intro e he
      simp only [Function.comp, Prod.mk.injEq, true_and]
      rw [hm, Int.cast_zero, add_zero, sub_zero, ← hs e he, mul_div_cancel_right₀ _ hW.ne']
    rw [htot, if_neg] at h1
    · exact builtW_fold hF (Dict.keys ws) [] _ g₁ (by simp) (builtW_over hF rfl hb) h1
    · rintro ⟨e, he, h0⟩
      obtain ⟨c, hc, rfl⟩ := List.mem_map.1 he
      obtain ⟨x, hx, rfl⟩ := List.mem_map.1 hc
      exact absurd h0 (not_lt.2 (hs0 x hx))

end Build

/-! ### The optimal flow -/

section Flow

variable {E : Env N A K} {lim : Lim} {memo : Flows N A} {ws : Dict N K} {acc : N → A} {T : ℤ}
  {s : N → ℤ} {g : Graph N A}

theorem sum_out_one {g : Graph N A} {F : G N A → G N A → ℤ}
    (hF : ∀ u v, Dict.get? g (u, v) = none → F u v = 0) {u v : G N A}
    (h : ∀ w, w ≠ v → F u w = 0) : ∑ w ∈ verts g, F u w = F u v := by
  by_cases hv : v ∈ verts g
  · exact Finset.sum_eq_single_of_mem v hv fun w _ hw => h w hw
  · have : F u v = 0 := by
      apply hF
      cases hx : Dict.get? g (u, v) with
      | none => rfl
      | some e => exact absurd (mem_verts_left hx).2 hv
    rw [this]
    exact Finset.sum_eq_zero fun w hw => h w (fun hwv => hv (hwv ▸ hw))

theorem sum_in_one {g : Graph N A} {F : G N A → G N A → ℤ}
    (hF : ∀ u v, Dict.get? g (u, v) = none → F u v = 0) {u v : G N A}
    (h : ∀ w, w ≠ u → F w v = 0) : ∑ w ∈ verts g, F w v = F u v := by
  by_cases hv : u ∈ verts g
  · exact Finset.sum_eq_single_of_mem u hv fun w _ hw => h w hw
  · have : F u v = 0 := by
      apply hF
      cases hx : Dict.get? g (u, v) with
      | none => rfl
      | some e => exact absurd (mem_verts_left hx).1 hv
    rw [this]
    exact Finset.sum_eq_zero fun w hw => h w (fun hwv => hv (hwv ▸ hw))

/-- A sum with two non-zero terms. -/
theorem sum_in_two {g : Graph N A} {F : G N A → G N A → ℤ}
    (hF : ∀ u v, Dict.get? g (u, v) = none → F u v = 0) {u u' v : G N A} (hne : u ≠ u')
    (h : ∀ w, w ≠ u → w ≠ u' → F w v = 0) : ∑ w ∈ verts g, F w v = F u v + F u' v := by
  have hz : ∀ w, w ∉ verts g → F w v = 0 := by
    intro w hw
    apply hF
    cases hx : Dict.get? g (w, v) with
    | none => rfl
    | some e => exact absurd (mem_verts_left hx).1 hw
  rw [← Finset.sum_pair (f := fun w => F w v) hne]
  exact (Finset.sum_subset (Finset.subset_union_left (s₂ := {u, u'}))
      (fun w _ hw => hz w hw)).trans
    (Finset.sum_subset (Finset.subset_union_right (s₁ := verts g)) (fun w _ hw => by
      simp only [Finset.mem_insert, Finset.mem_singleton, not_or] at hw
      exact h w hw.1 hw.2)).symm

/-- Sum over the children of the root and one more node. -/
theorem sum_children_and {g : Graph N A} {F : G N A → G N A → ℤ}
    (hF : ∀ u v, Dict.get? g (u, v) = none → F u v = 0) {u z : G N A} (hzn : ∀ c, z ≠ .node c)
    {cs : List N} (h : ∀ w, w ≠ z → (∀ c ∈ cs, w ≠ .node c) → F u w = 0) :
    ∑ w ∈ verts g, F u w = F u z + ∑ c ∈ cs.toFinset, F u (.node c) := by
  have hinj : Set.InjOn (fun c : N => (G.node c : G N A)) cs.toFinset := by
    intro a _ b _ hab
    simpa using hab
  rw [← Finset.sum_image (s := cs.toFinset) (g := fun c => (G.node c : G N A))
    (f := fun w => F u w) hinj]
  have hz' : ∀ w, w ∉ verts g → F u w = 0 := by
    intro w hw
    apply hF
    cases hx : Dict.get? g (u, w) with
    | none => rfl
    | some e => exact absurd (mem_verts_left hx).2 hw
  rw [← Finset.sum_insert (f := fun w => F u w) (s := cs.toFinset.image fun c => (G.node c : G N A))
    (by
      intro hm
      obtain ⟨c, -, hc⟩ := Finset.mem_image.1 hm
      exact hzn c hc.symm)]
  exact (Finset.sum_subset (Finset.subset_union_left
      (s₂ := insert z (cs.toFinset.image (fun c => (G.node c : G N A)))))
      (fun w _ hw => hz' w hw)).trans
    (Finset.sum_subset (Finset.subset_union_right
      (s₁ := verts g)) (fun w _ hw => by
        simp only [Finset.mem_insert, Finset.mem_image, not_or, not_exists, not_and] at hw
        exact h w hw.1 fun c hc hwc => hw.2 c (by simpa using hc) hwc.symm)).symm

/-- The proportional split is a flow. -/
theorem splitFlow_isFlow (hF : FlatW E lim ws acc)
    (hB : BuiltW E lim memo acc T s true (Dict.keys ws) (Dict.keys ws) (some 1) g)
    (h0 : ∀ c ∈ Dict.keys ws, 0 ≤ s c) (hsum : ∑ c ∈ (Dict.keys ws).toFinset, s c = T)
    (hcap : ∀ c ∈ Dict.keys ws, ∀ k, capOf E lim memo (acc c) = some k → s c ≤ k) :
    IsFlow g (flatFlow E.tree.root acc (Dict.keys ws) s) := by
  set cs := Dict.keys ws with hcs
  have hT : 0 ≤ T := hsum ▸ Finset.sum_nonneg fun c hc => h0 c (by simpa using hc)
  have hcr : ∀ c ∈ cs, c ≠ E.tree.root := fun c hc h => hF.notroot (h ▸ hc)
  have hacct : ∀ c ∈ cs, (∑ d ∈ cs.toFinset, if acc d = acc c then s d else 0) = s c := by
    intro c hc
    rw [Finset.sum_eq_single_of_mem c (by simpa using hc)]
    · simp
    · intro d hd hdc
      rw [if_neg]
      intro hac
      exact hdc (hF.inj d (by simpa using hd) c hc hac)
  have hedges : ∀ u v, Dict.get? g (u, v) = none → flatFlow E.tree.root acc cs s u v = 0 := by
    intro u v huv
    rw [hB.edge] at huv
    cases u <;> cases v <;> simp only [flatFlow]
    all_goals simp only [wEdge] at huv
    all_goals (split_ifs at huv with hh <;> try rw [if_neg hh])
    · rename_i n m
      by_cases h1 : n = m
      · rw [if_pos h1, if_neg (fun h => hh ⟨h1, .inl h⟩), if_neg (fun h => hh ⟨h1, .inr h⟩)]
      · rw [if_neg h1]
    · rename_i a
      apply Finset.sum_eq_zero
      intro c hc
      rw [if_neg]
      intro hca
      exact hh ⟨c, by simpa using hc, hca⟩
  refine ⟨?_, ?_, hedges, ?_⟩
  · intro u v
    cases u <;> cases v <;> simp only [flatFlow, le_refl]
    · split_ifs <;> simp [hsum, hT]
    · split_ifs with h1 h2 h3
      · rw [hsum]; exact hT
      · exact h0 _ h3
      · exact le_rfl
      · exact le_rfl
    · split_ifs with h1
      · exact h0 _ h1.2
      · exact le_rfl
    · split_ifs with h1
      · exact h0 _ h1.1
      · exact le_rfl
    · apply Finset.sum_nonneg
      intro c hc
      split_ifs
      · exact h0 c (by simpa using hc)
      · exact le_rfl
  · intro u v e k he hk
    rw [hB.edge] at he
    cases u <;> cases v <;> simp only [wEdge, reduceCtorEq] at he
    all_goals (split_ifs at he with hh; cases he; simp only [reduceCtorEq, Option.some.injEq] at hk)
    · subst hk
      simp only [flatFlow, if_pos hh]
      exact hsum.le
    · subst hk
      simp only [flatFlow, if_pos hh]
      exact le_abs_self _
    · subst hk
      simp only [flatFlow]
      exact abs_nonneg _
    · subst hk
      simp only [flatFlow, if_pos hh]
      refine le_trans ?_ (le_abs_self _)
      have := le_abs_self (s ‹N›)
      have := abs_nonneg T
      omega
    · subst hk
      simp only [flatFlow]
      exact abs_nonneg _
    · obtain ⟨n, hn, rfl⟩ := hh
      simp only [flatFlow]
      rw [hacct n hn]
      exact hcap n hn k hk
  · intro v hv hv'
    cases v with
    | source => exact absurd rfl hv
    | sink => exact absurd rfl hv'
    | node n =>
      rw [sum_out_one hedges (v := .limit n)]
      · by_cases hn : n = E.tree.root
        · subst hn
          rw [sum_in_one hedges (u := .source)]
          · simp [flatFlow]
          · intro w hw
            cases w <;> simp only [flatFlow]
            · exact absurd rfl hw
            · rw [if_neg (fun h => hF.notroot h.2)]
        · rw [sum_in_one hedges (u := .limit E.tree.root)]
          · simp [flatFlow, hn]
          · intro w hw
            cases w <;> simp only [flatFlow]
            · rw [if_neg hn]
            · rw [if_neg]; rintro ⟨rfl, -⟩; exact hw rfl
      · intro w hw
        cases w <;> simp only [flatFlow]
        rw [if_neg]; rintro rfl; exact hw rfl
    | limit n =>
      rw [sum_in_one hedges (u := .node n)]
      · by_cases hn : n = E.tree.root
        · subst hn
          rw [sum_children_and hedges (z := .overflow E.tree.root) (cs := cs) (by simp)]
          · simp only [flatFlow, if_true, true_and, zero_add]
            apply Finset.sum_congr rfl
            intro c hc
            rw [if_pos (by simpa using hc)]
          · intro w hw hw'
            cases w <;> simp only [flatFlow]
            · rw [if_neg]; rintro ⟨-, h⟩; exact hw' _ h rfl
            · rw [if_neg (fun h => hF.notroot h.1)]
        · rw [sum_out_one hedges (v := .acct (acc n))]
          · simp [flatFlow, hn]
          · intro w hw
            cases w <;> simp only [flatFlow]
            · rw [if_neg (fun h => hn h.1)]
            · rw [if_neg]; rintro ⟨-, h⟩; exact hw (by rw [h])
      · intro w hw
        cases w <;> simp only [flatFlow]
        rw [if_neg]; rintro rfl; exact hw rfl
    | overflow n =>
      rw [Finset.sum_eq_zero, Finset.sum_eq_zero]
      · intro w _; cases w <;> rfl
      · intro w _; cases w <;> rfl
    | acct a =>
      rw [sum_out_one hedges (v := .sink)]
      · by_cases hex : ∃ c ∈ cs, acc c = a
        · obtain ⟨c, hc, rfl⟩ := hex
          rw [sum_in_one hedges (u := .limit c)]
          · simp only [flatFlow]
            rw [hacct c hc, if_pos ⟨hc, trivial⟩]
          · intro w hw
            cases w <;> simp only [flatFlow]
            rw [if_neg]
            rintro ⟨h1, h2⟩
            exact hw (by rw [hF.inj _ h1 c hc h2])
        · rw [Finset.sum_eq_zero]
          · symm
            simp only [flatFlow]
            apply Finset.sum_eq_zero
            intro c hc
            rw [if_neg]
            intro h; exact hex ⟨c, by simpa using hc, h⟩
          · intro w _
            cases w <;> simp only [flatFlow]
            rw [if_neg]
            rintro ⟨h1, h2⟩
            exact hex ⟨_, h1, h2⟩
      · intro w hw
        cases w <;> simp only [flatFlow]
        exact absurd rfl hw
    | group t =>
      rw [Finset.sum_eq_zero, Finset.sum_eq_zero]
      · intro w _; cases w <;> rfl
      · intro w _; cases w <;> rfl

/-- **The optimal flow of weighted accounts is the proportional split**, if the shares are whole
and the accounts have room for them. -/
theorem weighted_optimal (hF : FlatW E lim ws acc)
    (hB : BuiltW E lim memo acc T s true (Dict.keys ws) (Dict.keys ws) (some 1) g)
    (h0 : ∀ c ∈ Dict.keys ws, 0 ≤ s c) (hsum : ∑ c ∈ (Dict.keys ws).toFinset, s c = T)
    (hcap : ∀ c ∈ Dict.keys ws, ∀ k, capOf E lim memo (acc c) = some k → s c ≤ k)
    {f : Flows N A} (hf : MinCostMaxFlow g f) :
    (∀ c ∈ Dict.keys ws, flow f (.limit E.tree.root) (.node c) = s c) ∧
    (∀ v, flow f (.overflow E.tree.root) v = 0) ∧
    ∀ c ∈ Dict.keys ws, out g f (.acct (acc c)) = s c := by
  set cs := Dict.keys ws with hcs
  have hT : 0 ≤ T := hsum ▸ Finset.sum_nonneg fun c hc => h0 c (by simpa using hc)
  have hcr : ∀ c ∈ cs, c ≠ E.tree.root := fun c hc h => hF.notroot (h ▸ hc)
  have hW := splitFlow_isFlow hF hB h0 hsum hcap
  set F := flatFlow E.tree.root acc cs s with hFdef
  have hfe := hf.feasible
  have hz : ∀ u v, Dict.get? g (u, v) = none → flow f u v = 0 := hfe.edges
  -- the value
  have hvF : value g F = T := by
    unfold value
    rw [sum_out_one hW.edges (v := .node E.tree.root)]
    · simp [hFdef, flatFlow, hsum]
    · intro w hw
      cases w <;> simp only [hFdef, flatFlow]
      rw [if_neg]; rintro rfl; exact hw rfl
  have hvf : value g (flow f) = flow f .source (.node E.tree.root) := by
    unfold value
    apply sum_out hz
    intro w e he
    rw [hB.edge] at he
    cases w <;> simp only [wEdge, reduceCtorEq] at he
    split_ifs at he with hh
    rw [hh]
  have hle : flow f .source (.node E.tree.root) ≤ T := by
    apply hfe.capacity _ _ ⟨some T, none⟩ T _ rfl
    rw [hB.edge]; simp [wEdge]
  have hval : flow f .source (.node E.tree.root) = T := by
    have := hf.maximal F hW
    rw [hvF, hvf] at this
    omega
  -- the cost
  have hwt : ∀ u v, (u, v) ≠ (.limit E.tree.root, .overflow E.tree.root) → weight g u v = 0 := by
    intro u v huv
    unfold weight
    rw [hB.edge]
    cases u <;> cases v <;> simp only [wEdge, Option.bind_none, Option.getD_none]
    all_goals (split_ifs with hh <;> try simp)
    exact absurd (by rw [hh.1, hh.2.1]) huv
  have hcF : cost g F = 0 := by
    unfold cost
    apply Finset.sum_eq_zero; intro u _
    apply Finset.sum_eq_zero; intro v _
    by_cases huv : (u, v) = (.limit E.tree.root, .overflow E.tree.root)
    · cases huv
      simp [hFdef, flatFlow]
    · rw [hwt u v huv, zero_mul]
  have hov : flow f (.limit E.tree.root) (.overflow E.tree.root) = 0 := by
    have h1 := hf.cheapest F hW (by rw [hvF, hvf, hval])
    rw [hcF] at h1
    have hnn : ∀ u v, 0 ≤ weight g u v * flow f u v := by
      intro u v
      by_cases huv : (u, v) = (.limit E.tree.root, .overflow E.tree.root)
      · cases huv
        apply mul_nonneg _ (hfe.nonneg _ _)
        unfold weight
        rw [hB.edge]; simp [wEdge]
      · rw [hwt u v huv, zero_mul]
    have h2 : cost g (flow f) = 0 := le_antisymm h1
      (Finset.sum_nonneg fun u _ => Finset.sum_nonneg fun v _ => hnn u v)
    unfold cost at h2
    have hk : Dict.get? g (.limit E.tree.root, .overflow E.tree.root) = some ⟨some |T|, some 1⟩ := by
      rw [hB.edge]; simp [wEdge]
    rw [Finset.sum_eq_zero_iff_of_nonneg fun u _ => Finset.sum_nonneg fun v _ => hnn u v] at h2
    have h3 := h2 _ (mem_verts_left hk).1
    rw [Finset.sum_eq_zero_iff_of_nonneg fun v _ => hnn _ v] at h3
    have h4 := h3 _ (mem_verts_left hk).2
    have h5 : weight g (.limit E.tree.root) (.overflow E.tree.root) = 1 := by
      unfold weight; rw [hk]; rfl
    rwa [h5, one_mul] at h4
  have hov2 : ∀ v, flow f (.overflow E.tree.root) v = 0 := by
    have hc := hfe.conserve (.overflow E.tree.root) (by simp) (by simp)
    rw [sum_in hz (u := .limit E.tree.root), hov] at hc
    · symm at hc
      rw [Finset.sum_eq_zero_iff_of_nonneg fun w _ => hfe.nonneg _ w] at hc
      intro v
      by_cases hv : v ∈ verts g
      · exact hc v hv
      · apply hz
        cases hx : Dict.get? g (G.overflow E.tree.root, v) with
        | none => rfl
        | some e => exact absurd (mem_verts_left hx).2 hv
    · intro w e he
      rw [hB.edge] at he
      cases w <;> simp only [wEdge, reduceCtorEq] at he
      split_ifs at he with hh
      rw [hh.1]
  -- from the source to the children
  have hr1 : flow f .source (.node E.tree.root) =
      flow f (.node E.tree.root) (.limit E.tree.root) := by
    have hc := hfe.conserve (.node E.tree.root) (by simp) (by simp)
    rw [sum_in hz (u := .source), sum_out hz (v := .limit E.tree.root)] at hc
    · exact hc
    · intro w e he
      rw [hB.edge] at he
      cases w <;> simp only [wEdge, reduceCtorEq] at he
      split_ifs at he with hh
      rw [hh.1]
    · intro w e he
      rw [hB.edge] at he
      cases w <;> simp only [wEdge, reduceCtorEq] at he
      · rfl
      · rw [if_neg (fun h => hF.notroot h.2)] at he; cases he
      · rw [if_neg (fun h => hF.notroot h.2)] at he; cases he
  have hr2 : flow f (.node E.tree.root) (.limit E.tree.root) =
      ∑ c ∈ cs.toFinset, flow f (.limit E.tree.root) (.node c) := by
    have hc := hfe.conserve (.limit E.tree.root) (by simp) (by simp)
    rw [sum_in hz (u := .node E.tree.root),
      sum_children_and hz (z := .overflow E.tree.root) (cs := cs) (by simp), hov, zero_add] at hc
    · exact hc
    · intro w hw hw'
      apply hz
      rw [hB.edge]
      cases w <;> simp only [wEdge]
      · rw [if_neg]; rintro ⟨-, h⟩; exact hw' _ h rfl
      · rw [if_neg]; rintro ⟨-, rfl, -⟩; exact hw rfl
      · rw [if_neg (fun h => hF.notroot h.1)]
    · intro w e he
      rw [hB.edge] at he
      cases w <;> simp only [wEdge, reduceCtorEq] at he
      split_ifs at he with hh
      rw [hh.1]
  have hcle : ∀ c ∈ cs.toFinset, flow f (.limit E.tree.root) (.node c) ≤ s c := by
    intro c hc
    have hc : c ∈ cs := by simpa using hc
    rw [← abs_of_nonneg (h0 c hc)]
    apply hfe.capacity _ _ ⟨some |s c|, none⟩ _ _ rfl
    rw [hB.edge]; simp [wEdge, hc]
  have hch : ∀ c ∈ cs, flow f (.limit E.tree.root) (.node c) = s c := by
    have := (Finset.sum_eq_sum_iff_of_le hcle).1 (by rw [hsum, ← hr2, ← hr1, hval])
    intro c hc
    exact this c (by simpa using hc)
  refine ⟨hch, hov2, fun c hc => ?_⟩
  have e1 : flow f (.limit E.tree.root) (.node c) = flow f (.node c) (.limit c) := by
    have hcc := hfe.conserve (.node c) (by simp) (by simp)
    rw [sum_in_two hz (u := .limit E.tree.root) (u' := .overflow E.tree.root) (by simp),
      sum_out hz (v := .limit c), hov2, add_zero] at hcc
    · exact hcc
    · intro w e he
      rw [hB.edge] at he
      cases w <;> simp only [wEdge, reduceCtorEq] at he
      split_ifs at he with hh
      rw [hh.1]
    · intro w hw hw'
      apply hz
      rw [hB.edge]
      cases w <;> simp only [wEdge]
      · rw [if_neg (hcr c hc)]
      · rw [if_neg]; rintro ⟨rfl, -⟩; exact hw rfl
      · rw [if_neg]; rintro ⟨rfl, -⟩; exact hw' rfl
  have e2 : flow f (.node c) (.limit c) = flow f (.limit c) (.acct (acc c)) := by
    have hcc := hfe.conserve (.limit c) (by simp) (by simp)
    rw [sum_in hz (u := .node c), sum_out hz (v := .acct (acc c))] at hcc
    · exact hcc
    · intro w e he
      rw [hB.edge] at he
      cases w <;> simp only [wEdge, reduceCtorEq] at he
      · rw [if_neg (fun h => hcr c hc h.1)] at he; cases he
      · rw [if_neg (fun h => hcr c hc h.1)] at he; cases he
      · split_ifs at he with hh
        rw [hh.2]
    · intro w e he
      rw [hB.edge] at he
      cases w <;> simp only [wEdge, reduceCtorEq] at he
      split_ifs at he with hh
      rw [hh.1]
  have e3 : out g f (.acct (acc c)) = flow f (.limit c) (.acct (acc c)) := by
    have hcc := hfe.conserve (.acct (acc c)) (by simp) (by simp)
    rw [sum_in hz (u := .limit c)] at hcc
    · exact hcc.symm
    · intro w e he
      rw [hB.edge] at he
      cases w <;> simp only [wEdge, reduceCtorEq] at he
      split_ifs at he with hh
      rw [hF.inj _ hh.1 c hc hh.2]
  rw [e3, ← e2, ← e1, hch c hc]

/-- Whole shares need no balancing. -/
theorem weighted_build (hF : FlatW E lim ws acc)
    (hsolve : ∀ g f, E.solve g = .ok f → MinCostMaxFlow g f) {total : K}
    (hT : T = |pyInt (total / E.precision)|)
    (hsrc : flowsTo memo .source (.node E.tree.root) = 0)
    (hm : ∀ v, flowsTo memo (.limit E.tree.root) v = 0)
    (hs : ∀ e ∈ ws, (s e.1 : K) * Dict.total ws = (T : K) * e.2)
    (h0 : ∀ c ∈ Dict.keys ws, 0 ≤ s c) (hsum : ∑ c ∈ (Dict.keys ws).toFinset, s c = T)
    (hcap : ∀ c ∈ Dict.keys ws, ∀ k, capOf E lim memo (acc c) = some k → s c ≤ k)
    {fuel : ℕ} (h : buildGraph E lim memo fuel (.fin total) = .ok g) :
    BuiltW E lim memo acc T s true (Dict.keys ws) (Dict.keys ws) (some 1) g := by
  unfold buildGraph at h
  rw [bind_ok_iff] at h
  obtain ⟨g₁, h1, h2⟩ := h
  have e0 : addEdge ([] : Graph N A) .source (.node E.tree.root)
      (units E.precision (.fin total)) none memo =
      [((.source, .node E.tree.root), ⟨some T, none⟩)] := by
    unfold addEdge units edgeCapacity putEdge
    simp only [Dict.get?, Option.getD_none]
    rw [← Int.cast_abs, ← Int.cast_sub, pyInt_cast, hsrc, sub_zero, ← hT]
    rfl
  rw [e0] at h1
  have hb := weighted_graph hF (hT ▸ abs_nonneg _) hm hs h1
  have hg : g₁ = g := by
    unfold balanceAll at h2
    rw [bind_ok_iff] at h2
    obtain ⟨ns, h3, h2⟩ := h2
    have hns : ns = [E.tree.root] := by
      cases fuel with
      | zero => rw [weightedNodes] at h3; cases h3
      | succ fuel =>
        rw [weightedNodes, bind_ok_iff] at h3
        obtain ⟨rest, h4, h3⟩ := h3
        have := no_weighted (E := E) (P := fun n => n ∈ Dict.keys ws) (by
          intro n hn
          refine ⟨fun ds hd => ?_, fun c hc => ?_⟩
          · rw [hF.leaf n hn] at hd; cases hd
          · unfold childNodes at hc; rw [hF.leaf n hn] at hc; simp at hc) fuel _ rest
          (by
            intro n hn
            simp only [List.nil_append] at hn
            unfold childNodes at hn; rw [hF.root] at hn; exact hn) h4
        subst this
        rw [hF.root] at h3
        cases h3; rfl
    subst hns
    rw [List.foldlM_cons, bind_ok_iff] at h2
    obtain ⟨g₂, h4, h2⟩ := h2
    rw [List.foldlM_nil] at h2
    cases h2
    rw [hF.root] at h4
    simp only at h4
    cases fuel with
    | zero => rw [balanceFlows] at h4; cases h4
    | succ fuel =>
      rw [balanceFlows.eq_def] at h4
      cases hk : Dict.keys ws with
      | nil =>
        rw [hk] at h4
        simp only at h4
        cases h4; rfl
      | cons c0 l =>
        rw [hk] at h4
        simp only at h4
        rw [← hk] at h4
        rw [bind_ok_iff] at h4
        obtain ⟨f, h5, h4⟩ := h4
        rw [bind_ok_iff] at h4
        obtain ⟨classes, h6, h4⟩ := h4
        obtain ⟨hch, hov, -⟩ := weighted_optimal hF hb h0 hsum hcap (hsolve _ _ h5)
        have hcl : ∀ e ∈ classes, e.2 = .eq := by
          intro e he
          obtain ⟨c, hc, hce⟩ := mem_mapM h6 he
          rw [bind_ok_iff] at hce
          obtain ⟨o, ho, hce⟩ := hce
          cases hce
          unfold classify at ho
          have hedge : Dict.get? g₁ (.limit E.tree.root, .node c) = some ⟨some |s c|, none⟩ := by
            rw [hb.edge]; simp [wEdge, hc]
          rw [hedge] at ho
          simp only [Option.bind_some] at ho
          rw [bind_ok_iff] at ho
          obtain ⟨x, hx, ho⟩ := ho
          have hxv : x = s c := by
            rw [← hch c hc]
            unfold flowAt at hx
            unfold flow
            cases hd : Dict.get? f (.limit E.tree.root) with
            | none => rw [hd] at hx; cases hx
            | some d =>
              rw [hd] at hx
              simp only at hx
              cases hdd : Dict.get? d (.node c) with
              | none => rw [hdd] at hx; cases hx
              | some y =>
                rw [hdd] at hx; cases hx
                unfold flowsTo
                rw [hd]; simp [Dict.val, hdd]
          rw [if_neg (by rw [hxv, abs_of_nonneg (h0 c hc)]; exact lt_irrefl _), bind_ok_iff] at ho
          obtain ⟨y, hy, ho⟩ := ho
          have hyv : y = 0 := by
            rw [← hov (.node c)]
            unfold flowAt at hy
            unfold flow
            cases hd : Dict.get? f (.overflow E.tree.root) with
            | none => rw [hd] at hy; cases hy
            | some d =>
              rw [hd] at hy
              simp only at hy
              cases hdd : Dict.get? d (.node c) with
              | none => rw [hdd] at hy; cases hy
              | some z =>
                rw [hdd] at hy; cases hy
                unfold flowsTo
                rw [hd]; simp [Dict.val, hdd]
          rw [hyv, if_neg (lt_irrefl _)] at ho
          cases ho; rfl
        have hno : ∀ o, o ≠ Ordering.eq → ofClass classes o = [] := by
          intro o ho
          unfold ofClass
          rw [List.map_eq_nil_iff, List.filter_eq_nil_iff]
          intro e he
          rw [hcl e he]
          simpa using ho.symm
        rw [if_pos ⟨hno _ (by simp), hno _ (by simp)⟩] at h4
        cases h4; rfl
  rw [← hg]; exact hb

end Flow

end Forecaster.Traversal
