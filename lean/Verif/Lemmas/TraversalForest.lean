import Verif.Lemmas.TraversalFlat
import Mathlib.Tactic.Abel

/-!
# Priority trees of nested ordered lists

The graph built for a tree of nested lists, its flows, and what optimal flows look like.
-/

set_option linter.unusedSectionVars false

namespace Forecaster.Traversal

open Forecaster Forecaster.Timing

variable {K : Type} [Field K] [LinearOrder K] [IsStrictOrderedRing K] [FloorRing K]
variable {N A : Type} [DecidableEq N] [DecidableEq A]

/-- Specification: the children of a node: accounts, or nested lists, and the following
siblings. -/
inductive Forest (N A : Type)
  | nil
  | leaf (n : N) (a : A) (rest : Forest N A)
  | node (n : N) (children rest : Forest N A)

namespace Forest

/-- The top-level nodes. -/
def roots : Forest N A → List N
  | nil => []
  | leaf n _ r => n :: r.roots
  | node n _ r => n :: r.roots

/-- All nodes. -/
def ids : Forest N A → List N
  | nil => []
  | leaf n _ r => n :: r.ids
  | node n c r => n :: (c.ids ++ r.ids)

/-- The accounts, in the order of the lists. -/
def accs : Forest N A → List A
  | nil => []
  | leaf _ a r => a :: r.accs
  | node _ c r => c.accs ++ r.accs

/-- The total of the penalties on the edges, if the first top-level edge has penalty `w`
(graph.py:85-109, base.py:1041-1050). -/
def sumW : ℤ → Forest N A → ℤ
  | _, nil => 0
  | w, leaf _ _ r => w + r.sumW (max w 0 + 1)
  | w, node _ c r => w + c.sumW 0 + r.sumW (max w (c.sumW 0) + 1)

/-- The penalty for each account: what the edges on the way to it add up to, if the path to the
parent costs `b` and the first top-level edge costs `w`. Each further sibling costs one more than
the larger of the previous sibling's edge and all the penalties below it
(base.py:1041-1050). -/
def pens : ℤ → ℤ → Forest N A → List (A × ℤ)
  | _, _, nil => []
  | b, w, leaf _ a r => (a, b + w) :: r.pens b (max w 0 + 1)
  | b, w, node _ c r => c.pens (b + w) 0 ++ r.pens b (max w (c.sumW 0) + 1)

/-- The edges for a forest below `p`. -/
def edges (cap : A → Option ℤ) (M : ℤ) : N → ℤ → Forest N A → Graph N A
  | _, _, nil => []
  | p, w, leaf n a r => ((.limit p, .node n), ⟨some M, some w⟩) ::
      ((.node n, .limit n), ⟨none, none⟩) :: ((.limit n, .acct a), ⟨some M, none⟩) ::
      ((.acct a, .sink), ⟨cap a, none⟩) :: r.edges cap M p (max w 0 + 1)
  | p, w, node n c r => ((.limit p, .node n), ⟨some M, some w⟩) ::
      ((.node n, .limit n), ⟨none, none⟩) ::
      (c.edges cap M n 0 ++ r.edges cap M p (max w (c.sumW 0) + 1))

/-- The top-level edges for a forest below `p`. -/
def rootEdges (M : ℤ) : N → ℤ → Forest N A → Graph N A
  | _, _, nil => []
  | p, w, leaf n _ r => ((.limit p, .node n), ⟨some M, some w⟩) :: r.rootEdges M p (max w 0 + 1)
  | p, w, node n c r =>
    ((.limit p, .node n), ⟨some M, some w⟩) :: r.rootEdges M p (max w (c.sumW 0) + 1)

/-- The vertices of a forest. -/
def Has (f : Forest N A) : G N A → Prop
  | .node n => n ∈ f.ids
  | .limit n => n ∈ f.ids
  | .acct a => a ∈ f.accs
  | _ => False

/-- The tree of `E` below some node is this forest, without limits on nodes and without shared
limits. -/
def Fits (E : Env N A K) (lim : Lim) : Forest N A → Prop
  | nil => True
  | leaf n a r => E.tree.kind n = .leaf a ∧ E.tree.limits n lim = none ∧
      E.groupOf a lim = none ∧ r.Fits E lim
  | node n c r => E.tree.kind n = .ordered c.roots ∧ E.tree.limits n lim = none ∧
      c.Fits E lim ∧ r.Fits E lim

end Forest

open Forest

theorem Forest.has_leaf {n : N} {a : A} {r : Forest N A} {v : G N A} :
    (leaf n a r).Has v ↔ v = .node n ∨ v = .limit n ∨ v = .acct a ∨ r.Has v := by
  cases v <;> simp [Has, ids, accs]

theorem Forest.has_node {n : N} {c r : Forest N A} {v : G N A} :
    (node n c r).Has v ↔ v = .node n ∨ v = .limit n ∨ c.Has v ∨ r.Has v := by
  cases v <;> simp [Has, ids, accs]

theorem Forest.edges_ends {cap : A → Option ℤ} {M : ℤ} (f : Forest N A) (p : N) (w : ℤ) :
    ∀ e ∈ f.edges cap M p w, (e.1.1 = .limit p ∨ f.Has e.1.1) ∧
      (e.1.2 = .sink ∨ f.Has e.1.2) ∧ (f.Has e.1.1 ∨ f.Has e.1.2) := by
  induction f generalizing p w with
  | nil => intro e he; simp [edges] at he
  | leaf n a r ih =>
    intro e he
    simp only [edges, List.mem_cons] at he
    simp only [has_leaf]
    rcases he with rfl | rfl | rfl | rfl | he
    · simp
    · simp
    · simp
    · simp
    · obtain ⟨h1, h2, h3⟩ := ih p _ e he
      tauto
  | node n c r ihc ihr =>
    intro e he
    simp only [edges, List.mem_cons, List.mem_append] at he
    simp only [has_node]
    rcases he with rfl | rfl | he | he
    · simp
    · simp
    · obtain ⟨h1, h2, h3⟩ := ihc n _ e he
      rcases h1 with h1 | h1 <;> tauto
    · obtain ⟨h1, h2, h3⟩ := ihr p _ e he
      tauto

/-- The edges that leave `u`. -/
def outs (g : Graph N A) (u : G N A) : Graph N A := g.filter fun e => decide (e.1.1 = u)

theorem outs_append (g h : Graph N A) (u : G N A) : outs (g ++ h) u = outs g u ++ outs h u := by
  simp [outs]

theorem outs_none {g : Graph N A} {u : G N A} (h : ∀ e ∈ g, e.1.1 ≠ u) : outs g u = [] := by
  unfold outs
  rw [List.filter_eq_nil_iff]
  intro e he
  simpa using h e he

theorem outs_cons (e : (G N A × G N A) × Edge) (g : Graph N A) (u : G N A) :
    outs (e :: g) u = if e.1.1 = u then e :: outs g u else outs g u := by
  unfold outs
  rw [List.filter_cons]
  simp

/-- Nothing in the two lists of vertices in common. -/
structure Forest.Apart (p : N) (f : Forest N A) : Prop where
  ids : (p :: f.ids).Nodup
  accs : f.accs.Nodup

theorem Forest.Apart.leaf {p n : N} {a : A} {r : Forest N A} (h : Apart p (.leaf n a r)) :
    Apart p r ∧ p ≠ n ∧ n ∉ r.ids ∧ a ∉ r.accs := by
  obtain ⟨h1, h2⟩ := h
  simp only [Forest.ids, Forest.accs, List.nodup_cons, List.mem_cons, not_or] at h1 h2
  exact ⟨⟨by simp only [List.nodup_cons]; tauto, h2.2⟩, by tauto, by tauto, h2.1⟩

theorem Forest.Apart.node {p n : N} {c r : Forest N A} (h : Apart p (.node n c r)) :
    Apart p r ∧ Apart n c ∧ p ≠ n ∧ p ∉ c.ids ∧ n ∉ r.ids ∧ (∀ m ∈ c.ids, m ∉ r.ids) ∧
      ∀ a ∈ c.accs, a ∉ r.accs := by
  obtain ⟨h1, h2⟩ := h
  simp only [Forest.ids, Forest.accs, List.nodup_cons, List.mem_cons, not_or, List.nodup_append,
    List.mem_append] at h1 h2
  obtain ⟨⟨h3, h4, h5⟩, ⟨h6, h7⟩, h8, h9, h10⟩ := h1
  obtain ⟨h11, h12, h13⟩ := h2
  exact ⟨⟨List.nodup_cons.2 ⟨h5, h9⟩, h12⟩, ⟨List.nodup_cons.2 ⟨h6, h8⟩, h11⟩, h3, h4, h7,
    fun m hm hr => h10 m hm m hr rfl, fun a ha hr => h13 a ha a hr rfl⟩

theorem Forest.Apart.limit {p : N} {f : Forest N A} (h : Apart p f) : ¬ f.Has (.limit p) := by
  have := h.ids
  simp only [List.nodup_cons] at this
  exact this.1

theorem Forest.Apart.disjoint {p n : N} {c r : Forest N A} (h : Apart p (.node n c r)) {v : G N A}
    (hc : c.Has v) : ¬ r.Has v := by
  obtain ⟨-, -, -, -, -, h1, h2⟩ := h.node
  cases v <;> simp only [Has] at hc ⊢
  · exact h1 _ hc
  · exact h1 _ hc
  · exact h2 _ hc

/-- The edges out of the parent are the top-level edges. -/
theorem Forest.outs_parent {cap : A → Option ℤ} {M : ℤ} (f : Forest N A) (p : N) (w : ℤ)
    (h : Apart p f) : outs (f.edges cap M p w) (.limit p) = f.rootEdges M p w := by
  induction f generalizing w with
  | nil => rfl
  | leaf n a r ih =>
    obtain ⟨h1, h2, -, -⟩ := h.leaf
    have h2' : n ≠ p := fun h => h2 h.symm
    simp only [edges, rootEdges, outs_cons, if_true, reduceCtorEq, if_false, G.limit.injEq, h2',
      ih _ h1]
  | node n c r ihc ihr =>
    obtain ⟨h1, h2, h3, h4, -⟩ := h.node
    simp only [edges, rootEdges, outs_cons, if_true, reduceCtorEq, if_false, outs_append]
    rw [outs_none (g := c.edges cap M n 0), ihr _ h1]
    · rfl
    · intro e he heq
      rcases ((edges_ends c n 0 e he).1) with h5 | h5
      · rw [heq] at h5; injection h5 with h5; exact h3 h5
      · rw [heq] at h5; exact h4 h5

theorem sumWeight_succ (g : Graph N A) (fuel : ℕ) (u : G N A) :
    sumWeight g (fuel + 1) u = (outs g u).foldlM (fun w e => do
      let x ← sumWeight g fuel e.1.2
      .ok (w + e.2.weight.getD 0 + x)) 0 := by
  rw [sumWeight]; rfl

/-- Adding up the penalties below the top-level edges of a forest. -/
theorem Forest.sum_forest {cap : A → Option ℤ} {M : ℤ} {g : Graph N A} (f : Forest N A) (p : N)
    (w : ℤ) (fuel : ℕ) (w0 r0 : ℤ) (hA : Apart p f)
    (hg : ∀ u, f.Has u → outs g u = outs (f.edges cap M p w) u) (hs : outs g .sink = [])
    (h : (f.rootEdges M p w).foldlM (fun w e => do
      let x ← sumWeight g fuel e.1.2
      .ok (w + e.2.weight.getD 0 + x)) w0 = .ok r0) : r0 = w0 + f.sumW w := by
  induction f generalizing p w fuel w0 r0 with
  | nil => simp only [rootEdges, List.foldlM_nil] at h; cases h; simp [sumW]
  | leaf n a r ih =>
    obtain ⟨h1, h2, h3, h4⟩ := hA.leaf
    rw [rootEdges, List.foldlM_cons, bind_ok_iff] at h
    obtain ⟨w1, h5, h⟩ := h
    rw [bind_ok_iff] at h5
    obtain ⟨x, hx, h5⟩ := h5
    have hrest : ∀ u, u = .node n ∨ u = .limit n ∨ u = .acct a →
        outs (r.edges cap M p (max w 0 + 1)) u = [] := by
      intro u hu
      apply outs_none
      intro e he heq
      rcases (edges_ends r p _ e he).1 with h6 | h6
      · rw [heq] at h6
        rcases hu with rfl | rfl | rfl
        · cases h6
        · injection h6 with h6; exact h2 h6.symm
        · cases h6
      · rw [heq] at h6
        rcases hu with rfl | rfl | rfl
        · exact h3 h6
        · exact h3 h6
        · exact h4 h6
    have hx0 : x = 0 := by
      refine sumWeight_zero (g := g) (fun u => u = .node n ∨ u = .limit n ∨ u = .acct a ∨ u = .sink)
        ?_ fuel _ x (.inl rfl) hx
      intro e he hu
      have hmem : e ∈ outs g e.1.1 := by simp [outs, he]
      rcases hu with hu | hu | hu | hu <;> rw [hu] at hmem
      · rw [hg _ (by simp [Has, ids])] at hmem
        have h2' : ¬ n = p := fun h => h2 h.symm
        simp only [edges, outs_cons, reduceCtorEq, if_false, if_true, hrest _ (.inl rfl),
          List.mem_singleton] at hmem
        subst hmem; simp
      · rw [hg _ (by simp [Has, ids])] at hmem
        simp only [edges, outs_cons, reduceCtorEq, if_false, if_true, hrest _ (.inr (.inl rfl)),
          List.mem_singleton, G.limit.injEq, h2] at hmem
        subst hmem; simp
      · rw [hg _ (by simp [Has, accs])] at hmem
        simp only [edges, outs_cons, reduceCtorEq, if_false, if_true, hrest _ (.inr (.inr rfl)),
          List.mem_singleton] at hmem
        subst hmem; simp
      · rw [hs] at hmem; simp at hmem
    subst hx0
    simp only [Except.ok.injEq, Option.getD_some, add_zero] at h5
    subst h5
    have := ih p _ fuel _ _ h1 (fun u hu => by
      rw [hg u (has_leaf.2 (.inr (.inr (.inr hu))))]
      have k1 : ¬ G.limit p = u := fun h => h1.limit (h ▸ hu)
      have k2 : ¬ G.node n = u := fun h => h3 (by rw [← h] at hu; exact hu)
      have k3 : ¬ G.limit n = u := fun h => h3 (by rw [← h] at hu; exact hu)
      have k4 : ¬ G.acct a = u := fun h => h4 (by rw [← h] at hu; exact hu)
      simp only [edges, outs_cons, k1, k2, k3, k4, if_false]) h
    rw [this, sumW]; ring
  | node n c r ihc ihr =>
    obtain ⟨h1, h2, h3, h4, h5, h6, h7⟩ := hA.node
    rw [rootEdges, List.foldlM_cons, bind_ok_iff] at h
    obtain ⟨w1, h8, h⟩ := h
    rw [bind_ok_iff] at h8
    obtain ⟨x, hx, h8⟩ := h8
    have hr : ∀ u, (u = .node n ∨ u = .limit n ∨ c.Has u) →
        outs (r.edges cap M p (max w (c.sumW 0) + 1)) u = [] := by
      intro u hu
      apply outs_none
      intro e he heq
      rcases (edges_ends r p _ e he).1 with h9 | h9
      · rw [heq] at h9
        rcases hu with rfl | rfl | hu
        · cases h9
        · injection h9 with h9; exact h3 h9.symm
        · rw [h9] at hu; exact h4 hu
      · rw [heq] at h9
        rcases hu with rfl | rfl | hu
        · exact h5 h9
        · exact h5 h9
        · exact hA.disjoint hu h9
    have hcn : outs (c.edges cap M n 0) (.node n) = [] := by
      apply outs_none
      intro e he heq
      rcases (edges_ends c n _ e he).1 with h9 | h9
      · rw [heq] at h9; cases h9
      · rw [heq] at h9; exact h2.limit h9
    -- below the child
    have hxs : x = c.sumW 0 := by
      cases fuel with
      | zero => simp [sumWeight] at hx
      | succ fuel =>
        rw [sumWeight_succ, hg _ (by simp [Has, ids])] at hx
        have k1 : ¬ G.limit (A := A) p = G.node n := by simp
        simp only [edges, outs_cons, k1, if_false, if_true, outs_append, hr _ (.inl rfl),
          hcn, List.append_nil, List.foldlM_cons, List.foldlM_nil] at hx
        rw [bind_ok_iff] at hx
        obtain ⟨y, hy, hx⟩ := hx
        cases hx
        rw [bind_ok_iff] at hy
        obtain ⟨z, hz, hy⟩ := hy
        cases hy
        cases fuel with
        | zero => simp [sumWeight] at hz
        | succ fuel =>
          rw [sumWeight_succ, hg _ (by simp [Has, ids])] at hz
          have k3 : ¬ G.limit (A := A) p = G.limit n := by simpa using h3
          have k4 : ¬ G.node (A := A) n = G.limit n := by simp
          simp only [edges, outs_cons, k3, k4, if_false, outs_append, hr _ (.inr (.inl rfl)),
            List.append_nil, outs_parent c n 0 h2] at hz
          have := ihc n 0 fuel 0 z h2 (fun u hu => by
            rw [hg u (has_node.2 (.inr (.inr (.inl hu))))]
            have q1 : ¬ G.limit p = u := fun h => h4 (by rw [← h] at hu; exact hu)
            have q2 : ¬ G.node n = u := fun h => h2.limit (by rw [← h] at hu; exact hu)
            simp only [edges, outs_cons, q1, q2, if_false, outs_append, hr u (.inr (.inr hu)),
              List.append_nil]) hz
          rw [this]; simp
    subst hxs
    simp only [Except.ok.injEq, Option.getD_some] at h8
    subst h8
    have := ihr p _ fuel _ _ h1 (fun u hu => by
      rw [hg u (has_node.2 (.inr (.inr (.inr hu))))]
      have k1 : ¬ G.limit p = u := fun h => h1.limit (h ▸ hu)
      have k2 : ¬ G.node n = u := fun h => h5 (by rw [← h] at hu; exact hu)
      simp only [edges, outs_cons, k1, k2, if_false, outs_append]
      rw [outs_none (g := c.edges cap M n 0), List.nil_append]
      intro e he heq
      rcases (edges_ends c n _ e he).1 with h9 | h9
      · rw [heq] at h9; rw [h9] at hu; exact h5 hu
      · rw [heq] at h9; exact hA.disjoint h9 hu) h
    rw [this, sumW]; ring

/-! ### Building the graph -/

theorem putEdge_append {g : Graph N A} {u v : G N A} (h : ∀ e ∈ g, e.1 ≠ (u, v))
    (c w : Option ℤ) : putEdge g u v c w = g ++ [((u, v), ⟨c, w⟩)] := by
  have hk : (u, v) ∉ Dict.keys g := by
    intro hm
    obtain ⟨e, he, heq⟩ := List.mem_map.1 hm
    exact h e he heq
  rw [putEdge_fresh (Dict.get?_eq_none.2 hk), Dict.set_of_not_mem _ hk]

theorem inbound_fresh {g : Graph N A} {u v : G N A} {e : Edge} (h : ∀ x ∈ g, x.1.2 ≠ v) :
    inboundCapacity (g ++ [((u, v), e)]) v = e.capacity.getD 0 := by
  unfold inboundCapacity
  rw [List.filter_append, List.filter_eq_nil_iff.2 (by intro x hx; simpa using h x hx)]
  simp

/-- No edge of the graph touches the forest. -/
def Forest.Fresh (f : Forest N A) (g : Graph N A) : Prop :=
  ∀ e ∈ g, ¬ f.Has e.1.1 ∧ ¬ f.Has e.1.2

section BuildForest

variable {E : Env N A K} {lim : Lim} {memo : Flows N A}

/-- The edges to an account and to the sink. -/
theorem build_leaf {n : N} {a : A} {g g' : Graph N A} {fuel : ℕ} {M : ℤ}
    (hk : E.tree.kind n = .leaf a) (hl : E.tree.limits n lim = none)
    (ha : E.groupOf a lim = none) (hM : |M| = M)
    (hin : inboundCapacity g (.node n) = M)
    (h1 : ∀ e ∈ g, e.1.1 ≠ .node n ∧ e.1.1 ≠ .limit n ∧ e.1.1 ≠ .acct a)
    (h : addSuccessors E lim memo true fuel g n none none = .ok g') :
    g' = g ++ [((.node n, .limit n), ⟨none, none⟩), ((.limit n, .acct a), ⟨some M, none⟩),
      ((.acct a, .sink), ⟨capOf E lim memo a, none⟩)] := by
  cases fuel with
  | zero => rw [addSuccessors.eq_def] at h; cases h
  | succ fuel =>
    rw [addSuccessors.eq_def] at h
    simp only [hk, Option.getD_none, hin] at h
    unfold embedLimit at h
    rw [hl] at h
    simp only at h
    rw [putEdge_append (fun e he heq => (h1 e he).1 (by rw [heq]))] at h
    set g2 := g ++ [((.node n, .limit n), (⟨none, none⟩ : Edge))] with hg2
    have e3 : addEdge g2 (.limit n) (.acct a) (.fin ((M : ℤ) : K)) =
        g2 ++ [((.limit n, .acct a), ⟨some M, none⟩)] := by
      unfold addEdge
      rw [show flowsTo ([] : Flows N A) (.limit n) (.acct a) = 0 from rfl, edgeCapacity_cast, hM,
        putEdge_append]
      intro e he heq
      rw [hg2, List.mem_append, List.mem_singleton] at he
      rcases he with he | rfl
      · exact (h1 e he).2.1 (by rw [heq])
      · simp at heq
    rw [e3] at h
    unfold addAccount at h
    rw [bind_ok_iff] at h
    obtain ⟨y, hy, h⟩ := h
    rw [ha] at h
    simp only at h
    set g3 := g2 ++ [((.limit n, .acct a), (⟨some M, none⟩ : Edge))] with hg3
    have e4 : addEdge g3 (.acct a) .sink
        (lessFlow (scale E.precision y) (flowsFrom memo (.acct a))) =
        g3 ++ [((.acct a, .sink), ⟨capOf E lim memo a, none⟩)] := by
      unfold addEdge
      rw [show flowsTo ([] : Flows N A) (.acct a) .sink = 0 from rfl, putEdge_append]
      · unfold capOf; rw [hy]; rfl
      · intro e he heq
        rw [hg3, hg2, List.mem_append, List.mem_append, List.mem_singleton, List.mem_singleton] at he
        rcases he with (he | rfl) | rfl
        · exact (h1 e he).2.2 (by rw [heq])
        · simp at heq
        · simp at heq
    rw [e4] at h
    cases h
    simp [hg3, hg2]

/-- The loop over a forest. -/
theorem build_forest (f : Forest N A) (p : N) (w : ℤ) (g : Graph N A) (fuel fuel' : ℕ) (S M : ℤ)
    (hS : |S| = M) (r : Graph N A × ℤ) (hF : f.Fits E lim) (hA : Apart p f) (hfr : f.Fresh g)
    (hsink : ∀ e ∈ g, e.1.1 ≠ .sink)
    (h : f.roots.foldlM (orderedStep (fun g c => addSuccessors E lim memo true fuel g c none none)
      fuel' p ((S : ℤ) : K)) (g, w) = .ok r) :
    r.1 = g ++ f.edges (capOf E lim memo) M p w := by
  have hM : |M| = M := by rw [← hS, abs_abs]
  induction f generalizing p w g fuel fuel' S r with
  | nil => simp only [roots, List.foldlM_nil] at h; cases h; simp [edges]
  | leaf n a f ih =>
    obtain ⟨hk, hl, ha, hF'⟩ := hF
    obtain ⟨h1, h2, h3, h4⟩ := hA.leaf
    rw [roots, List.foldlM_cons, bind_ok_iff] at h
    obtain ⟨st, h5, h⟩ := h
    unfold orderedStep at h5
    rw [bind_ok_iff] at h5
    obtain ⟨g1, h6, h5⟩ := h5
    rw [bind_ok_iff] at h5
    obtain ⟨x, hx, h5⟩ := h5
    cases h5
    have e1 : addEdge g (.limit p) (.node n) (.fin ((S : ℤ) : K)) (some w) =
        g ++ [((.limit p, .node n), ⟨some M, some w⟩)] := by
      unfold addEdge
      rw [show flowsTo ([] : Flows N A) (.limit p) (.node n) = 0 from rfl, edgeCapacity_cast, hS,
        putEdge_append]
      intro e he heq
      exact (hfr e he).2 (by rw [heq]; simp [Has, ids])
    simp only at h6
    rw [e1] at h6
    have h7 := build_leaf hk hl ha hM (by
        rw [inbound_fresh]
        · rfl
        · intro y hy heq
          exact (hfr y hy).2 (by rw [heq]; simp [Has, ids])) (by
        intro e he
        rw [List.mem_append, List.mem_singleton] at he
        rcases he with he | rfl
        · refine ⟨fun heq => (hfr e he).1 ?_, fun heq => (hfr e he).1 ?_,
            fun heq => (hfr e he).1 ?_⟩ <;> rw [heq] <;> simp [Has, ids, accs]
        · simp [h2]) h6
    have hx0 : x = 0 := by
      refine sumWeight_zero (g := g1) (fun u => u = .node n ∨ u = .limit n ∨ u = .acct a ∨ u = .sink)
        ?_ fuel' _ x (.inl rfl) hx
      intro e he hu
      rw [h7] at he
      simp only [List.mem_append, List.mem_cons, List.not_mem_nil, or_false] at he
      rcases he with (he | rfl) | rfl | rfl | rfl
      · exfalso
        rcases hu with hu | hu | hu | hu
        · exact (hfr e he).1 (by rw [hu]; simp [Has, ids])
        · exact (hfr e he).1 (by rw [hu]; simp [Has, ids])
        · exact (hfr e he).1 (by rw [hu]; simp [Has, accs])
        · exact hsink e he hu
      · simp [h2] at hu
      · simp
      · simp
      · simp
    subst hx0
    have := ih p _ g1 fuel fuel' S hS _ hF' h1 (by
      intro e he
      rw [h7] at he
      simp only [List.mem_append, List.mem_cons, List.not_mem_nil, or_false] at he
      rcases he with (he | rfl) | rfl | rfl | rfl
      · exact ⟨fun hh => (hfr e he).1 (has_leaf.2 (.inr (.inr (.inr hh)))),
          fun hh => (hfr e he).2 (has_leaf.2 (.inr (.inr (.inr hh))))⟩
      · exact ⟨h1.limit, h3⟩
      · exact ⟨h3, h3⟩
      · exact ⟨h3, h4⟩
      · exact ⟨h4, fun hh => hh⟩) (by
      intro e he
      rw [h7] at he
      simp only [List.mem_append, List.mem_cons, List.not_mem_nil, or_false] at he
      rcases he with (he | rfl) | rfl | rfl | rfl
      · exact hsink e he
      · simp
      · simp
      · simp
      · simp) h
    rw [this, h7, edges]
    simp
  | node n c f ihc ihr =>
    obtain ⟨hk, hl, hFc, hF'⟩ := hF
    obtain ⟨h1, h2, h3, h4, h5, h6, h7⟩ := hA.node
    rw [roots, List.foldlM_cons, bind_ok_iff] at h
    obtain ⟨st, h8, h⟩ := h
    unfold orderedStep at h8
    rw [bind_ok_iff] at h8
    obtain ⟨g1, h9, h8⟩ := h8
    rw [bind_ok_iff] at h8
    obtain ⟨x, hx, h8⟩ := h8
    cases h8
    have e1 : addEdge g (.limit p) (.node n) (.fin ((S : ℤ) : K)) (some w) =
        g ++ [((.limit p, .node n), ⟨some M, some w⟩)] := by
      unfold addEdge
      rw [show flowsTo ([] : Flows N A) (.limit p) (.node n) = 0 from rfl, edgeCapacity_cast, hS,
        putEdge_append]
      intro e he heq
      exact (hfr e he).2 (by rw [heq]; simp [Has, ids])
    simp only at h9
    rw [e1] at h9
    -- the child
    have h10 : g1 = g ++ ((.limit p, .node n), (⟨some M, some w⟩ : Edge)) ::
        ((.node n, .limit n), ⟨none, none⟩) :: c.edges (capOf E lim memo) M n 0 := by
      cases fuel with
      | zero => rw [addSuccessors.eq_def] at h9; cases h9
      | succ fuel =>
        rw [addSuccessors.eq_def] at h9
        simp only [hk, Option.getD_none] at h9
        rw [inbound_fresh (fun y hy heq => (hfr y hy).2 (by rw [heq]; simp [Has, ids]))] at h9
        unfold embedLimit at h9
        rw [hl] at h9
        simp only [Option.getD_some] at h9
        rw [putEdge_append] at h9
        · rw [bind_ok_iff] at h9
          obtain ⟨st, h11, h9⟩ := h9
          cases h9
          have := ihc n 0 _ fuel fuel M hM st hFc h2 (by
            intro e he
            simp only [List.mem_append, List.mem_singleton] at he
            rcases he with (he | rfl) | rfl
            · exact ⟨fun hh => (hfr e he).1 (has_node.2 (.inr (.inr (.inl hh)))),
                fun hh => (hfr e he).2 (has_node.2 (.inr (.inr (.inl hh))))⟩
            · exact ⟨h4, h2.limit⟩
            · exact ⟨h2.limit, h2.limit⟩) (by
            intro e he
            simp only [List.mem_append, List.mem_singleton] at he
            rcases he with (he | rfl) | rfl
            · exact hsink e he
            · simp
            · simp) h11
          rw [this]; simp
        · intro e he heq
          simp only [List.mem_append, List.mem_singleton] at he
          rcases he with he | rfl
          · exact (hfr e he).1 (by rw [heq]; simp [Has, ids])
          · simp at heq
    -- the penalties below the child
    have hxs : x = c.sumW 0 := by
      have hg1 : ∀ u, (u = .node n ∨ u = .limit n ∨ c.Has u) → outs g u = [] := by
        intro u hu
        apply outs_none
        intro e he heq
        apply (hfr e he).1
        rw [heq, has_node]; tauto
      have hcn : outs (c.edges (capOf E lim memo) M n 0) (.node n) = [] := by
        apply outs_none
        intro e he heq
        rcases (edges_ends c n _ e he).1 with h9 | h9
        · rw [heq] at h9; cases h9
        · rw [heq] at h9; exact h2.limit h9
      cases fuel' with
      | zero => simp [sumWeight] at hx
      | succ fuel' =>
        rw [sumWeight_succ, h10, outs_append, hg1 _ (.inl rfl)] at hx
        have k1 : ¬ G.limit (A := A) p = G.node n := by simp
        simp only [outs_cons, k1, if_false, if_true, hcn, List.nil_append, List.foldlM_cons,
          List.foldlM_nil] at hx
        rw [bind_ok_iff] at hx
        obtain ⟨y, hy, hx⟩ := hx
        cases hx
        rw [bind_ok_iff] at hy
        obtain ⟨z, hz, hy⟩ := hy
        cases hy
        cases fuel' with
        | zero => simp [sumWeight] at hz
        | succ fuel' =>
          have k3 : ¬ G.limit (A := A) p = G.limit n := by simpa using h3
          have k4 : ¬ G.node (A := A) n = G.limit n := by simp
          rw [sumWeight_succ, outs_append, hg1 _ (.inr (.inl rfl))] at hz
          simp only [outs_cons, k3, k4, if_false, List.nil_append,
            outs_parent c n 0 h2] at hz
          have := sum_forest (cap := capOf E lim memo) c n 0 fuel' 0 z h2 (fun u hu => by
            have q1 : ¬ G.limit p = u := fun h => h4 (by rw [← h] at hu; exact hu)
            have q2 : ¬ G.node n = u := fun h => h2.limit (by rw [← h] at hu; exact hu)
            rw [outs_append, hg1 _ (.inr (.inr hu))]
            simp only [outs_cons, q1, q2, if_false, List.nil_append]) (by
            apply outs_none
            intro e he
            simp only [List.mem_append, List.mem_cons] at he
            rcases he with he | rfl | rfl | he
            · exact hsink e he
            · simp
            · simp
            · intro heq
              rcases (edges_ends c n _ e he).1 with h9 | h9
              · rw [heq] at h9; cases h9
              · rw [heq] at h9; exact h9) hz
          rw [this]; simp
    subst hxs
    have := ihr p _ g1 fuel fuel' S hS _ hF' h1 (by
      intro e he
      rw [h10] at he
      simp only [List.mem_append, List.mem_cons] at he
      rcases he with he | rfl | rfl | he
      · exact ⟨fun hh => (hfr e he).1 (has_node.2 (.inr (.inr (.inr hh)))),
          fun hh => (hfr e he).2 (has_node.2 (.inr (.inr (.inr hh))))⟩
      · exact ⟨h1.limit, h5⟩
      · exact ⟨h5, h5⟩
      · obtain ⟨q1, q2, -⟩ := edges_ends c n _ e he
        refine ⟨fun hh => ?_, fun hh => ?_⟩
        · rcases q1 with q1 | q1
          · rw [q1] at hh; exact h5 hh
          · exact hA.disjoint q1 hh
        · rcases q2 with q2 | q2
          · rw [q2] at hh; exact hh
          · exact hA.disjoint q2 hh) (by
      intro e he
      rw [h10] at he
      simp only [List.mem_append, List.mem_cons] at he
      rcases he with he | rfl | rfl | he
      · exact hsink e he
      · simp
      · simp
      · intro heq
        rcases (edges_ends c n _ e he).1 with q | q
        · rw [heq] at q; cases q
        · rw [heq] at q; exact q) h
    rw [this, h10, edges]
    simp

/-- Specification: the tree consists of nested ordered lists of different accounts, without
limits on nodes and without limits shared between the accounts. -/
structure Nested (E : Env N A K) (lim : Lim) (f : Forest N A) : Prop where
  root : E.tree.kind E.tree.root = .ordered f.roots
  free : E.tree.limits E.tree.root lim = none
  fits : f.Fits E lim
  apart : Apart E.tree.root f

/-- The graph of nested ordered lists. -/
def nestedGraph (root : N) (cap : A → Option ℤ) (T : ℤ) (f : Forest N A) : Graph N A :=
  ((.source, .node root), ⟨some T, none⟩) :: ((.node root, .limit root), ⟨none, none⟩) ::
    f.edges cap |T| root 0

theorem Forest.Fits.child {f : Forest N A} (h : f.Fits E lim) : ∀ n ∈ f.ids,
    (∀ cs, E.tree.kind n ≠ .weighted cs) ∧ ∀ c ∈ childNodes E n, c ∈ f.ids := by
  induction f with
  | nil => intro n hn; simp [ids] at hn
  | leaf m a r ih =>
    obtain ⟨h1, -, -, h2⟩ := h
    intro n hn
    simp only [ids, List.mem_cons] at hn
    rcases hn with rfl | hn
    · exact ⟨fun cs => by rw [h1]; simp, fun c hc => by
        unfold childNodes at hc; rw [h1] at hc; simp at hc⟩
    · exact ⟨(ih h2 n hn).1, fun c hc => by
        simp only [ids, List.mem_cons]; exact .inr ((ih h2 n hn).2 c hc)⟩
  | node m c r ihc ihr =>
    obtain ⟨h1, -, h2, h3⟩ := h
    have hroots : ∀ (f : Forest N A), ∀ x ∈ f.roots, x ∈ f.ids := by
      intro f
      induction f with
      | nil => intro x hx; simp [roots] at hx
      | leaf n a r ih =>
        intro x hx
        simp only [roots, ids, List.mem_cons] at hx ⊢
        rcases hx with rfl | hx
        · exact .inl rfl
        · exact .inr (ih x hx)
      | node n c r _ ih =>
        intro x hx
        simp only [roots, ids, List.mem_cons, List.mem_append] at hx ⊢
        rcases hx with rfl | hx
        · exact .inl rfl
        · exact .inr (.inr (ih x hx))
    intro n hn
    simp only [ids, List.mem_cons, List.mem_append] at hn ⊢
    rcases hn with rfl | hn | hn
    · refine ⟨fun cs => by rw [h1]; simp, fun x hx => ?_⟩
      unfold childNodes at hx; rw [h1] at hx
      exact .inr (.inl (hroots c x hx))
    · exact ⟨(ihc h2 n hn).1, fun x hx => .inr (.inl ((ihc h2 n hn).2 x hx))⟩
    · exact ⟨(ihr h3 n hn).1, fun x hx => .inr (.inr ((ihr h3 n hn).2 x hx))⟩

theorem Forest.roots_ids (f : Forest N A) : ∀ x ∈ f.roots, x ∈ f.ids := by
  induction f with
  | nil => intro x hx; simp [roots] at hx
  | leaf n a r ih =>
    intro x hx
    simp only [roots, ids, List.mem_cons] at hx ⊢
    rcases hx with rfl | hx
    · exact .inl rfl
    · exact .inr (ih x hx)
  | node n c r _ ih =>
    intro x hx
    simp only [roots, ids, List.mem_cons, List.mem_append] at hx ⊢
    rcases hx with rfl | hx
    · exact .inl rfl
    · exact .inr (.inr (ih x hx))

theorem nested_graph {f : Forest N A} (hF : Nested E lim f) {fuel : ℕ} {total : K}
    {g : Graph N A} (h : buildGraph E lim memo fuel (.fin total) = .ok g) :
    g = nestedGraph E.tree.root (capOf E lim memo)
      (|pyInt (total / E.precision)| - flowsTo memo .source (.node E.tree.root)) f := by
  unfold buildGraph at h
  rw [bind_ok_iff] at h
  obtain ⟨g₁, h1, h2⟩ := h
  set T := |pyInt (total / E.precision)| - flowsTo memo .source (.node E.tree.root) with hT
  have hg : g₁ = g := by
    unfold balanceAll at h2
    rw [bind_ok_iff] at h2
    obtain ⟨ns, h3, h2⟩ := h2
    have := no_weighted (E := E) (P := fun n => n = E.tree.root ∨ n ∈ f.ids) (by
      rintro n (rfl | hn)
      · refine ⟨fun ds hd => ?_, fun c hc => .inr ?_⟩
        · rw [hF.root] at hd; cases hd
        · unfold childNodes at hc; rw [hF.root] at hc; exact f.roots_ids c hc
      · exact ⟨(hF.fits.child n hn).1, fun c hc => .inr ((hF.fits.child n hn).2 c hc)⟩) fuel _ ns
        (by simp) h3
    subst this
    rw [List.foldlM_nil] at h2
    cases h2; rfl
  subst hg
  have e0 : addEdge ([] : Graph N A) .source (.node E.tree.root)
      (units E.precision (.fin total)) none memo =
      [((.source, .node E.tree.root), ⟨some T, none⟩)] := by
    unfold addEdge units edgeCapacity putEdge
    simp only [Dict.get?, Option.getD_none]
    rw [← Int.cast_abs, ← Int.cast_sub, pyInt_cast, ← hT]
    rfl
  rw [e0] at h1
  cases fuel with
  | zero => rw [addSuccessors.eq_def] at h1; cases h1
  | succ fuel =>
    rw [addSuccessors.eq_def] at h1
    simp only [hF.root, Option.getD_none] at h1
    unfold embedLimit at h1
    rw [hF.free] at h1
    simp only at h1
    rw [bind_ok_iff] at h1
    obtain ⟨r, h3, h1⟩ := h1
    cases h1
    have hin : inboundCapacity ([((.source, .node E.tree.root), ⟨some T, none⟩)] : Graph N A)
        (.node E.tree.root) = T := by
      simp [inboundCapacity]
    rw [hin, putEdge_append (by simp)] at h3
    have := build_forest f E.tree.root 0 _ fuel fuel T |T| rfl r hF.fits hF.apart (by
      intro e he
      simp only [List.mem_append, List.mem_singleton] at he
      rcases he with rfl | rfl
      · exact ⟨fun h => h, hF.apart.limit⟩
      · exact ⟨hF.apart.limit, hF.apart.limit⟩) (by
      intro e he
      simp only [List.mem_append, List.mem_singleton] at he
      rcases he with rfl | rfl <;> simp) h3
    rw [this, nestedGraph]
    simp

end BuildForest

end Forecaster.Traversal
