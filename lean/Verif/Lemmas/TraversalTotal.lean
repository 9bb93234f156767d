import Verif.Lemmas.TraversalExists

/-!
# Traversing a priority tree ends without an error

Helper lemmas for `Verif/Props/TraversalTotal.lean`.
-/

set_option linter.unusedSectionVars false

namespace Forecaster.Traversal

open Forecaster Forecaster.Timing

variable {K : Type} [Field K] [LinearOrder K] [IsStrictOrderedRing K] [FloorRing K]
variable {N A : Type} [DecidableEq N] [DecidableEq A]

/-- An edge is there. -/
abbrev Has (g : Graph N A) (u v : G N A) : Prop := (u, v) ∈ Dict.keys g

/-- Nothing is taken away. -/
def More (g g' : Graph N A) : Prop := ∀ k, k ∈ Dict.keys g → k ∈ Dict.keys g'

theorem More.refl (g : Graph N A) : More g g := fun _ h => h

theorem More.trans {a b c : Graph N A} (h : More a b) (h' : More b c) : More a c :=
  fun k hk => h' k (h k hk)

theorem more_put (g : Graph N A) (u v : G N A) (c w : Option ℤ) : More g (putEdge g u v c w) :=
  fun _ hk => Dict.mem_keys_set.2 (.inr hk)

theorem has_put (g : Graph N A) (u v : G N A) (c w : Option ℤ) : Has (putEdge g u v c w) u v :=
  Dict.mem_keys_set.2 (.inl rfl)

/-- What is true of the graph all along. -/
structure Good (E : Env N A K) (lim : Lim) (memo : Flows N A) (src : Option ℤ) (g : Graph N A) :
    Prop where
  wf : Dict.WF g
  shape : Shape E lim memo src g
  cap : ∀ k e c, Dict.get? g k = some e → e.capacity = some c → 0 ≤ c
  wt : ∀ k e w, Dict.get? g k = some e → e.weight = some w → 0 ≤ w
  fin : ∀ n v e, Dict.get? g (.limit n, v) = some e → e.capacity ≠ none

theorem pyInt_abs_nonneg (x : K) : 0 ≤ pyInt |x| := by
  unfold pyInt; rw [if_pos (abs_nonneg x)]; exact Int.floor_nonneg.2 (abs_nonneg x)

section

variable {E : Env N A K} {lim : Lim} {memo : Flows N A} {src : Option ℤ}

theorem Good.put {g : Graph N A} (hg : Good E lim memo src g) {u v : G N A} {c w : Option ℤ}
    (hs : Step E lim memo u v c w) (hc : ∀ x, c = some x → 0 ≤ x) (hw : ∀ x, w = some x → 0 ≤ x)
    (hf : ∀ n, u = .limit n → c ≠ none ∨ Has g u v) : Good E lim memo src (putEdge g u v c w) := by
  have key : ∀ k e, Dict.get? (putEdge g u v c w) k = some e →
      (k = (u, v) ∧ e = ⟨c <|> ((Dict.get? g (u, v)).getD ⟨none, none⟩).capacity,
        w <|> ((Dict.get? g (u, v)).getD ⟨none, none⟩).weight⟩) ∨ Dict.get? g k = some e := by
    intro k e h
    unfold putEdge at h
    rw [Dict.get?_set] at h
    split_ifs at h with h1
    · cases h; exact .inl ⟨h1.symm, rfl⟩
    · exact .inr h
  refine ⟨Dict.wf_set hg.wf _ _, stable_shape.put _ _ _ _ _ hg.shape hs (fun _ _ => trivial),
    ?_, ?_, ?_⟩
  · intro k e x he hx
    rcases key k e he with ⟨rfl, rfl⟩ | h
    · cases c with
      | some y => simp at hx; exact hc x (by rw [hx])
      | none =>
        cases ho : Dict.get? g (u, v) with
        | none => simp [ho] at hx
        | some o => simp [ho] at hx; exact hg.cap _ o x ho hx
    · exact hg.cap k e x h hx
  · intro k e x he hx
    rcases key k e he with ⟨rfl, rfl⟩ | h
    · cases w with
      | some y => simp at hx; exact hw x (by rw [hx])
      | none =>
        cases ho : Dict.get? g (u, v) with
        | none => simp [ho] at hx
        | some o => simp [ho] at hx; exact hg.wt _ o x ho hx
    · exact hg.wt k e x h hx
  · intro n v' e he
    rcases key _ e he with ⟨h1, rfl⟩ | h
    · cases h1
      cases c with
      | some y => simp
      | none =>
        rcases hf n rfl with h | h
        · exact absurd rfl h
        · obtain ⟨o, ho⟩ := Dict.mem_keys_iff.1 h
          simpa [ho] using hg.fin n _ o ho
    · exact hg.fin n v' e h

/-! ### Weights below a node -/

/-- How far from the sink. -/
def depth (rank : N → ℕ) : G N A → ℕ
  | .sink => 0
  | .group _ => 1
  | .acct _ => 2
  | .overflow n => 3 * rank n + 3
  | .limit n => 3 * rank n + 4
  | .node n => 3 * rank n + 5
  | .source => 0

theorem allowed_depth {rank : N → ℕ} (hr : ∀ n, ∀ c ∈ childNodes E n, rank c < rank n)
    {u v : G N A} {e : Edge} (h : Allowed E lim memo src (u, v) e) (hu : u ≠ .source) :
    depth rank v < depth rank u := by
  cases u <;> cases v <;> simp only [Allowed] at h <;> simp only [depth]
  all_goals first
    | exact absurd rfl hu
    | omega
    | (obtain ⟨rfl, -⟩ := h; omega)
    | (subst h; omega)
    | (have := hr _ _ h; omega)
    | exact absurd h (by simp)

theorem allowed_not_source {u v : G N A} {e : Edge} (h : Allowed E lim memo src (u, v) e) :
    v ≠ .source := by
  rintro rfl
  cases u <;> simp [Allowed] at h

theorem allowed_not_sink {u v : G N A} {e : Edge} (h : Allowed E lim memo src (u, v) e) :
    u ≠ .sink := by
  rintro rfl
  cases v <;> simp [Allowed] at h

theorem foldlM_ok {α β : Type} {f : β → α → Except PyErr β} (P : β → Prop) {l : List α} {b : β}
    (hb : P b) (h : ∀ b a, a ∈ l → P b → ∃ b', f b a = .ok b' ∧ P b') :
    ∃ b', l.foldlM f b = .ok b' ∧ P b' := by
  induction l generalizing b with
  | nil => exact ⟨b, rfl, hb⟩
  | cons a l ih =>
    obtain ⟨b₁, h1, h2⟩ := h b a (by simp) hb
    obtain ⟨b₂, h3, h4⟩ := ih h2 fun b a ha => h b a (List.mem_cons_of_mem _ ha)
    refine ⟨b₂, ?_, h4⟩
    rw [List.foldlM_cons, h1]
    exact h3

theorem mapM_ok {α β : Type} {f : α → Except PyErr β} {l : List α}
    (h : ∀ a ∈ l, ∃ b, f a = .ok b) : ∃ r, l.mapM f = .ok r ∧ r.length = l.length ∧
      ∀ b ∈ r, ∃ a ∈ l, f a = .ok b := by
  induction l with
  | nil => exact ⟨[], rfl, rfl, by simp⟩
  | cons a l ih =>
    obtain ⟨b, hb⟩ := h a (by simp)
    obtain ⟨r, hr, hl, hm⟩ := ih fun a ha => h a (List.mem_cons_of_mem _ ha)
    refine ⟨b :: r, ?_, by simp [hl], ?_⟩
    · rw [List.mapM_cons, hb]
      change (do let r ← l.mapM f; pure (b :: r)) = _
      rw [hr]
      rfl
    · intro b' hb'
      rcases List.mem_cons.1 hb' with rfl | hb'
      · exact ⟨a, by simp, hb⟩
      · obtain ⟨a', h1, h2⟩ := hm b' hb'
        exact ⟨a', List.mem_cons_of_mem _ h1, h2⟩

theorem sumWeight_ok {rank : N → ℕ} (hr : ∀ n, ∀ c ∈ childNodes E n, rank c < rank n)
    {g : Graph N A} (hg : Good E lim memo src g) (fuel : ℕ) {u : G N A} (hu : u ≠ .source)
    (hf : depth rank u < fuel) : ∃ w, sumWeight g fuel u = .ok w ∧ 0 ≤ w := by
  induction fuel generalizing u with
  | zero => omega
  | succ fuel ih =>
    rw [sumWeight]
    refine foldlM_ok (fun w : ℤ => 0 ≤ w) le_rfl ?_
    intro b a ha hb
    obtain ⟨h1, h2⟩ := List.mem_filter.1 ha
    simp only [decide_eq_true_eq] at h2
    have hget : Dict.get? g (u, a.1.2) = some a.2 := by
      rw [← h2]; exact Dict.get?_of_mem hg.wf h1
    have hal := hg.shape _ _ hget
    obtain ⟨w, hw, hw0⟩ := ih (u := a.1.2) (allowed_not_source hal)
      (by have := allowed_depth hr hal hu; omega)
    refine ⟨b + a.2.weight.getD 0 + w, ?_, ?_⟩
    · simp only [hw]; rfl
    · have : 0 ≤ a.2.weight.getD 0 := by
        cases hx : a.2.weight with
        | none => simp
        | some y => simpa [hx] using hg.wt _ _ y hget hx
      omega

/-! ### Building -/

/-- Specification: a tree without cycles, whose weighted nodes have children, all with a positive
weight. -/
structure Proper (E : Env N A K) (rank : N → ℕ) : Prop where
  rank : ∀ n, ∀ c ∈ childNodes E n, rank c < rank n
  weights : ∀ n cs, E.tree.kind n = .weighted cs → cs ≠ [] ∧ Dict.WF cs ∧ ∀ e ∈ cs, 0 < e.2

/-- Specification: accounts answer when they are asked. -/
structure Willing (E : Env N A K) : Prop where
  limit : ∀ a lim, ∃ x, E.limitOf a lim = .ok x
  inflow : ∀ a lim x, lim = .minIn ∨ lim = .maxIn → 0 ≤ x → ∃ d, E.txOf a lim x = .ok d
  outflow : ∀ a lim x, lim = .minOut ∨ lim = .maxOut → x ≤ 0 → ∃ d, E.txOf a lim x = .ok d

/-- The flow of an edge is reported. -/
def Told (f : Flows N A) (u v : G N A) : Prop :=
  ∃ d x, Dict.get? f u = some d ∧ Dict.get? d v = some x

/-- All of a node's children and accounts are in the graph. -/
def Laid (E : Env N A K) (lim : Lim) (ov : Bool) (g : Graph N A) (n : N) : Prop :=
  (∀ c ∈ childNodes E n, Has g (.limit n) (.node c)) ∧
  (ov = true → ∀ cs, E.tree.kind n = .weighted cs →
    Has g (.limit n) (.overflow n) ∧ ∀ c ∈ Dict.keys cs, Has g (.overflow n) (.node c)) ∧
  (∀ a, E.tree.kind n = .leaf a → ∃ u, Has g u .sink)

/-- The descendants of a node. -/
abbrev Below (E : Env N A K) : N → N → Prop :=
  Relation.ReflTransGen fun n c => c ∈ childNodes E n

theorem Laid.more {ov : Bool} {g g' : Graph N A} {n : N} (h : Laid E lim ov g n) (hm : More g g') :
    Laid E lim ov g' n :=
  ⟨fun c hc => hm _ (h.1 c hc), fun ho cs hk => ⟨hm _ (h.2.1 ho cs hk).1, fun c hc =>
    hm _ ((h.2.1 ho cs hk).2 c hc)⟩, fun a ha => (h.2.2 a ha).imp fun _ hu => hm _ hu⟩

/-- What a builder of subtrees does. -/
def Builds (E : Env N A K) (lim : Lim) (memo : Flows N A) (src : Option ℤ) (ov : Bool)
    (next : Graph N A → N → Except PyErr (Graph N A)) (c : N) : Prop :=
  ∀ g, Good E lim memo src g → ∃ g', next g c = .ok g' ∧ Good E lim memo src g' ∧ More g g' ∧
    ∀ m, Below E c m → Laid E lim ov g' m

/-- The flows of an earlier pass are known for all children or for none. -/
def MemoOk (E : Env N A K) (memo : Flows N A) (n : N) : Prop :=
  Dict.get? memo (.limit n) = none ∨ ∀ c ∈ childNodes E n, Told memo (.limit n) (.node c)

theorem addEdge_fin (g : Graph N A) (u v : G N A) (x : K) (w : Option ℤ) :
    addEdge g u v (.fin x) w = putEdge g u v (some (pyInt |x|)) w := by
  simp [addEdge, edgeCapacity, flowsTo]

theorem childEdges_ok {ov : Bool} {next : Graph N A → N → Except PyErr (Graph N A)} {n : N}
    {totals : Dict N K} (hc : ∀ e ∈ totals, e.1 ∈ childNodes E n)
    (hn : ∀ e ∈ totals, Builds E lim memo src ov next e.1) {g : Graph N A}
    (hg : Good E lim memo src g) :
    ∃ g', childEdges next n g totals = .ok g' ∧ Good E lim memo src g' ∧ More g g' ∧
      ∀ e ∈ totals, Has g' (.limit n) (.node e.1) ∧ ∀ m, Below E e.1 m → Laid E lim ov g' m := by
  unfold childEdges
  induction totals generalizing g with
  | nil => exact ⟨g, rfl, hg, More.refl g, by simp⟩
  | cons e l ih =>
    have h1 : Good E lim memo src (addEdge g (.limit n) (.node e.1) (.fin e.2)) := by
      rw [addEdge_fin]
      refine hg.put (.child n e.1 _ none (hc e List.mem_cons_self)) ?_ (by simp) (by simp)
      rintro x ⟨⟩; exact pyInt_abs_nonneg _
    have h1h : Has (addEdge g (.limit n) (.node e.1) (.fin e.2)) (.limit n) (.node e.1) := by
      rw [addEdge_fin]; exact has_put _ _ _ _ _
    have h1m : More g (addEdge g (.limit n) (.node e.1) (.fin e.2)) := by
      rw [addEdge_fin]; exact more_put _ _ _ _ _
    obtain ⟨g₁, e1, G1, M1, L1⟩ := hn e List.mem_cons_self _ h1
    obtain ⟨g₂, e2, G2, M2, L2⟩ := ih (fun x hx => hc x (List.mem_cons_of_mem _ hx))
      (fun x hx => hn x (List.mem_cons_of_mem _ hx)) G1
    refine ⟨g₂, ?_, G2, h1m.trans (M1.trans M2), ?_⟩
    · rw [List.foldlM_cons, e1]; exact e2
    · intro x hx
      rcases List.mem_cons.1 hx with rfl | hx
      · exact ⟨M2 _ (M1 _ h1h), fun m hm => (L1 m hm).more M2⟩
      · exact L2 x hx

theorem flowsToChildren_ok {n : N} (hm : MemoOk E memo n) {children : List N}
    (hc : ∀ c ∈ children, c ∈ childNodes E n) :
    ∃ x, flowsToChildren memo (.limit n) children = .ok x := by
  unfold flowsToChildren
  cases hd : Dict.get? memo (.limit n) with
  | none => exact ⟨0, rfl⟩
  | some d =>
    have ht : ∀ c ∈ children, ∃ x, flowAt memo (.limit n) (.node c) = .ok x := by
      intro c hcm
      rcases hm with hm | hm
      · rw [hd] at hm; cases hm
      · obtain ⟨d', x, h1, h2⟩ := hm c (hc c hcm)
        refine ⟨x, ?_⟩
        simp only [flowAt, h1, h2]
    obtain ⟨r, hr, -⟩ := mapM_ok ht
    refine ⟨r.sum, ?_⟩
    simp only [flowsAt, hr]; rfl

theorem weightedChildren_ok {ov : Bool} {next : Graph N A → N → Except PyErr (Graph N A)} {n : N}
    (hmemo : MemoOk E memo n)
    (fuel : ℕ) {children : Dict N K} (hlen : children.length ≤ fuel) (hwf : Dict.WF children)
    (hpos : ∀ e ∈ children, 0 < e.2) (hc : ∀ e ∈ children, e.1 ∈ childNodes E n)
    (hn : ∀ e ∈ children, Builds E lim memo src ov next e.1) {g : Graph N A}
    (hg : Good E lim memo src g) (capacity : K) :
    ∃ g', addWeightedChildren memo next n fuel g children capacity = .ok g' ∧
      Good E lim memo src g' ∧ More g g' ∧
      ∀ e ∈ children, Has g' (.limit n) (.node e.1) ∧ ∀ m, Below E e.1 m → Laid E lim ov g' m := by
  induction fuel generalizing children g capacity with
  | zero =>
    have : children = [] := List.length_eq_zero_iff.1 (by omega)
    subst this
    obtain ⟨x, hx⟩ := flowsToChildren_ok hmemo (children := Dict.keys ([] : Dict N K))
      (by simp [Dict.keys])
    refine ⟨g, ?_, hg, More.refl g, by simp⟩
    rw [addWeightedChildren.eq_def]
    simp only
    rw [hx]
    simp [childEdges]
  | succ fuel ih =>
    obtain ⟨x, hx⟩ := flowsToChildren_ok hmemo (children := Dict.keys children) (by
      intro c hcm
      obtain ⟨e, he, rfl⟩ := List.mem_map.1 hcm
      exact hc e he)
    rw [addWeightedChildren.eq_def]
    simp only
    rw [hx]
    have hnorm : ¬ (Dict.total children = 0 ∧ children ≠ []) := by
      rintro ⟨h1, h2⟩
      have : 0 < Dict.total children := by
        unfold Dict.total Dict.vals
        apply List.sum_pos
        · intro y hy
          obtain ⟨e, he, rfl⟩ := List.mem_map.1 hy
          exact hpos e he
        · simpa using h2
      exact absurd h1 this.ne'
    change ∃ g', (if Dict.total children = 0 ∧ children ≠ [] then _ else _) = _ ∧ _
    rw [if_neg hnorm]
    set totals : Dict N K := children.map fun e => (e.1, (capacity + x) * e.2 / Dict.total children
      - (flowsTo memo (.limit n) (.node e.1) : K)) with htot
    have hkeys : Dict.keys totals = Dict.keys children := by
      simp [htot, Dict.keys, List.map_map, Function.comp_def]
    have hmem : ∀ e ∈ totals, ∃ e' ∈ children, e'.1 = e.1 := by
      intro e he
      obtain ⟨e', he', rfl⟩ := List.mem_map.1 he
      exact ⟨e', he', rfl⟩
    by_cases hneg : ∃ e ∈ totals, e.2 < 0
    · rw [if_pos hneg]
      set rest := children.filter fun e => decide (0 < Dict.val totals e.1) with hrest
      have hwt : Dict.WF totals := by unfold Dict.WF; rw [hkeys]; exact hwf
      have hlt : rest.length < children.length := by
        obtain ⟨e, he, hneg⟩ := hneg
        obtain ⟨e', he', hee⟩ := hmem e he
        refine List.length_filter_lt_length_iff_exists.2 ⟨e', he', ?_⟩
        have : Dict.val totals e'.1 = e.2 := by
          rw [hee]; unfold Dict.val; rw [Dict.get?_of_mem hwt he]; rfl
        simp only [this, decide_eq_true_eq, not_lt]; exact hneg.le
      have hsub : ∀ e ∈ rest, e ∈ children := fun e he => (List.mem_filter.1 he).1
      obtain ⟨g₁, e1, G1, M1, L1⟩ := ih (children := rest) (by omega) (Dict.wf_filter hwf)
        (fun e he => hpos e (hsub e he)) (fun e he => hc e (hsub e he))
        (fun e he => hn e (hsub e he)) hg
        (capacity + ((totals.filter fun e => decide (e.2 < 0)).map Prod.snd).sum)
      have hz : ∀ e ∈ (totals.filter fun e => decide (e.2 ≤ 0)).map fun e => (e.1, (0 : K)),
          ∃ e' ∈ children, e'.1 = e.1 := by
        intro e he
        obtain ⟨e', he', rfl⟩ := List.mem_map.1 he
        exact hmem e' (List.mem_filter.1 he').1
      obtain ⟨g₂, e2, G2, M2, L2⟩ := childEdges_ok (ov := ov) (n := n) (next := next)
        (totals := (totals.filter fun e : N × K => decide (e.2 ≤ 0)).map fun e : N × K => (e.1, (0 : K)))
        (fun e he => by obtain ⟨e', h1, h2⟩ := hz e he; rw [← h2]; exact hc e' h1)
        (fun e he => by obtain ⟨e', h1, h2⟩ := hz e he; rw [← h2]; exact hn e' h1) G1
      refine ⟨g₂, ?_, G2, M1.trans M2, ?_⟩
      · rw [e1]; exact e2
      · intro e he
        have hin : (e.1, (capacity + x) * e.2 / Dict.total children
            - (flowsTo memo (.limit n) (.node e.1) : K)) ∈ totals := List.mem_map.2 ⟨e, he, rfl⟩
        by_cases h0 : 0 < Dict.val totals e.1
        · have := L1 e (List.mem_filter.2 ⟨he, by simpa using h0⟩)
          exact ⟨M2 _ this.1, fun m hm => (this.2 m hm).more M2⟩
        · refine L2 (e.1, 0) (List.mem_map.2 ⟨_, List.mem_filter.2 ⟨hin, ?_⟩, rfl⟩)
          have : Dict.val totals e.1 = (capacity + x) * e.2 / Dict.total children
            - (flowsTo memo (.limit n) (.node e.1) : K) := by
            unfold Dict.val; rw [Dict.get?_of_mem hwt hin]; rfl
          rw [this] at h0
          simpa using not_lt.1 h0
    · rw [if_neg hneg]
      obtain ⟨g₂, e2, G2, M2, L2⟩ := childEdges_ok (ov := ov) (n := n) (next := next)
        (totals := totals)
        (fun e he => by obtain ⟨e', h1, h2⟩ := hmem e he; rw [← h2]; exact hc e' h1)
        (fun e he => by obtain ⟨e', h1, h2⟩ := hmem e he; rw [← h2]; exact hn e' h1) hg
      refine ⟨g₂, e2, G2, M2, ?_⟩
      intro e he
      have hin : (e.1, (capacity + x) * e.2 / Dict.total children
          - (flowsTo memo (.limit n) (.node e.1) : K)) ∈ totals := List.mem_map.2 ⟨e, he, rfl⟩
      exact L2 (e.1, (capacity + x) * e.2 / Dict.total children
          - (flowsTo memo (.limit n) (.node e.1) : K)) hin

theorem overflowEdges_ok {n : N} {children : Dict N K} (hc : ∀ e ∈ children, e.1 ∈ childNodes E n)
    {g : Graph N A} (hg : Good E lim memo src g) (capacity : K) :
    Good E lim memo src (overflowEdges g n children capacity) ∧
    More g (overflowEdges g n children capacity) ∧
    Has (overflowEdges g n children capacity) (.limit n) (.overflow n) ∧
    ∀ c ∈ Dict.keys children, Has (overflowEdges g n children capacity) (.overflow n) (.node c) := by
  unfold overflowEdges
  simp only [addEdge_fin]
  have h0 : Good E lim memo src (putEdge g (.limit n) (.overflow n) (some (pyInt |capacity|)) none) :=
    hg.put (.over n _) (by rintro x ⟨⟩; exact pyInt_abs_nonneg _) (by simp) (by simp)
  have m0 := more_put g (.limit n) (.overflow n) (some (pyInt |capacity|)) none
  have s0 := has_put g (.limit n) (.overflow n) (some (pyInt |capacity|)) none
  generalize putEdge g (.limit n) (.overflow n) (some (pyInt |capacity|)) none = g₀ at h0 m0 s0
  have key : ∀ (l : Dict N K) (g₀ : Graph N A), (∀ e ∈ l, e.1 ∈ childNodes E n) →
      Good E lim memo src g₀ →
      let g' := l.foldl (fun g e => putEdge g (.overflow n) (.node e.1) (some (pyInt |capacity|)) none) g₀
      Good E lim memo src g' ∧ More g₀ g' ∧ ∀ c ∈ Dict.keys l, Has g' (.overflow n) (.node c) := by
    intro l
    induction l with
    | nil => intro g₀ _ h; exact ⟨h, More.refl _, by simp [Dict.keys]⟩
    | cons e l ih =>
      intro g₀ hl h
      have h1 : Good E lim memo src
          (putEdge g₀ (.overflow n) (.node e.1) (some (pyInt |capacity|)) none) :=
        h.put (.overChild n e.1 _ (hl e List.mem_cons_self))
          (by rintro x ⟨⟩; exact pyInt_abs_nonneg _) (by simp) (by simp)
      obtain ⟨a, b, c⟩ := ih _ (fun x hx => hl x (List.mem_cons_of_mem _ hx)) h1
      refine ⟨a, (more_put _ _ _ _ _).trans b, ?_⟩
      intro k hk
      rcases List.mem_cons.1 hk with rfl | hk
      · exact b _ (has_put _ _ _ _ _)
      · exact c k hk
  obtain ⟨a, b, c⟩ := key children g₀ hc h0
  exact ⟨a, m0.trans b, b _ s0, c⟩

theorem embedLimit_ok {g : Graph N A} (hg : Good E lim memo src g) (n : N) (capacity : K) :
    Good E lim memo src (embedLimit E lim memo g n capacity).1 ∧
    More g (embedLimit E lim memo g n capacity).1 := by
  unfold embedLimit
  cases hl : E.tree.limits n lim with
  | none => exact ⟨hg.put (.free n hl) (by simp) (by simp) (by simp), more_put _ _ _ _ _⟩
  | some l =>
    simp only [addEdge_fin]
    exact ⟨hg.put (.limit n l hl) (by rintro x ⟨⟩; exact pyInt_abs_nonneg _) (by simp) (by simp),
      more_put _ _ _ _ _⟩

theorem addEdge_memoless (g : Graph N A) (u v : G N A) (x : Ext K) :
    addEdge g u v x = putEdge g u v (edgeCapacity x 0) none := by
  simp [addEdge, flowsTo]

theorem edgeCapacity_nonneg (x : Ext K) : ∀ y, edgeCapacity x 0 = some y → 0 ≤ y := by
  intro y hy
  cases x with
  | fin z =>
    simp only [edgeCapacity, Option.some.injEq] at hy
    rw [← hy]
    simpa using pyInt_abs_nonneg z
  | posInf => simp [edgeCapacity] at hy
  | negInf => simp [edgeCapacity] at hy

theorem addAccount_ok (hw : Willing E) {g : Graph N A} (hg : Good E lim memo src g) (a : A) :
    ∃ g', addAccount E lim memo g a = .ok g' ∧ Good E lim memo src g' ∧ More g g' ∧
      ∃ u, Has g' u .sink := by
  obtain ⟨x, hx⟩ := hw.limit a lim
  unfold addAccount
  rw [hx]
  cases hs : E.groupOf a lim with
  | none =>
    refine ⟨_, rfl, ?_, ?_, .acct a, ?_⟩ <;> rw [addEdge_memoless]
    · exact hg.put (.alone a x hs hx) (edgeCapacity_nonneg _) (by simp) (by simp)
    · exact more_put _ _ _ _ _
    · exact has_put _ _ _ _ _
  | some s =>
    refine ⟨_, rfl, ?_, ?_, .group s, ?_⟩ <;> rw [addEdge_memoless, addEdge_memoless]
    · exact (hg.put (.member a s x hs hx) (edgeCapacity_nonneg _) (by simp) (by simp)).put
        (.shared a s x hs hx) (edgeCapacity_nonneg _) (by simp) (by simp)
    · exact (more_put _ _ _ _ _).trans (more_put _ _ _ _ _)
    · exact has_put _ _ _ _ _

theorem ordered_ok {rank : N → ℕ} (hr : ∀ n, ∀ c ∈ childNodes E n, rank c < rank n) {ov : Bool}
    {next : Graph N A → N → Except PyErr (Graph N A)} {n : N} {fuel : ℕ} (capacity : K)
    (l : List N) (hc : ∀ c ∈ l, c ∈ childNodes E n)
    (hf : 3 * rank n + 3 < fuel)
    (hn : ∀ c ∈ l, Builds E lim memo src ov next c) {g : Graph N A} {w : ℤ} (hw : 0 ≤ w)
    (hg : Good E lim memo src g) :
    ∃ r, l.foldlM (orderedStep next fuel n capacity) (g, w) = .ok r ∧
      Good E lim memo src r.1 ∧ More g r.1 ∧
      ∀ c ∈ l, Has r.1 (.limit n) (.node c) ∧ ∀ m, Below E c m → Laid E lim ov r.1 m := by
  induction l generalizing g w with
  | nil => exact ⟨(g, w), rfl, hg, More.refl g, by simp⟩
  | cons c l ih =>
    have hcm := hc c List.mem_cons_self
    have h1 : Good E lim memo src (addEdge g (.limit n) (.node c) (.fin capacity) (some w)) := by
      rw [addEdge_fin]
      exact hg.put (.child n c _ (some w) hcm) (by rintro x ⟨⟩; exact pyInt_abs_nonneg _)
        (by rintro x ⟨⟩; exact hw) (by simp)
    have h1h : Has (addEdge g (.limit n) (.node c) (.fin capacity) (some w)) (.limit n) (.node c) := by
      rw [addEdge_fin]; exact has_put _ _ _ _ _
    have h1m : More g (addEdge g (.limit n) (.node c) (.fin capacity) (some w)) := by
      rw [addEdge_fin]; exact more_put _ _ _ _ _
    obtain ⟨g₁, e1, G1, M1, L1⟩ := hn c List.mem_cons_self _ h1
    obtain ⟨x, hx, hx0⟩ := sumWeight_ok hr G1 fuel (u := .node c) (by simp) (by
      have := hr n c hcm
      simp only [depth]; omega)
    obtain ⟨r, e2, G2, M2, L2⟩ := ih (fun x hx => hc x (List.mem_cons_of_mem _ hx))
      (fun x hx => hn x (List.mem_cons_of_mem _ hx)) (w := max w x + 1) (by omega) G1
    refine ⟨r, ?_, G2, h1m.trans (M1.trans M2), ?_⟩
    · rw [List.foldlM_cons]
      have : orderedStep next fuel n capacity (g, w) c = .ok (g₁, max w x + 1) := by
        unfold orderedStep
        simp only [e1]
        show (do let w' ← sumWeight g₁ fuel (.node c); Except.ok (g₁, max w w' + 1)) = _
        rw [hx]; rfl
      rw [this]; exact e2
    · intro y hy
      rcases List.mem_cons.1 hy with rfl | hy
      · exact ⟨M2 _ (M1 _ h1h), fun m hm => (L1 m hm).more M2⟩
      · exact L2 y hy

theorem overflowWeight_ok {rank : N → ℕ} (hr : ∀ n, ∀ c ∈ childNodes E n, rank c < rank n)
    {n : N} {fuel : ℕ} (hf : 3 * rank n + 3 < fuel) {children : Dict N K} (hne : children ≠ [])
    (hc : ∀ e ∈ children, e.1 ∈ childNodes E n) {g : Graph N A} (hg : Good E lim memo src g)
    (hh : Has g (.limit n) (.overflow n)) :
    ∃ g', overflowWeight fuel g n children = .ok g' ∧ Good E lim memo src g' ∧ More g g' := by
  have h1 : ∀ c ∈ Dict.keys children, ∃ w, sumWeight g fuel (.node c) = .ok w ∧ 0 ≤ w := by
    intro c hcm
    obtain ⟨e, he, rfl⟩ := List.mem_map.1 hcm
    refine sumWeight_ok hr hg fuel (by simp) ?_
    have := hr n e.1 (hc e he)
    simp only [depth]; omega
  obtain ⟨ws, hws, hlen, hmem⟩ := mapM_ok (f := fun c => sumWeight g fuel (.node c))
    fun c hcm => (h1 c hcm).imp fun _ h => h.1
  unfold overflowWeight
  rw [hws]
  cases hm : ws.max? with
  | none =>
    exfalso
    rw [List.max?_eq_none_iff] at hm
    subst hm
    simp [Dict.keys] at hlen
    exact hne (List.length_eq_zero_iff.1 hlen.symm)
  | some w =>
    have hw0 : 0 ≤ w := by
      obtain ⟨c, hcm, hcw⟩ := hmem w (List.max?_mem hm)
      obtain ⟨w', h2, h3⟩ := h1 c hcm
      rw [hcw] at h2; cases h2; exact h3
    refine ⟨putEdge g (.limit n) (.overflow n) none (some (1 + w)), ?_, ?_, more_put _ _ _ _ _⟩
    · change (match ws.max? with | none => _ | some w => _) = _
      rw [hm]
    · exact hg.put (.overWeight n _) (by simp) (by rintro x ⟨⟩; omega) (fun _ _ => .inr hh)

theorem addSuccessors_ok {rank : N → ℕ} (hP : Proper E rank) (hw : Willing E) (ov : Bool)
    (fuel : ℕ) {n : N} (hf : 3 * rank n + 5 < fuel) (hmemo : ∀ m, Below E n m → MemoOk E memo m)
    (capacity : Option K) (children : Option (Dict N K))
    (hc : ∀ ch, children = some ch → ov = false ∧ (∃ cs, E.tree.kind n = .weighted cs) ∧
      Dict.WF ch ∧ (∀ e ∈ ch, 0 < e.2) ∧ ∀ e ∈ ch, e.1 ∈ childNodes E n) {g : Graph N A}
    (hg : Good E lim memo src g) :
    ∃ g', addSuccessors E lim memo ov fuel g n capacity children = .ok g' ∧
      Good E lim memo src g' ∧ More g g' ∧
      (children = none → ∀ m, Below E n m → Laid E lim ov g' m) := by
  induction fuel generalizing n capacity children g with
  | zero => omega
  | succ fuel ih =>
    unfold addSuccessors
    simp only
    obtain ⟨G0, M0⟩ := embedLimit_ok hg n (capacity.getD (inboundCapacity g (.node n) : K))
    have hnext : ∀ c ∈ childNodes E n, Builds E lim memo src ov
        (fun g c => addSuccessors E lim memo ov fuel g c none none) c := by
      intro c hcm g hg
      have := hP.rank n c hcm
      obtain ⟨g', h1, h2, h3, h4⟩ := ih (n := c) (by omega)
        (fun m hm => hmemo m (Relation.ReflTransGen.head hcm hm)) none none (by simp) hg
      exact ⟨g', h1, h2, h3, h4 rfl⟩
    have hself : ∀ g', (Laid E lim ov g' n) → (∀ c ∈ childNodes E n, ∀ m, Below E c m →
        Laid E lim ov g' m) → ∀ m, Below E n m → Laid E lim ov g' m := by
      intro g' h1 h2 m hm
      rcases Relation.ReflTransGen.cases_head hm with rfl | ⟨c, hcm, hm⟩
      · exact h1
      · exact h2 c hcm m hm
    cases hk : E.tree.kind n with
    | leaf a =>
      simp only
      have hcn : childNodes E n = [] := by simp [childNodes, hk]
      have G1 : Good E lim memo src (addEdge (embedLimit E lim memo g n
          (capacity.getD (inboundCapacity g (.node n) : K))).1 (.limit n) (.acct a) (.fin
          (embedLimit E lim memo g n (capacity.getD (inboundCapacity g (.node n) : K))).2)) := by
        rw [addEdge_fin]
        exact G0.put (.leaf n a _ hk) (by rintro x ⟨⟩; exact pyInt_abs_nonneg _) (by simp) (by simp)
      obtain ⟨g', h1, h2, h3, h4⟩ := addAccount_ok hw G1 a
      refine ⟨g', h1, h2, ?_, fun _ => hself g' ?_ ?_⟩
      · refine M0.trans (More.trans ?_ h3)
        rw [addEdge_fin]; exact more_put _ _ _ _ _
      · refine ⟨by simp [hcn], ?_, fun _ _ => h4⟩
        intro _ cs hcs; rw [hk] at hcs; cases hcs
      · simp [hcn]
    | ordered cs =>
      simp only
      have hcn : childNodes E n = cs := by simp [childNodes, hk]
      obtain ⟨r, e1, G1, M1, L1⟩ := ordered_ok hP.rank (lim := lim) (memo := memo) (src := src) (ov := ov)
        (next := fun g c => addSuccessors E lim memo ov fuel g c none none) (n := n)
        (fuel := fuel) (embedLimit E lim memo g n (capacity.getD (inboundCapacity g (.node n) : K))).2
        cs (fun c hcm => by rw [hcn]; exact hcm) (by omega)
        (fun c hcm => hnext c (by rw [hcn]; exact hcm)) (w := 0) le_rfl G0
      refine ⟨r.1, ?_, G1, M0.trans M1, fun _ => hself _ ?_ ?_⟩
      · rw [e1]; rfl
      · refine ⟨fun c hcm => (L1 c (by rw [← hcn]; exact hcm)).1, ?_, ?_⟩
        · intro _ cs' hcs; rw [hk] at hcs; cases hcs
        · intro a ha; rw [hk] at ha; cases ha
      · intro c hcm; exact (L1 c (by rw [← hcn]; exact hcm)).2
    | weighted cs =>
      simp only
      have hcn : childNodes E n = Dict.keys cs := by simp [childNodes, hk]
      obtain ⟨hne, hwf, hpos⟩ := hP.weights n cs hk
      have hcs : ∀ e ∈ children.getD cs, e.1 ∈ childNodes E n := by
        cases children with
        | none => intro e he; rw [hcn]; exact Dict.mem_keys_of_mem he
        | some ch => exact (hc ch rfl).2.2.2.2
      have hwf' : Dict.WF (children.getD cs) := by
        cases children with
        | none => exact hwf
        | some ch => exact (hc ch rfl).2.2.1
      have hpos' : ∀ e ∈ children.getD cs, 0 < e.2 := by
        cases children with
        | none => exact hpos
        | some ch => exact (hc ch rfl).2.2.2.1
      have hM := hmemo n Relation.ReflTransGen.refl
      unfold addWeighted
      by_cases ho : ov = true
      · rw [if_pos ho]
        have hnone : children = none := by
          cases children with
          | none => rfl
          | some ch => have := (hc ch rfl).1; rw [ho] at this; cases this
        subst hnone
        simp only [Option.getD_none] at hcs hwf' hpos' ⊢
        obtain ⟨G1, M1, H1, H2⟩ := overflowEdges_ok hcs G0
          (embedLimit E lim memo g n (capacity.getD (inboundCapacity g (.node n) : K))).2
        obtain ⟨g₂, e2, G2, M2, L2⟩ := weightedChildren_ok (lim := lim) (src := src) (ov := ov)
          (next := fun g c => addSuccessors E lim memo ov fuel g c none none) hM cs.length le_rfl
          hwf' hpos' hcs (fun e he => hnext e.1 (hcs e he)) G1
          (embedLimit E lim memo g n (capacity.getD (inboundCapacity g (.node n) : K))).2
        obtain ⟨g₃, e3, G3, M3⟩ := overflowWeight_ok hP.rank (n := n) (fuel := fuel) (by omega) hne
          hcs G2 (M2 _ H1)
        refine ⟨g₃, ?_, G3, M0.trans (M1.trans (M2.trans M3)), fun _ => hself _ ?_ ?_⟩
        · rw [e2]; exact e3
        · refine ⟨?_, ?_, ?_⟩
          · intro c hcm
            rw [hcn] at hcm
            obtain ⟨e, he, rfl⟩ := List.mem_map.1 hcm
            exact M3 _ (L2 e he).1
          · intro _ cs' hcs'
            rw [hk] at hcs'; cases hcs'
            exact ⟨M3 _ (M2 _ H1), fun c hcm => M3 _ (M2 _ (H2 c hcm))⟩
          · intro a ha; rw [hk] at ha; cases ha
        · intro c hcm m hm
          rw [hcn] at hcm
          obtain ⟨e, he, rfl⟩ := List.mem_map.1 hcm
          exact ((L2 e he).2 m hm).more M3
      · rw [if_neg ho]
        obtain ⟨g₂, e2, G2, M2, L2⟩ := weightedChildren_ok (lim := lim) (src := src) (ov := ov)
          (next := fun g c => addSuccessors E lim memo ov fuel g c none none) hM
          (children.getD cs).length le_rfl hwf' hpos' hcs (fun e he => hnext e.1 (hcs e he)) G0
          (embedLimit E lim memo g n (capacity.getD (inboundCapacity g (.node n) : K))).2
        refine ⟨g₂, e2, G2, M0.trans M2, ?_⟩
        intro hnone
        subst hnone
        refine hself _ ?_ ?_
        · refine ⟨?_, fun h => absurd h ho, ?_⟩
          · intro c hcm
            rw [hcn] at hcm
            obtain ⟨e, he, rfl⟩ := List.mem_map.1 hcm
            exact (L2 e he).1
          · intro a ha; rw [hk] at ha; cases ha
        · intro c hcm m hm
          rw [hcn] at hcm
          obtain ⟨e, he, rfl⟩ := List.mem_map.1 hcm
          exact (L2 e he).2 m hm

/-! ### Balancing -/

theorem solvable {g : Graph N A} (hg : Good E lim memo src g)
    (hs : Has g .source (.node E.tree.root)) (hk : ∃ u, Has g u .sink) : Solvable g := by
  refine ⟨hg.wf, ⟨_, hs⟩, hk, ?_, hg.cap, hg.wt, ?_⟩
  · intro e he
    have := hg.shape _ _ (Dict.get?_of_mem hg.wf he)
    exact ⟨allowed_not_source this, allowed_not_sink this⟩
  · have key : ∀ x, Relation.ReflTransGen (FreeEdge g) .source x →
        x = .source ∨ x = .node E.tree.root ∨ x = .limit E.tree.root := by
      intro x hx
      induction hx with
      | refl => exact .inl rfl
      | tail _ h ih =>
        obtain ⟨e, he, hc⟩ := h
        have hal := hg.shape _ _ he
        rcases ih with rfl | rfl | rfl
        · rename_i v _
          cases v <;> simp only [Allowed] at hal
          rw [hal.1]; exact .inr (.inl rfl)
        · rename_i v _
          cases v <;> simp only [Allowed] at hal
          rw [hal.1]; exact .inr (.inr rfl)
        · exact absurd hc (hg.fin _ _ e he)
    intro h
    rcases key _ h with h | h | h <;> cases h

/-- Specification: the flow algorithm answers for every network it accepts, with the flow of
every edge. -/
def Complete (E : Env N A K) : Prop :=
  ∀ g, Solvable g → ∃ f, E.solve g = .ok f ∧ Feasible g f ∧ Reports g f

theorem ok_bind {α β : Type} (a : α) (k : α → Except PyErr β) : (Except.ok a >>= k) = k a := rfl

theorem mapM_pairs {α β : Type} {f : α → Except PyErr β} {l : List α}
    (h : ∀ a ∈ l, ∃ b, f a = .ok b) :
    ∃ r : List (α × β),
      (l.mapM fun a => (do let b ← f a; .ok (a, b) : Except PyErr (α × β))) = .ok r ∧
      r.map Prod.fst = l := by
  induction l with
  | nil => exact ⟨[], rfl, rfl⟩
  | cons a l ih =>
    obtain ⟨b, hb⟩ := h a (by simp)
    obtain ⟨r, hr, hm⟩ := ih fun a ha => h a (List.mem_cons_of_mem _ ha)
    refine ⟨(a, b) :: r, ?_, by simp [hm]⟩
    rw [List.mapM_cons, hb, ok_bind, ok_bind, hr, ok_bind]
    rfl

theorem ofClass_sub (r : List (N × Ordering)) (o : Ordering) :
    (ofClass r o).Sublist (r.map Prod.fst) := List.filter_sublist.map _

theorem ofClass_length (r : List (N × Ordering)) :
    (ofClass r .lt).length + (ofClass r .gt).length + (ofClass r .eq).length = r.length := by
  induction r with
  | nil => rfl
  | cons e r ih =>
    obtain ⟨c, o⟩ := e
    simp only [ofClass, List.length_map] at ih ⊢
    cases o <;> simp <;> omega

theorem ofClass_append {r : List (N × Ordering)} (h : (r.map Prod.fst).Nodup) {o o' : Ordering}
    (ho : o ≠ o') : (ofClass r o ++ ofClass r o').Nodup := by
  refine List.nodup_append.2 ⟨(ofClass_sub r o).nodup h, (ofClass_sub r o').nodup h, ?_⟩
  intro c hc c' hc' he
  subst he
  have key : ∀ {o}, c ∈ ofClass r o → Dict.get? r c = some o := by
    intro o hc
    obtain ⟨e, he, rfl⟩ := List.mem_map.1 hc
    obtain ⟨h1, h2⟩ := List.mem_filter.1 he
    rw [← of_decide_eq_true h2]
    exact Dict.get?_of_mem h h1
  have h2 := key hc'
  rw [key hc] at h2
  cases h2
  exact ho rfl

theorem flowAt_ok {f : Flows N A} {u v : G N A} (h : Told f u v) : ∃ x, flowAt f u v = .ok x := by
  obtain ⟨d, x, h1, h2⟩ := h
  exact ⟨x, by unfold flowAt; rw [h1]; simp only [h2]⟩

theorem flowsAt_ok {f : Flows N A} {u : G N A} {l : List N} (h : ∀ c ∈ l, Told f u (.node c)) :
    ∃ x, flowsAt f u l = .ok x := by
  obtain ⟨r, hr, -⟩ := mapM_ok (f := fun c => flowAt f u (.node c)) fun c hc => flowAt_ok (h c hc)
  exact ⟨r.sum, by unfold flowsAt; rw [hr]; rfl⟩

theorem limit_cap {g : Graph N A} (hg : Good E lim memo src g) {n : N} {v : G N A}
    (h : Has g (.limit n) v) : ∃ x, (Dict.get? g (.limit n, v)).bind Edge.capacity = some x := by
  obtain ⟨e, he⟩ := Dict.mem_keys_iff.1 h
  cases hx : e.capacity with
  | none => exact absurd hx (hg.fin _ _ e he)
  | some x => exact ⟨x, by rw [he]; exact hx⟩

theorem classify_ok {g : Graph N A} (hg : Good E lim memo src g) {n c : N} {f : Flows N A}
    (h : Has g (.limit n) (.node c)) (h1 : Told f (.limit n) (.node c))
    (h2 : Told f (.overflow n) (.node c)) : ∃ o, classify g f n c = .ok o := by
  obtain ⟨x, hx⟩ := limit_cap hg h
  obtain ⟨y, hy⟩ := flowAt_ok h1
  obtain ⟨z, hz⟩ := flowAt_ok h2
  unfold classify
  rw [hx]
  simp only
  rw [hy]
  by_cases hxy : x > y
  · refine ⟨.lt, ?_⟩
    change (if x > y then _ else _) = _
    rw [if_pos hxy]
  · refine ⟨if z > 0 then .gt else .eq, ?_⟩
    change (if x > y then _ else _) = _
    rw [if_neg hxy, hz]
    rfl

theorem stillSaturated_ok {g : Graph N A} (hg : Good E lim memo src g) {n c : N} {f : Flows N A}
    (h : Has g (.limit n) (.node c)) (h1 : Told f (.limit n) (.node c)) :
    ∃ b, stillSaturated g f n c = .ok b := by
  obtain ⟨x, hx⟩ := limit_cap hg h
  obtain ⟨y, hy⟩ := flowAt_ok h1
  refine ⟨decide (x = y), ?_⟩
  unfold stillSaturated
  rw [hx]
  simp only
  rw [hy]
  rfl

theorem restrictOverflow_ok {g : Graph N A} (hg : Good E lim memo src g) (n : N)
    (children : List N) {f : Flows N A} (hf : ∀ u v, 0 ≤ flowsTo f u v) :
    Good E lim memo src (restrictOverflow E g n children f) ∧
      More g (restrictOverflow E g n children f) := by
  unfold restrictOverflow
  have : ∀ c ∈ (childNodes E n).filter (fun c => decide (c ∉ children)), c ∈ childNodes E n :=
    fun c hc => (List.mem_filter.1 hc).1
  generalize (childNodes E n).filter (fun c => decide (c ∉ children)) = l at this
  induction l generalizing g with
  | nil => exact ⟨hg, More.refl g⟩
  | cons c l ih =>
    rw [List.foldl_cons]
    have h1 := hg.put (.overChild n c (flowsTo f (.overflow n) (.node c)) (this c (by simp)))
      (by rintro x ⟨⟩; exact hf _ _) (by simp) (by simp)
    obtain ⟨h2, h3⟩ := ih h1 fun c hc => this c (List.mem_cons_of_mem _ hc)
    exact ⟨h2, (more_put _ _ _ _ _).trans h3⟩

theorem balanceRecurse_ok {rank : N → ℕ} (hP : Proper E rank) (hw : Willing E) {n : N}
    {cs : Dict N K} (hk : E.tree.kind n = .weighted cs)
    (hmemo : ∀ m, Below E n m → MemoOk E memo m) {fuel : ℕ} (hf : 3 * rank n + 5 < fuel)
    {again : Graph N A → List N → Except PyErr (Graph N A)} {children : List N}
    (hsub : ∀ c ∈ children, c ∈ Dict.keys cs) (hnd : children.Nodup) {f : Flows N A}
    (hnn : ∀ u v, 0 ≤ flowsTo f u v)
    (h1 : ∀ c ∈ children, Told f (.limit n) (.node c))
    (h2 : ∀ c ∈ children, Told f (.overflow n) (.node c)) {g : Graph N A}
    (hg : Good E lim memo src g)
    (ha : ∀ g', Good E lim memo src g' → More g g' →
      ∃ g'', again g' children = .ok g'' ∧ Good E lim memo src g'' ∧ More g' g'') :
    ∃ g', balanceRecurse E lim memo fuel again g n cs children f = .ok g' ∧
      Good E lim memo src g' ∧ More g g' := by
  obtain ⟨x, hx⟩ := flowsAt_ok h1
  obtain ⟨y, hy⟩ := flowsAt_ok h2
  unfold balanceRecurse
  rw [hx]
  change ∃ g', (do
    let o ← flowsAt f (.overflow n) children
    let subset : Dict N K := children.map fun c => (c, Dict.val cs c)
    let g ← addSuccessors E lim memo false fuel g n (some ((x + o : ℤ) : K)) (some subset)
    if children.length > 1 then again (restrictOverflow E g n children f) children
    else .ok g) = _ ∧ _
  rw [hy]
  obtain ⟨hne, hwf, hpos⟩ := hP.weights n cs hk
  have hcn : childNodes E n = Dict.keys cs := by simp [childNodes, hk]
  obtain ⟨g₁, e1, G1, M1, -⟩ := addSuccessors_ok (lim := lim) (src := src) hP hw false fuel hf hmemo
    (some ((x + y : ℤ) : K)) (some (children.map fun c => (c, Dict.val cs c))) (by
      rintro ch ⟨⟩
      refine ⟨rfl, ⟨cs, hk⟩, ?_, ?_, ?_⟩
      · unfold Dict.WF Dict.keys
        simpa [List.map_map, Function.comp_def] using hnd
      · intro e he
        obtain ⟨c, hc, rfl⟩ := List.mem_map.1 he
        obtain ⟨w, hw⟩ := Dict.mem_keys_iff.1 (hsub c hc)
        have := hpos _ (Dict.mem_of_get? hw)
        simpa [Dict.val, hw] using this
      · intro e he
        obtain ⟨c, hc, rfl⟩ := List.mem_map.1 he
        rw [hcn]; exact hsub c hc) hg
  change ∃ g', (do
    let g ← addSuccessors E lim memo false fuel g n (some ((x + y : ℤ) : K))
      (some (children.map fun c => (c, Dict.val cs c)))
    if children.length > 1 then again (restrictOverflow E g n children f) children
    else .ok g) = _ ∧ _
  rw [e1]
  change ∃ g', (if children.length > 1 then again (restrictOverflow E g₁ n children f) children
    else .ok g₁) = _ ∧ _
  split_ifs with hl
  · obtain ⟨G2, M2⟩ := restrictOverflow_ok G1 n children hnn
    obtain ⟨g₃, e3, G3, M3⟩ := ha _ G2 (M1.trans M2)
    exact ⟨g₃, e3, G3, M1.trans (M2.trans M3)⟩
  · exact ⟨g₁, rfl, G1, M1⟩

theorem balanceFlows_ok {rank : N → ℕ} (hP : Proper E rank) (hw : Willing E) (hC : Complete E)
    (hset : ∀ l, (E.setOrder l).Perm l) {n : N} {cs : Dict N K}
    (hk : E.tree.kind n = .weighted cs) (hmemo : ∀ m, Below E n m → MemoOk E memo m)
    (fuel : ℕ) (all : Bool) {children : List N} (hsub : ∀ c ∈ children, c ∈ Dict.keys cs)
    (hnd : children.Nodup)
    (hf : 3 * rank n + 6 + 2 * children.length + (if all = true then 1 else 0) < fuel)
    {g : Graph N A} (hg : Good E lim memo src g) (hs : Has g .source (.node E.tree.root))
    (hsink : ∃ u, Has g u .sink) (hl : Laid E lim true g n) :
    ∃ g', balanceFlows E lim memo n cs fuel g children all = .ok g' ∧
      Good E lim memo src g' ∧ More g g' := by
  induction fuel generalizing children all g with
  | zero => omega
  | succ fuel ih =>
    rw [balanceFlows.eq_def]
    simp only
    cases hch : children with
    | nil => exact ⟨g, rfl, hg, More.refl g⟩
    | cons c0 l0 =>
      simp only
      rw [← hch]
      have hcn : childNodes E n = Dict.keys cs := by simp [childNodes, hk]
      obtain ⟨f, ef, hfe, hrep⟩ := hC g (solvable hg hs hsink)
      have hT1 : ∀ c ∈ children, Told f (.limit n) (.node c) := fun c hc =>
        hrep _ _ (hl.1 c (by rw [hcn]; exact hsub c hc))
      have hT2 : ∀ c ∈ children, Told f (.overflow n) (.node c) := fun c hc =>
        hrep _ _ ((hl.2.1 rfl cs hk).2 c (hsub c hc))
      have hL : ∀ c ∈ children, Has g (.limit n) (.node c) := fun c hc =>
        hl.1 c (by rw [hcn]; exact hsub c hc)
      have hnn : ∀ u v, 0 ≤ flowsTo f u v := hfe.nonneg
      obtain ⟨r, er, hr⟩ := mapM_pairs (f := fun c => classify g f n c) (l := children)
        fun c hc => classify_ok hg (hL c hc) (hT1 c hc) (hT2 c hc)
      rw [ef, ok_bind, er, ok_bind]
      have hlen := ofClass_length r
      have hrl : r.length = children.length := by rw [← hr]; simp
      have hndr : (r.map Prod.fst).Nodup := by rw [hr]; exact hnd
      have hin : ∀ o, ∀ c ∈ ofClass r o, c ∈ children := fun o c hc => by
        rw [← hr]; exact (ofClass_sub r o).subset hc
      change ∃ g', (if ofClass r .lt = [] ∧ ofClass r .gt = [] then _ else _) = _ ∧ _
      have hpos : ∀ l : List N, l ≠ [] → 0 < l.length := fun l h => List.length_pos_iff.2 h
      by_cases c1 : ofClass r .lt = [] ∧ ofClass r .gt = []
      · rw [if_pos c1]; exact ⟨g, rfl, hg, More.refl g⟩
      rw [if_neg c1]
      by_cases c2 : (ofClass r .lt = [] ∨ ofClass r .gt = []) ∧ all = true
      · rw [if_pos c2]
        refine balanceRecurse_ok hP hw hk hmemo (by omega) hsub hnd hnn hT1 hT2 hg ?_
        intro g' G' M'
        refine ih false hsub hnd ?_ G' (M' _ hs) (hsink.imp fun _ h => M' _ h) (hl.more M')
        rw [if_pos c2.2] at hf
        simp; omega
      rw [if_neg c2]
      by_cases c3 : (ofClass r .lt = [] ∨ ofClass r .gt = []) ∧ ofClass r .eq = []
      · rw [if_pos c3]; exact ⟨g, rfl, hg, More.refl g⟩
      rw [if_neg c3]
      -- the two halves
      have half : ∀ (l : List N), (∀ c ∈ l, c ∈ children) → l.Nodup → l.length < children.length →
          ∀ g₁, Good E lim memo src g₁ → More g g₁ → ∃ g₂, balanceRecurse E lim memo fuel
            (fun g cs' => balanceFlows E lim memo n cs fuel g cs' true) g₁ n cs (E.setOrder l) f
            = .ok g₂ ∧ Good E lim memo src g₂ ∧ More g₁ g₂ := by
        intro l hl1 hl2 hl3 g₁ G1 M1
        have hp := hset l
        have hmem : ∀ c ∈ E.setOrder l, c ∈ children := fun c hc => hl1 c (hp.mem_iff.1 hc)
        refine balanceRecurse_ok hP hw hk hmemo (by omega) (fun c hc => hsub c (hmem c hc))
          (hp.nodup_iff.2 hl2) hnn (fun c hc => hT1 c (hmem c hc)) (fun c hc => hT2 c (hmem c hc))
          G1 ?_
        intro g' G' M'
        have M2 := M1.trans M'
        refine ih true (fun c hc => hsub c (hmem c hc)) (hp.nodup_iff.2 hl2) ?_ G' (M2 _ hs)
          (hsink.imp fun _ h => M2 _ h) (hl.more M2)
        rw [hp.length_eq]
        simp only [if_true]
        omega
      have two : ∀ (u o s : List N), (∀ c ∈ u, c ∈ children) → (∀ c ∈ o, c ∈ children) →
          (∀ c ∈ s, c ∈ children) → (u ++ s).Nodup → (o ++ s).Nodup →
          (u ++ s).length < children.length → (o ++ s).length < children.length →
          ∃ g', (do
            let g ← balanceRecurse E lim memo fuel
              (fun g cs' => balanceFlows E lim memo n cs fuel g cs' true) g n cs
              (E.setOrder (u ++ s)) f
            let flags ← s.mapM fun c => (do
              let b ← stillSaturated g f n c
              .ok (c, b) : Except PyErr (N × Bool))
            balanceRecurse E lim memo fuel
              (fun g cs' => balanceFlows E lim memo n cs fuel g cs' true) g n cs
              (E.setOrder (o ++ (flags.filter fun e : N × Bool => e.2).map Prod.fst)) f) = .ok g' ∧
            Good E lim memo src g' ∧ More g g' := by
        intro u o s hu ho hs' hnu hno hlu hlo
        obtain ⟨g₁, e1, G1, M1⟩ := half (u ++ s)
          (fun c hc => (List.mem_append.1 hc).elim (hu c) (hs' c)) hnu hlu g hg (More.refl g)
        rw [e1]
        obtain ⟨fl, e2, hfl⟩ := mapM_pairs (f := fun c => stillSaturated g₁ f n c) (l := s)
          fun c hc => stillSaturated_ok G1 (M1 _ (hL c (hs' c hc))) (hT1 c (hs' c hc))
        rw [ok_bind, e2, ok_bind]
        have hsl : ((fl.filter fun e => e.2).map Prod.fst).Sublist s := by
          rw [← hfl]; exact List.filter_sublist.map _
        have hosl : (o ++ (fl.filter fun e => e.2).map Prod.fst).Sublist (o ++ s) :=
          (List.Sublist.refl o).append hsl
        obtain ⟨g₂, e3, G2, M2⟩ := half (o ++ (fl.filter fun e => e.2).map Prod.fst)
          (fun c hc => (List.mem_append.1 (hosl.subset hc)).elim (ho c) (hs' c))
          (hosl.nodup hno) (lt_of_le_of_lt hosl.length_le hlo) g₁ G1 M1
        exact ⟨g₂, e3, G2, M1.trans M2⟩
      by_cases c4 : ofClass r .lt = [] ∨ ofClass r .gt = []
      · have hsat : ofClass r .eq ≠ [] := fun h => c3 ⟨c4, h⟩
        have p1 := hpos _ hsat
        by_cases c5 : ofClass r .lt = []
        · have hgt : ofClass r .gt ≠ [] := fun h => c1 ⟨c5, h⟩
          have p2 := hpos _ hgt
          have := two (ofClass r .eq) (ofClass r .gt) [] (hin _) (hin _) (by simp)
            (by simpa using (ofClass_sub r .eq).nodup hndr)
            (by simpa using (ofClass_sub r .gt).nodup hndr)
            (by simp only [List.append_nil]; omega) (by simp only [List.append_nil]; omega)
          simpa only [c5, hgt, c4, true_or, decide_true, if_true, and_true, true_and, if_false,
            and_false, and_self] using this
        · have hgt : ofClass r .gt = [] := c4.resolve_left c5
          have p2 := hpos _ c5
          have := two (ofClass r .lt) (ofClass r .eq) [] (hin _) (hin _) (by simp)
            (by simpa using (ofClass_sub r .lt).nodup hndr)
            (by simpa using (ofClass_sub r .eq).nodup hndr)
            (by simp only [List.append_nil]; omega) (by simp only [List.append_nil]; omega)
          simpa only [c5, hgt, c4, true_or, or_true, decide_true, if_true, and_true, true_and,
            if_false, and_false, and_self] using this
      · have hlt : ofClass r .lt ≠ [] := fun h => c4 (.inl h)
        have hgt : ofClass r .gt ≠ [] := fun h => c4 (.inr h)
        have p1 := hpos _ hlt
        have p2 := hpos _ hgt
        have := two (ofClass r .lt) (ofClass r .gt) (ofClass r .eq) (hin _) (hin _) (hin _)
          (ofClass_append hndr (by decide)) (ofClass_append hndr (by decide))
          (by rw [List.length_append]; omega) (by rw [List.length_append]; omega)
        simpa only [c4, decide_false, Bool.false_eq_true, false_and, if_false] using this

/-! ### Walking the tree -/

/-- A bound for the number of paths down from a node. -/
def size (E : Env N A K) : ℕ → N → ℕ
  | 0, _ => 1
  | k + 1, n => 1 + ((childNodes E n).map (size E k)).sum

theorem size_mono (k : ℕ) (n : N) : size E k n ≤ size E (k + 1) n := by
  induction k generalizing n with
  | zero => simp [size]
  | succ k ih =>
    rw [size, size]
    exact Nat.add_le_add_left (List.sum_le_sum fun c _ => ih c) 1

theorem size_le {k k' : ℕ} (h : k ≤ k') (n : N) : size E k n ≤ size E k' n := by
  induction h with
  | refl => exact le_rfl
  | step _ ih => exact ih.trans (size_mono _ n)

theorem size_children {rank : N → ℕ} (hr : ∀ n, ∀ c ∈ childNodes E n, rank c < rank n) (n : N) :
    1 + ((childNodes E n).map fun c => size E (rank c) c).sum ≤ size E (rank n) n := by
  cases hk : rank n with
  | zero =>
    have : childNodes E n = [] := by
      rw [List.eq_nil_iff_forall_not_mem]
      intro c hc
      have := hr n c hc
      omega
    simp [this, size]
  | succ k =>
    rw [size]
    refine Nat.add_le_add_left (List.sum_le_sum fun c hc => size_le ?_ c) 1
    have := hr n c hc
    omega

theorem below_rank {rank : N → ℕ} (hr : ∀ n, ∀ c ∈ childNodes E n, rank c < rank n) {n m : N}
    (h : Below E n m) : rank m ≤ rank n ∧ size E (rank m) m ≤ size E (rank n) n := by
  induction h with
  | refl => exact ⟨le_rfl, le_rfl⟩
  | tail _ hc ih =>
    rename_i b c _
    refine ⟨(hr _ _ hc).le.trans ih.1, le_trans ?_ ih.2⟩
    refine le_trans ?_ (size_children hr b)
    have := List.single_le_sum (l := (childNodes E b).map fun c => size E (rank c) c)
      (fun _ _ => Nat.zero_le _) _ (List.mem_map.2 ⟨c, hc, rfl⟩)
    omega

theorem length_le_size {rank : N → ℕ} (hr : ∀ n, ∀ c ∈ childNodes E n, rank c < rank n) (n : N) :
    (childNodes E n).length ≤ size E (rank n) n := by
  refine le_trans ?_ (size_children hr n)
  have h1 : ∀ c, 1 ≤ size E (rank c) c := fun c => by cases rank c <;> simp [size]
  have : ∀ l : List N, l.length ≤ (l.map fun c => size E (rank c) c).sum := by
    intro l
    induction l with
    | nil => simp
    | cons c l ih => have := h1 c; simp only [List.length_cons, List.map_cons, List.sum_cons]; omega
  have := this (childNodes E n)
  omega

theorem weightedNodes_ok {rank : N → ℕ} (hr : ∀ n, ∀ c ∈ childNodes E n, rank c < rank n)
    (fuel : ℕ) {q : List N} (hf : (q.map fun n => size E (rank n) n).sum ≤ fuel) :
    ∃ r, weightedNodes E fuel q = .ok r ∧ ∀ n ∈ r, ∃ m ∈ q, Below E m n := by
  induction fuel generalizing q with
  | zero =>
    cases q with
    | nil => exact ⟨[], by simp [weightedNodes], by simp⟩
    | cons n q =>
      exfalso
      have := size_children hr n
      simp only [List.map_cons, List.sum_cons] at hf
      omega
  | succ fuel ih =>
    cases q with
    | nil => exact ⟨[], by simp [weightedNodes], by simp⟩
    | cons n q =>
      have h1 := size_children hr n
      simp only [List.map_cons, List.sum_cons] at hf
      obtain ⟨r, er, hr'⟩ := ih (q := q ++ childNodes E n) (by
        rw [List.map_append, List.sum_append]; omega)
      have hb : ∀ m ∈ r, ∃ k ∈ n :: q, Below E k m := by
        intro m hm
        obtain ⟨k, hk, hb⟩ := hr' m hm
        rcases List.mem_append.1 hk with hk | hk
        · exact ⟨k, List.mem_cons_of_mem _ hk, hb⟩
        · exact ⟨n, by simp, Relation.ReflTransGen.head hk hb⟩
      rw [weightedNodes, er, ok_bind]
      cases hk : E.tree.kind n with
      | leaf a => exact ⟨r, rfl, hb⟩
      | ordered cs => exact ⟨r, rfl, hb⟩
      | weighted cs =>
        refine ⟨n :: r, rfl, ?_⟩
        intro m hm
        rcases List.mem_cons.1 hm with rfl | hm
        · exact ⟨m, by simp, Relation.ReflTransGen.refl⟩
        · exact hb m hm

theorem getAccounts_ok {rank : N → ℕ} (hr : ∀ n, ∀ c ∈ childNodes E n, rank c < rank n)
    (fuel : ℕ) {n : N} (hf : rank n < fuel) : ∃ l, getAccounts E fuel n = .ok l := by
  induction fuel generalizing n with
  | zero => omega
  | succ fuel ih =>
    rw [getAccounts]
    cases hk : E.tree.kind n with
    | leaf a => exact ⟨[a], rfl⟩
    | ordered cs =>
      simp only
      obtain ⟨l, hl, -⟩ := mapM_ok (f := getAccounts E fuel) (l := cs) fun c hc => ih (by
        have := hr n c (by simpa [childNodes, hk] using hc); omega)
      exact ⟨l.flatten, by rw [hl]; rfl⟩
    | weighted cs =>
      simp only
      obtain ⟨l, hl, -⟩ := mapM_ok (f := getAccounts E fuel) (l := Dict.keys cs) fun c hc => ih (by
        have := hr n c (by simpa [childNodes, hk] using hc); omega)
      exact ⟨l.flatten, by rw [hl]; rfl⟩

/-- Inflows of accounts for a total that is not negative, outflows for one that is. -/
def Matches (lim : Lim) (total : Ext K) : Prop :=
  ((lim = .minIn ∨ lim = .maxIn) ∧ ¬ total < .fin 0) ∨
    ((lim = .minOut ∨ lim = .maxOut) ∧ total < .fin 0)

theorem amountFor_ok (hw : Willing E) (hp : 0 ≤ E.precision) {total : Ext K}
    (hm : Matches lim total) {g : Graph N A} {f : Flows N A} (hf : Feasible g f) {a : A}
    {d : Dict (G N A) ℤ} (hd : Dict.get? f (.acct a) = some d) :
    ∃ t, E.txOf a lim (amountFor E total d) = .ok t := by
  have h0 : (0 : ℤ) ≤ Dict.total d := by
    unfold Dict.total Dict.vals
    apply List.sum_nonneg
    intro x hx
    obtain ⟨e, he, rfl⟩ := List.mem_map.1 hx
    have := hf.nonneg (.acct a) e.1
    unfold flow flowsTo at this
    rw [hd] at this
    simpa [Dict.val, Dict.get?_of_mem (hf.wf.2 _ _ hd) he] using this
  have h1 : 0 ≤ E.precision * ((Dict.total d : ℤ) : K) :=
    mul_nonneg hp (by exact_mod_cast h0)
  unfold amountFor
  rcases hm with ⟨hl, ht⟩ | ⟨hl, ht⟩
  · rw [if_neg ht]; exact hw.inflow a lim _ hl h1
  · rw [if_pos ht]; exact hw.outflow a lim _ hl (by linarith)

theorem convertFlows_ok (hw : Willing E) (hp : 0 ≤ E.precision) {total : Ext K}
    (hm : Matches lim total) {g : Graph N A} {f : Flows N A} (hf : Feasible g f) (l : List A) :
    ∃ r, convertFlows E lim total f l = .ok r := by
  unfold convertFlows
  obtain ⟨r, hr, -⟩ := foldlM_ok (fun _ : Dict A (Dict K K) => True) (l := l) (b := [])
    (f := fun r a =>
      match Dict.get? f (.acct a) with
      | none => .ok r
      | some d => do
        let t ← E.txOf a lim (amountFor E total d)
        .ok (Dict.set r a t)) trivial (by
    intro r a _ _
    cases hd : Dict.get? f (.acct a) with
    | none => exact ⟨r, rfl, trivial⟩
    | some d =>
      obtain ⟨t, ht⟩ := amountFor_ok hw hp hm hf hd
      exact ⟨Dict.set r a t, by simp only [ht]; rfl, trivial⟩)
  exact ⟨r, hr⟩

/-! ### Remembered flows -/

theorem told_mergeOne {f : Flows N A} {u v u' : G N A} {e : G N A × ℤ}
    (h : Told f u v ∨ (u = u' ∧ v = e.1)) : Told (mergeOne f u' e) u v := by
  unfold mergeOne Told
  simp only
  by_cases hu : u' = u
  · subst hu
    rw [Dict.get?_set_self]
    by_cases hv : e.1 = v
    · subst hv; exact ⟨_, _, rfl, Dict.get?_set_self _ _ _⟩
    · obtain ⟨d, x, h1, h2⟩ := h.resolve_right fun h => hv h.2.symm
      rw [h1]
      exact ⟨_, x, rfl, by rw [Dict.get?_set_ne _ _ hv]; exact h2⟩
  · rw [Dict.get?_set_ne _ _ hu]
    exact h.resolve_right fun h => hu h.1.symm

theorem told_inner {f : Flows N A} {u v u' : G N A} {d : Dict (G N A) ℤ}
    (h : Told f u v ∨ (u = u' ∧ v ∈ Dict.keys d)) :
    Told (d.foldl (fun f x => mergeOne f u' x) f) u v := by
  induction d generalizing f with
  | nil =>
    rcases h with h | ⟨_, h⟩
    · exact h
    · simp [Dict.keys] at h
  | cons e d ih =>
    rw [List.foldl_cons]
    apply ih
    rcases h with h | ⟨h1, h2⟩
    · exact .inl (told_mergeOne (.inl h))
    · rcases List.mem_cons.1 (show v ∈ e.1 :: d.map Prod.fst from h2) with h3 | h3
      · exact .inl (told_mergeOne (.inr ⟨h1, h3⟩))
      · exact .inr ⟨h1, h3⟩

theorem told_merge {f s : Flows N A} {u v : G N A}
    (h : Told f u v ∨ ∃ d, (u, d) ∈ s ∧ v ∈ Dict.keys d) : Told (mergeFlows f s) u v := by
  unfold mergeFlows
  induction s generalizing f with
  | nil =>
    rcases h with h | ⟨d, h, -⟩
    · exact h
    · simp at h
  | cons e s ih =>
    rw [List.foldl_cons]
    apply ih
    rcases h with h | ⟨d, h1, h2⟩
    · exact .inl (told_inner (.inl h))
    · rcases List.mem_cons.1 h1 with rfl | h1
      · exact .inl (told_inner (.inr ⟨rfl, h2⟩))
      · exact .inr ⟨d, h1, h2⟩

theorem told_merge_right {f s : Flows N A} {u v : G N A} (h : Told s u v) :
    Told (mergeFlows f s) u v := by
  obtain ⟨d, x, h1, h2⟩ := h
  exact told_merge (.inr ⟨d, Dict.mem_of_get? h1, Dict.mem_keys_iff.2 ⟨x, h2⟩⟩)

/-! ### One traversal -/

/-- How deep recursion must be allowed to go. -/
def enough (E : Env N A K) (rank : N → ℕ) : ℕ :=
  3 * rank E.tree.root + 2 * size E (rank E.tree.root) E.tree.root + 8

/-- Specification: the tree has an account. -/
def HasLeaf (E : Env N A K) : Prop := ∃ n a, Below E E.tree.root n ∧ E.tree.kind n = .leaf a

theorem buildGraph_ok {rank : N → ℕ} (hP : Proper E rank) (hw : Willing E) (hC : Complete E)
    (hset : ∀ l, (E.setOrder l).Perm l) (hleaf : HasLeaf E)
    (hmemo : ∀ m, Below E E.tree.root m → MemoOk E memo m) {fuel : ℕ}
    (hf : enough E rank ≤ fuel) {total : Ext K}
    (hsrc : ∀ x, edgeCapacity (units E.precision total)
      (flowsTo memo .source (.node E.tree.root)) = some x → 0 ≤ x) :
    ∃ g, buildGraph E lim memo fuel total = .ok g ∧
      Good E lim memo (edgeCapacity (units E.precision total)
        (flowsTo memo .source (.node E.tree.root))) g ∧
      Has g .source (.node E.tree.root) ∧ ∀ m, Below E E.tree.root m → Laid E lim true g m := by
  set src := edgeCapacity (units E.precision total) (flowsTo memo .source (.node E.tree.root))
    with hsrc'
  unfold enough at hf
  have hg0 : Good E lim memo src (addEdge [] .source (.node E.tree.root)
      (units E.precision total) none memo) := by
    have hget : ∀ k e, Dict.get? (addEdge [] .source (.node E.tree.root)
        (units E.precision total) none memo) k = some e →
        k = (.source, .node E.tree.root) ∧ e = ⟨src, none⟩ := by
      intro k e hk
      unfold addEdge putEdge at hk
      rw [← hsrc'] at hk
      rw [Dict.get?_set] at hk
      split_ifs at hk with h1
      · refine ⟨h1.symm, ?_⟩
        cases hs : src <;> simp [hs, Dict.get?_nil] at hk ⊢ <;> exact hk.symm
      · simp [Dict.get?_nil] at hk
    refine ⟨Dict.wf_set Dict.wf_nil _ _, ?_, ?_, ?_, ?_⟩
    · intro k e hk
      obtain ⟨rfl, rfl⟩ := hget k e hk
      simp [Allowed]
    · intro k e c hk hc
      obtain ⟨rfl, rfl⟩ := hget k e hk
      exact hsrc c hc
    · intro k e w hk hc
      obtain ⟨rfl, rfl⟩ := hget k e hk
      cases hc
    · intro n v e hk
      obtain ⟨h, -⟩ := hget _ e hk
      cases h
  obtain ⟨g₁, e1, G1, M1, L1⟩ := addSuccessors_ok (lim := lim) hP hw true fuel (n := E.tree.root)
    (by omega) hmemo none none (by simp) hg0
  have hs1 : Has g₁ .source (.node E.tree.root) := M1 _ (has_put _ _ _ _ _)
  have L1 := L1 rfl
  obtain ⟨n0, a0, hb0, hk0⟩ := hleaf
  have hsink := (L1 n0 hb0).2.2 a0 hk0
  unfold buildGraph
  rw [e1, ok_bind]
  unfold balanceAll
  obtain ⟨r, er, hr⟩ := weightedNodes_ok hP.rank fuel (q := [E.tree.root])
    (by simp only [List.map_cons, List.map_nil, List.sum_cons, List.sum_nil]; omega)
  rw [er, ok_bind]
  obtain ⟨g₂, e2, G2, M2⟩ := foldlM_ok (fun g => Good E lim memo src g ∧ More g₁ g)
    (l := r) (b := g₁) (f := fun g n =>
      match E.tree.kind n with
      | .weighted cs => balanceFlows E lim memo n cs fuel g (Dict.keys cs) true
      | _ => .ok g) ⟨G1, More.refl _⟩ (by
    rintro g n hn ⟨hg, hm⟩
    obtain ⟨m, hm', hb⟩ := hr n hn
    cases List.mem_singleton.1 hm'
    cases hk : E.tree.kind n with
    | leaf a => exact ⟨g, rfl, hg, hm⟩
    | ordered cs => exact ⟨g, rfl, hg, hm⟩
    | weighted cs =>
      simp only
      have hb' := below_rank hP.rank hb
      have hlen := length_le_size hP.rank n
      have hcn : childNodes E n = Dict.keys cs := by simp [childNodes, hk]
      rw [hcn] at hlen
      obtain ⟨g', h1, h2, h3⟩ := balanceFlows_ok hP hw hC hset hk
        (fun m hm => hmemo m (hb.trans hm)) fuel true (fun c hc => hc)
        (hP.weights n cs hk).2.1 (by simp only [if_true]; omega) hg (hm _ hs1)
        (hsink.imp fun _ h => hm _ h) ((L1 n hb).more hm)
      exact ⟨g', h1, h2, hm.trans h3⟩)
  exact ⟨g₂, e2, G2, M2 _ hs1, fun m hm => (L1 m hm).more M2⟩

theorem traverse_ok {rank : N → ℕ} (hP : Proper E rank) (hw : Willing E) (hC : Complete E)
    (hp : 0 ≤ E.precision)
    (hset : ∀ l, (E.setOrder l).Perm l) (hleaf : HasLeaf E)
    (hmemo : ∀ m, Below E E.tree.root m → MemoOk E memo m) {fuel : ℕ}
    (hf : enough E rank ≤ fuel) {total : Ext K} (hm : Matches lim total)
    (hsrc : ∀ x, edgeCapacity (units E.precision total)
      (flowsTo memo .source (.node E.tree.root)) = some x → 0 ≤ x) :
    ∃ g f txs, traverse E fuel lim total memo = .ok (txs, mergeFlows memo f) ∧
      buildGraph E lim memo fuel total = .ok g ∧ E.solve g = .ok f ∧
      Good E lim memo (edgeCapacity (units E.precision total)
        (flowsTo memo .source (.node E.tree.root))) g ∧ Feasible g f ∧
      Has g .source (.node E.tree.root) ∧
      ∀ m, Below E E.tree.root m → MemoOk E (mergeFlows memo f) m := by
  obtain ⟨g, e1, G1, hs, L1⟩ := buildGraph_ok (lim := lim) hP hw hC hset hleaf hmemo hf hsrc
  obtain ⟨n0, a0, hb0, hk0⟩ := hleaf
  obtain ⟨f, ef, hfe, hrep⟩ := hC g (solvable G1 hs ((L1 n0 hb0).2.2 a0 hk0))
  obtain ⟨acc, hacc⟩ := getAccounts_ok hP.rank fuel (n := E.tree.root)
    (by unfold enough at hf; omega)
  obtain ⟨txs, htx⟩ := convertFlows_ok (lim := lim) hw hp hm hfe (E.acctOrder acc.dedup)
  refine ⟨g, f, txs, ?_, e1, ef, G1, hfe, hs, ?_⟩
  · unfold traverse
    rw [e1, ok_bind, ef, ok_bind, hacc, ok_bind, htx, ok_bind]
  · intro m hm
    exact .inr fun c hc => told_merge_right (hrep _ _ ((L1 m hm).1 c hc))

end

end Forecaster.Traversal
