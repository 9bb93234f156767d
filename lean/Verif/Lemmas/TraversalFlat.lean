import Verif.Lemmas.Traversal

/-!
# The graph of an ordered list of accounts
-/

set_option linter.unusedSectionVars false

namespace Forecaster.Traversal

open Forecaster Forecaster.Timing

variable {K : Type} [Field K] [LinearOrder K] [IsStrictOrderedRing K] [FloorRing K]
variable {N A : Type} [DecidableEq N] [DecidableEq A]

/-- Specification: the tree is an ordered list `cs` of different accounts, without limits on
nodes and without limits shared between the accounts. -/
structure Flat (E : Env N A K) (lim : Lim) (cs : List N) (acc : N → A) : Prop where
  root : E.tree.kind E.tree.root = .ordered cs
  nodup : cs.Nodup
  notroot : E.tree.root ∉ cs
  leaf : ∀ c ∈ cs, E.tree.kind c = .leaf (acc c)
  inj : ∀ c ∈ cs, ∀ d ∈ cs, acc c = acc d → c = d
  free : ∀ n, n = E.tree.root ∨ n ∈ cs → E.tree.limits n lim = none
  alone : ∀ c ∈ cs, E.groupOf (acc c) lim = none

/-- The edges of the graph once the children in `done` have been added. -/
def flatEdge (root : N) (acc : N → A) (cap : A → Option ℤ) (T : ℤ) (done : List N) :
    G N A × G N A → Option Edge
  | (.source, .node n) => if n = root then some ⟨some T, none⟩ else none
  | (.node n, .limit m) => if n = m ∧ (n = root ∨ n ∈ done) then some ⟨none, none⟩ else none
  | (.limit n, .node c) =>
    if n = root ∧ c ∈ done then some ⟨some |T|, some (done.idxOf c : ℤ)⟩ else none
  | (.limit n, .acct a) => if n ∈ done ∧ acc n = a then some ⟨some |T|, none⟩ else none
  | (.acct a, .sink) => if ∃ n ∈ done, acc n = a then some ⟨cap a, none⟩ else none
  | _ => none

theorem putEdge_fresh {g : Graph N A} {u v : G N A} (h : Dict.get? g (u, v) = none)
    (c w : Option ℤ) : putEdge g u v c w = Dict.set g (u, v) ⟨c, w⟩ := by
  unfold putEdge
  rw [h]
  simp only [Option.getD_none]
  congr
  · cases c <;> rfl
  · cases w <;> rfl

theorem inbound_single {g : Graph N A} (hw : Dict.WF g) {u v : G N A} {e : Edge}
    (hk : Dict.get? g (u, v) = some e) (h : ∀ w e, Dict.get? g (w, v) = some e → w = u) :
    inboundCapacity g v = e.capacity.getD 0 := by
  unfold inboundCapacity
  have key : ∀ (l : Graph N A), Dict.WF l → (∀ w e, Dict.get? l (w, v) = some e → w = u) →
      ∀ e, Dict.get? l (u, v) = some e →
      ((l.filter fun e => decide (e.1.2 = v)).map fun e => e.2.capacity.getD 0).sum =
        e.capacity.getD 0 := by
    intro l
    induction l with
    | nil => intro _ _ e he; simp at he
    | cons x l ih =>
      intro hl h e he
      obtain ⟨h1, h2⟩ := Dict.wf_cons.1 hl
      have hrest : ∀ w e, Dict.get? l (w, v) = some e → w = u := by
        intro w e' he'
        apply h w e'
        rw [Dict.get?_cons, if_neg]
        · exact he'
        · rintro hx
          apply h1; rw [hx]
          exact Dict.get?_isSome.1 (by simp [he'])
      rw [Dict.get?_cons] at he
      by_cases hx : x.1 = (u, v)
      · rw [if_pos hx] at he
        cases he
        rw [List.filter_cons, if_pos (by simp [hx]), List.map_cons, List.sum_cons]
        suffices hs : (l.filter fun e => decide (e.1.2 = v)) = [] by rw [hs]; simp
        rw [List.filter_eq_nil_iff]
        intro y hy hyv
        simp only [decide_eq_true_eq] at hyv
        have hy' : Dict.get? l (y.1.1, v) = some y.2 := by
          apply Dict.get?_of_mem h2
          rw [← hyv]; exact hy
        have := hrest _ _ hy'
        apply h1
        rw [hx, ← this, ← hyv]
        exact Dict.mem_keys_of_mem hy
      · rw [if_neg hx] at he
        have hxv : ¬ x.1.2 = v := by
          intro hxv
          have : Dict.get? (x :: l) (x.1.1, v) = some x.2 := by
            rw [Dict.get?_cons, if_pos]; rw [← hxv]
          have := h _ _ this
          exact hx (by rw [← this, ← hxv])
        rw [List.filter_cons, if_neg (by simpa using hxv)]
        exact ih h2 hrest e he
  exact key g hw h e hk

/-- Without weights below a node, the total weight below it is 0. -/
theorem sumWeight_zero {g : Graph N A} (S : G N A → Prop)
    (hS : ∀ e ∈ g, S e.1.1 → S e.1.2 ∧ e.2.weight.getD 0 = 0) :
    ∀ (fuel : ℕ) (u : G N A) (w : ℤ), S u → sumWeight g fuel u = .ok w → w = 0 := by
  intro fuel
  induction fuel with
  | zero => intro u w _ h; simp [sumWeight] at h
  | succ fuel ih =>
    intro u w hu h
    rw [sumWeight] at h
    refine foldlM_inv (P := fun w : ℤ => w = 0) (b := 0) h rfl ?_
    intro b e b' he hb hb'
    obtain ⟨he1, he2⟩ := List.mem_filter.1 he
    simp only [decide_eq_true_eq] at he2
    obtain ⟨h1, h2⟩ := hS e he1 (by rw [he2]; exact hu)
    rw [bind_ok_iff] at hb'
    obtain ⟨x, hx, hb'⟩ := hb'
    cases hb'
    rw [ih _ _ h1 hx, h2, hb]; rfl

section Build

variable {E : Env N A K} {lim : Lim} {memo : Flows N A} {cs : List N} {acc : N → A}

/-- The capacity of an account in the graph; if the account raises, the graph is not built. -/
def capOf (E : Env N A K) (lim : Lim) (memo : Flows N A) (a : A) : Option ℤ :=
  match E.limitOf a lim with
  | .ok x => acctCap E memo (.acct a) x
  | .error _ => none

/-- What has been built. -/
structure Built (E : Env N A K) (lim : Lim) (memo : Flows N A) (acc : N → A) (T : ℤ)
    (done : List N) (g : Graph N A) : Prop where
  wf : Dict.WF g
  edge : ∀ k, Dict.get? g k = flatEdge E.tree.root acc (capOf E lim memo) T done k

theorem pyInt_cast (n : ℤ) : pyInt ((n : ℤ) : K) = n := by
  unfold pyInt
  split_ifs <;> simp

theorem edgeCapacity_cast (n : ℤ) : edgeCapacity (Ext.fin ((n : ℤ) : K)) 0 = some |n| := by
  unfold edgeCapacity
  simp only [Int.cast_zero, sub_zero]
  rw [← Int.cast_abs, pyInt_cast]

theorem built_step (hF : Flat E lim cs acc) {T : ℤ} {done : List N} {g : Graph N A}
    (hg : Built E lim memo acc T done g) {c : N} (hc : c ∈ cs) (hd : ∀ d ∈ done, d ∈ cs)
    (hcd : c ∉ done) {S : ℤ} (hS : |S| = |T|) {fuel fuel' : ℕ} {w : ℤ} (hw : w = done.length) {g' : Graph N A} {w' : ℤ}
    (h : orderedStep (fun g c => addSuccessors E lim memo true fuel g c none none) fuel'
      E.tree.root ((S : ℤ) : K) (g, w) c = .ok (g', w')) :
    Built E lim memo acc T (done ++ [c]) g' ∧ w' = w + 1 := by
  have hcr : c ≠ E.tree.root := fun h => hF.notroot (h ▸ hc)
  have hacc : ∀ d ∈ done, acc d ≠ acc c := fun d hd' h => hcd (hF.inj d (hd d hd') c hc h ▸ hd')
  unfold orderedStep at h
  rw [bind_ok_iff] at h
  obtain ⟨g₁, h1, h⟩ := h
  rw [bind_ok_iff] at h
  obtain ⟨x, hx, h⟩ := h
  cases h
  -- the edge to the child
  have e1 : addEdge g (.limit E.tree.root) (.node c) (.fin ((S : ℤ) : K)) (some w) =
      Dict.set g (.limit E.tree.root, .node c) ⟨some |T|, some w⟩ := by
    unfold addEdge
    rw [show flowsTo ([] : Flows N A) (.limit E.tree.root) (.node c) = 0 from rfl,
      edgeCapacity_cast, hS, putEdge_fresh]
    rw [hg.edge]; simp [flatEdge, hcd]
  simp only at h1
  rw [e1] at h1
  set G1 := Dict.set g (.limit E.tree.root, .node c) ⟨some |T|, some w⟩ with hG1
  have w1 : Dict.WF G1 := Dict.wf_set hg.wf _ _
  have k1 : ∀ k, Dict.get? G1 k = if (.limit E.tree.root, .node c) = k then
      some ⟨some |T|, some w⟩ else flatEdge E.tree.root acc (capOf E lim memo) T done k := by
    intro k; rw [hG1, Dict.get?_set, hg.edge]
  cases fuel with
  | zero => rw [addSuccessors.eq_def] at h1; cases h1
  | succ fuel =>
    rw [addSuccessors.eq_def] at h1
    simp only [hF.leaf c hc, Option.getD_none] at h1
    have hin : inboundCapacity G1 (.node c) = |T| := by
      rw [inbound_single w1 (u := .limit E.tree.root) (e := ⟨some |T|, some w⟩)]
      · rfl
      · rw [k1, if_pos rfl]
      · intro u e hu
        rw [k1] at hu
        by_contra hne
        rw [if_neg (fun h => hne (by injection h with h1 h2; exact h1.symm))] at hu
        cases u <;> simp [flatEdge, hcd, hcr] at hu
    rw [hin] at h1
    unfold embedLimit at h1
    rw [hF.free c (.inr hc)] at h1
    simp only at h1
    -- the edge to the limit node
    have e2 : putEdge G1 (.node c) (.limit c) none none =
        Dict.set G1 (.node c, .limit c) ⟨none, none⟩ := by
      apply putEdge_fresh
      rw [k1, if_neg (by simp)]; simp [flatEdge, hcd, hcr]
    rw [e2] at h1
    set G2 := Dict.set G1 (.node c, .limit c) ⟨none, none⟩ with hG2
    have w2 : Dict.WF G2 := Dict.wf_set w1 _ _
    have k2 : ∀ k, Dict.get? G2 k = if (.node c, .limit c) = k then some ⟨none, none⟩
        else Dict.get? G1 k := by
      intro k; rw [hG2, Dict.get?_set]
    -- the edge to the account
    have e3 : addEdge G2 (.limit c) (.acct (acc c)) (.fin (((|T| : ℤ)) : K)) =
        Dict.set G2 (.limit c, .acct (acc c)) ⟨some |T|, none⟩ := by
      unfold addEdge
      rw [show flowsTo ([] : Flows N A) (.limit c) (.acct (acc c)) = 0 from rfl,
        edgeCapacity_cast, abs_abs, putEdge_fresh]
      rw [k2, if_neg (by simp), k1, if_neg (by simp)]; simp [flatEdge, hcd]
    rw [e3] at h1
    set G3 := Dict.set G2 (.limit c, .acct (acc c)) ⟨some |T|, none⟩ with hG3
    have w3 : Dict.WF G3 := Dict.wf_set w2 _ _
    have k3 : ∀ k, Dict.get? G3 k = if (.limit c, .acct (acc c)) = k then some ⟨some |T|, none⟩
        else Dict.get? G2 k := by
      intro k; rw [hG3, Dict.get?_set]
    -- the edge to the sink
    unfold addAccount at h1
    rw [bind_ok_iff] at h1
    obtain ⟨y, hy, h1⟩ := h1
    rw [hF.alone c hc] at h1
    simp only at h1
    have e4 : addEdge G3 (.acct (acc c)) .sink
        (lessFlow (scale E.precision y) (flowsFrom memo (.acct (acc c)))) =
        Dict.set G3 (.acct (acc c), .sink) ⟨capOf E lim memo (acc c), none⟩ := by
      unfold addEdge
      rw [show flowsTo ([] : Flows N A) (.acct (acc c)) .sink = 0 from rfl, putEdge_fresh]
      · unfold capOf; rw [hy]; rfl
      · rw [k3, if_neg (by simp), k2, if_neg (by simp), k1, if_neg (by simp)]
        simp only [flatEdge]
        rw [if_neg]
        rintro ⟨n, hn, hna⟩
        exact hacc n hn hna
    rw [e4] at h1
    cases h1
    set G4 := Dict.set G3 (.acct (acc c), .sink) ⟨capOf E lim memo (acc c), none⟩ with hG4
    have w4 : Dict.WF G4 := Dict.wf_set w3 _ _
    have k4 : ∀ k, Dict.get? G4 k = flatEdge E.tree.root acc (capOf E lim memo) T
        (done ++ [c]) k := by
      rintro ⟨u, v⟩
      rw [hG4, Dict.get?_set, k3, k2, k1]
      cases u <;> cases v <;> simp only [flatEdge, Prod.mk.injEq, reduceCtorEq, false_and,
        and_false, if_false, G.node.injEq, G.limit.injEq, G.acct.injEq, and_true,
        List.mem_append, List.mem_singleton]
      · rename_i n m
        by_cases h1 : c = n
        · subst h1
          by_cases h2 : c = m
          · subst h2; simp
          · simp [h2]
        · have : ¬ n = c := fun h => h1 h.symm
          simp [h1, this]
      · rename_i n d
        by_cases h1 : c = d
        · subst h1
          by_cases h2 : E.tree.root = n
          · subst h2
            simp only [and_self, if_true, or_true]
            rw [List.idxOf_append_of_notMem hcd, hw]
            simp
          · have : ¬ n = E.tree.root := fun h => h2 h.symm
            simp [h2, this]
        · have h1' : ¬ d = c := fun h => h1 h.symm
          rw [if_neg (by tauto)]
          by_cases h3 : n = E.tree.root ∧ d ∈ done
          · rw [if_pos h3, if_pos (by tauto), List.idxOf_append_of_mem h3.2]
          · rw [if_neg h3, if_neg (by tauto)]
      · rename_i n a
        by_cases h1 : c = n
        · subst h1
          by_cases h2 : acc c = a
          · simp [h2]
          · simp [h2]
        · have : ¬ n = c := fun h => h1 h.symm
          simp [h1, this]
      · rename_i a
        by_cases h1 : acc c = a
        · subst h1
          rw [if_pos rfl, if_pos ⟨c, by simp, rfl⟩]
        · rw [if_neg h1]
          by_cases h2 : ∃ n ∈ done, acc n = a
          · obtain ⟨n, hn, hna⟩ := h2
            rw [if_pos ⟨n, hn, hna⟩, if_pos ⟨n, by simp [hn], hna⟩]
          · rw [if_neg h2, if_neg]
            rintro ⟨n, hn, hna⟩
            rcases List.mem_append.1 hn with hn | hn
            · exact h2 ⟨n, hn, hna⟩
            · rw [List.mem_singleton.1 hn] at hna; exact h1 hna
    refine ⟨⟨w4, k4⟩, ?_⟩
    have hx0 : x = 0 := by
      refine sumWeight_zero (g := G4)
        (fun u => u = .node c ∨ u = .limit c ∨ (∃ a, u = .acct a) ∨ u = .sink) ?_ fuel' _ x
        (.inl rfl) hx
      rintro ⟨⟨u, v⟩, e⟩ he hu
      have hk := k4 (u, v)
      rw [Dict.get?_of_mem w4 he] at hk
      simp only at hu ⊢
      rcases hu with rfl | rfl | ⟨a, rfl⟩ | rfl
      · cases v <;> simp only [flatEdge, reduceCtorEq] at hk
        split_ifs at hk with hh
        cases hk
        obtain ⟨rfl, -⟩ := hh
        simp
      · cases v <;> simp only [flatEdge, reduceCtorEq] at hk
        · rw [if_neg (fun h => hcr h.1)] at hk; cases hk
        · split_ifs at hk with hh
          cases hk
          simp
      · cases v <;> simp only [flatEdge, reduceCtorEq] at hk
        split_ifs at hk with hh
        cases hk
        simp
      · cases v <;> simp [flatEdge] at hk
    rw [hx0, max_eq_left]
    rw [hw]; positivity

theorem built_fold (hF : Flat E lim cs acc) {S T : ℤ} (hS : |S| = |T|) {fuel fuel' : ℕ} :
    ∀ (l done : List N) (g : Graph N A) (w : ℤ) (r : Graph N A × ℤ), done ++ l = cs →
      Built E lim memo acc T done g → w = done.length →
      l.foldlM (orderedStep (fun g c => addSuccessors E lim memo true fuel g c none none) fuel'
        E.tree.root ((S : ℤ) : K)) (g, w) = .ok r →
      Built E lim memo acc T cs r.1 := by
  intro l
  induction l with
  | nil =>
    intro done g w r hcs hg hw h
    rw [List.foldlM_nil] at h
    cases h
    rw [List.append_nil] at hcs
    rw [← hcs]; exact hg
  | cons c l ih =>
    intro done g w r hcs hg hw h
    rw [List.foldlM_cons, bind_ok_iff] at h
    obtain ⟨⟨g', w'⟩, h1, h⟩ := h
    have hnd : (done ++ c :: l).Nodup := hcs ▸ hF.nodup
    have hcd : c ∉ done := by
      intro hc
      have := (List.nodup_append.1 hnd).2.2 c hc c (by simp)
      exact this rfl
    obtain ⟨b, rfl⟩ := built_step hF hg (c := c) (by rw [← hcs]; simp)
      (fun d hd => by rw [← hcs]; simp [hd]) hcd hS hw h1
    refine ih (done ++ [c]) g' _ r (by rw [← hcs]; simp) b ?_ h
    rw [hw]; simp

theorem no_weighted {P : N → Prop} (hP : ∀ n, P n → (∀ cs, E.tree.kind n ≠ .weighted cs) ∧
    ∀ c ∈ childNodes E n, P c) : ∀ (fuel : ℕ) (q ns : List N), (∀ n ∈ q, P n) →
      weightedNodes E fuel q = .ok ns → ns = [] := by
  intro fuel
  induction fuel with
  | zero =>
    intro q ns hq h
    cases q with
    | nil => rw [weightedNodes] at h; cases h; rfl
    | cons n q => rw [weightedNodes] at h; cases h
  | succ fuel ih =>
    intro q ns hq h
    cases q with
    | nil => rw [weightedNodes] at h; cases h; rfl
    | cons n q =>
      rw [weightedNodes, bind_ok_iff] at h
      obtain ⟨rest, h1, h⟩ := h
      obtain ⟨h2, h3⟩ := hP n (hq n (by simp))
      have := ih _ rest (by
        intro m hm
        rcases List.mem_append.1 hm with hm | hm
        · exact hq m (by simp [hm])
        · exact h3 m hm) h1
      subst this
      cases hk : E.tree.kind n with
      | leaf a => rw [hk] at h; cases h; rfl
      | ordered cs => rw [hk] at h; cases h; rfl
      | weighted cs => exact absurd hk (h2 cs)

/-- The graph of an ordered list of accounts. -/
theorem flat_graph (hF : Flat E lim cs acc) {fuel : ℕ} {total : K} {g : Graph N A}
    (h : buildGraph E lim memo fuel (.fin total) = .ok g) :
    Built E lim memo acc (|pyInt (total / E.precision)| -
      flowsTo memo .source (.node E.tree.root)) cs g := by
  unfold buildGraph at h
  rw [bind_ok_iff] at h
  obtain ⟨g₁, h1, h2⟩ := h
  set T := |pyInt (total / E.precision)| - flowsTo memo .source (.node E.tree.root) with hT
  -- balancing changes nothing
  have hg : g₁ = g := by
    unfold balanceAll at h2
    rw [bind_ok_iff] at h2
    obtain ⟨ns, h3, h2⟩ := h2
    have := no_weighted (E := E) (P := fun n => n = E.tree.root ∨ n ∈ cs) (by
      rintro n (rfl | hn)
      · refine ⟨fun ds hd => ?_, fun c hc => .inr ?_⟩
        · rw [hF.root] at hd; cases hd
        · unfold childNodes at hc; rw [hF.root] at hc; exact hc
      · refine ⟨fun ds hd => ?_, fun c hc => ?_⟩
        · rw [hF.leaf n hn] at hd; cases hd
        · unfold childNodes at hc; rw [hF.leaf n hn] at hc; simp at hc) fuel _ ns
        (by simp) h3
    subst this
    rw [List.foldlM_nil] at h2
    cases h2; rfl
  subst hg
  have e0 : addEdge ([] : Graph N A) .source (.node E.tree.root)
      (units E.precision (.fin total)) none memo =
      [((.source, .node E.tree.root), ⟨some T, none⟩)] := by
    unfold addEdge units edgeCapacity putEdge
    simp only [Dict.get?, Option.getD_none]
    rw [← Int.cast_abs, ← Int.cast_sub, pyInt_cast, ← hT]
    rfl
  rw [e0] at h1
  cases fuel with
  | zero => rw [addSuccessors.eq_def] at h1; cases h1
  | succ fuel =>
    rw [addSuccessors.eq_def] at h1
    simp only [hF.root, Option.getD_none] at h1
    unfold embedLimit at h1
    rw [hF.free _ (.inl rfl)] at h1
    simp only at h1
    rw [bind_ok_iff] at h1
    obtain ⟨r, h3, h1⟩ := h1
    cases h1
    have hin : inboundCapacity ([((.source, .node E.tree.root), ⟨some T, none⟩)] : Graph N A)
        (.node E.tree.root) = T := by
      simp [inboundCapacity]
    rw [hin] at h3
    set G0 := putEdge ([((.source, .node E.tree.root), ⟨some T, none⟩)] : Graph N A)
      (.node E.tree.root) (.limit E.tree.root) none none with hG0
    have hG0' : G0 = [((.source, .node E.tree.root), ⟨some T, none⟩),
        ((.node E.tree.root, .limit E.tree.root), ⟨none, none⟩)] := by
      rw [hG0, putEdge_fresh (by simp [Dict.get?])]
      simp [Dict.set]
    have hb : Built E lim memo acc T [] G0 := by
      rw [hG0']
      constructor
      · simp [Dict.WF, Dict.keys]
      · rintro ⟨u, v⟩
        rw [Dict.get?_cons, Dict.get?_cons]
        cases u <;> cases v <;> simp [flatEdge, eq_comm]
        rename_i n m
        by_cases h1 : n = E.tree.root
        · subst h1
          by_cases h2 : E.tree.root = m
          · subst h2; simp
          · have h2' : ¬ m = E.tree.root := fun h => h2 h.symm
            simp [h2, h2']
        · have h1' : ¬ E.tree.root = n := fun h => h1 h.symm
          simp [h1, h1']
    exact built_fold hF rfl cs [] G0 0 r rfl hb (by simp) h3

end Build

/-! ### Optimal flows -/

/-- Specification: a flow, as a function. -/
structure IsFlow (g : Graph N A) (F : G N A → G N A → ℤ) : Prop where
  nonneg : ∀ u v, 0 ≤ F u v
  capacity : ∀ u v e c, Dict.get? g (u, v) = some e → e.capacity = some c → F u v ≤ c
  edges : ∀ u v, Dict.get? g (u, v) = none → F u v = 0
  conserve : ∀ v, v ≠ .source → v ≠ .sink →
    ∑ u ∈ verts g, F u v = ∑ w ∈ verts g, F v w

/-- Specification: how much leaves the source. -/
def value (g : Graph N A) (F : G N A → G N A → ℤ) : ℤ := ∑ v ∈ verts g, F .source v

/-- Specification: the weight of an edge (0 if it has none). -/
def weight (g : Graph N A) (u v : G N A) : ℤ := ((Dict.get? g (u, v)).bind Edge.weight).getD 0

/-- Specification: the cost of a flow. -/
def cost (g : Graph N A) (F : G N A → G N A → ℤ) : ℤ :=
  ∑ u ∈ verts g, ∑ v ∈ verts g, weight g u v * F u v

/-- Specification: what `networkx.max_flow_min_cost` promises: a feasible flow, of maximal
value, and of minimal cost among those. -/
structure MinCostMaxFlow (g : Graph N A) (f : Flows N A) : Prop where
  feasible : Feasible g f
  maximal : ∀ F, IsFlow g F → value g F ≤ value g (flow f)
  cheapest : ∀ F, IsFlow g F → value g F = value g (flow f) → cost g (flow f) ≤ cost g F

theorem Feasible.isFlow {g : Graph N A} {f : Flows N A} (h : Feasible g f) : IsFlow g (flow f) :=
  ⟨h.nonneg, h.capacity, h.edges, h.conserve⟩

/-- A sum with a single non-zero term. -/
theorem sum_out {g : Graph N A} {F : G N A → G N A → ℤ}
    (hF : ∀ u v, Dict.get? g (u, v) = none → F u v = 0) {u v : G N A}
    (h : ∀ w e, Dict.get? g (u, w) = some e → w = v) : ∑ w ∈ verts g, F u w = F u v := by
  have hz : ∀ w, w ≠ v → F u w = 0 := by
    intro w hw
    apply hF
    cases hx : Dict.get? g (u, w) with
    | none => rfl
    | some e => exact absurd (h w e hx) hw
  by_cases hv : v ∈ verts g
  · exact Finset.sum_eq_single_of_mem v hv fun w _ hw => hz w hw
  · have : F u v = 0 := by
      apply hF
      cases hx : Dict.get? g (u, v) with
      | none => rfl
      | some e => exact absurd (mem_verts_left hx).2 hv
    rw [this]
    exact Finset.sum_eq_zero fun w hw => hz w (fun hwv => hv (hwv ▸ hw))

theorem sum_in {g : Graph N A} {F : G N A → G N A → ℤ}
    (hF : ∀ u v, Dict.get? g (u, v) = none → F u v = 0) {u v : G N A}
    (h : ∀ w e, Dict.get? g (w, v) = some e → w = u) : ∑ w ∈ verts g, F w v = F u v := by
  have hz : ∀ w, w ≠ u → F w v = 0 := by
    intro w hw
    apply hF
    cases hx : Dict.get? g (w, v) with
    | none => rfl
    | some e => exact absurd (h w e hx) hw
  by_cases hv : u ∈ verts g
  · exact Finset.sum_eq_single_of_mem u hv fun w _ hw => hz w hw
  · have : F u v = 0 := by
      apply hF
      cases hx : Dict.get? g (u, v) with
      | none => rfl
      | some e => exact absurd (mem_verts_left hx).1 hv
    rw [this]
    exact Finset.sum_eq_zero fun w hw => hz w (fun hwv => hv (hwv ▸ hw))

/-- Sum over the children of the root. -/
theorem sum_children {g : Graph N A} {F : G N A → G N A → ℤ}
    (hF : ∀ u v, Dict.get? g (u, v) = none → F u v = 0) {u : G N A}
    {cs : List N} (h : ∀ w e, Dict.get? g (u, w) = some e → ∃ c ∈ cs, w = .node c)
    (k : G N A → ℤ) :
    ∑ w ∈ verts g, k w * F u w = ∑ c ∈ cs.toFinset, k (.node c) * F u (.node c) := by
  have hinj : Set.InjOn (fun c : N => (G.node c : G N A)) cs.toFinset := by
    intro a _ b _ hab
    simpa using hab
  rw [← Finset.sum_image (s := cs.toFinset) (g := fun c => G.node c)
    (f := fun w => k w * F u w) hinj]
  have hz : ∀ w, w ∉ cs.toFinset.image (fun c => (G.node c : G N A)) → F u w = 0 := by
    intro w hw
    apply hF
    cases hx : Dict.get? g (u, w) with
    | none => rfl
    | some e =>
      obtain ⟨c, hc, rfl⟩ := h w e hx
      exact absurd (Finset.mem_image.2 ⟨c, by simpa using hc, rfl⟩) hw
  have hz' : ∀ w, w ∉ verts g → F u w = 0 := by
    intro w hw
    apply hF
    cases hx : Dict.get? g (u, w) with
    | none => rfl
    | some e => exact absurd (mem_verts_left hx).2 hw
  exact (Finset.sum_subset (Finset.subset_union_left
      (s₂ := cs.toFinset.image (fun c => (G.node c : G N A))))
      (fun w _ hw => by rw [hz' w hw, mul_zero])).trans
    (Finset.sum_subset (Finset.subset_union_right
      (s₁ := verts g)) (fun w _ hw => by rw [hz w hw, mul_zero])).symm

section Flow

variable {E : Env N A K} {lim : Lim} {memo : Flows N A} {cs : List N} {acc : N → A} {T : ℤ}
  {g : Graph N A}

theorem idx_weight (hB : Built E lim memo acc T cs g) {c : N} (hc : c ∈ cs) :
    weight g (.limit E.tree.root) (.node c) = cs.idxOf c := by
  unfold weight
  rw [hB.edge]
  simp [flatEdge, hc]

/-- Every flow in the graph of an ordered list is determined by what each child gets. -/
theorem flat_flow (hF : Flat E lim cs acc) (hB : Built E lim memo acc T cs g)
    {F : G N A → G N A → ℤ} (h : IsFlow g F) :
    (∀ c ∈ cs, F (.node c) (.limit c) = F (.limit E.tree.root) (.node c) ∧
      F (.limit c) (.acct (acc c)) = F (.limit E.tree.root) (.node c) ∧
      F (.acct (acc c)) .sink = F (.limit E.tree.root) (.node c)) ∧
    value g F = ∑ c ∈ cs.toFinset, F (.limit E.tree.root) (.node c) ∧
    F .source (.node E.tree.root) = ∑ c ∈ cs.toFinset, F (.limit E.tree.root) (.node c) ∧
    cost g F = ∑ c ∈ cs.toFinset, (cs.idxOf c : ℤ) * F (.limit E.tree.root) (.node c) := by
  have hcr : ∀ c ∈ cs, c ≠ E.tree.root := fun c hc h => hF.notroot (h ▸ hc)
  have hroot : ∀ w e, Dict.get? g (.limit E.tree.root, w) = some e → ∃ c ∈ cs, w = .node c := by
    intro w e he
    rw [hB.edge] at he
    cases w <;> simp only [flatEdge, reduceCtorEq] at he
    · split_ifs at he with hh
      exact ⟨_, hh.2, rfl⟩
    · rw [if_neg (fun h => hF.notroot h.1)] at he; cases he
  have hsrc : value g F = F .source (.node E.tree.root) := by
    unfold value
    apply sum_out h.edges
    intro w e he
    rw [hB.edge] at he
    cases w <;> simp only [flatEdge, reduceCtorEq] at he
    split_ifs at he with hh
    rw [hh]
  have hr1 : F .source (.node E.tree.root) = F (.node E.tree.root) (.limit E.tree.root) := by
    have hc := h.conserve (.node E.tree.root) (by simp) (by simp)
    rw [sum_in h.edges (u := .source), sum_out h.edges (v := .limit E.tree.root)] at hc
    · exact hc
    · intro w e he
      rw [hB.edge] at he
      cases w <;> simp only [flatEdge, reduceCtorEq] at he
      split_ifs at he with hh
      rw [hh.1]
    · intro w e he
      rw [hB.edge] at he
      cases w <;> simp only [flatEdge, reduceCtorEq] at he
      · rfl
      · rw [if_neg (fun h => hF.notroot h.2)] at he; cases he
  have hr2 : F (.node E.tree.root) (.limit E.tree.root) =
      ∑ c ∈ cs.toFinset, F (.limit E.tree.root) (.node c) := by
    have hc := h.conserve (.limit E.tree.root) (by simp) (by simp)
    rw [sum_in h.edges (u := .node E.tree.root)] at hc
    · rw [hc]
      have := sum_children h.edges hroot (fun _ => 1)
      simpa using this
    · intro w e he
      rw [hB.edge] at he
      cases w <;> simp only [flatEdge, reduceCtorEq] at he
      split_ifs at he with hh
      rw [hh.1]
  refine ⟨fun c hc => ?_, hsrc.trans (hr1.trans hr2), hr1.trans hr2, ?_⟩
  · have e1 : F (.limit E.tree.root) (.node c) = F (.node c) (.limit c) := by
      have hcc := h.conserve (.node c) (by simp) (by simp)
      rw [sum_in h.edges (u := .limit E.tree.root), sum_out h.edges (v := .limit c)] at hcc
      · exact hcc
      · intro w e he
        rw [hB.edge] at he
        cases w <;> simp only [flatEdge, reduceCtorEq] at he
        split_ifs at he with hh
        rw [hh.1]
      · intro w e he
        rw [hB.edge] at he
        cases w <;> simp only [flatEdge, reduceCtorEq] at he
        · rw [if_neg (hcr c hc)] at he; cases he
        · split_ifs at he with hh
          rw [hh.1]
    have e2 : F (.node c) (.limit c) = F (.limit c) (.acct (acc c)) := by
      have hcc := h.conserve (.limit c) (by simp) (by simp)
      rw [sum_in h.edges (u := .node c), sum_out h.edges (v := .acct (acc c))] at hcc
      · exact hcc
      · intro w e he
        rw [hB.edge] at he
        cases w <;> simp only [flatEdge, reduceCtorEq] at he
        · rw [if_neg (fun h => hcr c hc h.1)] at he; cases he
        · split_ifs at he with hh
          rw [hh.2]
      · intro w e he
        rw [hB.edge] at he
        cases w <;> simp only [flatEdge, reduceCtorEq] at he
        split_ifs at he with hh
        rw [hh.1]
    have e3 : F (.limit c) (.acct (acc c)) = F (.acct (acc c)) .sink := by
      have hcc := h.conserve (.acct (acc c)) (by simp) (by simp)
      rw [sum_in h.edges (u := .limit c), sum_out h.edges (v := .sink)] at hcc
      · exact hcc
      · intro w e he
        rw [hB.edge] at he
        cases w <;> simp only [flatEdge, reduceCtorEq] at he
        rfl
      · intro w e he
        rw [hB.edge] at he
        cases w <;> simp only [flatEdge, reduceCtorEq] at he
        split_ifs at he with hh
        rw [hF.inj _ hh.1 c hc hh.2]
    exact ⟨e1.symm, (e1.trans e2).symm, (e1.trans (e2.trans e3)).symm⟩
  · unfold cost
    have hz : ∀ u, u ≠ .limit E.tree.root → ∑ v ∈ verts g, weight g u v * F u v = 0 := by
      intro u hu
      apply Finset.sum_eq_zero
      intro v _
      have : weight g u v = 0 := by
        unfold weight
        rw [hB.edge]
        cases u <;> cases v <;> simp only [flatEdge, Option.bind_none, Option.getD_none]
        all_goals (split_ifs with hh <;> simp)
        exact absurd (by rw [hh.1]) hu
      rw [this, zero_mul]
    have hs : ∑ v ∈ verts g, weight g (.limit E.tree.root) v * F (.limit E.tree.root) v =
        ∑ c ∈ cs.toFinset, (cs.idxOf c : ℤ) * F (.limit E.tree.root) (.node c) := by
      rw [sum_children h.edges hroot]
      apply Finset.sum_congr rfl
      intro c hc
      rw [idx_weight hB (by simpa using hc)]
    rw [← hs]
    by_cases hv : (.limit E.tree.root : G N A) ∈ verts g
    · exact Finset.sum_eq_single_of_mem _ hv fun u _ hu => hz u hu
    · rw [Finset.sum_eq_zero fun u hu => hz u (fun e => hv (e ▸ hu))]
      symm
      apply Finset.sum_eq_zero
      intro v _
      rw [h.edges, mul_zero]
      cases hx : Dict.get? g (.limit E.tree.root, v) with
      | none => rfl
      | some e => exact absurd (mem_verts_left hx).1 hv

/-- The flow that gives `x c` to the child `c`. -/
def flatFlow (root : N) (acc : N → A) (cs : List N) (x : N → ℤ) : G N A → G N A → ℤ
  | .source, .node n => if n = root then ∑ c ∈ cs.toFinset, x c else 0
  | .node n, .limit m =>
    if n = m then (if n = root then ∑ c ∈ cs.toFinset, x c else if n ∈ cs then x n else 0) else 0
  | .limit n, .node c => if n = root ∧ c ∈ cs then x c else 0
  | .limit n, .acct a => if n ∈ cs ∧ acc n = a then x n else 0
  | .acct a, .sink => ∑ c ∈ cs.toFinset, if acc c = a then x c else 0
  | _, _ => 0

theorem flatFlow_isFlow (hF : Flat E lim cs acc) (hB : Built E lim memo acc T cs g) (hT : 0 ≤ T)
    (x : N → ℤ) (h0 : ∀ c ∈ cs, 0 ≤ x c) (hsum : ∑ c ∈ cs.toFinset, x c ≤ T)
    (hcap : ∀ c ∈ cs, ∀ k, capOf E lim memo (acc c) = some k → x c ≤ k) :
    IsFlow g (flatFlow E.tree.root acc cs x) := by
  have hcr : ∀ c ∈ cs, c ≠ E.tree.root := fun c hc h => hF.notroot (h ▸ hc)
  have hs0 : 0 ≤ ∑ c ∈ cs.toFinset, x c := Finset.sum_nonneg fun c hc => h0 c (by simpa using hc)
  have hxT : ∀ c ∈ cs, x c ≤ T := fun c hc =>
    (Finset.single_le_sum (f := x) (fun d hd => h0 d (by simpa using hd))
      (by simpa using hc : c ∈ cs.toFinset)).trans hsum
  have hacct : ∀ c ∈ cs, (∑ d ∈ cs.toFinset, if acc d = acc c then x d else 0) = x c := by
    intro c hc
    rw [Finset.sum_eq_single_of_mem c (by simpa using hc)]
    · simp
    · intro d hd hdc
      rw [if_neg]
      intro hac
      exact hdc (hF.inj d (by simpa using hd) c hc hac)
  have hedges : ∀ u v, Dict.get? g (u, v) = none → flatFlow E.tree.root acc cs x u v = 0 := by
    intro u v huv
    rw [hB.edge] at huv
    cases u <;> cases v <;> simp only [flatFlow]
    all_goals simp only [flatEdge] at huv
    all_goals (split_ifs at huv with hh <;> try rw [if_neg hh])
    · rename_i n m
      by_cases h1 : n = m
      · rw [if_pos h1, if_neg (fun h => hh ⟨h1, .inl h⟩), if_neg (fun h => hh ⟨h1, .inr h⟩)]
      · rw [if_neg h1]
    · rename_i a
      apply Finset.sum_eq_zero
      intro c hc
      rw [if_neg]
      intro hca
      exact hh ⟨c, by simpa using hc, hca⟩
  refine ⟨?_, ?_, hedges, ?_⟩
  · intro u v
    cases u <;> cases v <;> simp only [flatFlow, le_refl]
    · split_ifs <;> simp [hs0]
    · split_ifs with h1 h2 h3
      · exact hs0
      · exact h0 _ h3
      · exact le_rfl
      · exact le_rfl
    · split_ifs with h1
      · exact h0 _ h1.2
      · exact le_rfl
    · split_ifs with h1
      · exact h0 _ h1.1
      · exact le_rfl
    · apply Finset.sum_nonneg
      intro c hc
      split_ifs
      · exact h0 c (by simpa using hc)
      · exact le_rfl
  · intro u v e k he hk
    rw [hB.edge] at he
    cases u <;> cases v <;> simp only [flatEdge, reduceCtorEq] at he
    all_goals (split_ifs at he with hh; cases he; simp only [reduceCtorEq, Option.some.injEq] at hk)
    · subst hk
      simp only [flatFlow, if_pos hh]
      exact hsum
    · subst hk
      simp only [flatFlow, if_pos hh]
      rw [abs_of_nonneg hT]; exact hxT _ hh.2
    · subst hk
      simp only [flatFlow, if_pos hh]
      rw [abs_of_nonneg hT]; exact hxT _ hh.1
    · obtain ⟨n, hn, rfl⟩ := hh
      simp only [flatFlow]
      rw [hacct n hn]
      exact hcap n hn k hk
  · intro v hv hv'
    cases v with
    | source => exact absurd rfl hv
    | sink => exact absurd rfl hv'
    | node n =>
      by_cases hn : n = E.tree.root
      · subst hn
        rw [sum_in hedges (u := .source), sum_out hedges (v := .limit E.tree.root)]
        · simp [flatFlow]
        · intro w e he
          rw [hB.edge] at he
          cases w <;> simp only [flatEdge, reduceCtorEq] at he
          split_ifs at he with hh
          rw [hh.1]
        · intro w e he
          rw [hB.edge] at he
          cases w <;> simp only [flatEdge, reduceCtorEq] at he
          · rfl
          · rw [if_neg (fun h => hF.notroot h.2)] at he; cases he
      · rw [sum_in hedges (u := .limit E.tree.root), sum_out hedges (v := .limit n)]
        · simp [flatFlow, hn]
        · intro w e he
          rw [hB.edge] at he
          cases w <;> simp only [flatEdge, reduceCtorEq] at he
          split_ifs at he with hh
          rw [hh.1]
        · intro w e he
          rw [hB.edge] at he
          cases w <;> simp only [flatEdge, reduceCtorEq] at he
          · rw [if_neg hn] at he; cases he
          · split_ifs at he with hh
            rw [hh.1]
    | limit n =>
      rw [sum_in hedges (u := .node n)]
      · by_cases hn : n = E.tree.root
        · subst hn
          have := sum_children hedges (u := .limit E.tree.root) (cs := cs) (by
            intro w e he
            rw [hB.edge] at he
            cases w <;> simp only [flatEdge, reduceCtorEq] at he
            · split_ifs at he with hh
              exact ⟨_, hh.2, rfl⟩
            · rw [if_neg (fun h => hF.notroot h.1)] at he; cases he) (fun _ => 1)
          simp only [one_mul] at this
          rw [this]
          simp only [flatFlow, if_true, true_and]
          apply Finset.sum_congr rfl
          intro c hc
          rw [if_pos (by simpa using hc)]
        · rw [sum_out hedges (v := .acct (acc n))]
          · simp [flatFlow, hn]
          · intro w e he
            rw [hB.edge] at he
            cases w <;> simp only [flatEdge, reduceCtorEq] at he
            · rw [if_neg (fun h => hn h.1)] at he; cases he
            · split_ifs at he with hh
              rw [hh.2]
      · intro w e he
        rw [hB.edge] at he
        cases w <;> simp only [flatEdge, reduceCtorEq] at he
        split_ifs at he with hh
        rw [hh.1]
    | overflow n =>
      rw [Finset.sum_eq_zero, Finset.sum_eq_zero]
      · intro w _; cases w <;> rfl
      · intro w _; cases w <;> rfl
    | acct a =>
      rw [sum_out hedges (v := .sink)]
      · by_cases hex : ∃ c ∈ cs, acc c = a
        · obtain ⟨c, hc, rfl⟩ := hex
          rw [sum_in hedges (u := .limit c)]
          · simp only [flatFlow]
            rw [hacct c hc, if_pos ⟨hc, trivial⟩]
          · intro w e he
            rw [hB.edge] at he
            cases w <;> simp only [flatEdge, reduceCtorEq] at he
            split_ifs at he with hh
            rw [hF.inj _ hh.1 c hc hh.2]
        · rw [Finset.sum_eq_zero]
          · symm
            simp only [flatFlow]
            apply Finset.sum_eq_zero
            intro c hc
            rw [if_neg]
            intro h; exact hex ⟨c, by simpa using hc, h⟩
          · intro w _
            cases w <;> simp only [flatFlow]
            rw [if_neg]
            rintro ⟨h1, h2⟩
            exact hex ⟨_, h1, h2⟩
      · intro w e he
        rw [hB.edge] at he
        cases w <;> simp only [flatEdge, reduceCtorEq] at he
        rfl
    | group s =>
      rw [Finset.sum_eq_zero, Finset.sum_eq_zero]
      · intro w _; cases w <;> rfl
      · intro w _; cases w <;> rfl

/-- Specification: fill containers in order from a supply `T`; `none` is a container without
limit. -/
def fill (T : ℤ) : List (Option ℤ) → List ℤ
  | [] => []
  | none :: cs => T :: fill 0 cs
  | some c :: cs => min c T :: fill (T - min c T) cs

/-- Room left in a container. -/
def Room : Option ℤ → ℤ → Prop
  | none, _ => True
  | some c, x => x < c

/-- Is `x` within the container? -/
def Within : Option ℤ → ℤ → Prop
  | none, _ => True
  | some c, x => x ≤ c

theorem fill_zero (l : List (Option ℤ)) (h : ∀ c ∈ l, Within c 0) : fill 0 l = l.map fun _ => 0 := by
  induction l with
  | nil => rfl
  | cons c l ih =>
    have ih' := ih fun c hc => h c (List.mem_cons_of_mem _ hc)
    cases c with
    | none => rw [fill, ih']; rfl
    | some c =>
      have : min c 0 = 0 := min_eq_right (h (some c) (by simp))
      rw [fill, this, sub_zero, ih']; rfl

/-- Filling in order is the only way to use up the supply that leaves no room anywhere while
something is left over or put into a later container. -/
theorem eq_fill {α : Type} (cap : α → Option ℤ) (x : α → ℤ) : ∀ (l : List α) (T : ℤ),
    (∀ c ∈ l, 0 ≤ x c ∧ Within (cap c) (x c)) → (l.map x).sum ≤ T →
    (∀ c ∈ l, Room (cap c) (x c) → (l.map x).sum = T) →
    l.Pairwise (fun c d => Room (cap c) (x c) → x d = 0) →
    l.map x = fill T (l.map cap) := by
  intro l
  induction l with
  | nil => intros; rfl
  | cons c l ih =>
    intro T h0 hT hmax hpair
    rw [List.pairwise_cons] at hpair
    obtain ⟨hc, hl⟩ := hpair
    have h0c := h0 c (by simp)
    have h0l : ∀ d ∈ l, 0 ≤ x d ∧ Within (cap d) (x d) := fun d hd => h0 d (by simp [hd])
    have hs0 : 0 ≤ (l.map x).sum := List.sum_nonneg (by
      intro y hy
      obtain ⟨d, hd, rfl⟩ := List.mem_map.1 hy
      exact (h0l d hd).1)
    rw [List.map_cons, List.sum_cons] at hT
    have hw0 : ∀ y ∈ l.map cap, Within y 0 := by
      intro y hy
      obtain ⟨d, hd, rfl⟩ := List.mem_map.1 hy
      have := h0l d hd
      revert this
      cases cap d with
      | none => intro _; trivial
      | some k => exact fun h => le_trans h.1 h.2
    by_cases hr : Room (cap c) (x c)
    · -- room left: everything is here
      have hz : ∀ d ∈ l, x d = 0 := fun d hd => hc d hd hr
      have hls : (l.map x).sum = 0 := by
        apply List.sum_eq_zero
        intro y hy
        obtain ⟨d, hd, rfl⟩ := List.mem_map.1 hy
        exact hz d hd
      have hx : x c = T := by
        have := hmax c (by simp) hr
        rw [List.map_cons, List.sum_cons, hls, add_zero] at this
        exact this
      have hmz : l.map x = (l.map cap).map fun _ => (0 : ℤ) := by
        rw [List.map_map]
        exact List.map_congr_left fun d hd => hz d hd
      rw [List.map_cons, List.map_cons]
      cases hcap : cap c with
      | none => rw [fill, fill_zero _ hw0, ← hmz, hx]
      | some k =>
        rw [hcap] at hr
        have hr' : x c < k := hr
        rw [fill, min_eq_right (by omega : T ≤ k), sub_self, fill_zero _ hw0, ← hmz, hx]
    · cases hcap : cap c with
      | none => rw [hcap] at hr; exact absurd trivial hr
      | some k =>
        rw [hcap] at hr
        have hxk : x c = k := le_antisymm (by have := h0c.2; rwa [hcap] at this) (not_lt.1 hr)
        rw [List.map_cons, List.map_cons, hcap, fill, min_eq_left (by omega : k ≤ T), hxk]
        congr 1
        apply ih (T - k) h0l (by omega)
        · intro d hd hrd
          have := hmax d (by simp [hd]) hrd
          rw [List.map_cons, List.sum_cons] at this
          omega
        · exact hl

/-- **The optimal flow of an ordered list fills the accounts in order.** -/
theorem flat_optimal (hF : Flat E lim cs acc) (hB : Built E lim memo acc T cs g)
    {f : Flows N A} (hf : MinCostMaxFlow g f) :
    0 ≤ T ∧ cs.map (fun c => out g f (.acct (acc c))) =
      fill T (cs.map fun c => capOf E lim memo (acc c)) ∧
    flow f .source (.node E.tree.root) = (cs.map fun c => out g f (.acct (acc c))).sum := by
  have hFf := hf.feasible.isFlow
  obtain ⟨hpath, hval, hsrc, hcost⟩ := flat_flow hF hB hFf
  set x : N → ℤ := fun c => flow f (.limit E.tree.root) (.node c) with hx
  have hval2 : value g (flow f) = ∑ c ∈ cs.toFinset, x c := hval
  have hcost2 : cost g (flow f) = ∑ c ∈ cs.toFinset, (cs.idxOf c : ℤ) * x c := hcost
  have hT : flow f .source (.node E.tree.root) ≤ T := by
    apply hf.feasible.capacity _ _ ⟨some T, none⟩ T _ rfl
    rw [hB.edge]; simp [flatEdge]
  have hT0 : 0 ≤ T := (hf.feasible.nonneg _ _).trans hT
  have h0 : ∀ c ∈ cs, 0 ≤ x c := fun c _ => hf.feasible.nonneg _ _
  have hsum : ∑ c ∈ cs.toFinset, x c ≤ T := by rw [← hsrc]; exact hT
  have hcap : ∀ c ∈ cs, ∀ k, capOf E lim memo (acc c) = some k → x c ≤ k := by
    intro c hc k hk
    have := hf.feasible.capacity (.acct (acc c)) .sink ⟨capOf E lim memo (acc c), none⟩ k (by
      rw [hB.edge]
      simp only [flatEdge]
      rw [if_pos ⟨c, hc, rfl⟩]) hk
    rwa [(hpath c hc).2.2] at this
  have hout : ∀ c ∈ cs, out g f (.acct (acc c)) = x c := by
    intro c hc
    unfold out
    rw [sum_out hFf.edges (v := .sink), (hpath c hc).2.2]
    intro w e he
    rw [hB.edge] at he
    cases w <;> simp only [flatEdge, reduceCtorEq] at he
    rfl
  refine ⟨hT0, ?_⟩
  have hlist : ∀ y : N → ℤ, (cs.map y).sum = ∑ c ∈ cs.toFinset, y c := fun y =>
    (List.sum_toFinset y hF.nodup).symm
  rw [show cs.map (fun c => out g f (.acct (acc c))) = cs.map x from
    List.map_congr_left hout]
  refine ⟨?_, by rw [hlist]; exact hsrc⟩
  have hval' : ∀ y : N → ℤ, IsFlow g (flatFlow E.tree.root acc cs y) →
      value g (flatFlow E.tree.root acc cs y) = ∑ c ∈ cs.toFinset, y c ∧
      cost g (flatFlow E.tree.root acc cs y) = ∑ c ∈ cs.toFinset, (cs.idxOf c : ℤ) * y c := by
    intro y hy
    obtain ⟨-, h1, -, h2⟩ := flat_flow hF hB hy
    rw [h1, h2]
    constructor
    · apply Finset.sum_congr rfl
      intro c hc
      simp only [flatFlow]
      rw [if_pos ⟨trivial, by simpa using hc⟩]
    · apply Finset.sum_congr rfl
      intro c hc
      simp only [flatFlow]
      rw [if_pos ⟨trivial, by simpa using hc⟩]
  have hupd : ∀ (y : N → ℤ) (c : N) (v : ℤ) (k : N → ℤ), c ∈ cs →
      ∑ d ∈ cs.toFinset, k d * Function.update y c v d =
        ∑ d ∈ cs.toFinset, k d * y d + k c * (v - y c) := by
    intro y c v k hc
    have hc' : c ∈ cs.toFinset := by simpa using hc
    rw [← Finset.add_sum_erase _ _ hc', ← Finset.add_sum_erase cs.toFinset (fun d => k d * y d) hc']
    have : ∑ d ∈ cs.toFinset.erase c, k d * Function.update y c v d =
        ∑ d ∈ cs.toFinset.erase c, k d * y d := by
      apply Finset.sum_congr rfl
      intro d hd
      rw [Function.update_of_ne (Finset.ne_of_mem_erase hd)]
    rw [this, Function.update_self]
    ring
  have hupd1 : ∀ (y : N → ℤ) (c : N) (v : ℤ), c ∈ cs →
      ∑ d ∈ cs.toFinset, Function.update y c v d = ∑ d ∈ cs.toFinset, y d + (v - y c) := by
    intro y c v hc
    simpa using hupd y c v (fun _ => 1) hc
  apply eq_fill (fun c => capOf E lim memo (acc c)) x cs T
  · intro c hc
    refine ⟨h0 c hc, ?_⟩
    cases hk : capOf E lim memo (acc c) with
    | none => trivial
    | some k => exact hcap c hc k hk
  · rw [hlist]; exact hsum
  · intro c hc hr
    rw [hlist]
    by_contra hne
    have hlt : ∑ c ∈ cs.toFinset, x c < T := lt_of_le_of_ne hsum hne
    have hy := flatFlow_isFlow hF hB hT0 (Function.update x c (x c + 1)) (by
      intro d hd
      by_cases hdc : d = c
      · subst hdc; rw [Function.update_self]; have := h0 d hd; omega
      · rw [Function.update_of_ne hdc]; exact h0 d hd) (by
      rw [hupd1 _ _ _ hc]; omega) (by
      intro d hd k hk
      by_cases hdc : d = c
      · subst hdc
        rw [hk] at hr
        rw [Function.update_self]; exact hr
      · rw [Function.update_of_ne hdc]; exact hcap d hd k hk)
    have := hf.maximal _ hy
    rw [(hval' _ hy).1, hval2, hupd1 _ _ _ hc] at this
    omega
  · rw [List.pairwise_iff_getElem]
    intro i j hi hj hij hr
    set c := cs[i] with hci
    set d := cs[j] with hdj
    have hc : c ∈ cs := List.getElem_mem hi
    have hd : d ∈ cs := List.getElem_mem hj
    have hic : cs.idxOf c = i := hF.nodup.idxOf_getElem i hi
    have hjd : cs.idxOf d = j := hF.nodup.idxOf_getElem j hj
    have hcd : d ≠ c := by
      intro h; rw [h, hic] at hjd; omega
    by_contra hne
    have hpos : 0 < x d := lt_of_le_of_ne (h0 d hd) (Ne.symm hne)
    set y := Function.update (Function.update x c (x c + 1)) d (x d - 1) with hy
    have yd : y d = x d - 1 := by rw [hy, Function.update_self]
    have yc : y c = x c + 1 := by
      rw [hy, Function.update_of_ne hcd.symm, Function.update_self]
    have yo : ∀ e, e ≠ c → e ≠ d → y e = x e := by
      intro e h1 h2
      rw [hy, Function.update_of_ne h2, Function.update_of_ne h1]
    have hysum : ∀ k : N → ℤ, ∑ e ∈ cs.toFinset, k e * y e =
        ∑ e ∈ cs.toFinset, k e * x e + k c - k d := by
      intro k
      rw [hy, hupd _ _ _ _ hd, hupd _ _ _ _ hc, Function.update_of_ne hcd]
      ring
    have hysum1 : ∑ e ∈ cs.toFinset, y e = ∑ e ∈ cs.toFinset, x e := by
      have := hysum (fun _ => 1)
      simpa using this
    have hyf := flatFlow_isFlow hF hB hT0 y (by
      intro e he
      by_cases h1 : e = c
      · rw [h1, yc]; have := h0 c hc; omega
      · by_cases h2 : e = d
        · rw [h2, yd]; omega
        · rw [yo e h1 h2]; exact h0 e he) (by rw [hysum1]; exact hsum) (by
      intro e he k hk
      by_cases h1 : e = c
      · rw [h1] at hk ⊢
        rw [hk] at hr
        rw [yc]; exact hr
      · by_cases h2 : e = d
        · rw [h2] at hk ⊢; rw [yd]; have := hcap d hd k hk; omega
        · rw [yo e h1 h2]; exact hcap e he k hk)
    have h1 := hf.cheapest _ hyf (by rw [(hval' _ hyf).1, hval2, hysum1])
    rw [(hval' _ hyf).2, hcost2, hysum, hic, hjd] at h1
    have : (i : ℤ) < j := by exact_mod_cast hij
    omega

end Flow

end Forecaster.Traversal
