import Verif.Model.Traversal
import Verif.Lemmas.Timing
import Mathlib.Algebra.Order.BigOperators.Group.Finset
import Mathlib.Algebra.BigOperators.Ring.Finset
import Mathlib.Algebra.Order.Floor.Ring
import Mathlib.Tactic.Linarith
import Mathlib.Tactic.Ring

/-! Helper lemmas for `Verif/Props/Traversal.lean`. -/

set_option linter.unusedSectionVars false

namespace Forecaster.Traversal

open Forecaster Forecaster.Timing

variable {K : Type} [Field K] [LinearOrder K] [IsStrictOrderedRing K] [FloorRing K]
variable {N A : Type} [DecidableEq N] [DecidableEq A]

theorem bind_ok_iff {α β : Type} {x : Except PyErr α} {f : α → Except PyErr β} {y : β} :
    (x >>= f) = .ok y ↔ ∃ a, x = .ok a ∧ f a = .ok y := by
  cases x with
  | error e => simp
  | ok a => simp

theorem foldlM_inv {α β : Type} (P : β → Prop) {f : β → α → Except PyErr β} {l : List α}
    {b b' : β} (h : l.foldlM f b = .ok b') (hb : P b)
    (hstep : ∀ b a b', a ∈ l → P b → f b a = .ok b' → P b') : P b' := by
  induction l generalizing b with
  | nil => simp at h; exact h ▸ hb
  | cons a l ih =>
    rw [List.foldlM_cons, bind_ok_iff] at h
    obtain ⟨b₁, h1, h2⟩ := h
    exact ih h2 (hstep b a b₁ (by simp) hb h1)
      fun b a b' ha => hstep b a b' (List.mem_cons_of_mem _ ha)

theorem foldl_inv {α β : Type} (P : β → Prop) {f : β → α → β} {l : List α}
    {b : β} (hb : P b) (hstep : ∀ b a, a ∈ l → P b → P (f b a)) : P (l.foldl f b) := by
  induction l generalizing b with
  | nil => exact hb
  | cons a l ih =>
    exact ih (hstep b a (by simp) hb) fun b a ha => hstep b a (List.mem_cons_of_mem _ ha)

/-! ### Specification vocabulary: flows -/

/-- Specification: the flow on the edge from `u` to `v`. -/
abbrev flow (f : Flows N A) (u v : G N A) : ℤ := flowsTo f u v

/-- Specification: the nodes of a graph. -/
def verts (g : Graph N A) : Finset (G N A) :=
  (Dict.keys g).toFinset.image Prod.fst ∪ (Dict.keys g).toFinset.image Prod.snd

/-- Specification: what any flow algorithm must return: a dict of dicts with a flow between 0 and
the capacity on every edge, none elsewhere, that is conserved at every node other than the
source and the sink. -/
structure Feasible (g : Graph N A) (f : Flows N A) : Prop where
  wf : Dict.WF f ∧ ∀ u d, Dict.get? f u = some d → Dict.WF d
  nonneg : ∀ u v, 0 ≤ flow f u v
  capacity : ∀ u v e c, Dict.get? g (u, v) = some e → e.capacity = some c → flow f u v ≤ c
  edges : ∀ u v, Dict.get? g (u, v) = none → flow f u v = 0
  conserve : ∀ v, v ≠ .source → v ≠ .sink →
    ∑ u ∈ verts g, flow f u v = ∑ w ∈ verts g, flow f v w

/-- Specification: what leaves `v`. -/
def out (g : Graph N A) (f : Flows N A) (v : G N A) : ℤ := ∑ w ∈ verts g, flow f v w

theorem mem_verts_left {g : Graph N A} {u v : G N A} {e : Edge}
    (h : Dict.get? g (u, v) = some e) : u ∈ verts g ∧ v ∈ verts g := by
  have : (u, v) ∈ Dict.keys g := Dict.get?_isSome.1 (by simp [h])
  simp only [verts, Finset.mem_union, Finset.mem_image, List.mem_toFinset]
  exact ⟨.inl ⟨_, this, rfl⟩, .inr ⟨_, this, rfl⟩⟩

theorem total_eq_sum {κ : Type} [DecidableEq κ] {d : Dict κ ℤ} (hd : Dict.WF d) {s : Finset κ}
    (h : ∀ k, Dict.val d k ≠ 0 → k ∈ s) : Dict.total d = ∑ k ∈ s, Dict.val d k := by
  induction d generalizing s with
  | nil => simp [Dict.val]
  | cons a d ih =>
    obtain ⟨h1, h2⟩ := Dict.wf_cons.1 hd
    have hv : ∀ k, Dict.val (a :: d) k = (if a.1 = k then a.2 else 0) + Dict.val d k := by
      intro k
      unfold Dict.val
      rw [Dict.get?_cons]
      by_cases hk : a.1 = k
      · subst hk
        rw [if_pos rfl, if_pos rfl, Dict.get?_eq_none.2 h1]; simp
      · rw [if_neg hk, if_neg hk]; simp
    have hk0 : Dict.val d a.1 = 0 := Dict.val_of_not_mem h1
    simp only [Dict.total_cons, hv, Finset.sum_add_distrib]
    rw [ih h2 (s := s)]
    · congr 1
      rw [Finset.sum_ite_eq]
      by_cases ha : a.2 = 0
      · simp [ha]
      · rw [if_pos]
        apply h
        rw [hv, if_pos rfl, hk0]; simpa using ha
    · intro k hk
      apply h
      rw [hv]
      by_cases hak : a.1 = k
      · subst hak; exact absurd hk0 hk
      · rwa [if_neg hak, zero_add]

theorem flowsFrom_eq_out {g : Graph N A} {f : Flows N A} (hf : Feasible g f) (u : G N A) :
    flowsFrom f u = out g f u := by
  unfold flowsFrom out flow flowsTo
  cases hu : Dict.get? f u with
  | none => simp
  | some d =>
    simp only
    apply total_eq_sum (hf.wf.2 u d hu)
    intro k hk
    have h1 := hf.edges u k
    have h2 : flow f u k = Dict.val d k := by simp [flow, flowsTo, hu]
    rw [h2] at h1
    cases hg : Dict.get? g (u, k) with
    | none => exact absurd (h1 hg) hk
    | some e => exact (mem_verts_left hg).2

/-! ### The shape of the graph -/

/-- Specification: the capacity of an account for a limit, in units of `precision`, less the
flow that an earlier pass sent over `t` (the account, or the group it belongs to). -/
def acctCap (E : Env N A K) (memo : Flows N A) (t : G N A) (x : Ext K) : Option ℤ :=
  edgeCapacity (lessFlow (scale E.precision x) (flowsFrom memo t)) 0

/-- The edges that may be in the graph. -/
def Allowed (E : Env N A K) (lim : Lim) (memo : Flows N A) (src : Option ℤ) :
    G N A × G N A → Edge → Prop
  | (.source, .node n), e => n = E.tree.root ∧ e.capacity = src
  | (.node n, .limit m), e => n = m ∧ ∀ l, E.tree.limits n lim = some l →
      e.capacity = some (pyInt |l / E.precision - (flowsFrom memo (.node n) : K)|)
  | (.limit n, .node c), _ => c ∈ childNodes E n
  | (.limit n, .overflow m), _ => n = m
  | (.limit n, .acct a), _ => E.tree.kind n = .leaf a
  | (.overflow n, .node c), _ => c ∈ childNodes E n
  | (.acct a, .group s), e => E.groupOf a lim = some s ∧
      ∃ x, E.limitOf a lim = .ok x ∧ e.capacity = acctCap E memo (.group s) x
  | (.acct a, .sink), e => E.groupOf a lim = none ∧
      ∃ x, E.limitOf a lim = .ok x ∧ e.capacity = acctCap E memo (.acct a) x
  | (.group s, .sink), e => ∃ a x, E.groupOf a lim = some s ∧
      E.limitOf a lim = .ok x ∧ e.capacity = acctCap E memo (.group s) x
  | _, _ => False

/-- Every edge is allowed. -/
def Shape (E : Env N A K) (lim : Lim) (memo : Flows N A) (src : Option ℤ) (g : Graph N A) : Prop :=
  ∀ k e, Dict.get? g k = some e → Allowed E lim memo src k e

/-- The edges that building and balancing may add or change, with the new attributes. -/
inductive Step (E : Env N A K) (lim : Lim) (memo : Flows N A) :
    G N A → G N A → Option ℤ → Option ℤ → Prop
  | free (n : N) : E.tree.limits n lim = none → Step E lim memo (.node n) (.limit n) none none
  | limit (n : N) (l : K) : E.tree.limits n lim = some l →
      Step E lim memo (.node n) (.limit n)
        (some (pyInt |l / E.precision - (flowsFrom memo (.node n) : K)|)) none
  | child (n c : N) (x : ℤ) (w : Option ℤ) : c ∈ childNodes E n →
      Step E lim memo (.limit n) (.node c) (some x) w
  | over (n : N) (x : ℤ) : Step E lim memo (.limit n) (.overflow n) (some x) none
  | overWeight (n : N) (w : ℤ) : Step E lim memo (.limit n) (.overflow n) none (some w)
  | overChild (n c : N) (x : ℤ) : c ∈ childNodes E n →
      Step E lim memo (.overflow n) (.node c) (some x) none
  | leaf (n : N) (a : A) (x : ℤ) : E.tree.kind n = .leaf a →
      Step E lim memo (.limit n) (.acct a) (some x) none
  | member (a : A) (s : Finset A) (x : Ext K) : E.groupOf a lim = some s →
      E.limitOf a lim = .ok x →
      Step E lim memo (.acct a) (.group s) (acctCap E memo (.group s) x) none
  | shared (a : A) (s : Finset A) (x : Ext K) : E.groupOf a lim = some s →
      E.limitOf a lim = .ok x →
      Step E lim memo (.group s) .sink (acctCap E memo (.group s) x) none
  | alone (a : A) (x : Ext K) : E.groupOf a lim = none → E.limitOf a lim = .ok x →
      Step E lim memo (.acct a) .sink (acctCap E memo (.acct a) x) none

section Build

variable {E : Env N A K} {lim : Lim} {memo : Flows N A} {P : Graph N A → Prop} {ok : N → Prop}

/-- `P` survives every step at nodes that are `ok`. -/
structure Stable (E : Env N A K) (lim : Lim) (memo : Flows N A) (ok : N → Prop)
    (P : Graph N A → Prop) : Prop where
  down : ∀ n, ok n → ∀ c ∈ childNodes E n, ok c
  put : ∀ g u v c w, P g → Step E lim memo u v c w → (∀ n, u = .limit n → ok n) →
    P (putEdge g u v c w)

/-- `next` keeps `P` at nodes that are `ok`. -/
def Keeps (ok : N → Prop) (P : Graph N A → Prop)
    (next : Graph N A → N → Except PyErr (Graph N A)) : Prop :=
  ∀ g c g', ok c → P g → next g c = .ok g' → P g'

theorem stable_addAccount (hP : Stable E lim memo ok P) {g g' : Graph N A} (hg : P g) {a : A}
    (h : addAccount E lim memo g a = .ok g') : P g' := by
  unfold addAccount at h
  rw [bind_ok_iff] at h
  obtain ⟨x, hx, h⟩ := h
  cases hs : E.groupOf a lim with
  | none =>
    simp only [hs, Except.ok.injEq] at h
    subst h
    exact hP.put _ _ _ _ _ hg (.alone a x hs hx) (by simp)
  | some s =>
    simp only [hs, Except.ok.injEq] at h
    subst h
    exact hP.put _ _ _ _ _ (hP.put _ _ _ _ _ hg (.member a s x hs hx) (by simp))
      (.shared a s x hs hx) (by simp)

theorem stable_embedLimit (hP : Stable E lim memo ok P) {g : Graph N A} (hg : P g) (n : N)
    (capacity : K) : P (embedLimit E lim memo g n capacity).1 := by
  unfold embedLimit
  cases hl : E.tree.limits n lim with
  | none => exact hP.put _ _ _ _ _ hg (.free n hl) (by simp)
  | some l =>
    have := hP.put _ _ _ _ _ hg (.limit n l hl) (by simp)
    simpa [addEdge, edgeCapacity, flowsTo] using this

theorem stable_childEdges (hP : Stable E lim memo ok P)
    {next : Graph N A → N → Except PyErr (Graph N A)}
    (hn : Keeps ok P next) {n : N} (hok : ok n) {g g' : Graph N A} {totals : Dict N K}
    (ht : ∀ e ∈ totals, e.1 ∈ childNodes E n) (hg : P g)
    (h : childEdges next n g totals = .ok g') : P g' := by
  refine foldlM_inv P h hg fun b a b' ha hb h1 => hn _ _ _ (hP.down n hok _ (ht a ha)) ?_ h1
  exact hP.put _ _ _ _ _ hb (.child n a.1 _ _ (ht a ha)) (by rintro m ⟨⟩; exact hok)

theorem stable_addWeightedChildren (hP : Stable E lim memo ok P)
    {next : Graph N A → N → Except PyErr (Graph N A)}
    (hn : Keeps ok P next) {n : N} (hok : ok n) (fuel : ℕ) {g g' : Graph N A} {children : Dict N K}
    {capacity : K} (ht : ∀ e ∈ children, e.1 ∈ childNodes E n) (hg : P g)
    (h : addWeightedChildren memo next n fuel g children capacity = .ok g') : P g' := by
  induction fuel generalizing g g' children capacity with
  | zero =>
    rw [addWeightedChildren.eq_def] at h
    rw [bind_ok_iff] at h
    obtain ⟨x, -, h⟩ := h
    simp only at h
    split_ifs at h
    · refine stable_childEdges hP hn hok ?_ hg h
      intro e he
      obtain ⟨e', he', rfl⟩ := List.mem_map.1 he
      exact ht e' he'
  | succ fuel ih =>
    rw [addWeightedChildren.eq_def] at h
    rw [bind_ok_iff] at h
    obtain ⟨x, -, h⟩ := h
    simp only at h
    split_ifs at h
    · rw [bind_ok_iff] at h
      obtain ⟨g₁, h1, h2⟩ := h
      refine stable_childEdges hP hn hok ?_ (ih ?_ hg h1) h2
      · intro e he
        obtain ⟨e', he', rfl⟩ := List.mem_map.1 he
        obtain ⟨e'', he'', rfl⟩ := List.mem_map.1 (List.mem_filter.1 he').1
        exact ht e'' he''
      · intro e he
        exact ht e (List.mem_filter.1 he).1
    · refine stable_childEdges hP hn hok ?_ hg h
      intro e he
      obtain ⟨e', he', rfl⟩ := List.mem_map.1 he
      exact ht e' he'

theorem stable_overflowEdges (hP : Stable E lim memo ok P) {n : N} (hok : ok n) {g : Graph N A}
    {children : Dict N K} {capacity : K}
    (ht : ∀ e ∈ children, e.1 ∈ childNodes E n) (hg : P g) :
    P (overflowEdges g n children capacity) := by
  unfold overflowEdges
  refine foldl_inv P ?_ fun b a ha hb =>
    hP.put _ _ _ _ _ hb (.overChild n a.1 _ (ht a ha)) (by simp)
  exact hP.put _ _ _ _ _ hg (.over n _) (by rintro m ⟨⟩; exact hok)

theorem stable_addWeighted (hP : Stable E lim memo ok P)
    {next : Graph N A → N → Except PyErr (Graph N A)}
    (hn : Keeps ok P next) {fuel : ℕ} {n : N} (hok : ok n) {ov : Bool} {g g' : Graph N A}
    {children : Dict N K} {capacity : K} (ht : ∀ e ∈ children, e.1 ∈ childNodes E n) (hg : P g)
    (h : addWeighted memo next fuel n ov g children capacity = .ok g') : P g' := by
  unfold addWeighted at h
  split_ifs at h
  · rw [bind_ok_iff] at h
    obtain ⟨g₁, h1, h2⟩ := h
    have hs := stable_addWeightedChildren hP hn hok _ ht (stable_overflowEdges hP hok ht hg) h1
    unfold overflowWeight at h2
    rw [bind_ok_iff] at h2
    obtain ⟨ws, -, h2⟩ := h2
    cases hw : ws.max? with
    | none => rw [hw] at h2; cases h2
    | some w =>
      rw [hw] at h2
      cases h2
      exact hP.put _ _ _ _ _ hs (.overWeight n _) (by rintro m ⟨⟩; exact hok)
  · exact stable_addWeightedChildren hP hn hok _ ht hg h

theorem stable_addSuccessors (hP : Stable E lim memo ok P) (ov : Bool) (fuel : ℕ)
    {g g' : Graph N A} {n : N} (hok : ok n) {capacity : Option K}
    {children : Option (Dict N K)}
    (hc : ∀ ch, children = some ch → ∀ e ∈ ch, e.1 ∈ childNodes E n) (hg : P g)
    (h : addSuccessors E lim memo ov fuel g n capacity children = .ok g') : P g' := by
  induction fuel generalizing g g' n capacity children with
  | zero => cases h
  | succ fuel ih =>
    unfold addSuccessors at h
    simp only at h
    have hn : Keeps ok P (fun g c => addSuccessors E lim memo ov fuel g c none none) :=
      fun g c g' hc hg h => ih hc (by simp) hg h
    have he := stable_embedLimit hP hg n (capacity.getD (inboundCapacity g (.node n) : K))
    cases hk : E.tree.kind n with
    | weighted cs =>
      simp only [hk] at h
      refine stable_addWeighted hP hn hok ?_ he h
      cases children with
      | none =>
        intro e he
        simp only [childNodes, hk]
        exact Dict.mem_keys_of_mem he
      | some ch => exact hc ch rfl
    | ordered cs =>
      simp only [hk] at h
      rw [bind_ok_iff] at h
      obtain ⟨st, h1, h2⟩ := h
      cases h2
      refine foldlM_inv (fun st => P st.1) h1 he ?_
      intro b a b' ha hb hstep
      unfold orderedStep at hstep
      rw [bind_ok_iff] at hstep
      obtain ⟨g₁, h3, h4⟩ := hstep
      rw [bind_ok_iff] at h4
      obtain ⟨w, -, h4⟩ := h4
      cases h4
      have ha' : a ∈ childNodes E n := by simpa only [childNodes, hk] using ha
      refine hn _ _ _ (hP.down n hok a ha') ?_ h3
      exact hP.put _ _ _ _ _ hb (.child n a _ _ ha') (by rintro m ⟨⟩; exact hok)
    | leaf a =>
      simp only [hk] at h
      refine stable_addAccount hP ?_ h
      exact hP.put _ _ _ _ _ he (.leaf n a _ hk) (by rintro m ⟨⟩; exact hok)

theorem stable_restrict (hP : Stable E lim memo ok P) {g : Graph N A} (hg : P g) (n : N)
    (children : List N) (flows : Flows N A) : P (restrictOverflow E g n children flows) := by
  refine foldl_inv P hg ?_
  intro b a ha hb
  exact hP.put _ _ _ _ _ hb (.overChild n a _ (List.mem_filter.1 ha).1) (by simp)

theorem stable_balanceRecurse (hP : Stable E lim memo ok P) {fuel : ℕ}
    {again : Graph N A → List N → Except PyErr (Graph N A)}
    {n : N} (hok : ok n) {cs : Dict N K} {children : List N} {flows : Flows N A}
    {g g' : Graph N A} (ha : ∀ g g', P g → again g children = .ok g' → P g')
    (hc : ∀ c ∈ children, c ∈ childNodes E n) (hg : P g)
    (h : balanceRecurse E lim memo fuel again g n cs children flows = .ok g') : P g' := by
  unfold balanceRecurse at h
  rw [bind_ok_iff] at h
  obtain ⟨f, -, h⟩ := h
  rw [bind_ok_iff] at h
  obtain ⟨o, -, h⟩ := h
  simp only at h
  rw [bind_ok_iff] at h
  obtain ⟨g₁, h1, h⟩ := h
  have hs : P g₁ := by
    refine stable_addSuccessors hP false fuel hok ?_ hg h1
    intro ch hch e he
    cases hch
    obtain ⟨c, hc', rfl⟩ := List.mem_map.1 he
    exact hc c hc'
  split_ifs at h
  · exact ha _ _ (stable_restrict hP hs _ _ _) h
  · cases h; exact hs

theorem mem_ofClass {classes : List (N × Ordering)} {o : Ordering} {c : N}
    (h : c ∈ ofClass classes o) : ∃ e ∈ classes, e.1 = c := by
  obtain ⟨e, he, rfl⟩ := List.mem_map.1 h
  exact ⟨e, (List.mem_filter.1 he).1, rfl⟩

theorem mem_mapM {α β : Type} {f : α → Except PyErr β} {l : List α} {r : List β}
    (h : l.mapM f = .ok r) {b : β} (hb : b ∈ r) : ∃ a ∈ l, f a = .ok b := by
  induction l generalizing r with
  | nil => simp at h; subst h; simp at hb
  | cons a l ih =>
    rw [List.mapM_cons, bind_ok_iff] at h
    obtain ⟨x, hx, h⟩ := h
    rw [bind_ok_iff] at h
    obtain ⟨xs, hxs, h⟩ := h
    cases h
    rcases List.mem_cons.1 hb with rfl | hb
    · exact ⟨a, by simp, hx⟩
    · obtain ⟨a', h1, h2⟩ := ih hxs hb
      exact ⟨a', List.mem_cons_of_mem _ h1, h2⟩

theorem stable_balanceFlows (hP : Stable E lim memo ok P) (hset : ∀ l, ∀ c ∈ E.setOrder l, c ∈ l) {n : N}
    (hok : ok n) {cs : Dict N K}
    (fuel : ℕ) {g g' : Graph N A} {children : List N} {all : Bool}
    (hc : ∀ c ∈ children, c ∈ childNodes E n) (hg : P g)
    (h : balanceFlows E lim memo n cs fuel g children all = .ok g') :
    P g' := by
  induction fuel generalizing g g' children all with
  | zero => cases h
  | succ fuel ih =>
    unfold balanceFlows at h
    split at h
    · cases h; exact hg
    · rw [bind_ok_iff] at h
      obtain ⟨flows, -, h⟩ := h
      rw [bind_ok_iff] at h
      obtain ⟨classes, hcl, h⟩ := h
      have hmem : ∀ e ∈ classes, e.1 ∈ children := by
        intro e he
        obtain ⟨c, hcm, h1⟩ := mem_mapM hcl he
        rw [bind_ok_iff] at h1
        obtain ⟨o, -, h1⟩ := h1
        cases h1; exact hcm
      have hcls : ∀ o, ∀ c ∈ ofClass classes o, c ∈ childNodes E n := by
        intro o c h1
        obtain ⟨e, he, rfl⟩ := mem_ofClass h1
        exact hc _ (hmem e he)
      have htail : ∀ u o s, (∀ c ∈ u, c ∈ childNodes E n) → (∀ c ∈ o, c ∈ childNodes E n) →
          (∀ c ∈ s, c ∈ childNodes E n) →
          (do
            let g ← balanceRecurse E lim memo fuel
              (fun g cs' => balanceFlows E lim memo n cs fuel g cs' true) g n cs
              (E.setOrder (u ++ s)) flows
            let flags ← s.mapM fun c => do
              let b ← stillSaturated g flows n c
              Except.ok (c, b)
            balanceRecurse E lim memo fuel
              (fun g cs' => balanceFlows E lim memo n cs fuel g cs' true) g n cs
              (E.setOrder (o ++ (flags.filter fun e : N × Bool => e.2).map Prod.fst)) flows) =
            .ok g' →
          P g' := by
        intro u o s hu ho hs h
        rw [bind_ok_iff] at h
        obtain ⟨g₁, hg₁, h⟩ := h
        rw [bind_ok_iff] at h
        obtain ⟨flags, hfl, h⟩ := h
        have hc1 : ∀ c ∈ E.setOrder (u ++ s), c ∈ childNodes E n := by
          intro c hcm
          rcases List.mem_append.1 (hset _ _ hcm) with hm | hm
          · exact hu _ hm
          · exact hs _ hm
        have hc2 : ∀ c ∈ E.setOrder (o ++ (flags.filter fun e => e.2).map Prod.fst),
            c ∈ childNodes E n := by
          intro c hcm
          rcases List.mem_append.1 (hset _ _ hcm) with hm | hm
          · exact ho _ hm
          · obtain ⟨e, he, rfl⟩ := List.mem_map.1 hm
            obtain ⟨c', hcm', h1⟩ := mem_mapM hfl (List.mem_filter.1 he).1
            rw [bind_ok_iff] at h1
            obtain ⟨o', -, h1⟩ := h1
            cases h1
            exact hs _ hcm'
        exact stable_balanceRecurse hP hok (fun g g' hg h => ih hc2 hg h) hc2
          (stable_balanceRecurse hP hok (fun g g' hg h => ih hc1 hg h) hc1 hg hg₁) h
      simp only at h
      by_cases h1 : ofClass classes .lt = [] ∧ ofClass classes .gt = []
      · rw [if_pos h1] at h; cases h; exact hg
      rw [if_neg h1] at h
      by_cases h2 : (ofClass classes .lt = [] ∨ ofClass classes .gt = []) ∧ all = true
      · rw [if_pos h2] at h
        exact stable_balanceRecurse hP hok (fun g g' hg h => ih hc hg h) hc hg h
      rw [if_neg h2] at h
      by_cases h3 : (ofClass classes .lt = [] ∨ ofClass classes .gt = []) ∧ ofClass classes .eq = []
      · rw [if_pos h3] at h; cases h; exact hg
      rw [if_neg h3] at h
      refine htail _ _ _ ?_ ?_ ?_ h
      · split_ifs
        · exact hcls _
        · exact hcls _
      · split_ifs
        · exact hcls _
        · exact hcls _
      · split_ifs
        · simp
        · exact hcls _

theorem stable_balanceAll (hP : Stable E lim memo ok P) (hok : ∀ n, ok n)
    (hset : ∀ l, ∀ c ∈ E.setOrder l, c ∈ l) {fuel : ℕ} {g g' : Graph N A}
    (hg : P g) (h : balanceAll E lim memo fuel g = .ok g') :
    P g' := by
  unfold balanceAll at h
  rw [bind_ok_iff] at h
  obtain ⟨ns, -, h⟩ := h
  refine foldlM_inv P h hg ?_
  intro b n b' _ hb h1
  cases hk : E.tree.kind n with
  | weighted cs =>
    simp only [hk] at h1
    refine stable_balanceFlows hP hset (hok n) fuel ?_ hb h1
    intro c hc
    simpa only [childNodes, hk] using hc
  | leaf a => simp only [hk] at h1; cases h1; exact hb
  | ordered cs => simp only [hk] at h1; cases h1; exact hb

theorem stable_buildGraph (hP : Stable E lim memo ok P) (hok : ∀ n, ok n)
    (hset : ∀ l, ∀ c ∈ E.setOrder l, c ∈ l)
    {fuel : ℕ} {g : Graph N A} {total : Ext K}
    (h0 : P (addEdge [] .source (.node E.tree.root) (units E.precision total) none memo))
    (h : buildGraph E lim memo fuel total = .ok g) : P g := by
  unfold buildGraph at h
  rw [bind_ok_iff] at h
  obtain ⟨g₁, h1, h2⟩ := h
  exact stable_balanceAll hP hok hset
    (stable_addSuccessors hP true fuel (hok _) (by simp) h0 h1) h2

end Build

section Shape

variable {E : Env N A K} {lim : Lim} {memo : Flows N A} {src : Option ℤ}

theorem stable_shape : Stable E lim memo (fun _ => True) (Shape E lim memo src) := by
  refine ⟨fun _ _ _ _ => trivial, ?_⟩
  intro g u v c w hg hs _ k e hk
  unfold putEdge at hk
  rw [Dict.get?_set] at hk
  split_ifs at hk with h1
  · subst h1
    cases hk
    cases hs with
    | free n hn => exact ⟨rfl, fun l h => by rw [hn] at h; cases h⟩
    | limit n l hn =>
      refine ⟨rfl, fun l' h => ?_⟩
      rw [hn] at h; cases h; rfl
    | child n c x w hc => exact hc
    | over n x => exact rfl
    | overWeight n w => exact rfl
    | overChild n c x hc => exact hc
    | leaf n a x hk => exact hk
    | member a s x h1 h2 =>
      refine ⟨h1, x, h2, ?_⟩
      cases hc : acctCap E memo (.group s) x with
      | some c => rfl
      | none =>
        cases hx : Dict.get? g (G.acct a, G.group s) with
        | none => rfl
        | some e =>
          obtain ⟨-, y, hy, he⟩ := hg _ _ hx
          rw [h2] at hy; cases hy
          exact he.trans hc
    | alone a x h1 h2 =>
      refine ⟨h1, x, h2, ?_⟩
      cases hc : acctCap E memo (.acct a) x with
      | some c => rfl
      | none =>
        cases hx : Dict.get? g (G.acct a, G.sink) with
        | none => rfl
        | some e =>
          obtain ⟨-, y, hy, he⟩ := hg _ _ hx
          rw [h2] at hy; cases hy
          exact he.trans hc
    | shared a s x h1 h2 =>
      cases hc : acctCap E memo (.group s) x with
      | some c => exact ⟨a, x, h1, h2, hc.symm⟩
      | none =>
        cases hx : Dict.get? g (G.group s, G.sink) with
        | none => exact ⟨a, x, h1, h2, hc.symm⟩
        | some e =>
          obtain ⟨b, y, h3, h4, h5⟩ := hg _ _ hx
          exact ⟨b, y, h3, h4, h5⟩
  · exact hg k e hk

theorem shape_buildGraph (hset : ∀ l, ∀ c ∈ E.setOrder l, c ∈ l) {fuel : ℕ} {g : Graph N A}
    {total : Ext K} (h : buildGraph E lim memo fuel total = .ok g) :
    Shape E lim memo (edgeCapacity (units E.precision total)
      (flowsTo memo .source (.node E.tree.root))) g := by
  refine stable_buildGraph stable_shape (fun _ => trivial) hset ?_ h
  intro k e hk
  unfold addEdge putEdge at hk
  simp only [Dict.set, Dict.get?_nil, Option.getD_none, Dict.get?_cons] at hk
  split_ifs at hk with h3
  · subst h3
    cases hk
    refine ⟨rfl, ?_⟩
    cases edgeCapacity (units E.precision total) (flowsTo memo .source (.node E.tree.root)) <;> rfl

theorem stable_has (k : G N A × G N A) :
    Stable E lim memo (fun _ => True) (fun g => (Dict.get? g k).isSome) := by
  refine ⟨fun _ _ _ _ => trivial, ?_⟩
  intro g u v c w hg _ _
  unfold putEdge
  rw [Dict.get?_set]
  split_ifs
  · rfl
  · exact hg

theorem has_source (hset : ∀ l, ∀ c ∈ E.setOrder l, c ∈ l) {fuel : ℕ} {g : Graph N A}
    {total : Ext K} (h : buildGraph E lim memo fuel total = .ok g) :
    ∃ e, Dict.get? g (.source, .node E.tree.root) = some e := by
  have := stable_buildGraph (stable_has (.source, .node E.tree.root)) (fun _ => trivial) hset ?_ h
  · exact Option.isSome_iff_exists.1 this
  · unfold addEdge putEdge
    rw [Dict.get?_set_self]; rfl

end Shape

/-! ### Flows through graphs of that shape -/

section Cut

variable {g : Graph N A} {f : Flows N A}

/-- What enters a set of inner nodes leaves it. -/
theorem cut (hf : Feasible g f) (W : G N A → Prop) [DecidablePred W] (hs : ¬ W .source)
    (ht : ¬ W .sink) :
    ∑ u ∈ (verts g).filter (¬ W ·), ∑ v ∈ (verts g).filter W, flow f u v =
      ∑ v ∈ (verts g).filter W, ∑ w ∈ (verts g).filter (¬ W ·), flow f v w := by
  have h1 : ∑ v ∈ (verts g).filter W, ∑ u ∈ verts g, flow f u v =
      ∑ v ∈ (verts g).filter W, ∑ w ∈ verts g, flow f v w := by
    apply Finset.sum_congr rfl
    intro v hv
    have hW := (Finset.mem_filter.1 hv).2
    exact hf.conserve v (fun h => hs (h ▸ hW)) (fun h => ht (h ▸ hW))
  have h2 : ∀ v, ∑ u ∈ verts g, flow f u v =
      ∑ u ∈ (verts g).filter W, flow f u v + ∑ u ∈ (verts g).filter (¬ W ·), flow f u v :=
    fun v => (Finset.sum_filter_add_sum_filter_not _ _ _).symm
  have h3 : ∀ v, ∑ u ∈ verts g, flow f v u =
      ∑ u ∈ (verts g).filter W, flow f v u + ∑ u ∈ (verts g).filter (¬ W ·), flow f v u :=
    fun v => (Finset.sum_filter_add_sum_filter_not _ _ _).symm
  simp only [h2, h3, Finset.sum_add_distrib] at h1
  rw [Finset.sum_comm (s := (verts g).filter W) (t := (verts g).filter W)] at h1
  rw [Finset.sum_comm]
  exact add_left_cancel h1

variable {E : Env N A K} {lim : Lim} {memo : Flows N A} {src : Option ℤ}

theorem flow_of_not_allowed (hg : Shape E lim memo src g) (hf : Feasible g f) {u v : G N A}
    (h : ∀ e, ¬ Allowed E lim memo src (u, v) e) : flow f u v = 0 := by
  apply hf.edges
  cases hx : Dict.get? g (u, v) with
  | none => rfl
  | some e => exact absurd (hg _ _ hx) (h e)

theorem flow_ne_zero (hg : Shape E lim memo src g) (hf : Feasible g f) {u v : G N A}
    (h : flow f u v ≠ 0) : ∃ e, Dict.get? g (u, v) = some e ∧ Allowed E lim memo src (u, v) e := by
  cases hx : Dict.get? g (u, v) with
  | none => exact absurd (hf.edges u v hx) h
  | some e => exact ⟨e, rfl, hg _ _ hx⟩

/-- A sum with a single non-zero term. -/
theorem sum_single_flow (hf : Feasible g f) {u v : G N A} (h : ∀ w, w ≠ v → flow f u w = 0) :
    out g f u = flow f u v := by
  unfold out
  by_cases hv : v ∈ verts g
  · exact Finset.sum_eq_single v (fun w _ hw => h w hw) (fun h => absurd hv h)
  · have : flow f u v = 0 := by
      apply hf.edges
      cases hx : Dict.get? g (u, v) with
      | none => rfl
      | some e => exact absurd (mem_verts_left hx).2 hv
    rw [this]
    refine Finset.sum_eq_zero fun w _ => ?_
    by_cases hw : w = v
    · rw [hw, this]
    · exact h w hw

theorem out_acct_none (hg : Shape E lim memo src g) (hf : Feasible g f) {a : A}
    (h : E.groupOf a lim = none) : out g f (.acct a) = flow f (.acct a) .sink := by
  apply sum_single_flow hf
  intro w hw
  by_contra hne
  obtain ⟨e, -, he⟩ := flow_ne_zero hg hf hne
  cases w with
  | sink => exact hw rfl
  | group s => exact absurd he.1 (by rw [h]; simp)
  | _ => exact he

theorem out_acct_some (hg : Shape E lim memo src g) (hf : Feasible g f) {a : A} {s : Finset A}
    (h : E.groupOf a lim = some s) : out g f (.acct a) = flow f (.acct a) (.group s) := by
  apply sum_single_flow hf
  intro w hw
  by_contra hne
  obtain ⟨e, -, he⟩ := flow_ne_zero hg hf hne
  cases w with
  | sink => exact absurd he.1 (by rw [h]; simp)
  | group s' =>
    have := he.1
    rw [h] at this
    cases this
    exact hw rfl
  | _ => exact he

theorem out_group (hg : Shape E lim memo src g) (hf : Feasible g f) (s : Finset A) :
    out g f (.group s) = flow f (.group s) .sink := by
  apply sum_single_flow hf
  intro w hw
  by_contra hne
  obtain ⟨e, -, he⟩ := flow_ne_zero hg hf hne
  cases w with
  | sink => exact hw rfl
  | _ => exact he

theorem out_node (hg : Shape E lim memo src g) (hf : Feasible g f) (n : N) :
    out g f (.node n) = flow f (.node n) (.limit n) := by
  apply sum_single_flow hf
  intro w hw
  by_contra hne
  obtain ⟨e, -, he⟩ := flow_ne_zero hg hf hne
  cases w with
  | limit m => exact hw (by rw [he.1])
  | _ => exact he

/-- Is it an account? -/
def IsAcct : G N A → Prop
  | .acct _ => True
  | _ => False

instance : DecidablePred (IsAcct : G N A → Prop) := fun v => by
  cases v <;> unfold IsAcct <;> infer_instance

/-- Is it a node of the tree (or its limit or overflow node)? -/
def IsInner : G N A → Prop
  | .node _ | .limit _ | .overflow _ => True
  | _ => False

instance : DecidablePred (IsInner : G N A → Prop) := fun v => by
  cases v <;> unfold IsInner <;> infer_instance

theorem allowed_into_inner {u v : G N A} {e : Edge} (h : Allowed E lim memo src (u, v) e)
    (hu : ¬ IsInner u) (hv : IsInner v) : u = .source ∧ v = .node E.tree.root := by
  cases v <;> cases u <;> first | exact hv.elim | exact absurd trivial hu | exact h.elim | skip
  exact ⟨rfl, by rw [h.1]⟩

theorem allowed_from_inner {u v : G N A} {e : Edge} (h : Allowed E lim memo src (u, v) e)
    (hu : IsInner u) (hv : ¬ IsInner v) : IsAcct v := by
  cases u <;> cases v <;> first | exact hu.elim | exact absurd trivial hv | exact h.elim | trivial

theorem allowed_into_acct {u v : G N A} {e : Edge} (h : Allowed E lim memo src (u, v) e)
    (hv : IsAcct v) : IsInner u := by
  cases v <;> cases u <;> first | exact hv.elim | exact h.elim | trivial

/-- Everything that leaves the source reaches the accounts. -/
theorem source_eq_accounts (hg : Shape E lim memo src g) (hf : Feasible g f) :
    ∑ v ∈ (verts g).filter IsAcct, out g f v = flow f .source (.node E.tree.root) := by
  have hc := cut hf IsInner (by simp [IsInner]) (by simp [IsInner])
  -- what enters
  have hl : ∑ u ∈ (verts g).filter (¬ IsInner ·), ∑ v ∈ (verts g).filter IsInner, flow f u v =
      flow f .source (.node E.tree.root) := by
    have hz : ∀ u v, ¬ IsInner u → IsInner v → (u ≠ .source ∨ v ≠ .node E.tree.root) →
        flow f u v = 0 := by
      intro u v hu hv hne
      by_contra hnz
      obtain ⟨e, -, he⟩ := flow_ne_zero hg hf hnz
      have := allowed_into_inner he hu hv
      rcases hne with h | h
      · exact h this.1
      · exact h this.2
    by_cases hm : (G.source : G N A) ∈ verts g ∧ (G.node E.tree.root : G N A) ∈ verts g
    · rw [Finset.sum_eq_single .source, Finset.sum_eq_single (.node E.tree.root)]
      · intro v hv hne
        exact hz _ _ (by simp [IsInner]) (Finset.mem_filter.1 hv).2 (.inr hne)
      · intro h; exact absurd (Finset.mem_filter.2 ⟨hm.2, trivial⟩) h
      · intro u hu hne
        exact Finset.sum_eq_zero fun v hv =>
          hz _ _ (Finset.mem_filter.1 hu).2 (Finset.mem_filter.1 hv).2 (.inl hne)
      · intro h; exact absurd (Finset.mem_filter.2 ⟨hm.1, by simp [IsInner]⟩) h
    · have h0 : flow f .source (.node E.tree.root) = 0 := by
        apply hf.edges
        cases hx : Dict.get? g (G.source, G.node E.tree.root) with
        | none => rfl
        | some e => exact absurd (mem_verts_left hx) hm
      rw [h0]
      refine Finset.sum_eq_zero fun u hu => Finset.sum_eq_zero fun v hv => ?_
      by_cases hne : u ≠ .source ∨ v ≠ .node E.tree.root
      · exact hz _ _ (Finset.mem_filter.1 hu).2 (Finset.mem_filter.1 hv).2 hne
      · push Not at hne
        rw [hne.1, hne.2, h0]
  rw [hl] at hc
  rw [hc]
  have hr : ∀ v ∈ (verts g).filter IsInner, ∑ w ∈ (verts g).filter (¬ IsInner ·), flow f v w =
      ∑ w ∈ (verts g).filter IsAcct, flow f v w := by
    intro v hv
    symm
    apply Finset.sum_subset_zero_on_sdiff
    · intro w hw
      have := (Finset.mem_filter.1 hw)
      refine Finset.mem_filter.2 ⟨this.1, ?_⟩
      have h2 := this.2
      cases w <;> first | exact h2.elim | exact id
    · intro w hw
      simp only [Finset.mem_sdiff, Finset.mem_filter] at hw hv
      by_contra hnz
      obtain ⟨e, -, he⟩ := flow_ne_zero hg hf hnz
      exact hw.2 ⟨hw.1.1, allowed_from_inner he hv.2 hw.1.2⟩
    · intro w _; rfl
  rw [Finset.sum_congr rfl hr, Finset.sum_comm]
  apply Finset.sum_congr rfl
  intro w hw
  have hw' := (Finset.mem_filter.1 hw).2
  unfold out
  rw [← hf.conserve w (by rintro rfl; exact hw') (by rintro rfl; exact hw')]
  symm
  apply Finset.sum_subset (Finset.filter_subset _ _)
  intro v hv hv'
  by_contra hnz
  obtain ⟨e, -, he⟩ := flow_ne_zero hg hf hnz
  exact hv' (Finset.mem_filter.2 ⟨hv, allowed_into_acct he hw'⟩)

theorem out_nonneg (hf : Feasible g f) (v : G N A) : 0 ≤ out g f v :=
  Finset.sum_nonneg fun w _ => hf.nonneg v w

theorem out_of_not_mem (hf : Feasible g f) {v : G N A} (h : v ∉ verts g) : out g f v = 0 := by
  refine Finset.sum_eq_zero fun w _ => hf.edges _ _ ?_
  cases hx : Dict.get? g (v, w) with
  | none => rfl
  | some e => exact absurd (mem_verts_left hx).1 h

/-- All accounts together receive at most what leaves the source. -/
theorem accounts_le_source (hg : Shape E lim memo src g) (hf : Feasible g f) (S : Finset A) :
    ∑ a ∈ S, out g f (.acct a) ≤ flow f .source (.node E.tree.root) := by
  rw [← source_eq_accounts hg hf]
  calc ∑ a ∈ S, out g f (.acct a)
      = ∑ v ∈ S.image (G.acct : A → G N A), out g f v := by
        rw [Finset.sum_image]
        intro a _ b _ h
        cases h; rfl
    _ = ∑ v ∈ (S.image (G.acct : A → G N A)).filter (· ∈ verts g), out g f v := by
        symm
        apply Finset.sum_subset (Finset.filter_subset _ _)
        intro v hv hv'
        exact out_of_not_mem hf fun h => hv' (Finset.mem_filter.2 ⟨hv, h⟩)
    _ ≤ ∑ v ∈ (verts g).filter IsAcct, out g f v := by
        apply Finset.sum_le_sum_of_subset_of_nonneg
        · intro v hv
          obtain ⟨h1, h2⟩ := Finset.mem_filter.1 hv
          obtain ⟨a, -, rfl⟩ := Finset.mem_image.1 h1
          exact Finset.mem_filter.2 ⟨h2, trivial⟩
        · intro v _ _; exact out_nonneg hf v

theorem source_le (hg : Shape E lim memo src g) (hf : Feasible g f) {c : ℤ} (hc : src = some c)
    (hc0 : 0 ≤ c) : flow f .source (.node E.tree.root) ≤ c := by
  cases hx : Dict.get? g (G.source, G.node E.tree.root) with
  | none => rw [hf.edges _ _ hx]; exact hc0
  | some e =>
    have := hg _ _ hx
    exact hf.capacity _ _ e c hx (this.2.trans hc)

/-- Members of a group together receive what leaves the group. -/
theorem group_eq (hg : Shape E lim memo src g) (hf : Feasible g f) {s : Finset A} (S : Finset A)
    (hS : ∀ a ∈ S, E.groupOf a lim = some s) :
    ∑ a ∈ S, out g f (.acct a) ≤ out g f (.group s) := by
  have h1 : out g f (.group s) = ∑ u ∈ verts g, flow f u (.group s) :=
    (hf.conserve (.group s) (by simp) (by simp)).symm
  rw [h1]
  calc ∑ a ∈ S, out g f (.acct a)
      = ∑ a ∈ S, flow f (.acct a) (.group s) :=
        Finset.sum_congr rfl fun a ha => out_acct_some hg hf (hS a ha)
    _ = ∑ v ∈ S.image (G.acct : A → G N A), flow f v (.group s) := by
        rw [Finset.sum_image]
        intro a _ b _ h
        cases h; rfl
    _ = ∑ v ∈ (S.image (G.acct : A → G N A)).filter (· ∈ verts g), flow f v (.group s) := by
        symm
        apply Finset.sum_subset (Finset.filter_subset _ _)
        intro v hv hv'
        apply hf.edges
        cases hx : Dict.get? g (v, G.group s) with
        | none => rfl
        | some e => exact absurd (Finset.mem_filter.2 ⟨hv, (mem_verts_left hx).1⟩) hv'
    _ ≤ ∑ v ∈ verts g, flow f v (.group s) := by
        apply Finset.sum_le_sum_of_subset_of_nonneg
        · intro v hv
          exact (Finset.mem_filter.1 hv).2
        · intro v _ _; exact hf.nonneg _ _

theorem flow_le_cap (hf : Feasible g f) {u v : G N A} {c : ℤ}
    (hc : ∀ e, Dict.get? g (u, v) = some e → e.capacity = some c) (hc0 : 0 ≤ c) :
    flow f u v ≤ c := by
  cases hx : Dict.get? g (u, v) with
  | none => rw [hf.edges _ _ hx]; exact hc0
  | some e => exact hf.capacity _ _ e c hx (hc e hx)

/-- Specification: `D` is the part of the tree at and below `n`, and it hangs on the rest of the
tree by `n` only. -/
structure Subtree (E : Env N A K) (n : N) (D : Finset N) : Prop where
  top : n ∈ D
  down : ∀ d ∈ D, ∀ c ∈ childNodes E d, c ∈ D
  up : ∀ p c, c ∈ childNodes E p → c ∈ D → c = n ∨ p ∈ D
  root : E.tree.root ∈ D → E.tree.root = n

/-- Is it a node of `D` (or its limit or overflow node)? -/
def InD (D : Finset N) : G N A → Prop
  | .node d | .limit d | .overflow d => d ∈ D
  | _ => False

instance (D : Finset N) : DecidablePred (InD D : G N A → Prop) := fun v => by
  cases v <;> unfold InD <;> infer_instance

theorem allowed_into_D {n : N} {D : Finset N} (hD : Subtree E n D) {u v : G N A} {e : Edge}
    (h : Allowed E lim memo src (u, v) e) (hu : ¬ InD D u) (hv : InD D v) : v = .node n := by
  cases v with
  | node c =>
    cases u with
    | source => rw [h.1, hD.root (h.1 ▸ hv)]
    | limit p => rcases hD.up p c h hv with rfl | hp
                 · rfl
                 · exact absurd hp hu
    | overflow p => rcases hD.up p c h hv with rfl | hp
                    · rfl
                    · exact absurd hp hu
    | _ => exact h.elim
  | limit m =>
    cases u with
    | node p => exact absurd (h.1 ▸ hv : p ∈ D) hu
    | _ => exact h.elim
  | overflow m =>
    cases u with
    | limit p => exact absurd (show p ∈ D from (show p = m from h) ▸ hv) hu
    | _ => exact h.elim
  | _ => exact hv.elim

/-- Accounts that are only below `n` together receive at most what passes through `n`. -/
theorem subtree_le (hg : Shape E lim memo src g) (hf : Feasible g f) {n : N} {D : Finset N}
    (hD : Subtree E n D) (S : Finset A)
    (hS : ∀ a ∈ S, ∀ p, E.tree.kind p = .leaf a → p ∈ D) :
    ∑ a ∈ S, out g f (.acct a) ≤ out g f (.node n) := by
  have hc := cut hf (InD D) (by simp [InD]) (by simp [InD])
  have hin : ∑ u ∈ (verts g).filter (¬ InD D ·), ∑ v ∈ (verts g).filter (InD D), flow f u v ≤
      out g f (.node n) := by
    have h1 : out g f (.node n) = ∑ u ∈ verts g, flow f u (.node n) :=
      (hf.conserve (.node n) (by simp) (by simp)).symm
    rw [h1]
    refine le_trans ?_ (Finset.sum_le_sum_of_subset_of_nonneg
      (Finset.filter_subset (¬ InD D ·) (verts g)) fun u _ _ => hf.nonneg _ _)
    apply Finset.sum_le_sum
    intro u hu
    have hz : ∀ v ∈ (verts g).filter (InD D), v ≠ .node n → flow f u v = 0 := by
      intro v hv hne
      by_contra hnz
      obtain ⟨e, -, he⟩ := flow_ne_zero hg hf hnz
      exact hne (allowed_into_D hD he (Finset.mem_filter.1 hu).2 (Finset.mem_filter.1 hv).2)
    by_cases hm : (G.node n : G N A) ∈ (verts g).filter (InD D)
    · rw [Finset.sum_eq_single_of_mem _ hm hz]
    · rw [Finset.sum_eq_zero]
      · exact hf.nonneg _ _
      · intro v hv
        exact hz v hv (fun h => hm (h ▸ hv))
  refine le_trans ?_ (hc ▸ hin)
  calc ∑ a ∈ S, out g f (.acct a)
      = ∑ v ∈ S.image (G.acct : A → G N A), out g f v := by
        rw [Finset.sum_image]
        intro a _ b _ h
        cases h; rfl
    _ = ∑ v ∈ (S.image (G.acct : A → G N A)).filter (· ∈ verts g), out g f v := by
        symm
        apply Finset.sum_subset (Finset.filter_subset _ _)
        intro v hv hv'
        exact out_of_not_mem hf fun h => hv' (Finset.mem_filter.2 ⟨hv, h⟩)
    _ = ∑ w ∈ (S.image (G.acct : A → G N A)).filter (· ∈ verts g),
          ∑ v ∈ (verts g).filter (InD D), flow f v w := by
        apply Finset.sum_congr rfl
        intro w hw
        obtain ⟨h1, h2⟩ := Finset.mem_filter.1 hw
        obtain ⟨a, ha, rfl⟩ := Finset.mem_image.1 h1
        unfold out
        rw [← hf.conserve (.acct a) (by simp) (by simp)]
        symm
        apply Finset.sum_subset (Finset.filter_subset _ _)
        intro v hv hv'
        by_contra hnz
        obtain ⟨e, -, he⟩ := flow_ne_zero hg hf hnz
        cases v with
        | limit p => exact hv' (Finset.mem_filter.2 ⟨hv, hS a ha p he⟩)
        | _ => exact he
    _ = ∑ v ∈ (verts g).filter (InD D),
          ∑ w ∈ (S.image (G.acct : A → G N A)).filter (· ∈ verts g), flow f v w :=
        Finset.sum_comm
    _ ≤ _ := by
        apply Finset.sum_le_sum
        intro v _
        apply Finset.sum_le_sum_of_subset_of_nonneg
        · intro w hw
          obtain ⟨h1, h2⟩ := Finset.mem_filter.1 hw
          obtain ⟨a, ha, rfl⟩ := Finset.mem_image.1 h1
          exact Finset.mem_filter.2 ⟨h2, by simp [InD]⟩
        · intro w _ _; exact hf.nonneg _ _

end Cut

/-! ### Merging flows -/

/-- The inner dicts are real dicts. -/
def InnerWF (f : Flows N A) : Prop := ∀ u d, Dict.get? f u = some d → Dict.WF d

theorem innerWF_nil : InnerWF ([] : Flows N A) := fun u d h => by simp at h

theorem wf_getD {f : Flows N A} (hf : InnerWF f) (u : G N A) :
    Dict.WF ((Dict.get? f u).getD []) := by
  cases h : Dict.get? f u with
  | none => exact Dict.wf_nil
  | some d => exact hf u d h

theorem innerWF_mergeOne {f : Flows N A} (hf : InnerWF f) (u : G N A) (e : G N A × ℤ) :
    InnerWF (mergeOne f u e) := by
  intro u' d hd
  unfold mergeOne at hd
  rw [Dict.get?_set] at hd
  split_ifs at hd
  · cases hd; exact Dict.wf_set (wf_getD hf u) _ _
  · exact hf _ _ hd

theorem flowsTo_eq (f : Flows N A) (u v : G N A) :
    flowsTo f u v = Dict.val ((Dict.get? f u).getD []) v := by
  unfold flowsTo
  cases Dict.get? f u with
  | none => rfl
  | some d => rfl

theorem flowsFrom_eq (f : Flows N A) (u : G N A) :
    flowsFrom f u = Dict.total ((Dict.get? f u).getD []) := by
  unfold flowsFrom
  cases Dict.get? f u with
  | none => rfl
  | some d => rfl

theorem flowsTo_mergeOne (f : Flows N A) (u : G N A) (e : G N A × ℤ) (u' v' : G N A) :
    flowsTo (mergeOne f u e) u' v' = flowsTo f u' v' + if u = u' ∧ e.1 = v' then e.2 else 0 := by
  rw [flowsTo_eq, flowsTo_eq]
  unfold mergeOne
  rw [Dict.get?_set]
  by_cases h : u = u'
  · subst h
    rw [if_pos rfl, Option.getD_some, Dict.val_set]
    by_cases h2 : e.1 = v'
    · subst h2; simp
    · simp [h2]
  · simp [h]

theorem flowsFrom_mergeOne {f : Flows N A} (hf : InnerWF f) (u : G N A) (e : G N A × ℤ)
    (u' : G N A) :
    flowsFrom (mergeOne f u e) u' = flowsFrom f u' + if u = u' then e.2 else 0 := by
  rw [flowsFrom_eq, flowsFrom_eq]
  unfold mergeOne
  rw [Dict.get?_set]
  by_cases h : u = u'
  · subst h
    rw [if_pos rfl, if_pos rfl, Option.getD_some, Dict.total_set (wf_getD hf u)]
    ring
  · simp [h]

theorem merge_inner (d : Dict (G N A) ℤ) (f : Flows N A) (hf : InnerWF f) (u : G N A)
    (hd : Dict.WF d) :
    InnerWF (d.foldl (fun f x => mergeOne f u x) f) ∧
    (∀ u' v', flowsTo (d.foldl (fun f x => mergeOne f u x) f) u' v' =
      flowsTo f u' v' + if u = u' then Dict.val d v' else 0) ∧
    (∀ u', flowsFrom (d.foldl (fun f x => mergeOne f u x) f) u' =
      flowsFrom f u' + if u = u' then Dict.total d else 0) := by
  induction d generalizing f with
  | nil => simp [hf, Dict.val]
  | cons e d ih =>
    obtain ⟨h1, h2⟩ := Dict.wf_cons.1 hd
    obtain ⟨i1, i2, i3⟩ := ih (mergeOne f u e) (innerWF_mergeOne hf u e) h2
    refine ⟨i1, ?_, ?_⟩
    · intro u' v'
      rw [List.foldl_cons, i2, flowsTo_mergeOne]
      by_cases hu : u = u'
      · by_cases hv : e.1 = v'
        · subst hv
          rw [Dict.val_of_not_mem h1]
          simp [hu, Dict.val, Dict.get?_cons]
        · simp [hu, hv, Dict.val, Dict.get?_cons]
      · simp [hu]
    · intro u'
      rw [List.foldl_cons, i3, flowsFrom_mergeOne hf]
      by_cases hu : u = u'
      · simp [hu]; ring
      · simp [hu]

theorem merge_spec (s : Flows N A) (f : Flows N A) (hf : InnerWF f) (hs : Dict.WF s)
    (hi : InnerWF s) :
    InnerWF (mergeFlows f s) ∧
    (∀ u v, flowsTo (mergeFlows f s) u v = flowsTo f u v + flowsTo s u v) ∧
    (∀ u, flowsFrom (mergeFlows f s) u = flowsFrom f u + flowsFrom s u) := by
  unfold mergeFlows
  induction s generalizing f with
  | nil => simp [hf, flowsTo, flowsFrom]
  | cons e s ih =>
    obtain ⟨h1, h2⟩ := Dict.wf_cons.1 hs
    have he : Dict.WF e.2 := hi e.1 e.2 (by simp [Dict.get?_cons])
    have hi' : InnerWF s := by
      intro u d hd
      apply hi u d
      rw [Dict.get?_cons, if_neg, hd]
      rintro rfl
      exact h1 (Dict.get?_isSome.1 (by simp [hd]))
    obtain ⟨m1, m2, m3⟩ := merge_inner e.2 f hf e.1 he
    obtain ⟨i1, i2, i3⟩ := ih _ m1 h2 hi'
    refine ⟨i1, ?_, ?_⟩
    · intro u v
      rw [List.foldl_cons, i2, m2, add_assoc]
      congr 1
      simp only [flowsTo_eq, Dict.get?_cons]
      by_cases hu : e.1 = u
      · subst hu
        simp [Dict.get?_eq_none.2 h1, Dict.val]
      · simp [hu]
    · intro u
      rw [List.foldl_cons, i3, m3, add_assoc]
      congr 1
      simp only [flowsFrom_eq, Dict.get?_cons]
      by_cases hu : e.1 = u
      · subst hu
        simp [Dict.get?_eq_none.2 h1]
      · simp [hu]

/-! ### One traversal -/

/-- Specification: `c` is an account of a leaf at or below `n`. -/
inductive LeafBelow (t : Tree N A K) : N → A → Prop
  | leaf {n a} : t.kind n = .leaf a → LeafBelow t n a
  | ordered {n cs c a} : t.kind n = .ordered cs → c ∈ cs → LeafBelow t c a → LeafBelow t n a
  | weighted {n cs c a} : t.kind n = .weighted cs → c ∈ Dict.keys cs → LeafBelow t c a →
      LeafBelow t n a

theorem mapM_all {α β : Type} {f : α → Except PyErr β} {l : List α} {r : List β}
    (h : l.mapM f = .ok r) {a : α} (ha : a ∈ l) : ∃ b ∈ r, f a = .ok b := by
  induction l generalizing r with
  | nil => simp at ha
  | cons x l ih =>
    rw [List.mapM_cons, bind_ok_iff] at h
    obtain ⟨y, hy, h⟩ := h
    rw [bind_ok_iff] at h
    obtain ⟨ys, hys, h⟩ := h
    cases h
    rcases List.mem_cons.1 ha with rfl | ha
    · exact ⟨y, by simp, hy⟩
    · obtain ⟨b, h1, h2⟩ := ih hys ha
      exact ⟨b, List.mem_cons_of_mem _ h1, h2⟩

theorem mem_getAccounts {E : Env N A K} {fuel : ℕ} {n : N} {l : List A}
    (h : getAccounts E fuel n = .ok l) (a : A) : a ∈ l ↔ LeafBelow E.tree n a := by
  induction fuel generalizing n l a with
  | zero => cases h
  | succ fuel ih =>
    unfold getAccounts at h
    cases hk : E.tree.kind n with
    | leaf b =>
      rw [hk] at h; cases h
      simp only [List.mem_singleton]
      constructor
      · rintro rfl; exact .leaf hk
      · intro h
        cases h with
        | leaf h => rw [hk] at h; cases h; rfl
        | ordered h => rw [hk] at h; cases h
        | weighted h => rw [hk] at h; cases h
    | ordered cs =>
      rw [hk] at h
      simp only [bind_ok_iff] at h
      obtain ⟨ls, h1, h2⟩ := h
      cases h2
      rw [List.mem_flatten]
      constructor
      · rintro ⟨l, hl, ha⟩
        obtain ⟨c, hc, hcl⟩ := mem_mapM h1 hl
        exact .ordered hk hc ((ih hcl a).1 ha)
      · intro h
        cases h with
        | leaf h => rw [hk] at h; cases h
        | ordered h hc hb =>
          rw [hk] at h; cases h
          obtain ⟨l, hl, hcl⟩ := mapM_all h1 hc
          exact ⟨l, hl, (ih hcl a).2 hb⟩
        | weighted h => rw [hk] at h; cases h
    | weighted cs =>
      rw [hk] at h
      simp only [bind_ok_iff] at h
      obtain ⟨ls, h1, h2⟩ := h
      cases h2
      rw [List.mem_flatten]
      constructor
      · rintro ⟨l, hl, ha⟩
        obtain ⟨c, hc, hcl⟩ := mem_mapM h1 hl
        exact .weighted hk hc ((ih hcl a).1 ha)
      · intro h
        cases h with
        | leaf h => rw [hk] at h; cases h
        | weighted h hc hb =>
          rw [hk] at h; cases h
          obtain ⟨l, hl, hcl⟩ := mapM_all h1 hc
          exact ⟨l, hl, (ih hcl a).2 hb⟩
        | ordered h => rw [hk] at h; cases h

/-- Specification: the money one pass sends to an account whose flow is `x` units. -/
def money (E : Env N A K) (total : Ext K) (x : ℤ) : K :=
  if total < .fin 0 then -(E.precision * x) else E.precision * x

theorem convert_spec {E : Env N A K} {lim : Lim} {total : Ext K} {flows : Flows N A}
    {accounts : List A} {r : Dict A (Dict K K)}
    (h : convertFlows E lim total flows accounts = .ok r) :
    Dict.WF r ∧ ∀ a t, Dict.get? r a = some t → a ∈ accounts ∧
      E.txOf a lim (money E total (flowsFrom flows (.acct a))) = .ok t := by
  unfold convertFlows at h
  refine foldlM_inv (fun r => Dict.WF r ∧ ∀ a t, Dict.get? r a = some t → a ∈ accounts ∧
      E.txOf a lim (money E total (flowsFrom flows (.acct a))) = .ok t) h ⟨Dict.wf_nil, by simp⟩ ?_
  rintro b a b' ha ⟨hb1, hb2⟩ h1
  cases hx : Dict.get? flows (.acct a) with
  | none => simp only [hx] at h1; cases h1; exact ⟨hb1, hb2⟩
  | some d =>
    simp only [hx] at h1
    rw [bind_ok_iff] at h1
    obtain ⟨t, h2, h3⟩ := h1
    cases h3
    refine ⟨Dict.wf_set hb1 _ _, ?_⟩
    intro a' t' h4
    rw [Dict.get?_set] at h4
    split_ifs at h4 with h5
    · subst h5; cases h4
      refine ⟨ha, ?_⟩
      rw [← h2]
      simp [amountFor, money, flowsFrom, hx]
    · exact hb2 _ _ h4

/-- Specification: the net amount of account `a` in a result. -/
def given (r : Dict A (Dict K K)) (a : A) : K := Dict.total ((Dict.get? r a).getD [])

/-- Specification: the answers of the flow algorithm are feasible flows, and walking a set
meets nothing that is not in it. -/
structure Sound (E : Env N A K) : Prop where
  solver : ∀ g f, E.solve g = .ok f → Feasible g f
  sets : ∀ l, ∀ c ∈ E.setOrder l, c ∈ l
  accts : ∀ l, ∀ a ∈ E.acctOrder l, a ∈ l

theorem traverse_spec {E : Env N A K} (hE : Sound E) {fuel : ℕ} {lim : Lim} {total : Ext K}
    {memo memo' : Flows N A} {r : Dict A (Dict K K)}
    (h : traverse E fuel lim total memo = .ok (r, memo')) :
    ∃ g f, Shape E lim memo (edgeCapacity (units E.precision total)
        (flowsTo memo .source (.node E.tree.root))) g ∧
      (∃ e, Dict.get? g (.source, .node E.tree.root) = some e) ∧ Feasible g f ∧
      memo' = mergeFlows memo f ∧ Dict.WF r ∧ buildGraph E lim memo fuel total = .ok g ∧
      ∀ a t, Dict.get? r a = some t → LeafBelow E.tree E.tree.root a ∧
        E.txOf a lim (money E total (out g f (.acct a))) = .ok t := by
  unfold traverse at h
  rw [bind_ok_iff] at h
  obtain ⟨g, h1, h⟩ := h
  rw [bind_ok_iff] at h
  obtain ⟨f, h2, h⟩ := h
  rw [bind_ok_iff] at h
  obtain ⟨accounts, h3, h⟩ := h
  rw [bind_ok_iff] at h
  obtain ⟨txs, h4, h⟩ := h
  cases h
  have hf := hE.solver g f h2
  refine ⟨g, f, shape_buildGraph hE.sets h1, has_source hE.sets h1, hf, rfl, (convert_spec h4).1, h1, ?_⟩
  intro a t ht
  obtain ⟨h5, h6⟩ := (convert_spec h4).2 a t ht
  refine ⟨(mem_getAccounts h3 a).1 (List.mem_dedup.1 (hE.accts _ _ h5)), ?_⟩
  rw [← flowsFrom_eq_out hf]
  exact h6

/-- The combination of two entries. -/
def joined : Option (Dict K K) → Option (Dict K K) → Option (Dict K K)
  | some d, some t => some (addTransactions d t)
  | some d, none => some d
  | none, t => t

theorem get?_combineOne (r : Dict A (Dict K K)) (e : A × Dict K K) (a : A) :
    Dict.get? (combineOne r e) a =
      if e.1 = a then joined (Dict.get? r a) (some e.2) else Dict.get? r a := by
  unfold combineOne
  by_cases h : e.1 = a
  · subst h
    cases hx : Dict.get? r e.1 <;> simp [joined]
  · cases hx : Dict.get? r e.1 <;> simp [Dict.get?_set_ne _ _ h, h]

theorem get?_combine (first : Dict A (Dict K K)) (hf : Dict.WF first)
    (second : Dict A (Dict K K)) (a : A) :
    Dict.get? (combine first second) a = joined (Dict.get? second a) (Dict.get? first a) := by
  unfold combine
  induction first generalizing second with
  | nil => simp only [List.foldl_nil, Dict.get?_nil]; cases Dict.get? second a <;> rfl
  | cons e first ih =>
    obtain ⟨h1, h2⟩ := Dict.wf_cons.1 hf
    rw [List.foldl_cons, ih h2, get?_combineOne, Dict.get?_cons]
    by_cases h : e.1 = a
    · subst h
      rw [if_pos rfl, if_pos rfl, Dict.get?_eq_none.2 h1]
      cases Dict.get? second e.1 <;> rfl
    · rw [if_neg h, if_neg h]

theorem given_combine {first second : Dict A (Dict K K)} (hf : Dict.WF first)
    (hs : ∀ a t, Dict.get? second a = some t → Dict.WF t) (a : A) :
    given (combine first second) a = given first a + given second a := by
  unfold given
  rw [get?_combine first hf]
  cases h1 : Dict.get? second a with
  | none => simp [joined]
  | some d =>
    cases h2 : Dict.get? first a with
    | none => simp [joined]
    | some t => simp [joined, Timing.total_add (hs a d h1)]; ring

/-! ### A pass without a finite total

`_inbound_capacity` leaves out edges without a capacity, so an infinite total gives the root
no capacity to hand on. -/

section Zero

variable {E : Env N A K} {lim : Lim}

/-- Nothing can leave the root. -/
def Dead (E : Env N A K) (lim : Lim) (g : Graph N A) : Prop :=
  Shape E lim [] none g ∧
    ∀ v e, Dict.get? g (.limit E.tree.root, v) = some e → e.capacity = some 0

theorem dead_put {g : Graph N A} (hg : Dead E lim g) {u v : G N A} {c w : Option ℤ}
    (hs : Step E lim [] u v c w)
    (h : u = .limit E.tree.root →
      c = some 0 ∨ c = none ∧ ∃ e, Dict.get? g (u, v) = some e) :
    Dead E lim (putEdge g u v c w) := by
  refine ⟨stable_shape.put g u v c w hg.1 hs (fun _ _ => trivial), ?_⟩
  intro v' e he
  unfold putEdge at he
  rw [Dict.get?_set] at he
  split_ifs at he with h1
  · cases h1
    cases he
    rcases h rfl with rfl | ⟨rfl, e, he⟩
    · rfl
    · rw [he]; exact (hg.2 _ _ he : e.capacity = some 0)
  · exact hg.2 _ _ he

theorem stable_dead (hroot : ∀ n, E.tree.root ∉ childNodes E n) :
    Stable E lim [] (· ≠ E.tree.root) (Dead E lim) := by
  refine ⟨fun n _ c hc h => hroot n (h ▸ hc), ?_⟩
  intro g u v c w hg hs hu
  apply dead_put hg hs
  rintro rfl
  exact absurd rfl (hu _ rfl)

theorem stable_dead_has (hroot : ∀ n, E.tree.root ∉ childNodes E n) (k : G N A × G N A) :
    Stable E lim [] (· ≠ E.tree.root)
      (fun g => Dead E lim g ∧ ∃ e, Dict.get? g k = some e) := by
  refine ⟨(stable_dead (lim := lim) hroot).down, ?_⟩
  rintro g u v c w ⟨hg, e, he⟩ hs hu
  refine ⟨(stable_dead hroot).put _ _ _ _ _ hg hs hu, ?_⟩
  have := (stable_has (E := E) (lim := lim) (memo := []) k).put g u v c w (by simp [he]) hs
    (fun _ _ => trivial)
  exact Option.isSome_iff_exists.1 this

theorem pyInt_zero : pyInt (0 : K) = 0 := by simp [pyInt]

theorem addEdge_zero (g : Graph N A) (u v : G N A) (w : Option ℤ) :
    addEdge g u v (Ext.fin (0 : K)) w = putEdge g u v (some 0) w := by
  simp [addEdge, edgeCapacity, flowsTo, pyInt_zero]

theorem dead_inbound {g : Graph N A} (hw : Dict.WF g) (hg : Dead E lim g)
    (hroot : ∀ n, E.tree.root ∉ childNodes E n) : inboundCapacity g (.node E.tree.root) = 0 := by
  unfold inboundCapacity
  apply List.sum_eq_zero
  intro x hx
  obtain ⟨e, he, rfl⟩ := List.mem_map.1 hx
  obtain ⟨h1, h2⟩ := List.mem_filter.1 he
  have h2 : e.1.2 = .node E.tree.root := by simpa using h2
  have h3 := hg.1 e.1 e.2 (Dict.get?_of_mem hw h1)
  obtain ⟨⟨u, v⟩, e⟩ := e
  simp only at h2 h3
  subst h2
  cases u with
  | source => rw [h3.2]; rfl
  | limit n => exact absurd h3 (hroot n)
  | overflow n => exact absurd h3 (hroot n)
  | _ => exact h3.elim

/-- The property that the proof carries. -/
def DeadWF (E : Env N A K) (lim : Lim) (g : Graph N A) : Prop := Dead E lim g ∧ Dict.WF g

theorem deadWF_put {g : Graph N A} (hg : DeadWF E lim g) {u v : G N A} {c w : Option ℤ}
    (hs : Step E lim [] u v c w)
    (h : u = .limit E.tree.root →
      c = some 0 ∨ c = none ∧ ∃ e, Dict.get? g (u, v) = some e) :
    DeadWF E lim (putEdge g u v c w) :=
  ⟨dead_put hg.1 hs h, Dict.wf_set hg.2 _ _⟩

theorem stable_deadWF (hroot : ∀ n, E.tree.root ∉ childNodes E n) (k : G N A × G N A) (b : Bool) :
    Stable E lim [] (· ≠ E.tree.root)
      (fun g => DeadWF E lim g ∧ (b = true → ∃ e, Dict.get? g k = some e)) := by
  refine ⟨(stable_dead (lim := lim) hroot).down, ?_⟩
  rintro g u v c w ⟨⟨hg, hw⟩, he⟩ hs hu
  refine ⟨⟨(stable_dead hroot).put _ _ _ _ _ hg hs hu, Dict.wf_set hw _ _⟩, ?_⟩
  intro hb
  obtain ⟨e, he⟩ := he hb
  exact ((stable_dead_has hroot k).put g u v c w ⟨hg, e, he⟩ hs hu).2

theorem dead_childEdges {ov : Bool} (hroot : ∀ n, E.tree.root ∉ childNodes E n)
    (fuel : ℕ) (k : G N A × G N A) (b : Bool) {g g' : Graph N A} {totals : Dict N K}
    (ht : ∀ e ∈ totals, e.1 ∈ childNodes E E.tree.root ∧ e.2 = 0)
    (hg : DeadWF E lim g ∧ (b = true → ∃ e, Dict.get? g k = some e))
    (h : childEdges (fun g c => addSuccessors E lim [] ov fuel g c none none) E.tree.root g totals
      = .ok g') :
    DeadWF E lim g' ∧ (b = true → ∃ e, Dict.get? g' k = some e) := by
  refine foldlM_inv (fun g => DeadWF E lim g ∧ (b = true → ∃ e, Dict.get? g k = some e)) h hg ?_
  intro g₁ a g₂ ha hg₁ h1
  obtain ⟨ha1, ha2⟩ := ht a ha
  refine stable_addSuccessors (stable_deadWF hroot k b) ov fuel
    (show a.1 ≠ E.tree.root from fun h => hroot _ (h ▸ ha1)) (by simp) ?_ h1
  rw [ha2, addEdge_zero]
  refine ⟨deadWF_put hg₁.1 (.child _ _ _ _ ha1) (fun _ => .inl rfl), ?_⟩
  intro hb
  obtain ⟨e, he⟩ := hg₁.2 hb
  have := (stable_has (E := E) (lim := lim) (memo := []) k).put g₁ _ _ (some 0) none
    (by simp [he]) (.child _ _ 0 none ha1) (fun _ _ => trivial)
  exact Option.isSome_iff_exists.1 this

theorem dead_weightedChildren {ov : Bool} (hroot : ∀ n, E.tree.root ∉ childNodes E n)
    (fuel m : ℕ) (k : G N A × G N A) (b : Bool) {g g' : Graph N A} {children : Dict N K}
    (hc : ∀ e ∈ children, e.1 ∈ childNodes E E.tree.root)
    (hg : DeadWF E lim g ∧ (b = true → ∃ e, Dict.get? g k = some e))
    (h : addWeightedChildren [] (fun g c => addSuccessors E lim [] ov fuel g c none none)
      E.tree.root m g children 0 = .ok g') :
    DeadWF E lim g' ∧ (b = true → ∃ e, Dict.get? g' k = some e) := by
  rw [addWeightedChildren.eq_def] at h
  simp only [flowsToChildren, Dict.get?_nil, ok_bind] at h
  have hz : ∀ e ∈ children.map (fun e : N × K => (e.1, (0 + ((0 : ℤ) : K)) * e.2 /
      Dict.total children - (flowsTo ([] : Flows N A) (.limit E.tree.root) (.node e.1) : K))),
      e.1 ∈ childNodes E E.tree.root ∧ e.2 = 0 := by
    intro e he
    obtain ⟨e', he', rfl⟩ := List.mem_map.1 he
    exact ⟨hc e' he', by simp [flowsTo]⟩
  by_cases h0 : Dict.total children = 0 ∧ children ≠ []
  · rw [if_pos h0] at h; cases h
  rw [if_neg h0, if_neg] at h
  · exact dead_childEdges hroot fuel k b hz hg h
  · rintro ⟨e, he, hlt⟩
    rw [(hz e he).2] at hlt
    exact lt_irrefl _ hlt

theorem dead_addSuccessors (hroot : ∀ n, E.tree.root ∉ childNodes E n)
    (hlim : E.tree.limits E.tree.root lim = none) (ov : Bool) (fuel : ℕ) {g g' : Graph N A}
    {capacity : Option K} {children : Option (Dict N K)}
    (hcap : ∀ x, capacity = some x → x = 0)
    (hc : ∀ ch, children = some ch → ∀ e ∈ ch, e.1 ∈ childNodes E E.tree.root)
    (hg : DeadWF E lim g)
    (h : addSuccessors E lim [] ov fuel g E.tree.root capacity children = .ok g') :
    DeadWF E lim g' := by
  cases fuel with
  | zero => cases h
  | succ fuel =>
    unfold addSuccessors at h
    simp only at h
    have hr : embedLimit E lim [] g E.tree.root
        (capacity.getD (inboundCapacity g (.node E.tree.root) : K)) =
        (putEdge g (.node E.tree.root) (.limit E.tree.root) none none, 0) := by
      unfold embedLimit
      rw [hlim]
      cases capacity with
      | none => simp [dead_inbound hg.2 hg.1 hroot]
      | some x => simp [hcap x rfl]
    rw [hr] at h
    have he : DeadWF E lim (putEdge g (.node E.tree.root) (.limit E.tree.root) none none) :=
      deadWF_put hg (.free _ hlim) (by simp)
    cases hk : E.tree.kind E.tree.root with
    | weighted cs =>
      simp only [hk] at h
      have hcc : ∀ e ∈ children.getD cs, e.1 ∈ childNodes E E.tree.root := by
        cases children with
        | none =>
          intro e he
          simp only [childNodes, hk]
          exact Dict.mem_keys_of_mem he
        | some ch => exact hc ch rfl
      unfold addWeighted at h
      split_ifs at h
      · rw [bind_ok_iff] at h
        obtain ⟨g₁, h1, h2⟩ := h
        have hov : DeadWF E lim (overflowEdges
            (putEdge g (.node E.tree.root) (.limit E.tree.root) none none) E.tree.root
            (children.getD cs) 0) ∧ (true = true → ∃ e, Dict.get? (overflowEdges
            (putEdge g (.node E.tree.root) (.limit E.tree.root) none none) E.tree.root
            (children.getD cs) 0) (.limit E.tree.root, .overflow E.tree.root) = some e) := by
          unfold overflowEdges
          refine foldl_inv (fun g => DeadWF E lim g ∧ (true = true → ∃ e, Dict.get? g
            (.limit E.tree.root, .overflow E.tree.root) = some e)) ?_ ?_
          · rw [addEdge_zero]
            refine ⟨deadWF_put he (.over _ _) fun _ => .inl rfl, fun _ => ?_⟩
            unfold putEdge
            rw [Dict.get?_set_self]
            exact ⟨_, rfl⟩
          · rintro g a ha ⟨hb1, hb2⟩
            rw [addEdge_zero]
            refine ⟨deadWF_put hb1 (.overChild _ _ _ (hcc a ha)) (by simp), fun hb => ?_⟩
            obtain ⟨e, he⟩ := hb2 hb
            exact ⟨e, by unfold putEdge; rw [Dict.get?_set_ne _ _ (by simp)]; exact he⟩
        obtain ⟨hd, hh⟩ := dead_weightedChildren hroot fuel _ _ true hcc hov h1
        obtain ⟨e, hh⟩ := hh rfl
        unfold overflowWeight at h2
        rw [bind_ok_iff] at h2
        obtain ⟨ws, -, h2⟩ := h2
        cases hw : ws.max? with
        | none => rw [hw] at h2; cases h2
        | some w =>
          rw [hw] at h2
          cases h2
          exact deadWF_put hd (.overWeight _ _) fun _ => .inr ⟨rfl, e, hh⟩
      · exact (dead_weightedChildren hroot fuel _ (.source, .sink) false hcc
          ⟨he, by simp⟩ h).1
    | ordered cs =>
      simp only [hk] at h
      rw [bind_ok_iff] at h
      obtain ⟨st, h1, h2⟩ := h
      cases h2
      refine foldlM_inv (fun st => DeadWF E lim st.1) h1 he ?_
      intro b a b' ha hb hstep
      unfold orderedStep at hstep
      rw [bind_ok_iff] at hstep
      obtain ⟨g₁, h3, h4⟩ := hstep
      rw [bind_ok_iff] at h4
      obtain ⟨w, -, h4⟩ := h4
      cases h4
      have ha' : a ∈ childNodes E E.tree.root := by simpa only [childNodes, hk] using ha
      refine (stable_addSuccessors (stable_deadWF hroot (.source, .sink) false) ov fuel
        (show a ≠ E.tree.root from fun h => hroot _ (h ▸ ha')) (by simp) ⟨?_, by simp⟩ h3).1
      rw [addEdge_zero]
      exact deadWF_put hb (.child _ _ _ _ ha') fun _ => .inl rfl
    | leaf a =>
      simp only [hk] at h
      refine (stable_addAccount (stable_deadWF hroot (.source, .sink) false) ⟨?_, by simp⟩ h).1
      rw [addEdge_zero]
      exact deadWF_put he (.leaf _ _ _ hk) fun _ => .inl rfl

/-- No flow leaves the root. -/
theorem dead_flow {g : Graph N A} {f : Flows N A} (hg : Dead E lim g) (hf : Feasible g f)
    (v : G N A) : flow f (.limit E.tree.root) v = 0 := by
  apply le_antisymm _ (hf.nonneg _ _)
  cases hx : Dict.get? g (G.limit E.tree.root, v) with
  | none => rw [hf.edges _ _ hx]
  | some e => exact hf.capacity _ _ e 0 hx (hg.2 v e hx)

theorem dead_overflow {g : Graph N A} {f : Flows N A} (hg : Dead E lim g) (hf : Feasible g f)
    (v : G N A) : flow f (.overflow E.tree.root) v = 0 := by
  have h1 : out g f (.overflow E.tree.root) = 0 := by
    unfold out
    rw [← hf.conserve _ (by simp) (by simp)]
    apply Finset.sum_eq_zero
    intro u _
    by_contra hnz
    obtain ⟨e, -, he⟩ := flow_ne_zero hg.1 hf hnz
    cases u with
    | limit m =>
      have : m = E.tree.root := he
      subst this
      exact hnz (dead_flow hg hf _)
    | _ => exact he
  unfold out at h1
  rw [Finset.sum_eq_zero_iff_of_nonneg fun w _ => hf.nonneg _ w] at h1
  by_cases hv : v ∈ verts g
  · exact h1 v hv
  · apply hf.edges
    cases hx : Dict.get? g (G.overflow E.tree.root, v) with
    | none => rfl
    | some e => exact absurd (mem_verts_left hx).2 hv

theorem flowsAt_zero {f : Flows N A} {u : G N A} (h0 : ∀ v, flow f u v = 0) {children : List N}
    {x : ℤ} (h : flowsAt f u children = .ok x) : x = 0 := by
  unfold flowsAt at h
  rw [bind_ok_iff] at h
  obtain ⟨xs, h1, h2⟩ := h
  cases h2
  apply List.sum_eq_zero
  intro y hy
  obtain ⟨c, -, hc⟩ := mem_mapM h1 hy
  have h3 := h0 (.node c)
  unfold flow flowsTo at h3
  unfold flowAt at hc
  cases hx : Dict.get? f u with
  | none => rw [hx] at hc; cases hc
  | some d =>
    rw [hx] at hc h3
    simp only at hc h3
    unfold Dict.val at h3
    cases hz : Dict.get? d (.node c) with
    | none => rw [hz] at hc; cases hc
    | some z =>
      rw [hz] at hc h3
      cases hc
      simpa using h3

theorem dead_balanceRecurse (hroot : ∀ n, E.tree.root ∉ childNodes E n)
    (hlim : E.tree.limits E.tree.root lim = none) {fuel : ℕ}
    {again : Graph N A → List N → Except PyErr (Graph N A)} {cs : Dict N K} {children : List N}
    {flows : Flows N A} {g g' : Graph N A}
    (hz1 : ∀ v, flow flows (.limit E.tree.root) v = 0)
    (hz2 : ∀ v, flow flows (.overflow E.tree.root) v = 0)
    (ha : ∀ g g', DeadWF E lim g → again g children = .ok g' → DeadWF E lim g')
    (hc : ∀ c ∈ children, c ∈ childNodes E E.tree.root) (hg : DeadWF E lim g)
    (h : balanceRecurse E lim [] fuel again g E.tree.root cs children flows = .ok g') :
    DeadWF E lim g' := by
  unfold balanceRecurse at h
  rw [bind_ok_iff] at h
  obtain ⟨f, hf, h⟩ := h
  rw [bind_ok_iff] at h
  obtain ⟨o, ho, h⟩ := h
  simp only at h
  rw [bind_ok_iff] at h
  obtain ⟨g₁, h1, h⟩ := h
  have e1 := flowsAt_zero hz1 hf
  have e2 := flowsAt_zero hz2 ho
  subst e1 e2
  have hs : DeadWF E lim g₁ := by
    refine dead_addSuccessors hroot hlim false fuel (by simp) ?_ hg h1
    intro ch hch e he
    cases hch
    obtain ⟨c, hc', rfl⟩ := List.mem_map.1 he
    exact hc c hc'
  split_ifs at h
  · refine ha _ _ ?_ h
    refine foldl_inv (DeadWF E lim) hs ?_
    intro b a ha hb
    exact deadWF_put hb (.overChild _ a _ (List.mem_filter.1 ha).1) (by simp)
  · cases h; exact hs

theorem dead_balanceFlows (hsolve : ∀ g f, E.solve g = .ok f → Feasible g f)
    (hset : ∀ l, ∀ c ∈ E.setOrder l, c ∈ l) (hroot : ∀ n, E.tree.root ∉ childNodes E n)
    (hlim : E.tree.limits E.tree.root lim = none) {cs : Dict N K}
    (fuel : ℕ) {g g' : Graph N A} {children : List N} {all : Bool}
    (hc : ∀ c ∈ children, c ∈ childNodes E E.tree.root) (hg : DeadWF E lim g)
    (h : balanceFlows E lim [] E.tree.root cs fuel g children all = .ok g') :
    DeadWF E lim g' := by
  induction fuel generalizing g g' children all with
  | zero => cases h
  | succ fuel ih =>
    unfold balanceFlows at h
    split at h
    · cases h; exact hg
    · rw [bind_ok_iff] at h
      obtain ⟨flows, hsol, h⟩ := h
      have hz1 := dead_flow hg.1 (hsolve _ _ hsol)
      have hz2 := dead_overflow hg.1 (hsolve _ _ hsol)
      rw [bind_ok_iff] at h
      obtain ⟨classes, hcl, h⟩ := h
      have hmem : ∀ e ∈ classes, e.1 ∈ children := by
        intro e he
        obtain ⟨c, hcm, h1⟩ := mem_mapM hcl he
        rw [bind_ok_iff] at h1
        obtain ⟨o, -, h1⟩ := h1
        cases h1; exact hcm
      have hcls : ∀ o, ∀ c ∈ ofClass classes o, c ∈ childNodes E E.tree.root := by
        intro o c h1
        obtain ⟨e, he, rfl⟩ := mem_ofClass h1
        exact hc _ (hmem e he)
      have htail : ∀ u o s, (∀ c ∈ u, c ∈ childNodes E E.tree.root) →
          (∀ c ∈ o, c ∈ childNodes E E.tree.root) → (∀ c ∈ s, c ∈ childNodes E E.tree.root) →
          (do
            let g ← balanceRecurse E lim [] fuel
              (fun g cs' => balanceFlows E lim [] E.tree.root cs fuel g cs' true) g E.tree.root cs
              (E.setOrder (u ++ s)) flows
            let flags ← s.mapM fun c => do
              let b ← stillSaturated g flows E.tree.root c
              Except.ok (c, b)
            balanceRecurse E lim [] fuel
              (fun g cs' => balanceFlows E lim [] E.tree.root cs fuel g cs' true) g E.tree.root cs
              (E.setOrder (o ++ (flags.filter fun e : N × Bool => e.2).map Prod.fst)) flows) =
            .ok g' →
          DeadWF E lim g' := by
        intro u o s hu ho hs h
        rw [bind_ok_iff] at h
        obtain ⟨g₁, hg₁, h⟩ := h
        rw [bind_ok_iff] at h
        obtain ⟨flags, hfl, h⟩ := h
        have hc1 : ∀ c ∈ E.setOrder (u ++ s), c ∈ childNodes E E.tree.root := by
          intro c hcm
          rcases List.mem_append.1 (hset _ _ hcm) with hm | hm
          · exact hu _ hm
          · exact hs _ hm
        have hc2 : ∀ c ∈ E.setOrder (o ++ (flags.filter fun e => e.2).map Prod.fst),
            c ∈ childNodes E E.tree.root := by
          intro c hcm
          rcases List.mem_append.1 (hset _ _ hcm) with hm | hm
          · exact ho _ hm
          · obtain ⟨e, he, rfl⟩ := List.mem_map.1 hm
            obtain ⟨c', hcm', h1⟩ := mem_mapM hfl (List.mem_filter.1 he).1
            rw [bind_ok_iff] at h1
            obtain ⟨o', -, h1⟩ := h1
            cases h1
            exact hs _ hcm'
        exact dead_balanceRecurse hroot hlim hz1 hz2 (fun g g' hg h => ih hc2 hg h) hc2
          (dead_balanceRecurse hroot hlim hz1 hz2 (fun g g' hg h => ih hc1 hg h) hc1 hg hg₁) h
      simp only at h
      by_cases h1 : ofClass classes .lt = [] ∧ ofClass classes .gt = []
      · rw [if_pos h1] at h; cases h; exact hg
      rw [if_neg h1] at h
      by_cases h2 : (ofClass classes .lt = [] ∨ ofClass classes .gt = []) ∧ all = true
      · rw [if_pos h2] at h
        exact dead_balanceRecurse hroot hlim hz1 hz2 (fun g g' hg h => ih hc hg h) hc hg h
      rw [if_neg h2] at h
      by_cases h3 : (ofClass classes .lt = [] ∨ ofClass classes .gt = []) ∧ ofClass classes .eq = []
      · rw [if_pos h3] at h; cases h; exact hg
      rw [if_neg h3] at h
      refine htail _ _ _ ?_ ?_ ?_ h
      · split_ifs
        · exact hcls _
        · exact hcls _
      · split_ifs
        · exact hcls _
        · exact hcls _
      · split_ifs
        · simp
        · exact hcls _

theorem dead_buildGraph (hsolve : ∀ g f, E.solve g = .ok f → Feasible g f)
    (hset : ∀ l, ∀ c ∈ E.setOrder l, c ∈ l) (hroot : ∀ n, E.tree.root ∉ childNodes E n)
    (hlim : E.tree.limits E.tree.root lim = none) {fuel : ℕ} {g : Graph N A}
    (h : buildGraph E lim [] fuel .negInf = .ok g) : Dead E lim g := by
  unfold buildGraph at h
  rw [bind_ok_iff] at h
  obtain ⟨g₁, h1, h2⟩ := h
  have h0 : DeadWF E lim (addEdge [] .source (.node E.tree.root)
      (units E.precision (.negInf : Ext K)) none []) := by
    refine ⟨⟨?_, ?_⟩, Dict.wf_set Dict.wf_nil _ _⟩
    · intro k e hk
      unfold addEdge putEdge at hk
      simp only [Dict.set, Dict.get?_nil, Option.getD_none, Dict.get?_cons] at hk
      split_ifs at hk with h3
      · subst h3
        cases hk
        exact ⟨rfl, rfl⟩
    · intro v e hk
      unfold addEdge putEdge at hk
      simp only [Dict.set, Dict.get?_nil, Option.getD_none, Dict.get?_cons] at hk
      split_ifs at hk with h3
      · cases h3
  have hd := dead_addSuccessors hroot hlim true fuel (by simp) (by simp) h0 h1
  unfold balanceAll at h2
  rw [bind_ok_iff] at h2
  obtain ⟨ns, -, h2⟩ := h2
  refine (foldlM_inv (DeadWF E lim) h2 hd ?_).1
  intro b n b' _ hb h1
  cases hk : E.tree.kind n with
  | weighted cs =>
    simp only [hk] at h1
    by_cases hn : n = E.tree.root
    · subst hn
      refine dead_balanceFlows hsolve hset hroot hlim fuel ?_ hb h1
      intro c hc
      simpa only [childNodes, hk] using hc
    · refine (stable_balanceFlows (stable_deadWF hroot (.source, .sink) false) hset hn fuel ?_
        ⟨hb, by simp⟩ h1).1
      intro c hc
      simpa only [childNodes, hk] using hc
  | leaf a => simp only [hk] at h1; cases h1; exact hb
  | ordered cs => simp only [hk] at h1; cases h1; exact hb

/-- Nothing reaches any account. -/
theorem dead_out {g : Graph N A} {f : Flows N A} (hg : Dead E lim g) (hf : Feasible g f) (a : A) :
    out g f (.acct a) = 0 := by
  apply le_antisymm _ (out_nonneg hf _)
  have h1 := accounts_le_source hg.1 hf {a}
  rw [Finset.sum_singleton] at h1
  refine h1.trans ?_
  -- what enters the root passes through its limit node
  have h2 : flow f .source (.node E.tree.root) ≤ out g f (.node E.tree.root) := by
    unfold out
    rw [← hf.conserve _ (by simp) (by simp)]
    by_cases hv : (G.source : G N A) ∈ verts g
    · exact Finset.single_le_sum (f := fun u => flow f u (.node E.tree.root))
        (fun u _ => hf.nonneg _ _) hv
    · have : flow f .source (.node E.tree.root) = 0 := by
        apply hf.edges
        cases hx : Dict.get? g (G.source, G.node E.tree.root) with
        | none => rfl
        | some e => exact absurd (mem_verts_left hx).1 hv
      rw [this]
      exact Finset.sum_nonneg fun u _ => hf.nonneg _ _
  have h3 : out g f (.limit E.tree.root) = 0 := Finset.sum_eq_zero fun v _ => dead_flow hg hf v
  have h4 : flow f (.node E.tree.root) (.limit E.tree.root) ≤ out g f (.limit E.tree.root) := by
    unfold out
    rw [← hf.conserve _ (by simp) (by simp)]
    by_cases hv : (G.node E.tree.root : G N A) ∈ verts g
    · exact Finset.single_le_sum (f := fun u => flow f u (.limit E.tree.root))
        (fun u _ => hf.nonneg _ _) hv
    · have : flow f (.node E.tree.root) (.limit E.tree.root) = 0 := by
        apply hf.edges
        cases hx : Dict.get? g (G.node E.tree.root, G.limit E.tree.root) with
        | none => rfl
        | some e => exact absurd (mem_verts_left hx).1 hv
      rw [this]
      exact Finset.sum_nonneg fun u _ => hf.nonneg _ _
  rw [out_node hg.1 hf] at h2
  omega

end Zero

theorem flow_le_out {g : Graph N A} {f : Flows N A} (hf : Feasible g f) (u v : G N A)
    (h1 : v ≠ .source) (h2 : v ≠ .sink) : flow f u v ≤ out g f v := by
  unfold out
  rw [← hf.conserve v h1 h2]
  by_cases hv : u ∈ verts g
  · exact Finset.single_le_sum (f := fun u => flow f u v) (fun u _ => hf.nonneg _ _) hv
  · have : flow f u v = 0 := by
      apply hf.edges
      cases hx : Dict.get? g (u, v) with
      | none => rfl
      | some e => exact absurd (mem_verts_left hx).1 hv
    rw [this]
    exact Finset.sum_nonneg fun u _ => hf.nonneg _ _

/-- In a tree without cycles, nothing passes through the nodes if nothing reaches accounts. -/
theorem out_node_zero {E : Env N A K} {lim : Lim} {memo : Flows N A} {src : Option ℤ}
    {g : Graph N A} {f : Flows N A} (hg : Shape E lim memo src g) (hf : Feasible g f)
    (rank : N → ℕ) (hrank : ∀ n, ∀ c ∈ childNodes E n, rank c < rank n)
    (hz : ∀ a, out g f (.acct a) = 0) (n : N) : out g f (.node n) = 0 := by
  induction hr : rank n using Nat.strong_induction_on generalizing n with
  | _ k ih =>
    subst hr
    have hc : ∀ c ∈ childNodes E n, out g f (.node c) = 0 :=
      fun c hc => ih _ (hrank n c hc) c rfl
    have h1 : out g f (.overflow n) = 0 := by
      apply Finset.sum_eq_zero
      intro v _
      by_contra hnz
      obtain ⟨e, -, he⟩ := flow_ne_zero hg hf hnz
      cases v with
      | node c =>
        have h2 := flow_le_out hf (.overflow n) (.node c) (by simp) (by simp)
        rw [hc c he] at h2
        exact hnz (le_antisymm h2 (hf.nonneg _ _))
      | _ => exact he
    have h2 : out g f (.limit n) = 0 := by
      apply Finset.sum_eq_zero
      intro v _
      by_contra hnz
      obtain ⟨e, -, he⟩ := flow_ne_zero hg hf hnz
      cases v with
      | node c =>
        have h2 := flow_le_out hf (.limit n) (.node c) (by simp) (by simp)
        rw [hc c he] at h2
        exact hnz (le_antisymm h2 (hf.nonneg _ _))
      | overflow m =>
        have : n = m := he
        subst this
        have h2 := flow_le_out hf (.limit n) (.overflow n) (by simp) (by simp)
        rw [h1] at h2
        exact hnz (le_antisymm h2 (hf.nonneg _ _))
      | acct a =>
        have h2 := flow_le_out hf (.limit n) (.acct a) (by simp) (by simp)
        rw [hz a] at h2
        exact hnz (le_antisymm h2 (hf.nonneg _ _))
      | _ => exact he
    rw [out_node hg hf]
    have h3 := flow_le_out hf (.node n) (.limit n) (by simp) (by simp)
    rw [h2] at h3
    exact le_antisymm h3 (hf.nonneg _ _)

end Forecaster.Traversal
