import Verif.Model.Node
import Verif.Props.TraversalTotal

/-!
# C94: setting up a traversal

What is written down as a priority tree (accounts, lists, dicts, `TransactionNode`s) is the tree
that is walked: new nodes for new entries, existing nodes as they are, in order and with their
weights; every new node has one parent, so the tree has no cycles (which C42, C70 and C88 ask for).
The default methods ask each account for the limit in question. And what does not work: a
`TransactionNode` as the whole tree, methods of one's own, changing a tree in place.
-/

set_option linter.unusedSectionVars false

namespace Forecaster.Node

open Forecaster Forecaster.Traversal

variable {K : Type} [Field K] [LinearOrder K]
variable {A : Type} [DecidableEq A]

/-! ### Specification -/

mutual

/-- Specification: node `n` of the tree `t` is what was written down. Nodes from number `k` on are
new. An entry that is a node is that node; any other entry has a new node, with the limits `lims`,
of the right kind, and with the right children. -/
def Stands (t : Tree ℕ A K) (k : ℕ) (lims : Lim → Option K) (n : ℕ) : Item A K → Prop
  | .node m => n = m
  | .acct a => k ≤ n ∧ t.limits n = lims ∧ t.kind n = .leaf a
  | .list cs => k ≤ n ∧ t.limits n = lims ∧ ∃ ns, t.kind n = .ordered ns ∧ StandAll t k ns cs
  | .dict cs => k ≤ n ∧ t.limits n = lims ∧ ∃ ws, t.kind n = .weighted ws ∧ StandWeighted t k ws cs

/-- The children of a list: one node for each entry, in order, without limits if new. -/
def StandAll (t : Tree ℕ A K) (k : ℕ) : List ℕ → List (Item A K) → Prop
  | ns, [] => ns = []
  | ns, c :: cs => ∃ n ns', ns = n :: ns' ∧ Stands t k (fun _ => none) n c ∧ StandAll t k ns' cs

/-- The children of a dict: one node for each key, with the key's weight. -/
def StandWeighted (t : Tree ℕ A K) (k : ℕ) : Dict ℕ K → List (Item A K × K) → Prop
  | ws, [] => ws = []
  | ws, (c, w) :: cs => ∃ n ws', ws = (n, w) :: ws' ∧ Stands t k (fun _ => none) n c ∧
      StandWeighted t k ws' cs

end

/-- The nodes among the keys of a dict. -/
def nodeKeys : List (Item A K × K) → List ℕ
  | [] => []
  | (.node n, _) :: cs => n :: nodeKeys cs
  | _ :: cs => nodeKeys cs

mutual

/-- Specification: a tree that can be written down when there are `k` nodes: the nodes in it exist,
and no node is twice a key of the same dict. -/
def Written (k : ℕ) : Item A K → Prop
  | .node n => n < k
  | .acct _ => True
  | .list cs => WrittenAll k cs
  | .dict cs => WrittenKeys k cs ∧ (nodeKeys cs).Nodup

/-- All entries of a list. -/
def WrittenAll (k : ℕ) : List (Item A K) → Prop
  | [] => True
  | c :: cs => Written k c ∧ WrittenAll k cs

/-- All keys of a dict. -/
def WrittenKeys (k : ℕ) : List (Item A K × K) → Prop
  | [] => True
  | (c, _) :: cs => Written k c ∧ WrittenKeys k cs

end

/-- The children of a node of the heap. -/
def kids (h : Heap A K) (p : ℕ) : List ℕ :=
  match (h[p]?).bind Obj.children with
  | some (.tuple cs) => cs
  | some (.dict cs) => Dict.keys cs
  | none => []

/-! ### What stays when nodes are added -/

theorem tree_kind_append {h x : Heap A K} {r r' p : ℕ} (hp : p < h.length) :
    (treeOf (h ++ x) r).kind p = (treeOf h r').kind p := by
  simp only [treeOf, List.getElem?_append_left hp]

theorem tree_limits_append {h x : Heap A K} {r r' p : ℕ} (hp : p < h.length) :
    (treeOf (h ++ x) r).limits p = (treeOf h r').limits p := by
  funext lim
  simp only [treeOf, List.getElem?_append_left hp]

theorem kids_append {h x : Heap A K} {p : ℕ} (hp : p < h.length) : kids (h ++ x) p = kids h p := by
  simp only [kids, List.getElem?_append_left hp]

theorem tree_last {h x : Heap A K} {o : Obj A K} {r : ℕ} :
    (h ++ [o] ++ x)[h.length]? = some o := by
  simp

theorem kids_last {h : Heap A K} {o : Obj A K} : kids (h ++ [o]) h.length =
    match o.children with
    | some (.tuple cs) => cs
    | some (.dict cs) => Dict.keys cs
    | none => [] := by
  simp only [kids, List.getElem?_concat_length, Option.bind_some]

theorem kids_none {h : Heap A K} {p : ℕ} (hp : h.length ≤ p) : kids h p = [] := by
  simp [kids, List.getElem?_eq_none hp]

/-! ### The heap only grows; the new part is tidy -/

/-- The nodes from number `b` on: their children are below them and are nodes made before `k` or
since `b`; each of the latter has one parent, which has it once. -/
structure Neat (k b : ℕ) (h : Heap A K) : Prop where
  below : ∀ p, b ≤ p → ∀ c ∈ kids h p, c < p ∧ (c < k ∨ b ≤ c)
  one : ∀ p q c, b ≤ p → b ≤ q → b ≤ c → c ∈ kids h p → c ∈ kids h q → p = q
  once : ∀ p, b ≤ p → ((kids h p).filter fun c => decide (b ≤ c)).Nodup

/-- A node that has no parent yet (among those from `b` on), or one made before `k`. -/
def Loose (k b : ℕ) (h : Heap A K) (n : ℕ) : Prop :=
  n < k ∨ (b ≤ n ∧ n < h.length ∧ ∀ p, b ≤ p → n ∉ kids h p)

theorem neat_nil {k : ℕ} {h : Heap A K} : Neat k h.length h :=
  ⟨fun p hp c hc => by simp [kids_none hp] at hc, fun p _ c hp _ _ hc => by simp [kids_none hp] at hc,
    fun p hp => by simp [kids_none hp]⟩

/-- Two pieces of heap. -/
theorem neat_append {k b : ℕ} {h e : Heap A K} (hk : k ≤ b) (hb : b ≤ h.length) (H1 : Neat k b h)
    (H2 : Neat k h.length (h ++ e)) : Neat k b (h ++ e) := by
  have first : ∀ p, p < h.length → kids (h ++ e) p = kids h p := fun p hp => kids_append hp
  constructor
  · intro p hp c hc
    by_cases hph : p < h.length
    · rw [first p hph] at hc; exact H1.below p hp c hc
    · obtain ⟨h1, h2⟩ := H2.below p (not_lt.1 hph) c hc
      exact ⟨h1, h2.imp_right (by omega)⟩
  · intro p q c hp hq hc hcp hcq
    by_cases hph : p < h.length <;> by_cases hqh : q < h.length
    · rw [first _ hph] at hcp; rw [first _ hqh] at hcq
      exact H1.one p q c hp hq hc hcp hcq
    · rw [first _ hph] at hcp
      have h1 := (H1.below p hp c hcp).1
      rcases (H2.below q (not_lt.1 hqh) c hcq).2 with h2 | h2 <;> omega
    · rw [first _ hqh] at hcq
      have h1 := (H1.below q hq c hcq).1
      rcases (H2.below p (not_lt.1 hph) c hcp).2 with h2 | h2 <;> omega
    · by_cases hch : h.length ≤ c
      · exact H2.one p q c (not_lt.1 hph) (not_lt.1 hqh) hch hcp hcq
      · rcases (H2.below p (not_lt.1 hph) c hcp).2 with h2 | h2 <;> omega
  · intro p hp
    by_cases hph : p < h.length
    · rw [first p hph]; exact H1.once p hp
    · have e1 : ((kids (h ++ e) p).filter fun c => decide (b ≤ c)) =
          (kids (h ++ e) p).filter fun c => decide (h.length ≤ c) := by
        refine List.filter_congr fun c hc => ?_
        rcases (H2.below p (not_lt.1 hph) c hc).2 with h2 | h2
        · simp only [decide_eq_decide]; omega
        · simp only [decide_eq_decide]; omega
      rw [e1]
      exact H2.once p (not_lt.1 hph)

theorem loose_append_left {k b : ℕ} {h e : Heap A K} (hk : k ≤ b) (hb : b ≤ h.length)
    (H2 : Neat k h.length (h ++ e)) {n : ℕ} (hn : Loose k b h n) : Loose k b (h ++ e) n := by
  refine hn.imp_right fun ⟨h1, h2, h3⟩ => ⟨h1, by simp; omega, fun p hp hc => ?_⟩
  by_cases hph : p < h.length
  · rw [kids_append hph] at hc; exact h3 p hp hc
  · rcases (H2.below p (not_lt.1 hph) n hc).2 with h4 | h4 <;> omega

theorem loose_append_right {k b : ℕ} {h e : Heap A K} (hb : b ≤ h.length)
    (H1 : Neat k b h) {n : ℕ} (hn : Loose k h.length (h ++ e) n) : Loose k b (h ++ e) n := by
  refine hn.imp_right fun ⟨h1, h2, h3⟩ => ⟨by omega, h2, fun p hp hc => ?_⟩
  by_cases hph : p < h.length
  · rw [kids_append hph] at hc
    have := (H1.below p hp n hc).1
    omega
  · exact h3 p (not_lt.1 hph) hc

/-- A parent on top. -/
theorem neat_parent {k b : ℕ} {h : Heap A K} (hk : k ≤ b) (hb : b ≤ h.length) (H : Neat k b h)
    {o : Obj A K} {ns : List ℕ} (hns : kids (h ++ [o]) h.length = ns)
    (hl : ∀ n ∈ ns, Loose k b h n) (hd : (ns.filter fun c => decide (b ≤ c)).Nodup) :
    Neat k b (h ++ [o]) ∧ Loose k b (h ++ [o]) h.length := by
  have first : ∀ p, p < h.length → kids (h ++ [o]) p = kids h p := fun p hp => kids_append hp
  have last : ∀ p, h.length < p → kids (h ++ [o]) p = [] := fun p hp => kids_none (by simp; omega)
  have hlt : ∀ n ∈ ns, n < h.length := by
    intro n hn
    rcases hl n hn with h1 | ⟨-, h1, -⟩ <;> omega
  have top : ∀ p, p ≠ h.length → ∀ c ∈ kids (h ++ [o]) p, p < h.length ∧ c ∈ kids h p := by
    intro p hp c hc
    rcases lt_or_gt_of_ne hp with h1 | h1
    · exact ⟨h1, by rwa [first p h1] at hc⟩
    · rw [last p h1] at hc; simp at hc
  refine ⟨⟨?_, ?_, ?_⟩, .inr ⟨hb, by simp, ?_⟩⟩
  · intro p hp c hc
    by_cases hpe : p = h.length
    · subst hpe
      rw [hns] at hc
      exact ⟨hlt c hc, (hl c hc).imp_right fun h => h.1⟩
    · exact H.below p hp c (top p hpe c hc).2
  · intro p q c hp hq hc hcp hcq
    by_cases hpe : p = h.length <;> by_cases hqe : q = h.length
    · rw [hpe, hqe]
    · subst hpe
      rw [hns] at hcp
      rcases hl c hcp with h1 | ⟨-, -, h1⟩
      · omega
      · exact absurd (top q hqe c hcq).2 (h1 q hq)
    · subst hqe
      rw [hns] at hcq
      rcases hl c hcq with h1 | ⟨-, -, h1⟩
      · omega
      · exact absurd (top p hpe c hcp).2 (h1 p hp)
    · exact H.one p q c hp hq hc (top p hpe c hcp).2 (top q hqe c hcq).2
  · intro p hp
    by_cases hpe : p = h.length
    · subst hpe; rw [hns]; exact hd
    · rcases lt_or_gt_of_ne hpe with h1 | h1
      · rw [first p h1]; exact H.once p hp
      · rw [last p h1]; simp
  · intro p hp hc
    by_cases hpe : p = h.length
    · subst hpe; rw [hns] at hc; exact absurd (hlt _ hc) (lt_irrefl _)
    · have h1 := H.below p hp _ (top p hpe _ hc).2
      have h2 := (top p hpe _ hc).1
      omega

mutual

theorem build_grows (lt : LimitTuple (Option K)) : ∀ (s : Item A K) (h : Heap A K),
    ∃ e, (build h lt s).1 = h ++ e
  | .node n, h => ⟨[], by simp [build]⟩
  | .acct a, h => ⟨_, by rw [build]⟩
  | .list cs, h => by
    obtain ⟨e, he⟩ := buildTuple_grows cs h
    exact ⟨e ++ [⟨.list cs, lt, some (.tuple (buildTuple h cs).2)⟩], by
      rw [build]; simp only [he, List.append_assoc]⟩
  | .dict cs, h => by
    obtain ⟨e, he⟩ := buildDict_grows cs h []
    exact ⟨e ++ [⟨.dict cs, lt, some (.dict (buildDict h [] cs).2)⟩], by
      rw [build]; simp only [he, List.append_assoc]⟩

theorem buildTuple_grows : ∀ (cs : List (Item A K)) (h : Heap A K),
    ∃ e, (buildTuple h cs).1 = h ++ e
  | [], h => ⟨[], by simp [buildTuple]⟩
  | c :: cs, h => by
    obtain ⟨e, he⟩ := build_grows noLimits c h
    obtain ⟨e', he'⟩ := buildTuple_grows cs (build h noLimits c).1
    exact ⟨e ++ e', by
      rw [buildTuple]; simp only; rw [he', he, List.append_assoc]⟩

theorem buildDict_grows : ∀ (cs : List (Item A K × K)) (h : Heap A K) (d : Dict ℕ K),
    ∃ e, (buildDict h d cs).1 = h ++ e
  | [], h, d => ⟨[], by simp [buildDict]⟩
  | (c, w) :: cs, h, d => by
    obtain ⟨e, he⟩ := build_grows noLimits c h
    obtain ⟨e', he'⟩ := buildDict_grows cs (build h noLimits c).1
      (Dict.set d (build h noLimits c).2 w)
    exact ⟨e ++ e', by
      rw [buildDict, he', he, List.append_assoc]⟩

end

/-- The number of a new node is not in use. -/
theorem build_number (lt : LimitTuple (Option K)) (s : Item A K) (h : Heap A K) :
    (∃ n, s = .node n ∧ build h lt s = (h, n)) ∨
    ((∀ n, s ≠ .node n) ∧ h.length ≤ (build h lt s).2 ∧
      (build h lt s).2 + 1 = (build h lt s).1.length) := by
  cases s with
  | node n => exact .inl ⟨n, rfl, by rw [build]⟩
  | acct a => exact .inr ⟨by simp, by rw [build], by rw [build]; simp⟩
  | list cs =>
    obtain ⟨e, he⟩ := buildTuple_grows cs h
    exact .inr ⟨by simp, by rw [build]; simp [he], by rw [build]; simp⟩
  | dict cs =>
    obtain ⟨e, he⟩ := buildDict_grows cs h []
    exact .inr ⟨by simp, by rw [build]; simp [he], by rw [build]; simp⟩

theorem nodeKeys_lt {k : ℕ} : ∀ cs : List (Item A K × K), WrittenKeys k cs →
    ∀ n ∈ nodeKeys cs, n < k := by
  intro cs
  induction cs with
  | nil => intro _ n hn; simp [nodeKeys] at hn
  | cons x cs ih =>
    obtain ⟨c', w'⟩ := x
    intro hx n hn
    rw [WrittenKeys] at hx
    cases c' with
    | node m =>
      simp only [nodeKeys, List.mem_cons] at hn
      rcases hn with rfl | hn
      · simpa [Written] using hx.1
      · exact ih hx.2 n hn
    | acct a => exact ih hx.2 n (by simpa [nodeKeys] using hn)
    | list l => exact ih hx.2 n (by simpa [nodeKeys] using hn)
    | dict l => exact ih hx.2 n (by simpa [nodeKeys] using hn)

theorem nodeKeys_nodup {c : Item A K} {w : K} {cs : List (Item A K × K)}
    (h : (nodeKeys ((c, w) :: cs)).Nodup) : (nodeKeys cs).Nodup := by
  cases c <;> simp only [nodeKeys, List.nodup_cons] at h <;> tauto

/-- The children of a dict, built from an empty `children`: one for each key. -/
theorem buildDict_children {k : ℕ} : ∀ (cs : List (Item A K × K)) (h : Heap A K) (d : Dict ℕ K),
    k ≤ h.length → WrittenKeys k cs → (nodeKeys cs).Nodup →
    (∀ n ∈ Dict.keys d, n < h.length ∧ n ∉ nodeKeys cs) →
    ∃ ws, (buildDict h d cs).2 = d ++ ws ∧ ∀ d', (∀ n ∈ Dict.keys d', n < h.length ∧ n ∉ nodeKeys cs) →
      buildDict h d' cs = ((buildDict h d cs).1, d' ++ ws)
  | [], h, d, _, _, _, _ => ⟨[], by simp [buildDict], fun d' _ => by simp [buildDict]⟩
  | (c, w) :: cs, h, d, hk, hw, hnd, hd => by
    rw [WrittenKeys] at hw
    set b := build h noLimits c with hb
    obtain ⟨e, he⟩ := build_grows noLimits c h
    rw [← hb] at he
    have hlen : h.length ≤ b.1.length := by rw [he]; simp
    have hnd' := nodeKeys_nodup hnd
    have hsub : ∀ n, n ∉ nodeKeys ((c, w) :: cs) → n ∉ nodeKeys cs := by
      intro n hn
      cases c <;> simp only [nodeKeys, List.mem_cons, not_or] at hn <;> tauto
    have hnew : b.2 < b.1.length ∧ b.2 ∉ nodeKeys cs ∧
        ∀ d' : Dict ℕ K, (∀ n ∈ Dict.keys d', n < h.length ∧ n ∉ nodeKeys ((c, w) :: cs)) →
          b.2 ∉ Dict.keys d' := by
      rcases build_number noLimits c h with ⟨n, rfl, hn⟩ | ⟨hc, h1, h2⟩
      · rw [← hb] at hn
        rw [hn]
        have h3 : n < k := by simpa [Written] using hw.1
        simp only [nodeKeys, List.nodup_cons] at hnd
        refine ⟨by simp only; omega, hnd.1, fun d' hd' hm => ?_⟩
        exact (hd' _ hm).2 (by simp [nodeKeys])
      · rw [← hb] at h1 h2
        refine ⟨by omega, fun hm => ?_, fun d' hd' hm => ?_⟩
        · have := nodeKeys_lt cs hw.2 _ hm
          omega
        · have := (hd' _ hm).1
          omega
    have step : ∀ d' : Dict ℕ K, (∀ n ∈ Dict.keys d', n < h.length ∧ n ∉ nodeKeys ((c, w) :: cs)) →
        Dict.set d' b.2 w = d' ++ [(b.2, w)] ∧
        ∀ n ∈ Dict.keys (d' ++ [(b.2, w)]), n < b.1.length ∧ n ∉ nodeKeys cs := by
      intro d' hd'
      refine ⟨Dict.set_of_not_mem _ (hnew.2.2 d' hd'), fun n hn => ?_⟩
      simp only [Dict.keys, List.map_append, List.map_cons, List.map_nil, List.mem_append,
        List.mem_singleton] at hn
      rcases hn with hn | rfl
      · exact ⟨lt_of_lt_of_le (hd' n hn).1 hlen, hsub n (hd' n hn).2⟩
      · exact ⟨hnew.1, hnew.2.1⟩
    obtain ⟨s1, s2⟩ := step d hd
    obtain ⟨ws, h1, h2⟩ := buildDict_children cs b.1 (d ++ [(b.2, w)]) (hk.trans hlen) hw.2 hnd' s2
    refine ⟨(b.2, w) :: ws, ?_, fun d' hd' => ?_⟩
    · rw [buildDict]
      simp only [← hb, s1, h1, List.append_assoc, List.singleton_append]
    · obtain ⟨s3, s4⟩ := step d' hd'
      rw [buildDict, buildDict]
      simp only [← hb, s1, s3, h2 _ s4, List.append_assoc, List.singleton_append]

/-- The first key of a dict comes first. -/
theorem buildDict_cons {k : ℕ} {c : Item A K} {w : K} {cs : List (Item A K × K)} {h : Heap A K}
    (hk : k ≤ h.length) (hw : Written k c ∧ WrittenKeys k cs)
    (hnd : (nodeKeys ((c, w) :: cs)).Nodup) :
    buildDict h [] ((c, w) :: cs) = ((buildDict (build h noLimits c).1 [] cs).1,
      ((build h noLimits c).2, w) :: (buildDict (build h noLimits c).1 [] cs).2) := by
  have hnd' := nodeKeys_nodup hnd
  obtain ⟨e, he⟩ := build_grows noLimits c h
  have hlen : h.length ≤ (build h noLimits c).1.length := by rw [he]; simp
  have hone : (build h noLimits c).2 < (build h noLimits c).1.length ∧
      (build h noLimits c).2 ∉ nodeKeys cs := by
    rcases build_number noLimits c h with ⟨n, rfl, hn⟩ | ⟨hc, h1, h2⟩
    · rw [hn]
      have h3 : n < k := by simpa [Written] using hw.1
      simp only [nodeKeys, List.nodup_cons] at hnd
      exact ⟨by simp only; omega, hnd.1⟩
    · refine ⟨by omega, fun hm => ?_⟩
      have := nodeKeys_lt cs hw.2 _ hm
      omega
  obtain ⟨ws', h1, h2⟩ := buildDict_children cs (build h noLimits c).1 [] (hk.trans hlen) hw.2 hnd'
    (by simp [Dict.keys])
  have h3 := h2 [((build h noLimits c).2, w)] (by
    intro n hn
    simp only [Dict.keys, List.map_cons, List.map_nil, List.mem_singleton] at hn
    rw [hn]; exact hone)
  rw [buildDict]
  simp only [Dict.set] at h3 ⊢
  rw [h3, h1]
  rfl

mutual

/-- Building keeps the heap neat and returns a node without a parent. -/
theorem build_neat {k : ℕ} (lt : LimitTuple (Option K)) : ∀ (s : Item A K) (h : Heap A K),
    k ≤ h.length → Written k s →
    Neat k h.length (build h lt s).1 ∧ Loose k h.length (build h lt s).1 (build h lt s).2
  | .node n, h, _, hw => by
    rw [build]
    exact ⟨neat_nil, .inl (by simpa [Written] using hw)⟩
  | .acct a, h, hk, _ => by
    rw [build]
    exact neat_parent hk le_rfl neat_nil (ns := []) (by rw [kids_last]) (by simp) (by simp)
  | .list cs, h, hk, hw => by
    rw [Written] at hw
    obtain ⟨H, hl, hd⟩ := buildTuple_neat cs h hk hw
    obtain ⟨e, he⟩ := buildTuple_grows cs h
    rw [build]
    exact neat_parent hk (by rw [he]; simp) H (by rw [kids_last]) hl hd
  | .dict cs, h, hk, hw => by
    rw [Written] at hw
    obtain ⟨H, hl, hd⟩ := buildDict_neat cs h hk hw.1 hw.2
    obtain ⟨e, he⟩ := buildDict_grows cs h []
    rw [build]
    exact neat_parent hk (by rw [he]; simp) H (by rw [kids_last]) hl hd

theorem buildTuple_neat {k : ℕ} : ∀ (cs : List (Item A K)) (h : Heap A K),
    k ≤ h.length → WrittenAll k cs →
    Neat k h.length (buildTuple h cs).1 ∧
    (∀ n ∈ (buildTuple h cs).2, Loose k h.length (buildTuple h cs).1 n) ∧
    ((buildTuple h cs).2.filter fun c => decide (h.length ≤ c)).Nodup
  | [], h, _, _ => by
    rw [buildTuple]
    exact ⟨neat_nil, by simp, by simp⟩
  | c :: cs, h, hk, hw => by
    rw [WrittenAll] at hw
    obtain ⟨H1, L1⟩ := build_neat noLimits c h hk hw.1
    obtain ⟨e, he⟩ := build_grows noLimits c h
    have hlen : h.length ≤ (build h noLimits c).1.length := by rw [he]; simp
    obtain ⟨H2, L2, N2⟩ := buildTuple_neat cs (build h noLimits c).1 (hk.trans hlen) hw.2
    obtain ⟨e', he'⟩ := buildTuple_grows cs (build h noLimits c).1
    rw [buildTuple]
    simp only
    rw [he'] at H2 L2 ⊢
    refine ⟨neat_append hk hlen H1 H2, ?_, ?_⟩
    · intro n hn
      rcases List.mem_cons.1 hn with rfl | hn
      · exact loose_append_left hk hlen H2 L1
      · exact loose_append_right hlen H1 (L2 n hn)
    · have e1 : ((buildTuple (build h noLimits c).1 cs).2.filter fun c => decide (h.length ≤ c)) =
          (buildTuple (build h noLimits c).1 cs).2.filter
            fun c' => decide ((build h noLimits c).1.length ≤ c') := by
        refine List.filter_congr fun n hn => ?_
        simp only [decide_eq_decide]
        rcases L2 n hn with h1 | ⟨h1, -⟩ <;> omega
      rw [List.filter_cons]
      split_ifs with h1
      · refine List.nodup_cons.2 ⟨fun hm => ?_, by rw [e1]; exact N2⟩
        rw [e1, List.mem_filter] at hm
        have h2 := of_decide_eq_true hm.2
        have h3 : (build h noLimits c).2 < (build h noLimits c).1.length := by
          rcases L1 with h3 | ⟨-, h3, -⟩ <;> omega
        omega
      · rw [e1]; exact N2

theorem buildDict_neat {k : ℕ} : ∀ (cs : List (Item A K × K)) (h : Heap A K),
    k ≤ h.length → WrittenKeys k cs → (nodeKeys cs).Nodup →
    Neat k h.length (buildDict h [] cs).1 ∧
    (∀ n ∈ Dict.keys (buildDict h [] cs).2, Loose k h.length (buildDict h [] cs).1 n) ∧
    ((Dict.keys (buildDict h [] cs).2).filter fun c => decide (h.length ≤ c)).Nodup
  | [], h, _, _, _ => by
    rw [buildDict]
    exact ⟨neat_nil, by simp [Dict.keys], by simp [Dict.keys]⟩
  | (c, w) :: cs, h, hk, hw, hnd => by
    rw [WrittenKeys] at hw
    obtain ⟨H1, L1⟩ := build_neat noLimits c h hk hw.1
    obtain ⟨e, he⟩ := build_grows noLimits c h
    have hlen : h.length ≤ (build h noLimits c).1.length := by rw [he]; simp
    have hnd' := nodeKeys_nodup hnd
    obtain ⟨H2, L2, N2⟩ := buildDict_neat cs (build h noLimits c).1 (hk.trans hlen) hw.2 hnd'
    obtain ⟨e', he'⟩ := buildDict_grows cs (build h noLimits c).1 []
    have h4 := buildDict_cons hk hw hnd
    rw [h4]
    simp only [Dict.keys, List.map_cons] at L2 N2 ⊢
    rw [he'] at H2 L2 ⊢
    refine ⟨neat_append hk hlen H1 H2, ?_, ?_⟩
    · intro n hn
      rcases List.mem_cons.1 hn with rfl | hn
      · exact loose_append_left hk hlen H2 L1
      · exact loose_append_right hlen H1 (L2 n hn)
    · have e1 : ((List.map Prod.fst (buildDict (build h noLimits c).1 [] cs).2).filter
            fun c => decide (h.length ≤ c)) =
          (List.map Prod.fst (buildDict (build h noLimits c).1 [] cs).2).filter
            fun c' => decide ((build h noLimits c).1.length ≤ c') := by
        refine List.filter_congr fun n hn => ?_
        simp only [decide_eq_decide]
        rcases L2 n hn with h1 | ⟨h1, -⟩ <;> omega
      rw [List.filter_cons]
      split_ifs with h1
      · refine List.nodup_cons.2 ⟨fun hm => ?_, by rw [e1]; exact N2⟩
        rw [e1, List.mem_filter] at hm
        have h2 := of_decide_eq_true hm.2
        have h3 : (build h noLimits c).2 < (build h noLimits c).1.length := by
          rcases L1 with h3 | ⟨-, h3, -⟩ <;> omega
        omega
      · rw [e1]; exact N2

end


/-! ### The tree is what was written down -/

mutual

theorem build_stands {k : ℕ} (lt : LimitTuple (Option K)) : ∀ (s : Item A K) (h x : Heap A K) (r : ℕ),
    k ≤ h.length → Written k s →
    Stands (treeOf ((build h lt s).1 ++ x) r) k lt.get (build h lt s).2 s
  | .node n, h, x, r, _, _ => by rw [build, Stands]
  | .acct a, h, x, r, hk, _ => by
    rw [build, Stands]
    refine ⟨hk, ?_, ?_⟩
    · funext lim; simp [treeOf]
    · simp [treeOf]
  | .list cs, h, x, r, hk, hw => by
    rw [Written] at hw
    obtain ⟨e, he⟩ := buildTuple_grows cs h
    have h1 := buildTuple_stands cs h ([⟨.list cs, lt, some (.tuple (buildTuple h cs).2)⟩] ++ x) r hk hw
    rw [build, Stands]
    refine ⟨by rw [he]; simp; omega, ?_, (buildTuple h cs).2, ?_, ?_⟩
    · funext lim; simp [treeOf]
    · simp [treeOf]
    · rw [List.append_assoc]; exact h1
  | .dict cs, h, x, r, hk, hw => by
    rw [Written] at hw
    obtain ⟨e, he⟩ := buildDict_grows cs h []
    have h1 := buildDict_stands cs h ([⟨.dict cs, lt, some (.dict (buildDict h [] cs).2)⟩] ++ x) r hk
      hw.1 hw.2
    rw [build, Stands]
    refine ⟨by rw [he]; simp; omega, ?_, (buildDict h [] cs).2, ?_, ?_⟩
    · funext lim; simp [treeOf]
    · simp [treeOf]
    · rw [List.append_assoc]; exact h1

theorem buildTuple_stands {k : ℕ} : ∀ (cs : List (Item A K)) (h x : Heap A K) (r : ℕ),
    k ≤ h.length → WrittenAll k cs →
    StandAll (treeOf ((buildTuple h cs).1 ++ x) r) k (buildTuple h cs).2 cs
  | [], h, x, r, _, _ => by rw [buildTuple, StandAll]
  | c :: cs, h, x, r, hk, hw => by
    rw [WrittenAll] at hw
    obtain ⟨e, he⟩ := build_grows noLimits c h
    obtain ⟨e', he'⟩ := buildTuple_grows cs (build h noLimits c).1
    have hlen : h.length ≤ (build h noLimits c).1.length := by rw [he]; simp
    have h1 := build_stands noLimits c h (e' ++ x) r hk hw.1
    have h2 := buildTuple_stands cs (build h noLimits c).1 x r (hk.trans hlen) hw.2
    rw [buildTuple, StandAll]
    refine ⟨_, _, rfl, ?_, h2⟩
    rw [he', List.append_assoc]
    have h3 : (noLimits : LimitTuple (Option K)).get = fun _ => none := by
      funext lim; cases lim <;> rfl
    rw [← h3]
    exact h1

theorem buildDict_stands {k : ℕ} : ∀ (cs : List (Item A K × K)) (h x : Heap A K) (r : ℕ),
    k ≤ h.length → WrittenKeys k cs → (nodeKeys cs).Nodup →
    StandWeighted (treeOf ((buildDict h [] cs).1 ++ x) r) k (buildDict h [] cs).2 cs
  | [], h, x, r, _, _, _ => by rw [buildDict, StandWeighted]
  | (c, w) :: cs, h, x, r, hk, hw, hnd => by
    rw [WrittenKeys] at hw
    obtain ⟨e, he⟩ := build_grows noLimits c h
    obtain ⟨e', he'⟩ := buildDict_grows cs (build h noLimits c).1 []
    have hlen : h.length ≤ (build h noLimits c).1.length := by rw [he]; simp
    have h1 := build_stands noLimits c h (e' ++ x) r hk hw.1
    have h2 := buildDict_stands cs (build h noLimits c).1 x r (hk.trans hlen) hw.2
      (nodeKeys_nodup hnd)
    rw [buildDict_cons hk hw hnd, StandWeighted]
    refine ⟨_, _, rfl, ?_, h2⟩
    simp only
    rw [he', List.append_assoc]
    have h3 : (noLimits : LimitTuple (Option K)).get = fun _ => none := by
      funext lim; cases lim <;> rfl
    rw [← h3]
    exact h1

end

/-- Specification: the place of a limit in the argument `limits`. -/
def place : Lim → ℕ
  | .minIn => 0
  | .maxIn => 1
  | .minOut => 2
  | .maxOut => 3

/-- Specification: the limits that an argument `limits` of `TransactionNode` sets. -/
def asked (limits : Option (List (Option K))) (lim : Lim) : Option K :=
  (limits.bind fun l => l[place lim]?).join

theorem limitTuple_get {l : List (Option K)} {t : LimitTuple (Option K)}
    (h : limitTuple none l = .ok t) : t.get = asked (some l) := by
  funext lim
  match l with
  | [] => cases h; cases lim <;> rfl
  | [a] => cases h; cases lim <;> rfl
  | [a, b] => cases h; cases lim <;> rfl
  | [a, b, c] => cases h; cases lim <;> rfl
  | [a, b, c, d] => cases h; cases lim <;> rfl
  | a :: b :: c :: d :: e :: l => simp [limitTuple] at h

theorem limitTuple_ok {V : Type} (v : V) (l : List V) :
    (∃ t, limitTuple v l = .ok t) ↔ l.length ≤ 4 := by
  match l with
  | [] => simp [limitTuple]
  | [a] => simp [limitTuple]
  | [a, b] => simp [limitTuple]
  | [a, b, c] => simp [limitTuple]
  | [a, b, c, d] => simp [limitTuple]
  | a :: b :: c :: d :: e :: l => simp [limitTuple]

theorem limitTuple_error {V : Type} (v : V) (l : List V) (h : 4 < l.length) :
    limitTuple v l = .error .typeError := by
  match l with
  | [] | [_] | [_, _] | [_, _, _] | [_, _, _, _] => simp at h
  | a :: b :: c :: d :: e :: l => rfl

/-- Making a node from something that is not one. -/
theorem new_eq {h : Heap A K} {s : Item A K} (hs : ∀ m, s ≠ .node m)
    (limits : Option (List (Option K))) :
    (∀ l, limits = some l → 4 < l.length → new h s limits = .error .typeError) ∧
    ((∀ l, limits = some l → l.length ≤ 4) → ∃ lt : LimitTuple (Option K),
      lt.get = asked limits ∧ new h s limits = .ok (build h lt s)) := by
  have e : new h s limits = (do
      let lt ← match limits with
        | none => .ok noLimits
        | some l => limitTuple none l
      .ok (build h lt s)) := by
    cases s with
    | node n => exact absurd rfl (hs n)
    | _ => rfl
  refine ⟨?_, ?_⟩
  · rintro l rfl hl
    rw [e]
    simp only [limitTuple_error _ _ hl]
    rfl
  · intro hl
    rw [e]
    cases limits with
    | none => exact ⟨noLimits, by funext lim; cases lim <;> rfl, rfl⟩
    | some l =>
      obtain ⟨t, ht⟩ := (limitTuple_ok none l).2 (hl l rfl)
      refine ⟨t, limitTuple_get ht, ?_⟩
      simp only [ht]
      rfl

/-- **C94.** `TransactionNode(source, limits)` for a tree that is written down (with up to four
limits) is a new node with these limits that is what was written down, down to the accounts:
entries become new nodes without limits, in order, with their weights, and nodes within the tree
are used as they are. No existing node changes. With more than four limits it raises `TypeError`. -/
theorem C94_tree {h : Heap A K} {s : Item A K} (hs : ∀ m, s ≠ .node m) (hw : Written h.length s)
    (limits : Option (List (Option K))) :
    (∀ l, limits = some l → 4 < l.length → new h s limits = .error .typeError) ∧
    ((∀ l, limits = some l → l.length ≤ 4) → ∃ h' n,
      new h s limits = .ok (h', n) ∧ h.length ≤ n ∧ n + 1 = h'.length ∧
      Stands (treeOf h' n) h.length (asked limits) n s ∧
      ∀ m, m < h.length → h'[m]? = h[m]?) := by
  obtain ⟨h1, h2⟩ := new_eq (h := h) hs limits
  refine ⟨h1, fun hl => ?_⟩
  obtain ⟨lt, h3, h4⟩ := h2 hl
  obtain ⟨e, he⟩ := build_grows lt s h
  have h5 := build_stands lt s h [] (build h lt s).2 le_rfl hw
  rw [List.append_nil, h3] at h5
  refine ⟨_, _, h4, ?_, ?_, h5, fun m hm => ?_⟩
  · rcases build_number lt s h with ⟨n, h6, -⟩ | ⟨-, h6, -⟩
    · exact absurd h6 (hs n)
    · exact h6
  · rcases build_number lt s h with ⟨n, h6, -⟩ | ⟨-, -, h6⟩
    · exact absurd h6 (hs n)
    · exact h6
  · rw [he, List.getElem?_append_left hm]

/-- The heaps that programs can make: trees are written down one after the other, of accounts and
of nodes made before. -/
inductive Made : Heap A K → Prop
  | none : Made []
  | new {h h' : Heap A K} {s : Item A K} {limits : Option (List (Option K))} {n : ℕ} (hm : Made h)
      (hw : Written h.length s) (hn : new h s limits = .ok (h', n)) : Made h'

theorem childNodes_kids {E : Env ℕ A K} {h : Heap A K} {r : ℕ} (hE : E.tree = treeOf h r) {p c : ℕ}
    (hc : c ∈ childNodes E p) : c ∈ kids h p := by
  unfold childNodes at hc
  rw [hE] at hc
  simp only [treeOf] at hc
  unfold kids
  cases ho : h[p]? with
  | none => rw [ho] at hc; simp at hc
  | some o =>
    rw [ho] at hc
    obtain ⟨s, lt, ch⟩ := o
    cases s <;> rcases ch with _ | ⟨cs | cs⟩ <;> simp at hc <;> simpa using hc

theorem new_node {h h' : Heap A K} {m n : ℕ} {limits : Option (List (Option K))}
    (hn : new h (.node m) limits = .ok (h', n)) :
    ∃ o, h[m]? = some o ∧ h' = h ++ [⟨o.source, o.limits, none⟩] ∧ n = h.length := by
  unfold new at hn
  simp only at hn
  cases ho : h[m]? with
  | none => rw [ho] at hn; simp at hn
  | some o =>
    rw [ho] at hn
    simp only [Except.ok.injEq, Prod.mk.injEq] at hn
    exact ⟨o, rfl, hn.1.symm, hn.2.symm⟩

theorem made_below {h : Heap A K} (hm : Made h) : ∀ p, ∀ c ∈ kids h p, c < p := by
  induction hm with
  | none => intro p c hc; simp [kids] at hc
  | @new h h' s limits n _ hw hn ih =>
    by_cases hs : ∃ m, s = .node m
    · obtain ⟨m, rfl⟩ := hs
      obtain ⟨o, -, rfl, -⟩ := new_node hn
      intro p c hc
      by_cases hp : p < h.length
      · rw [kids_append hp] at hc; exact ih p c hc
      · rcases eq_or_lt_of_le (not_lt.1 hp) with rfl | hp
        · rw [kids_last] at hc; simp at hc
        · rw [kids_none (by simp; omega)] at hc; simp at hc
    · have hs' : ∀ m, s ≠ .node m := fun m hm => hs ⟨m, hm⟩
      have hl : ∀ l, limits = some l → l.length ≤ 4 := by
        intro l hl
        by_contra h4
        rw [(new_eq (h := h) hs' limits).1 l hl (not_le.1 h4)] at hn
        cases hn
      obtain ⟨lt, -, h1⟩ := (new_eq (h := h) hs' limits).2 hl
      rw [h1] at hn
      obtain rfl : (build h lt s).1 = h' := congrArg Prod.fst (Except.ok.inj hn)
      obtain ⟨e, he⟩ := build_grows lt s h
      have hN := (build_neat lt s h le_rfl hw).1
      intro p c hc
      by_cases hp : p < h.length
      · rw [he, kids_append hp] at hc; exact ih p c hc
      · exact (hN.below p (not_lt.1 hp) c hc).1

/-- **C94.** The tree has no cycles and its root is nobody's child, as C42, C70 and C88 ask for; and
each new node has just one parent, of which it is a child once. (Only nodes made before can be
shared.) -/
theorem C94_no_cycles {h h' : Heap A K} {s : Item A K} {limits : Option (List (Option K))} {n : ℕ}
    (hm : Made h) (hw : Written h.length s) (hn : new h s limits = .ok (h', n))
    {E : Env ℕ A K} (hE : E.tree = treeOf h' n) :
    (∀ p, ∀ c ∈ childNodes E p, c < p) ∧ (∀ p, E.tree.root ∉ childNodes E p) ∧
    (∀ p q c, h.length ≤ c → c ∈ childNodes E p → c ∈ childNodes E q → p = q) ∧
    (∀ p, ((childNodes E p).filter fun c => decide (h.length ≤ c)).Nodup) := by
  have hb := made_below (Made.new hm hw hn)
  have h1 : ∀ p, ∀ c ∈ childNodes E p, c < p := fun p c hc => hb p c (childNodes_kids hE hc)
  have hlast : ∀ p, h'.length ≤ p → childNodes E p = [] := by
    intro p hp
    refine List.eq_nil_iff_forall_not_mem.2 fun c hc => ?_
    have := childNodes_kids hE hc
    rw [kids_none hp] at this
    simp at this
  have hroot : n + 1 = h'.length := by
    by_cases hs : ∃ m, s = .node m
    · obtain ⟨m, rfl⟩ := hs
      obtain ⟨o, -, rfl, rfl⟩ := new_node hn
      simp
    · have hs' : ∀ m, s ≠ .node m := fun m hm => hs ⟨m, hm⟩
      have hl : ∀ l, limits = some l → l.length ≤ 4 := by
        intro l hl
        by_contra h4
        rw [(new_eq (h := h) hs' limits).1 l hl (not_le.1 h4)] at hn
        cases hn
      obtain ⟨h2, n2, h3, -, h4, -⟩ := (C94_tree hs' hw limits).2 hl
      rw [h3] at hn
      cases hn
      exact h4
  have hold : ∀ p, p < h.length → ∀ c ∈ childNodes E p, c < h.length := fun p hp c hc =>
    (h1 p c hc).trans hp
  have hN : Neat h.length h.length h' := by
    by_cases hs : ∃ m, s = .node m
    · obtain ⟨m, rfl⟩ := hs
      obtain ⟨o, -, rfl, rfl⟩ := new_node hn
      exact (neat_parent le_rfl le_rfl neat_nil (ns := []) (by rw [kids_last]) (by simp) (by simp)).1
    · have hs' : ∀ m, s ≠ .node m := fun m hm => hs ⟨m, hm⟩
      have hl : ∀ l, limits = some l → l.length ≤ 4 := by
        intro l hl
        by_contra h4
        rw [(new_eq (h := h) hs' limits).1 l hl (not_le.1 h4)] at hn
        cases hn
      obtain ⟨lt, -, h2⟩ := (new_eq (h := h) hs' limits).2 hl
      rw [h2] at hn
      obtain rfl : (build h lt s).1 = h' := congrArg Prod.fst (Except.ok.inj hn)
      exact (build_neat lt s h le_rfl hw).1
  refine ⟨h1, fun p hp => ?_, fun p q c hc hp hq => ?_, fun p => ?_⟩
  · rw [hE] at hp
    simp only [treeOf] at hp
    have h2 := h1 p n hp
    rw [hlast p (by omega)] at hp
    simp at hp
  · by_cases h2 : p < h.length
    · have := hold p h2 c hp; omega
    · by_cases h3 : q < h.length
      · have := hold q h3 c hq; omega
      · exact hN.one p q c (not_lt.1 h2) (not_lt.1 h3) hc (childNodes_kids hE hp)
          (childNodes_kids hE hq)
  · by_cases h2 : p < h.length
    · rw [List.filter_eq_nil_iff.2]
      · exact List.nodup_nil
      · intro c hc
        have := hold p h2 c hc
        simpa using this
    · have h3 : (childNodes E p) = kids h' p ∨ childNodes E p = [] := by
        unfold childNodes kids
        rw [hE]
        simp only [treeOf]
        cases ho : h'[p]? with
        | none => simp
        | some o =>
          obtain ⟨s, lt, ch⟩ := o
          cases s <;> rcases ch with _ | ⟨cs | cs⟩ <;> simp
      rcases h3 with h3 | h3
      · rw [h3]; exact hN.once p (not_lt.1 h2)
      · rw [h3]; simp

/-! ### The traversal -/

section Traversal

variable {M : Type} [FloorRing K]

/-- Specification: the account's method for a limit. -/
def methodName : Lim → String
  | .minIn => "min_inflows"
  | .maxIn => "max_inflows"
  | .minOut => "min_outflows"
  | .maxOut => "max_outflows"

/-- Specification: the account's link for a limit. -/
def linkName : Lim → String
  | .minIn => "min_inflow_link"
  | .maxIn => "max_inflow_link"
  | .minOut => "min_outflow_link"
  | .maxOut => "max_outflow_link"

/-- What `init` makes. -/
theorem init_eq {same : Item A K → Item A K → Bool} {getattr : A → String → Except PyErr M}
    {link : A → String → Option (Option (Finset A))} {h h' : Heap A K} {s : Item A K}
    {tm : Option (Slot A M)} {gm : Option (Slot A (Option (Finset A)))} {T : Trav A K M}
    (hi : init same getattr link h s tm gm = .ok (h', T)) :
    ∃ n, new h s none = .ok (h', n) ∧ T.priority = some s ∧ T.tree = some n ∧
      T.methods = methodsArg (transactionDefaults getattr) tm ∧
      T.groups = methodsArg (groupDefaults link) gm := by
  unfold init setPriority at hi
  simp only at hi
  cases hn : new h s none with
  | error e => rw [hn] at hi; cases hi
  | ok r =>
    rw [hn, ok_bind] at hi
    simp only [Except.ok.injEq, Prod.mk.injEq] at hi
    obtain ⟨rfl, rfl⟩ := hi
    exact ⟨r.2, rfl, rfl, rfl, rfl, rfl⟩

/-- **C94.** `TransactionTraversal(priority)` for a tree that is written down always works, walks
that tree (whose root has no limits), and asks each account's own method, and link, for the limit in
question. An account without such a link, or whose link is `None`, shares its limit with nobody. -/
theorem C94_traversal (same : Item A K → Item A K → Bool) (getattr : A → String → Except PyErr M)
    (link : A → String → Option (Option (Finset A))) {h : Heap A K} {s : Item A K}
    (hs : ∀ m, s ≠ .node m) (hw : Written h.length s) :
    ∃ h' T n, init same getattr link h s none none = .ok (h', T) ∧ T.tree = some n ∧
      Stands (treeOf h' n) h.length (fun _ => none) n s ∧
      (∀ (R : Rest A K M) (fuel : ℕ) (total : K),
        call R h' T fuel total = Traversal.call (envOf R h' T n) fuel total) ∧
      ∀ (R : Rest A K M) (a : A) (lim : Lim),
        (envOf R h' T n).limitOf a lim = getattr a (methodName lim) >>= R.limit ∧
        (∀ x, (envOf R h' T n).txOf a lim x = getattr a (methodName lim) >>= fun m => R.tx m x) ∧
        (envOf R h' T n).groupOf a lim = (link a (linkName lim)).join := by
  obtain ⟨h', n, h1, h2, h3, h4, -⟩ := (C94_tree hs hw none).2 (by simp)
  refine ⟨h', { priority := some s, tree := some n, methods := transactionDefaults getattr,
                groups := groupDefaults link }, n, ?_, rfl, ?_, ?_, ?_⟩
  · unfold init setPriority
    simp only [h1, ok_bind]
    rfl
  · have : asked (none : Option (List (Option K))) = fun _ => none := by funext lim; rfl
    rw [← this]; exact h4
  · intro R fuel total
    have hsrc : ∀ o ∈ h'[n]?, o.children.isNone = false := by
      intro o ho
      obtain ⟨lt, -, h5⟩ := (new_eq (h := h) hs none).2 (by simp)
      rw [h5] at h1
      obtain rfl : (build h lt s).1 = h' := congrArg Prod.fst (Except.ok.inj h1)
      obtain rfl : (build h lt s).2 = n := congrArg Prod.snd (Except.ok.inj h1)
      cases s with
      | node m => exact absurd rfl (hs m)
      | acct a => rw [build] at ho; simp at ho; rw [← ho]; rfl
      | list cs => rw [build] at ho; simp at ho; rw [← ho]; rfl
      | dict cs => rw [build] at ho; simp at ho; rw [← ho]; rfl
    unfold call
    simp only
    rw [if_neg]
    rintro ⟨-, o, ho, -, h6⟩
    rw [hsrc o ho] at h6
    cases h6
  · intro R a lim
    refine ⟨?_, fun x => ?_, ?_⟩
    · have hg : ∃ g, ((groupDefaults link).get lim).call a = .ok g := by
        cases lim <;> simp only [groupDefaults, forEach, LimitTuple.get, Slot.call] <;>
          split <;> exact ⟨_, rfl⟩
      obtain ⟨g, hg⟩ := hg
      simp only [envOf, methodsArg, hg, ok_bind]
      have hm : ((transactionDefaults getattr).get lim).call a = getattr a (methodName lim) := by
        cases lim <;> rfl
      rw [hm]
      cases getattr a (methodName lim) with
      | error e => rfl
      | ok m =>
        simp only [ok_bind]
        cases R.limit m <;> rfl
    · have hm : ((transactionDefaults getattr).get lim).call a = getattr a (methodName lim) := by
        cases lim <;> rfl
      simp only [envOf, methodsArg, hm]
    · simp only [envOf, methodsArg]
      have hg : ((groupDefaults link).get lim).call a = .ok (link a (linkName lim)).join := by
        cases lim <;> simp only [groupDefaults, forEach, LimitTuple.get, Slot.call, linkFields,
          linkName] <;> split <;> simp_all
        all_goals
          rename_i x hx
          rcases h : link a _ with _ | _ | g
          all_goals simp_all
      rw [hg]

/-- **C94.** A `TransactionNode` that contains several accounts cannot be the whole tree (so limits
cannot be set on it): every call beyond the precision raises `AttributeError`. One that wraps a
single account can, with its limits. -/
theorem C94_root_node_refuted {same : Item A K → Item A K → Bool}
    {getattr : A → String → Except PyErr M}
    {link : A → String → Option (Option (Finset A))} {h h' : Heap A K} {n : ℕ} {o : Obj A K}
    {tm : Option (Slot A M)} {gm : Option (Slot A (Option (Finset A)))} {T : Trav A K M}
    (ho : h[n]? = some o) (hi : init same getattr link h (.node n) tm gm = .ok (h', T)) :
    ((∃ cs, o.source = .list cs) ∨ (∃ cs, o.source = .dict cs) →
      ∀ (R : Rest A K M) (fuel : ℕ) (total : K), total > R.precision ∨ total < -R.precision →
      call R h' T fuel total = .error .attributeError) ∧
    (∀ a, o.source = .acct a → ∃ r, T.tree = some r ∧ (treeOf h' r).kind r = .leaf a ∧
      (treeOf h' r).limits r = o.limits.get ∧ ∀ (R : Rest A K M) (fuel : ℕ) (total : K),
        call R h' T fuel total = Traversal.call (envOf R h' T r) fuel total) := by
  obtain ⟨r, h1, -, h2, -, -⟩ := init_eq hi
  obtain ⟨o', h3, rfl, rfl⟩ := new_node h1
  rw [ho] at h3
  cases h3
  refine ⟨fun hp R fuel total ht => ?_, fun a ha => ⟨_, h2, ?_, ?_, fun R fuel total => ?_⟩⟩
  · have hp : isParent o.source = true := by
      rcases hp with ⟨cs, hp⟩ | ⟨cs, hp⟩ <;> rw [hp] <;> rfl
    unfold call
    rw [h2]
    simp only
    rw [if_pos ⟨ht, ⟨o.source, o.limits, none⟩, by simp, hp, rfl⟩]
  · simp [treeOf, ha]
  · funext lim; simp [treeOf]
  · unfold call
    rw [h2]
    simp only
    rw [if_neg]
    rintro ⟨-, o', ho', hp, -⟩
    simp at ho'
    rw [← ho'] at hp
    simp [ha, isParent] at hp

theorem foldlM_visits {α β : Type} {f : β → α → Except PyErr β} : ∀ {l : List α} {b b' : β},
    l.foldlM f b = .ok b' → ∀ x ∈ l, ∃ c c', f c x = .ok c'
  | [], _, _, _, x, hx => by simp at hx
  | y :: l, b, b', h, x, hx => by
    rw [List.foldlM_cons, bind_ok_iff] at h
    obtain ⟨c, h1, h2⟩ := h
    rcases List.mem_cons.1 hx with rfl | hx
    · exact ⟨b, c, h1⟩
    · exact foldlM_visits h2 x hx

theorem weighted_visits {N : Type} [DecidableEq N] {memo : Flows N A}
    {next : Graph N A → N → Except PyErr (Graph N A)} {n : N} : ∀ (fuel : ℕ) {g g' : Graph N A}
    {children : Dict N K} {capacity : K},
    addWeightedChildren memo next n fuel g children capacity = .ok g' →
    ∀ c ∈ Dict.keys children, ∃ g1 g2, next g1 c = .ok g2 := by
  intro fuel
  induction fuel with
  | zero =>
    intro g g' children capacity h c hc
    rw [addWeightedChildren.eq_def] at h
    simp only [bind_ok_iff] at h
    obtain ⟨fl, -, h⟩ := h
    split_ifs at h with h1 h2
    obtain ⟨e, he, rfl⟩ := List.mem_map.1 hc
    obtain ⟨_, c', h6⟩ := foldlM_visits h _ (List.mem_map.2 ⟨e, he, rfl⟩)
    exact ⟨_, c', h6⟩
  | succ fuel ih =>
    intro g g' children capacity h c hc
    rw [addWeightedChildren.eq_def] at h
    simp only [bind_ok_iff] at h
    obtain ⟨fl, -, h⟩ := h
    split_ifs at h with h1 h2
    · obtain ⟨g1, h3, h4⟩ := bind_ok_iff.1 h
      set totals : Dict N K := children.map fun e => (e.1, (capacity + fl) * e.2 /
        Dict.total children - (flowsTo memo (.limit n) (.node e.1) : K)) with ht
      have hk : c ∈ Dict.keys totals := by
        obtain ⟨e, he, rfl⟩ := List.mem_map.1 hc
        exact List.mem_map.2 ⟨_, List.mem_map.2 ⟨e, he, rfl⟩, rfl⟩
      by_cases hv : 0 < Dict.val totals c
      · refine ih h3 c ?_
        obtain ⟨e, he, rfl⟩ := List.mem_map.1 hc
        exact List.mem_map.2 ⟨e, List.mem_filter.2 ⟨he, decide_eq_true hv⟩, rfl⟩
      · have h5 := Dict.mem_of_get? (Dict.get?_eq_some_val hk)
        obtain ⟨_, c', h6⟩ := foldlM_visits h4 (c, 0) (List.mem_map.2 ⟨_, List.mem_filter.2 ⟨h5,
          decide_eq_true (not_lt.1 hv)⟩, rfl⟩)
        exact ⟨_, c', h6⟩
    · obtain ⟨e, he, rfl⟩ := List.mem_map.1 hc
      obtain ⟨_, c', h6⟩ := foldlM_visits h _ (List.mem_map.2 ⟨e, he, rfl⟩)
      exact ⟨_, c', h6⟩

/-- Every node of the tree is visited when the graph is built. -/
theorem visits {N : Type} [DecidableEq N] {E : Env N A K} {lim : Lim} {memo : Flows N A}
    {ov : Bool} {fuel : ℕ} {g g' : Graph N A} {n m : N} {cap : Option K}
    (h : addSuccessors E lim memo ov fuel g n cap none = .ok g')
    (hm : Relation.ReflTransGen (fun p c => c ∈ childNodes E p) n m) :
    ∃ fuel' g1 g2 cap', addSuccessors E lim memo ov fuel' g1 m cap' none = .ok g2 := by
  induction hm with
  | refl => exact ⟨_, _, _, _, h⟩
  | @tail p c _ hc ih =>
    obtain ⟨fuel', g1, g2, cap', h1⟩ := ih
    cases fuel' with
    | zero => cases h1
    | succ f =>
      rw [addSuccessors] at h1
      unfold childNodes at hc
      cases hk : E.tree.kind p with
      | leaf a => rw [hk] at hc; simp at hc
      | ordered cs =>
        rw [hk] at h1 hc
        simp only at h1 hc
        obtain ⟨st, h2, -⟩ := bind_ok_iff.1 h1
        obtain ⟨c1, c2, h3⟩ := foldlM_visits h2 c hc
        unfold orderedStep at h3
        obtain ⟨g3, h4, -⟩ := bind_ok_iff.1 h3
        exact ⟨f, _, g3, none, h4⟩
      | weighted cs =>
        rw [hk] at h1 hc
        simp only at h1 hc
        have : ∃ l gg gg' cc, addWeightedChildren memo
            (fun g c => addSuccessors E lim memo ov f g c none none) p l gg cs cc = .ok gg' := by
          unfold addWeighted at h1
          simp only [Option.getD_none] at h1
          split_ifs at h1
          · obtain ⟨g3, h4, -⟩ := bind_ok_iff.1 h1
            exact ⟨_, _, _, _, h4⟩
          · exact ⟨_, _, _, _, h1⟩
        obtain ⟨l, gg, gg', cc, h2⟩ := this
        obtain ⟨g3, g4, h3⟩ := weighted_visits l h2 c hc
        exact ⟨f, g3, g4, none, h3⟩

/-- If an account of the tree does not answer for the maximum, the whole call fails. -/
theorem call_needs {N : Type} [DecidableEq N] {E : Env N A K} {n : N} {a : A}
    (hn : Relation.ReflTransGen (fun p c => c ∈ childNodes E p) E.tree.root n)
    (hk : E.tree.kind n = .leaf a) {lim : Lim} {fuel : ℕ} {total : Ext K} {memo : Flows N A}
    (he : ∀ x, E.limitOf a lim ≠ .ok x) (x) : Traversal.traverse E fuel lim total memo ≠ .ok x := by
  intro h
  unfold Traversal.traverse at h
  obtain ⟨g, h1, -⟩ := bind_ok_iff.1 h
  unfold buildGraph at h1
  obtain ⟨g1, h2, -⟩ := bind_ok_iff.1 h1
  obtain ⟨f, g2, g3, cap, h3⟩ := visits h2 hn
  cases f with
  | zero => cases h3
  | succ f =>
    rw [addSuccessors] at h3
    rw [hk] at h3
    simp only at h3
    unfold addAccount at h3
    obtain ⟨y, h4, -⟩ := bind_ok_iff.1 h3
    exact he y h4

/-- **C94.** The documented arguments `transaction_methods` and `group_methods` cannot be used:
whatever is given, no call beyond the precision succeeds (if there is an account in the tree). -/
theorem C94_methods_argument_refuted {same : Item A K → Item A K → Bool}
    {getattr : A → String → Except PyErr M}
    {link : A → String → Option (Option (Finset A))} {h h' : Heap A K} {s : Item A K}
    {tm : Option (Slot A M)} {gm : Option (Slot A (Option (Finset A)))} {T : Trav A K M}
    (hi : init same getattr link h s tm gm = .ok (h', T)) (hg : tm.isSome ∨ gm.isSome)
    (R : Rest A K M) {root n : ℕ} {a : A} (ht : T.tree = some root)
    (hn : Relation.ReflTransGen (fun p c => c ∈ childNodes (envOf R h' T root) p) root n)
    (hk : (treeOf h' root).kind n = .leaf a) {fuel : ℕ} {total : K}
    (hb : total > R.precision ∨ total < -R.precision) (r : Dict A (Dict K K)) :
    call R h' T fuel total ≠ .ok r := by
  obtain ⟨n', -, -, -, h1, h2⟩ := init_eq hi
  have hbad : ∀ lim, lim ≠ .minIn → ∀ x, (envOf R h' T root).limitOf a lim ≠ .ok x := by
    intro lim hl x hx
    simp only [envOf] at hx
    obtain ⟨m, h3, hx⟩ := bind_ok_iff.1 hx
    obtain ⟨y, h4, hx⟩ := bind_ok_iff.1 hx
    obtain ⟨z, h5, hx⟩ := bind_ok_iff.1 hx
    rcases hg with hg | hg
    · obtain ⟨w, rfl⟩ := Option.isSome_iff_exists.1 hg
      rw [h1] at h3
      cases lim
      · exact hl rfl
      all_goals cases h3
    · obtain ⟨w, rfl⟩ := Option.isSome_iff_exists.1 hg
      rw [h2] at h5
      cases lim
      · exact hl rfl
      all_goals cases h5
  intro hc
  unfold call at hc
  rw [ht] at hc
  simp only at hc
  split_ifs at hc with h3
  unfold Traversal.call at hc
  split_ifs at hc with h4 h5
  · obtain ⟨r1, -, hc⟩ := bind_ok_iff.1 hc
    obtain ⟨r2, h6, -⟩ := bind_ok_iff.1 hc
    exact call_needs hn hk (hbad .maxIn (by decide)) _ h6
  · obtain ⟨r1, -, hc⟩ := bind_ok_iff.1 hc
    obtain ⟨r2, h6, -⟩ := bind_ok_iff.1 hc
    exact call_needs hn hk (hbad .maxOut (by decide)) _ h6
  · exact absurd hb (not_or.2 ⟨h4, h5⟩)

/-- **C94.** Assigning another tree to `priority` replaces the tree; assigning one that is equal to
the present one does nothing. So if the object that was given is changed in place (now `p`), assigning
it again does not help: the old tree stays. -/
theorem C94_priority (same : Item A K → Item A K → Bool) {h : Heap A K} {T : Trav A K M}
    {p s : Item A K} (hp : T.priority = some p) (hs : ∀ m, s ≠ .node m) (hw : Written h.length s) :
    (same s p = false → ∃ h' T' n, setPriority same h T s = .ok (h', T') ∧ T'.tree = some n ∧
      T'.priority = some s ∧ T'.methods = T.methods ∧ T'.groups = T.groups ∧
      Stands (treeOf h' n) h.length (fun _ => none) n s) ∧
    (same s p = true → setPriority same h T s = .ok (h, T)) := by
  obtain ⟨h', n, h1, -, -, h4, -⟩ := (C94_tree hs hw none).2 (by simp)
  refine ⟨fun hne => ?_, fun he => ?_⟩
  · refine ⟨h', { T with priority := some s, tree := some n }, n, ?_, rfl, rfl, rfl, rfl, ?_⟩
    · unfold setPriority
      rw [hp]
      simp only [hne, h1, ok_bind]
      rfl
    · have : asked (none : Option (List (Option K))) = fun _ => none := by funext lim; rfl
      rw [← this]; exact h4
  · unfold setPriority
    rw [hp]
    simp [he]

/-- **C94.** `TransactionTraversal(None)` is accepted, but until a tree is assigned every call for more
than the precision, in or out, raises `ValueError`; a smaller total needs no tree and gives no
transactions. Assigning a tree makes it what `TransactionTraversal` makes of that tree. -/
theorem C94_no_tree [IsStrictOrderedRing K] (same : Item A K → Item A K → Bool) (getattr : A → String → Except PyErr M)
    (link : A → String → Option (Option (Finset A))) (tm : Option (Slot A M))
    (gm : Option (Slot A (Option (Finset A)))) (R : Rest A K M) (h : Heap A K) (fuel : ℕ) (total : K) :
    (R.precision < |total| →
      call R h (initNone getattr link tm gm) fuel total = .error .valueError) ∧
    (|total| ≤ R.precision → call R h (initNone getattr link tm gm) fuel total = .ok []) ∧
    ∀ s : Item A K, setPriority same h (initNone getattr link tm gm) s =
      init same getattr link h s tm gm := by
  refine ⟨fun ht => ?_, fun ht => ?_, fun s => rfl⟩
  · unfold call initNone
    simp only
    rw [if_pos]
    rcases lt_abs.1 ht with h1 | h1
    · exact Or.inl h1
    · exact Or.inr (by linarith)
  · unfold call initNone
    simp only
    rw [if_neg]
    have := abs_le.1 ht
    rintro (h1 | h1) <;> linarith [this.1, this.2]

end Traversal

/-- **C94.** `children_subset` of a dict keeps the weights, of a list the order; it raises `KeyError`
if something is not among the children. -/
theorem C94_children_subset {h : Heap A K} {n : ℕ} {o : Obj A K} (ho : h[n]? = some o)
    (subset : List ℕ) :
    (∀ cs, o.children = some (.tuple cs) →
      ((∀ c ∈ subset, c ∈ cs) → ∃ l, childrenSubset h n subset = .ok (.tuple l) ∧
        List.Sublist l cs ∧ ∀ c, c ∈ l ↔ c ∈ subset) ∧
      (∀ c ∈ subset, c ∉ cs → childrenSubset h n subset = .error .keyError)) ∧
    (∀ cs, o.children = some (.dict cs) →
      ((∀ c ∈ subset, c ∈ Dict.keys cs) → ∃ d, childrenSubset h n subset = .ok (.dict d) ∧
        ∀ c, Dict.get? d c = if c ∈ subset then Dict.get? cs c else none) ∧
      (∀ c ∈ subset, c ∉ Dict.keys cs → childrenSubset h n subset = .error .keyError)) := by
  refine ⟨fun cs hc => ⟨fun hs => ?_, fun c hc' hn => ?_⟩, fun cs hc => ⟨fun hs => ?_, fun c hc' hn => ?_⟩⟩
  · refine ⟨cs.filter fun c => decide (c ∈ subset), ?_, List.filter_sublist, fun c => ?_⟩
    · unfold childrenSubset
      simp only [ho, Option.bind_some, hc]
      rw [if_neg]
      rintro ⟨c, h1, h2⟩
      exact h2 (hs c h1)
    · simp only [List.mem_filter, decide_eq_true_eq]
      exact ⟨fun h => h.2, fun h => ⟨hs c h, h⟩⟩
  · unfold childrenSubset
    simp only [ho, Option.bind_some, hc]
    rw [if_pos ⟨c, hc', hn⟩]
  · unfold childrenSubset
    simp only [ho, Option.bind_some, hc]
    have h1 : ∀ l : List ℕ, (∀ c ∈ l, c ∈ Dict.keys cs) →
        l.mapM (weighed cs) = .ok (l.map fun c => (c, Dict.val cs c)) := by
      intro l
      induction l with
      | nil => intro _; rfl
      | cons c l ih =>
        intro hl
        rw [List.mapM_cons, ih fun c hc => hl c (List.mem_cons_of_mem _ hc), weighed,
          Dict.get?_eq_some_val (hl c (by simp))]
        rfl
    rw [h1 subset hs, ok_bind]
    refine ⟨_, rfl, fun c => ?_⟩
    have h2 : ∀ (l : List ℕ) (d : Dict ℕ K), (∀ c ∈ l, c ∈ Dict.keys cs) → ∀ c,
        Dict.get? ((l.map fun c => (c, Dict.val cs c)).foldl (fun d e => Dict.set d e.1 e.2) d) c =
          if c ∈ l then Dict.get? cs c else Dict.get? d c := by
      intro l
      induction l with
      | nil => intro d _ c; simp
      | cons x l ih =>
        intro d hl c
        rw [List.map_cons, List.foldl_cons, ih _ fun c hc => hl c (List.mem_cons_of_mem _ hc)]
        by_cases hm : c ∈ l
        · simp [hm]
        · rw [if_neg hm, Dict.get?_set]
          by_cases hx : x = c
          · subst hx
            simp [Dict.get?_eq_some_val (hl x (by simp))]
          · simp [hx, hm, Ne.symm hx]
    rw [h2 subset [] hs c]
    simp
  · unfold childrenSubset
    simp only [ho, Option.bind_some, hc]
    have h1 : ∀ l : List ℕ, c ∈ l →
        l.mapM (weighed cs) = .error .keyError := by
      intro l
      induction l with
      | nil => intro h; simp at h
      | cons x l ih =>
        intro hl
        rw [List.mapM_cons, weighed]
        cases hx : Dict.get? cs x with
        | none => rfl
        | some w =>
          have : c ≠ x := by
            rintro rfl
            exact hn (Dict.mem_keys_iff.2 ⟨w, hx⟩)
          simp only [ok_bind]
          rw [ih ((List.mem_cons.1 hl).resolve_left this)]
          rfl
    rw [h1 subset hc']
    rfl

/-! ### A concrete case -/

section Cases

/-- Two accounts in proportion 1 : 3 with a limit of 100 on withdrawals; then a list of account 5 and
that node, then a list of the node and a new pair. -/
def caseHeap : Except PyErr (Heap ℕ ℚ × ℕ) := do
  let r ← new [] (.dict [(.acct 1, 1), (.acct 2, 3)]) (some [none, none, none, some (-100)])
  new r.1 (.list [.acct 5, .node r.2, .dict [(.acct 1, 1), (.node r.2, 2)]]) none

example : (match caseHeap with
    | .ok (h, n) => decide (n = 6 ∧ h.length = 7 ∧ kids h 6 = [3, 2, 5] ∧ kids h 2 = [0, 1] ∧
        kids h 5 = [4, 2] ∧ (treeOf h 6).limits 2 .maxOut = some (-100) ∧
        (treeOf h 6).limits 5 .maxOut = none)
    | .error _ => false) = true := by decide +kernel

example : Written 3 (.list [.acct 5, .node 2, .dict [(.acct 1, 1), (.node 2, 2)]] : Item ℕ ℚ) := by
  simp [Written, WrittenAll, WrittenKeys, nodeKeys]

end Cases

end Forecaster.Node
