import Verif.Props.TxStrategyFill
import Verif.Props.TraversalTotal

/-!
# C90: a transaction strategy always decides
-/

set_option linter.unusedSectionVars false

namespace Forecaster.TxStrategy

open Forecaster Forecaster.Traversal Forecaster.Expenses

variable {K : Type} [Field K] [LinearOrder K] [IsStrictOrderedRing K]
variable {A : Type} [DecidableEq A]

/-! ### Priority trees as written down -/

/-- No dict of the tree is empty, and all weights are positive. -/
inductive Src.Sound : Src A K → Prop
  | acct (a : A) : Src.Sound (.acct a)
  | list (cs : List (Src A K)) (h : ∀ c ∈ cs, Src.Sound c) : Src.Sound (.list cs)
  | dict (cs : List (Src A K × K)) (hne : cs ≠ []) (h : ∀ e ∈ cs, Src.Sound e.1)
      (hw : ∀ e ∈ cs, 0 < e.2) : Src.Sound (.dict cs)

theorem Src.Sound.child {s c : Src A K} (h : s.Sound) {i : ℕ} (hc : s.child i = some c) :
    c.Sound := by
  cases h with
  | acct a => cases hc
  | list cs h => exact h c (List.mem_of_getElem? hc)
  | dict cs hne h hw =>
    simp only [Src.child, Option.map_eq_some_iff] at hc
    obtain ⟨e, he, rfl⟩ := hc
    exact h e (List.mem_of_getElem? he)

theorem Src.Sound.sub {s : Src A K} (h : s.Sound) (p : List ℕ) :
    ∀ t, s.sub p = some t → t.Sound := by
  induction p using List.reverseRecOn with
  | nil => intro t ht; cases ht; exact h
  | append_singleton p i ih =>
    intro t ht
    rw [sub_snoc] at ht
    cases hp : s.sub p with
    | none => rw [hp] at ht; cases ht
    | some u => rw [hp] at ht; exact (ih u hp).child ht

theorem child_size {s c : Src A K} {i : ℕ} (hc : s.child i = some c) : sizeOf c < sizeOf s := by
  cases s with
  | acct a => cases hc
  | list cs =>
    have := List.sizeOf_lt_of_mem (List.mem_of_getElem? hc)
    simp only [Src.list.sizeOf_spec]
    omega
  | dict cs =>
    simp only [Src.child, Option.map_eq_some_iff] at hc
    obtain ⟨e, he, rfl⟩ := hc
    have := List.sizeOf_lt_of_mem (List.mem_of_getElem? he)
    obtain ⟨c, w⟩ := e
    simp only [Prod.mk.sizeOf_spec] at this
    simp only [Src.dict.sizeOf_spec]
    omega

/-- The size of the part of the tree at a path. -/
noncomputable def rankAt (s : Src A K) (p : List ℕ) : ℕ :=
  match s.sub p with
  | some t => sizeOf t
  | none => 0

section

variable [FloorRing K] {E : Env (List ℕ) A K} {s : Src A K}

/-- Children in the tree are children in the source. -/
theorem child_iff (ht : E.tree = s.toTree) {p c : List ℕ} : c ∈ childNodes E p ↔
    ∃ i t u, c = p ++ [i] ∧ s.sub p = some t ∧ t.child i = some u := by
  unfold childNodes
  rw [ht]
  simp only [Src.toTree]
  cases hs : s.sub p with
  | none => simp
  | some t =>
    cases t with
    | acct a => simp [Src.child]
    | list cs =>
      simp only [List.mem_map, List.mem_range, Option.some.injEq]
      constructor
      · rintro ⟨i, hi, rfl⟩
        exact ⟨i, _, cs[i], rfl, rfl, by simp [Src.child, hi]⟩
      · rintro ⟨i, t, u, rfl, rfl, h⟩
        exact ⟨i, (List.getElem?_eq_some_iff.1 h).1, rfl⟩
    | dict cs =>
      simp only [Dict.keys, List.map_map, List.mem_map, Option.some.injEq]
      constructor
      · rintro ⟨e, he, rfl⟩
        have := List.mem_zipIdx_iff_getElem?.1 he
        exact ⟨e.2, _, e.1.1, rfl, rfl, by simp [Src.child, this]⟩
      · rintro ⟨i, t, u, rfl, rfl, h⟩
        simp only [Src.child, Option.map_eq_some_iff] at h
        obtain ⟨e, he, rfl⟩ := h
        exact ⟨(e, i), List.mem_zipIdx_iff_getElem?.2 he, rfl⟩

theorem proper_tree (ht : E.tree = s.toTree) (hs : s.Sound) : Proper E (rankAt s) where
  rank := by
    intro p c hc
    obtain ⟨i, t, u, rfl, h1, h2⟩ := (child_iff ht).1 hc
    unfold rankAt
    rw [sub_snoc, h1, Option.bind_some, h2]
    exact child_size h2
  weights := by
    intro p cs hk
    rw [ht] at hk
    simp only [Src.toTree] at hk
    cases hp : s.sub p with
    | none => rw [hp] at hk; cases hk
    | some t =>
      rw [hp] at hk
      cases t with
      | acct a => cases hk
      | list l => cases hk
      | dict l =>
        simp only [Kind.weighted.injEq] at hk
        subst hk
        cases hs.sub p _ hp with
        | dict _ hne _ hw =>
          refine ⟨?_, ?_, ?_⟩
          · intro h
            rw [List.map_eq_nil_iff, List.zipIdx_eq_nil_iff] at h
            exact hne h
          · unfold Dict.WF Dict.keys
            rw [List.map_map]
            have : (List.map (Prod.fst ∘ fun e : (Src A K × K) × ℕ => (p ++ [e.2], e.1.2))
                l.zipIdx) = (List.range' 0 l.length).map fun i => p ++ [i] := by
              rw [← List.zipIdx_map_snd 0 l, List.map_map]; rfl
            rw [this]
            exact (List.nodup_range').map fun _ _ h => by simpa using h
          · intro e he
            obtain ⟨x, hx, rfl⟩ := List.mem_map.1 he
            exact hw _ (List.mem_of_getElem? (List.mem_zipIdx_iff_getElem?.1 hx))

/-- An account that is written down is a leaf of the tree. -/
theorem leaf_of_account (ht : E.tree = s.toTree) (a : A) : ∀ (n : ℕ) (t : Src A K) (p : List ℕ),
    sizeOf t ≤ n → s.sub p = some t → a ∈ t.accounts →
    ∃ q, Below E p q ∧ E.tree.kind q = .leaf a := by
  intro n
  induction n with
  | zero =>
    intro t p hn
    exfalso
    cases t <;> simp at hn
  | succ n ih =>
    intro t p hn hp ha
    have step : ∀ i u, t.child i = some u → a ∈ u.accounts →
        ∃ q, Below E p q ∧ E.tree.kind q = .leaf a := by
      intro i u hu hau
      obtain ⟨q, h1, h2⟩ := ih u (p ++ [i]) (by have := child_size hu; omega)
        (by rw [sub_snoc, hp]; exact hu) hau
      exact ⟨q, .head ((child_iff ht).2 ⟨i, t, u, rfl, hp, hu⟩) h1, h2⟩
    cases t with
    | acct b =>
      simp only [Src.accounts, List.mem_singleton] at ha
      subst ha
      refine ⟨p, .refl, ?_⟩
      rw [ht]
      simp only [Src.toTree, hp]
    | list cs =>
      rw [Src.accounts, accountsL_eq, List.mem_flatten] at ha
      obtain ⟨l, hl, ha⟩ := ha
      obtain ⟨u, hu, rfl⟩ := List.mem_map.1 hl
      obtain ⟨i, hi⟩ := List.getElem?_of_mem hu
      exact step i u hi ha
    | dict cs =>
      rw [Src.accounts, accountsD_eq, List.mem_flatten] at ha
      obtain ⟨l, hl, ha⟩ := ha
      obtain ⟨u, hu, rfl⟩ := List.mem_map.1 hl
      obtain ⟨i, hi⟩ := List.getElem?_of_mem hu
      exact step i u.1 (by simp [Src.child, hi]) ha

theorem hasLeaf_tree (ht : E.tree = s.toTree) {a : A} (ha : a ∈ s.accounts) : HasLeaf E := by
  obtain ⟨q, h1, h2⟩ := leaf_of_account ht a _ s [] le_rfl rfl ha
  refine ⟨q, a, ?_, h2⟩
  rw [ht] at *
  exact h1

end

/-! ### The trees of a strategy -/

variable {S : Strat K} {info : A → Info K} {accounts : List A}

theorem groupTree_sound {low g : A → Prop} {t : Src A K} (h : GroupTree S info low g t) :
    t.Sound := by
  cases h with
  | debts l h hl =>
    exact .list _ fun c hc => by obtain ⟨a, -, rfl⟩ := List.mem_map.1 hc; exact .acct a
  | one a h ha => exact .acct a
  | many l h hl hg h2 =>
    refine .dict _ ?_ ?_ ?_
    · intro h; rw [List.map_eq_nil_iff] at h; subst h; simp at h2
    · intro e he; obtain ⟨a, -, rfl⟩ := List.mem_map.1 he; exact .acct a
    · intro e he; obtain ⟨a, -, rfl⟩ := List.mem_map.1 he; exact one_pos

theorem restTree_sound {ks : List String} {rest : Src A K}
    (hw : S.kind = .weighted → ks ≠ [] ∧ ∀ k ∈ ks, 0 < Dict.val S.weights k)
    (h : RestTree S info accounts ks rest) : rest.Sound := by
  unfold RestTree at h
  simp only at h
  cases hk : S.kind with
  | ordered =>
    rw [hk] at h
    obtain ⟨-, ts, rfl, h⟩ := h
    refine .list _ fun c hc => ?_
    obtain ⟨hlen, h⟩ := List.forall₂_iff_get.1 h
    obtain ⟨i, hi, rfl⟩ := List.mem_iff_getElem.1 hc
    have hg := h i (by rw [hlen]; exact hi) hi
    exact groupTree_sound hg
  | weighted =>
    rw [hk] at h
    obtain ⟨ts, rfl, h⟩ := h
    obtain ⟨hne, hpos⟩ := hw hk
    have each : ∀ e ∈ ts, ∃ k ∈ ks, GroupTree S info (fun a => a ∈ accounts ∧ Low S (info a))
        (fun a => a ∈ accounts ∧ ¬ High S (info a) ∧ KeyOf S.weights (info a) k) e.1 ∧
        Dict.get? S.weights k = some e.2 := by
      intro e he
      obtain ⟨hlen, h⟩ := List.forall₂_iff_get.1 h
      obtain ⟨i, hi, rfl⟩ := List.mem_iff_getElem.1 he
      exact ⟨ks[i]'(by rw [hlen]; exact hi), List.getElem_mem _, h i (by rw [hlen]; exact hi) hi⟩
    refine .dict _ ?_ (fun e he => ?_) (fun e he => ?_)
    · rintro rfl; cases h; exact hne rfl
    · obtain ⟨k, -, hg, -⟩ := each e he; exact groupTree_sound hg
    · obtain ⟨k, hk, -, hv⟩ := each e he
      have := hpos k hk
      rwa [Dict.val, hv] at this

/-! ### How large the trees are -/

/-- The children of a source node. -/
def Src.kids : Src A K → List (Src A K)
  | .acct _ => []
  | .list cs => cs
  | .dict cs => cs.map Prod.fst

theorem mem_kids {s c : Src A K} {i : ℕ} (h : s.child i = some c) : c ∈ s.kids := by
  cases s with
  | acct a => cases h
  | list cs => exact List.mem_of_getElem? h
  | dict cs =>
    simp only [Src.child, Option.map_eq_some_iff] at h
    obtain ⟨e, he, rfl⟩ := h
    exact List.mem_map_of_mem (List.mem_of_getElem? he)

/-- A source at most `d` levels deep. -/
def AtMost : ℕ → Src A K → Prop
  | 0, t => t.kids = []
  | d + 1, t => ∀ u ∈ t.kids, AtMost d u

theorem atMost_acct (d : ℕ) (a : A) : AtMost d (.acct a : Src A K) := by
  cases d
  · rfl
  · intro u hu; simp [Src.kids] at hu

theorem AtMost.sub {s : Src A K} {d : ℕ} (h : AtMost d s) (p : List ℕ) :
    ∀ t, s.sub p = some t → p.length ≤ d ∧ AtMost (d - p.length) t := by
  induction p using List.reverseRecOn with
  | nil => intro t ht; cases ht; exact ⟨Nat.zero_le _, h⟩
  | append_singleton p i ih =>
    intro t ht
    rw [sub_snoc] at ht
    cases hp : s.sub p with
    | none => rw [hp] at ht; cases ht
    | some u =>
      rw [hp] at ht
      obtain ⟨h1, h2⟩ := ih u hp
      have hk := mem_kids ht
      obtain ⟨e, he⟩ | he : (∃ e, d - p.length = e + 1) ∨ d - p.length = 0 := by
        cases d - p.length <;> simp
      · rw [he] at h2
        have hd : d - (p ++ [i]).length = e := by simp; omega
        rw [hd]
        exact ⟨by simp; omega, h2 t hk⟩
      · rw [he] at h2
        have h2 : u.kids = [] := h2
        rw [h2] at hk; simp at hk

/-- How many nodes a source has, down to a level. -/
def count : ℕ → Src A K → ℕ
  | 0, _ => 1
  | k + 1, t => 1 + (t.kids.map (count k)).sum

theorem count_acct (k : ℕ) (a : A) : count k (.acct a : Src A K) = 1 := by
  cases k <;> simp [count, Src.kids]

theorem count_flat (k : ℕ) (t : Src A K) (l : List A) (h : t.kids = l.map .acct) :
    count k t ≤ 1 + l.length := by
  cases k with
  | zero => simp [count]
  | succ k =>
    rw [count, h, List.map_map]
    have : (l.map (count k ∘ (Src.acct : A → Src A K))) = l.map fun _ => 1 := by
      apply List.map_congr_left
      intro a _
      exact count_acct k a
    rw [this]; simp

theorem group_count {S : Strat K} {info : A → Info K} {low g : A → Prop} {t : Src A K}
    (h : GroupTree S info low g t) (k : ℕ) :
    count k t ≤ 1 + t.accounts.length ∧ AtMost 1 t := by
  cases h with
  | debts l h hl =>
    refine ⟨by simpa [Src.accounts, accountsL_accts] using
      count_flat (K := K) k (.list (l.map .acct)) l rfl, fun u hu => ?_⟩
    obtain ⟨a, -, rfl⟩ := List.mem_map.1 hu
    exact atMost_acct _ a
  | one a h ha => exact ⟨by rw [count_acct]; omega, atMost_acct _ a⟩
  | many l h hl hg h2 =>
    have hk : (Src.dict (l.map fun a => ((.acct a : Src A K), (1 : K)))).kids = l.map .acct := by
      simp [Src.kids, Function.comp_def]
    refine ⟨by simpa [Src.accounts, accountsD_accts] using count_flat (K := K) k _ l hk,
      fun u hu => ?_⟩
    rw [hk] at hu
    obtain ⟨a, -, rfl⟩ := List.mem_map.1 hu
    exact atMost_acct _ a

theorem groups_count {S : Strat K} {info : A → Info K} {low : A → Prop}
    {withKey : String → A → Prop} {ks : List String} {ts : List (Src A K)}
    (h : List.Forall₂ (fun k t => GroupTree S info low (withKey k) t) ks ts)
    (hsome : ∀ k ∈ ks, ∃ a, withKey k a) (n : ℕ) :
    (ts.map (count n)).sum ≤ 2 * (ts.map Src.accounts).flatten.length ∧ ∀ t ∈ ts, AtMost 1 t := by
  induction h with
  | nil => simp
  | @cons k t ks ts h1 _ ih =>
    obtain ⟨i1, i2⟩ := ih fun k hk => hsome k (by simp [hk])
    obtain ⟨g1, g2⟩ := group_count h1 n
    obtain ⟨a, ha⟩ := hsome k (by simp)
    have : 0 < t.accounts.length :=
      List.length_pos_of_mem (((groupTree_accounts h1).2 a).2 ha)
    simp only [List.map_cons, List.sum_cons, List.flatten_cons, List.length_append,
      List.mem_cons, forall_eq_or_imp]
    exact ⟨by omega, g2, i2⟩

theorem rest_count {S : Strat K} {info : A → Info K} {accounts : List A} {ks : List String}
    {rest : Src A K} (h : RestTree S info accounts ks rest)
    (hsome : ∀ k ∈ ks, ∃ a, a ∈ accounts ∧ ¬ High S (info a) ∧ KeyOf S.weights (info a) k)
    (n : ℕ) : count n rest ≤ 1 + 2 * rest.accounts.length ∧ AtMost 2 rest := by
  unfold RestTree at h
  simp only at h
  cases hk : S.kind with
  | ordered =>
    rw [hk] at h
    obtain ⟨-, ts, rfl, h⟩ := h
    rw [Src.accounts, accountsL_eq]
    cases n with
    | zero => exact ⟨by simp [count], (groups_count h hsome 0).2⟩
    | succ n =>
      obtain ⟨h1, h2⟩ := groups_count h hsome n
      exact ⟨by rw [count]; exact Nat.add_le_add_left h1 1, h2⟩
  | weighted =>
    rw [hk] at h
    obtain ⟨ts, rfl, h⟩ := h
    have h' : List.Forall₂ (fun k t => GroupTree S info (fun a => a ∈ accounts ∧ Low S (info a))
        (fun a => a ∈ accounts ∧ ¬ High S (info a) ∧ KeyOf S.weights (info a) k) t) ks
        (ts.map Prod.fst) := by
      rw [List.forall₂_map_right_iff]
      exact h.imp fun k t ht => ht.1
    rw [Src.accounts, accountsD_eq]
    have e : (ts.map fun t => t.1.accounts) = (ts.map Prod.fst).map Src.accounts := by
      rw [List.map_map]; rfl
    rw [e]
    cases n with
    | zero => exact ⟨by simp [count], (groups_count h' hsome 0).2⟩
    | succ n =>
      obtain ⟨h1, h2⟩ := groups_count h' hsome n
      exact ⟨by rw [count]; exact Nat.add_le_add_left h1 1, h2⟩

/-- The tree of a strategy is at most three levels deep, and not much larger than the list of
accounts. -/
theorem tree_count {S : Strat K} {info : A → Info K} {order : List A → List A} {accounts : List A}
    (ho : ∀ l, (order l).Perm l) {src : Src A K}
    (h : buildTree S info order accounts = .ok src) (n : ℕ) :
    count n src ≤ 3 + 2 * accounts.length ∧ AtMost 3 src := by
  obtain ⟨hnd, hmem⟩ := C71_accounts ho h
  have hlen : src.accounts.length ≤ accounts.length := by
    have := (hnd.subperm fun a ha => ((hmem a).1 ha).1).length_le
    exact this
  obtain ⟨highs, ks, rest, h1, rfl, h3, h4, h5⟩ := C71_tree ho h
  have hs : ∀ k ∈ ks, ∃ a, a ∈ accounts ∧ ¬ High S (info a) ∧ KeyOf S.weights (info a) k := by
    intro k hk
    obtain ⟨a, h6, h7, h8⟩ := (h4 k).1 hk
    exact ⟨a, h6, h7, h8⟩
  by_cases hh : highs = []
  · rw [if_pos hh] at hlen ⊢
    obtain ⟨r1, r2⟩ := rest_count h5 hs n
    refine ⟨by omega, fun u hu => ?_⟩
    have := r2 u hu
    intro v hv
    have h9 : v.kids = [] := this v hv
    intro w hw
    rw [h9] at hw; simp at hw
  · rw [if_neg hh] at hlen ⊢
    simp only [Src.accounts, Src.accountsL, accountsL_accts, List.append_nil,
      List.length_append] at hlen
    refine ⟨?_, ?_⟩
    · cases n with
      | zero => simp [count]; omega
      | succ n =>
        have c1 := count_flat (K := K) n (.list (highs.map .acct)) highs rfl
        have c2 := (rest_count h5 hs n).1
        simp only [count, Src.kids, List.map_cons, List.map_nil, List.sum_cons, List.sum_nil]
        omega
    · intro u hu
      simp only [Src.kids, List.mem_cons, List.not_mem_nil, or_false] at hu
      rcases hu with rfl | rfl
      · intro v hv
        obtain ⟨a, -, rfl⟩ := List.mem_map.1 hv
        exact atMost_acct _ a
      · exact (rest_count h5 hs n).2

section

variable [FloorRing K] {E : Env (List ℕ) A K} {s : Src A K}

/-- The children of a node. -/
theorem size_count (ht : E.tree = s.toTree) (k : ℕ) : ∀ (p : List ℕ) (t : Src A K),
    s.sub p = some t → size E k p = count k t := by
  induction k with
  | zero => intro p t _; rfl
  | succ k ih =>
    intro p t hp
    rw [size, count]
    congr 2
    unfold childNodes
    rw [ht]
    simp only [Src.toTree, hp]
    cases t with
    | acct a => rfl
    | list cs =>
      simp only [Src.kids, List.map_map]
      apply List.ext_getElem (by simp)
      intro i h1 h2
      simp only [List.getElem_map, List.getElem_range, Function.comp_apply]
      apply ih
      rw [sub_snoc, hp]
      simp only [Option.bind_some, Src.child]
      exact List.getElem?_eq_getElem _
    | dict cs =>
      simp only [Src.kids, Dict.keys, List.map_map]
      apply List.ext_getElem (by simp)
      intro i h1 h2
      simp only [List.getElem_map, List.getElem_zipIdx, Function.comp_apply]
      apply ih
      rw [sub_snoc, hp]
      simp only [Option.bind_some, Src.child, zero_add]
      rw [List.getElem?_eq_getElem (by simpa using h2)]
      rfl

/-- The level of a node, from below. -/
theorem proper_depth (ht : E.tree = s.toTree) (hs : s.Sound) {d : ℕ} (hd : AtMost d s) :
    Proper E (fun p => d - p.length) where
  rank := by
    intro p c hc
    obtain ⟨i, t, u, rfl, h1, h2⟩ := (child_iff ht).1 hc
    have := (hd.sub (p ++ [i]) u (by rw [sub_snoc, h1]; exact h2)).1
    simp only [List.length_append, List.length_cons, List.length_nil] at this ⊢
    omega
  weights := (proper_tree ht hs).weights

end

/-! ### C90 -/

section

variable [FloorRing K] {order : List A → List A} {E : Env (List ℕ) A K} {available : Dict K K}

/-- **C90.** How deep recursion goes does not depend on the amounts, the accounts' limits or the flow
algorithm: four calls for each account and 23 more are enough. (Python allows 1000 calls.) -/
theorem C90_recursion_depth (ho : ∀ l, (order l).Perm l)
    (hdebt : S.debtStrategy = "Avalanche" ∨ S.debtStrategy = "Snowball" ∨
      ∀ a ∈ accounts, (info a).debt = true → 0 ≤ (info a).balance)
    (hsome : ∃ a ∈ accounts, (High S (info a) ∧ S.kind = .ordered) ∨
      (¬ High S (info a) ∧ ∃ k, KeyOf S.weights (info a) k))
    (hweights : S.kind = .weighted → ∀ k w, Dict.get? S.weights k = some w → 0 < w)
    (hw : Willing E) (hC : Complete E) (hS : ∀ g f, E.solve g = .ok f → Feasible g f)
    (hset : ∀ l, (E.setOrder l).Perm l) (hp : 0 < E.precision) {fuel : ℕ}
    (hf : 4 * accounts.length + 23 ≤ fuel) :
    ∃ r, call S info order E fuel accounts available = .ok r := by
  obtain ⟨src, hb⟩ := (C71_defined (S := S) (info := info) (accounts := accounts) ho).1 (by
    rcases hdebt with h | h | h
    · exact .inr (.inl h)
    · exact .inr (.inr h)
    · refine .inl ?_
      rintro ⟨a, ha, h1, h2⟩
      exact absurd h2 (not_lt.2 (h a ha h1)))
  have hcall : ∀ fuel, call S info order E fuel accounts available =
      Traversal.call { E with tree := src.toTree } fuel (Dict.total available) := by
    intro fuel; unfold call; rw [hb, ok_bind]
  simp only [hcall]
  have hleaf : HasLeaf { E with tree := src.toTree } := by
    obtain ⟨a, ha, h⟩ := hsome
    refine hasLeaf_tree (s := src) rfl (a := a) (((C71_accounts ho hb).2 a).2 ⟨ha, ?_⟩)
    rcases h with h | h
    · exact .inl h.1
    · exact .inr h.2
  have hsound : src.Sound := by
    obtain ⟨highs, ks, rest, h1, rfl, h3, h4, h5⟩ := C71_tree ho hb
    have hrest : rest.Sound := by
      refine restTree_sound (fun hk => ⟨?_, fun k hk' => ?_⟩) h5
      · obtain ⟨a, ha, h | ⟨h, k, hkey⟩⟩ := hsome
        · rw [hk] at h; cases h.2
        · exact List.ne_nil_of_mem ((h4 k).2 ⟨a, ha, h, hkey⟩)
      · obtain ⟨a, -, -, hkey⟩ := (h4 k).1 hk'
        exact hweights hk k _ (Dict.get?_eq_some_val hkey.1)
    by_cases hh : highs = []
    · rw [if_pos hh]; exact hrest
    · rw [if_neg hh]
      refine .list _ fun c hc => ?_
      rcases List.mem_cons.1 hc with rfl | hc
      · exact .list _ fun c hc => by obtain ⟨a, -, rfl⟩ := List.mem_map.1 hc; exact .acct a
      · rw [List.mem_singleton] at hc; subst hc; exact hrest
  obtain ⟨hcount, hdeep⟩ := tree_count ho hb 3
  have hP : Proper { E with tree := src.toTree } (fun p => 3 - p.length) :=
    proper_depth rfl hsound hdeep
  have hen : enough { E with tree := src.toTree } (fun p => 3 - p.length) ≤ fuel := by
    have : size { E with tree := src.toTree } 3 [] = count 3 src :=
      size_count (s := src) rfl 3 [] src rfl
    have he : enough { E with tree := src.toTree } (fun p => 3 - p.length)
        = 3 * 3 + 2 * size { E with tree := src.toTree } 3 [] + 8 := rfl
    omega
  by_cases h1 : E.precision < Dict.total available
  · exact inflows_enough hP hleaf ⟨hw.limit, hw.inflow, hw.outflow⟩ hC hset hp h1 hen
  by_cases h2 : Dict.total available < -E.precision
  · exact outflows_enough hP hleaf ⟨hw.limit, hw.inflow, hw.outflow⟩ hC hS hset hp
      (fun n => root_no_child (s := src) rfl n) rfl h2 hen
  · refine ⟨[], ?_⟩
    unfold Traversal.call
    rw [if_neg h1, if_neg h2]

/-- Higher limits on recursion make no difference. -/
theorem call_limit {m n : ℕ} (h : m ≤ n)
    (hm : call S info order E m accounts available ≠ .error .recursionError) :
    call S info order E n accounts available = call S info order E m accounts available := by
  unfold call at hm ⊢
  cases hb : buildTree S info order accounts with
  | error e => rfl
  | ok src =>
    rw [hb, ok_bind] at hm
    rw [ok_bind, ok_bind]
    exact C88_recursion_limit _ _ h hm

/-- **C90.** A strategy decides what to do with any amount of money, positive or negative, if it has
at least one account to work with (a high-interest debt, or an account with a weight; under the
weighted strategy: an account with a weight that is not a high-interest debt, and positive
weights), if it knows how to order debts, if its accounts answer and if the flow algorithm answers
for every network that it accepts. The limit on recursion does not matter once it is high enough. -/
theorem C90_decides (ho : ∀ l, (order l).Perm l)
    (hdebt : S.debtStrategy = "Avalanche" ∨ S.debtStrategy = "Snowball" ∨
      ∀ a ∈ accounts, (info a).debt = true → 0 ≤ (info a).balance)
    (hsome : ∃ a ∈ accounts, (High S (info a) ∧ S.kind = .ordered) ∨
      (¬ High S (info a) ∧ ∃ k, KeyOf S.weights (info a) k))
    (hweights : S.kind = .weighted → ∀ k w, Dict.get? S.weights k = some w → 0 < w)
    (hw : Willing E) (hC : Complete E) (hS : ∀ g f, E.solve g = .ok f → Feasible g f)
    (hset : ∀ l, (E.setOrder l).Perm l) (hp : 0 < E.precision) :
    ∃ r F, ∀ fuel, F ≤ fuel → call S info order E fuel accounts available = .ok r := by
  obtain ⟨r, hr⟩ := C90_recursion_depth ho hdebt hsome hweights hw hC hS hset hp
    (available := available) le_rfl
  exact ⟨r, _, fun fuel hf => by rw [call_limit hf (by rw [hr]; simp), hr]⟩

/-- **C90.** Amounts that are not worth distributing are not distributed: if a tree can be built, the
answer is that nothing is done, whatever the accounts and the flow algorithm. -/
theorem C90_small_change (ho : ∀ l, (order l).Perm l)
    (hdebt : S.debtStrategy = "Avalanche" ∨ S.debtStrategy = "Snowball" ∨
      ∀ a ∈ accounts, (info a).debt = true → 0 ≤ (info a).balance)
    (hsmall : |Dict.total available| ≤ E.precision) (fuel : ℕ) :
    call S info order E fuel accounts available = .ok [] := by
  obtain ⟨src, hb⟩ := (C71_defined (S := S) (info := info) (accounts := accounts) ho).1 (by
    rcases hdebt with h | h | h
    · exact .inr (.inl h)
    · exact .inr (.inr h)
    · refine .inl ?_
      rintro ⟨a, ha, h1, h2⟩
      exact absurd h2 (not_lt.2 (h a ha h1)))
  unfold call
  rw [hb, ok_bind]
  unfold Traversal.call
  obtain ⟨h1, h2⟩ := abs_le.1 hsmall
  rw [if_neg (not_lt.2 h2), if_neg (not_lt.2 h1)]

/-- **C90, refuted.** Without any account, money cannot be left lying: the weighted strategy raises
`ValueError` (the largest of no weights); the ordered one asks the flow algorithm about a network
without a sink, which networkx refuses, so that there is no answer either. -/
theorem C90_no_accounts_refuted (ho : ∀ l, (order l).Perm l) (hp : 0 ≤ E.precision)
    (hbig : E.precision < |Dict.total available|) (fuel : ℕ) :
    (S.kind = .weighted → call S info order E (fuel + 1) [] available = .error .valueError) ∧
    (S.kind = .ordered → (∀ g, (∀ u, (u, G.sink) ∉ Dict.keys g) → ∃ e, E.solve g = .error e) →
      ∃ e, call S info order E fuel [] available = .error e) := by
  have ho0 : order [] = [] := (ho []).eq_nil
  have hb : buildTree S info order [] =
      .ok (match S.kind with | .ordered => .list [] | .weighted => .dict []) := by
    unfold buildTree divideDebts
    simp only [List.dedup_nil, ho0, List.filter_nil]
    simp only [debtPriority, if_true, ok_bind, weightGroups, List.foldl_nil, List.map_nil, basicTree]
    cases S.kind <;> rfl
  have hsides : E.precision < Dict.total available ∨
      (¬ E.precision < Dict.total available ∧ Dict.total available < -E.precision) := by
    rcases lt_abs.1 hbig with h | h
    · exact .inl h
    · exact .inr ⟨by linarith, by linarith⟩
  -- a first traversal that fails is the end of the call
  have key : ∀ (src : Src A K) (n : ℕ) (e : PyErr), (∀ lim total,
      Traversal.traverse { E with tree := src.toTree } n lim total [] = .error e) →
      Traversal.call { E with tree := src.toTree } n (Dict.total available) = .error e := by
    intro src n e h
    unfold Traversal.call
    rcases hsides with h1 | ⟨h1, h2⟩
    · rw [if_pos h1, h]; rfl
    · rw [if_neg h1, if_pos h2, h]; rfl
  refine ⟨fun hk => ?_, fun hk hpicky => ?_⟩
  · unfold call
    rw [hb, ok_bind, hk]
    refine key _ _ _ fun lim total => ?_
    unfold Traversal.traverse buildGraph
    rw [addSuccessors]
    show ((addWeighted [] _ fuel [] true _ [] _ >>= _) >>= _) = _
    have none : ∀ next g (c : K), addWeighted (A := A) [] next fuel ([] : List ℕ) true g [] c =
        .error .valueError := by
      intro next g c
      unfold addWeighted
      rw [if_pos rfl, addWeightedChildren.eq_def]
      simp [flowsToChildren, Dict.keys, childEdges, overflowWeight]
      try rfl
    rw [none]
    rfl
  · unfold call
    rw [hb, ok_bind, hk]
    simp only
    cases fuel with
    | zero => exact ⟨_, key _ _ .recursionError fun lim total => rfl⟩
    | succ n =>
      have hg : ∀ lim total, ∃ g, (∀ u, (u, G.sink) ∉ Dict.keys g) ∧
          buildGraph { E with tree := (Src.list [] : Src A K).toTree } lim [] (n + 1) total
            = .ok g := by
        intro lim total
        refine ⟨putEdge (addEdge [] .source (.node []) (units E.precision total) none [])
          (.node []) (.limit []) none none, ?_, ?_⟩
        · intro u hu
          simp [addEdge, putEdge, Dict.keys, Dict.get?, Dict.set] at hu
        · unfold buildGraph
          rw [addSuccessors]
          unfold balanceAll
          cases n <;> rfl
      have hfail : ∀ lim total, ∃ e, Traversal.traverse
          { E with tree := (Src.list [] : Src A K).toTree } (n + 1) lim total [] = .error e := by
        intro lim total
        obtain ⟨g, h1, h2⟩ := hg lim total
        obtain ⟨e, he⟩ := hpicky g h1
        refine ⟨e, ?_⟩
        unfold Traversal.traverse
        rw [h2, ok_bind]
        show (E.solve g >>= _) = _
        rw [he]
        rfl
      unfold Traversal.call
      rcases hsides with h1 | ⟨h1, h2⟩
      · obtain ⟨e, he⟩ := hfail .minIn (.fin (Dict.total available))
        exact ⟨e, by rw [if_pos h1, he]; rfl⟩
      · obtain ⟨e, he⟩ := hfail .minOut .negInf
        exact ⟨e, by rw [if_neg h1, if_pos h2, he]; rfl⟩

end

section Cases

/-- **C90, refuted.** Under the weighted strategy, high-interest debts alone are not enough either:
`ValueError`, before the flow algorithm is asked. -/
theorem C90_only_debts_refuted : ∃ (S : Strat ℚ) (info : ℕ → Info ℚ) (E : Env (List ℕ) ℕ ℚ),
    S.kind = .weighted ∧ High S (info 1) ∧ KeyOf S.weights (info 1) "Debt" ∧ Willing E ∧
    E.precision = 1 / 100 ∧ (∀ lim, E.limitOf 1 lim = .ok (.fin (if lim = .maxIn then 1000 else 0))) ∧
    call S info id E 1000 [1] [(0, 500)] = .error .valueError := by
  refine ⟨⟨.weighted, [("Debt", 1), ("Account", 2)], "Avalanche", some (1 / 20)⟩,
    fun _ => ⟨["Debt", "Account"], true, -1000, 1 / 10⟩,
    { tree := (Src.list []).toTree, precision := 1 / 100,
      limitOf := fun _ lim => .ok (.fin (if lim = .maxIn then 1000 else 0)),
      txOf := fun _ _ x => .ok [(0, x)], groupOf := fun _ _ => none,
      solve := fun _ => .error .keyError }, rfl, ⟨rfl, by norm_num, _, rfl, by norm_num⟩, ?_,
    ⟨fun _ _ => ⟨_, rfl⟩, fun _ _ _ _ _ => ⟨_, rfl⟩, fun _ _ _ _ _ => ⟨_, rfl⟩⟩, rfl, fun _ => rfl,
    by decide +kernel⟩
  exact ⟨by decide, [], ["Account"], rfl, by simp⟩

/-- A debt, an RRSP and a TFSA. -/
def decideInfo : ℕ → Info ℚ := fun a =>
  if a = 0 then ⟨["Debt", "Account"], true, -1000, 1 / 10⟩
  else if a = 1 then ⟨["RRSP", "Account"], false, 100, 1 / 10⟩
  else ⟨["TFSA", "Account"], false, 200, 1 / 10⟩

/-- The conditions of `C90_decides` can be met: a debt, an RRSP and a TFSA, any amount, and a flow
algorithm as in `C88_solver_exists`. -/
example : ∃ solve, ∀ total : ℚ, ∃ r F, ∀ fuel, F ≤ fuel →
    call (K := ℚ) ⟨.weighted, [("RRSP", 2), ("TFSA", 1)], "Snowball", some (1 / 20)⟩ decideInfo id
      { tree := (Src.list []).toTree, precision := 1 / 100,
        limitOf := fun _ lim => .ok (.fin (if lim = .maxIn then 1000 else 0)),
        txOf := fun _ _ x => .ok [(0, x)], groupOf := fun _ _ => none, solve := solve }
      fuel [0, 1, 2] [(0, total)] = .ok r := by
  obtain ⟨solve, h1, h2⟩ := C88_solver_exists (N := List ℕ) (A := ℕ)
  refine ⟨solve, fun total => ?_⟩
  refine C90_decides (fun l => .refl l) (.inr (.inl rfl)) ⟨1, by simp, .inr ⟨?_, "RRSP", ?_⟩⟩ ?_
    ⟨fun _ _ => ⟨_, rfl⟩, fun _ _ _ _ _ => ⟨_, rfl⟩, fun _ _ _ _ _ => ⟨_, rfl⟩⟩ h2
    (fun g f h => (h1 g f h).feasible) (fun l => .refl l) (by norm_num)
  · simp [High, decideInfo]
  · exact ⟨by decide, [], ["Account"], rfl, by simp⟩
  · intro _ k w h
    have := Dict.mem_of_get? h
    simp only [List.mem_cons, Prod.mk.injEq, List.not_mem_nil, or_false] at this
    rcases this with ⟨-, rfl⟩ | ⟨-, rfl⟩ <;> norm_num

end Cases

end Forecaster.TxStrategy
