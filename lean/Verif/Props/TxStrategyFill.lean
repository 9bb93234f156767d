import Verif.Props.TxStrategy
import Verif.Props.TraversalNested
import Verif.Props.TraversalSplit

/-!
# C72: where the money goes under a `TransactionStrategy`
-/

set_option linter.unusedSectionVars false

namespace Forecaster.TxStrategy

open Forecaster Forecaster.Timing Forecaster.Traversal

variable {K : Type} [Field K] [LinearOrder K] [IsStrictOrderedRing K]
variable {A : Type} [DecidableEq A]

/-! ### Written lists as forests -/

mutual
/-- The forest of a list entry with node `n`, followed by `rest`. -/
def Src.forest : Src A K → List ℕ → Forest (List ℕ) A → Forest (List ℕ) A
  | .acct a, n, rest => .leaf n a rest
  | .list cs, n, rest => .node n (Src.forestL cs n 0) rest
  | .dict _, _, rest => rest
/-- The forest of the entries of a list with node `p`, the first of which has number `i`. -/
def Src.forestL : List (Src A K) → List ℕ → ℕ → Forest (List ℕ) A
  | [], _, _ => .nil
  | c :: r, p, i => c.forest (p ++ [i]) (Src.forestL r p (i + 1))
end

mutual
/-- Specification: no weights anywhere. -/
def Src.Plain : Src A K → Prop
  | .acct _ => True
  | .list cs => Src.PlainL cs
  | .dict _ => False
/-- No weights in any of the entries. -/
def Src.PlainL : List (Src A K) → Prop
  | [] => True
  | c :: r => c.Plain ∧ Src.PlainL r
end

mutual
theorem Src.forest_accs (s : Src A K) (hs : s.Plain) (n : List ℕ) (rest : Forest (List ℕ) A) :
    (s.forest n rest).accs = s.accounts ++ rest.accs := by
  match s with
  | .acct a => simp [Src.forest, Forest.accs, Src.accounts]
  | .list cs =>
    rw [Src.Plain] at hs
    simp [Src.forest, Forest.accs, Src.accounts, Src.forestL_accs cs hs]
  | .dict cs => exact absurd hs (by simp [Src.Plain])
theorem Src.forestL_accs (cs : List (Src A K)) (hs : Src.PlainL cs) (p : List ℕ) (i : ℕ) :
    (Src.forestL cs p i).accs = Src.accountsL cs := by
  match cs with
  | [] => simp [Src.forestL, Forest.accs, Src.accountsL]
  | c :: r =>
    rw [Src.PlainL] at hs
    rw [Src.forestL, Src.forest_accs c hs.1, Src.forestL_accs r hs.2, Src.accountsL]
end

theorem Src.forest_roots (s : Src A K) (hs : s.Plain) (n : List ℕ) (rest : Forest (List ℕ) A) :
    (s.forest n rest).roots = n :: rest.roots := by
  cases s with
  | acct a => simp [Src.forest, Forest.roots]
  | list cs => simp [Src.forest, Forest.roots]
  | dict cs => exact absurd hs (by simp [Src.Plain])

theorem Src.forestL_roots (cs : List (Src A K)) (hs : Src.PlainL cs) (p : List ℕ) (i : ℕ) :
    (Src.forestL cs p i).roots = (List.range' i cs.length).map fun j => p ++ [j] := by
  induction cs generalizing i with
  | nil => simp [Src.forestL, Forest.roots]
  | cons c r ih =>
    rw [Src.PlainL] at hs
    rw [Src.forestL, Src.forest_roots c hs.1, ih hs.2, List.length_cons, List.range'_succ,
      List.map_cons]

mutual
theorem Src.forest_ids (s : Src A K) (n : List ℕ) (rest : Forest (List ℕ) A) :
    ∀ m ∈ (s.forest n rest).ids, n <+: m ∨ m ∈ rest.ids := by
  match s with
  | .acct a =>
    intro m hm
    simp only [Src.forest, Forest.ids, List.mem_cons] at hm
    rcases hm with rfl | hm
    · exact .inl (List.prefix_refl _)
    · exact .inr hm
  | .list cs =>
    intro m hm
    simp only [Src.forest, Forest.ids, List.mem_cons, List.mem_append] at hm
    rcases hm with rfl | hm | hm
    · exact .inl (List.prefix_refl _)
    · obtain ⟨j, -, hj⟩ := Src.forestL_ids cs n 0 m hm
      exact .inl ((List.prefix_append n [j]).trans hj)
    · exact .inr hm
  | .dict cs => intro m hm; exact .inr (by simpa [Src.forest] using hm)
theorem Src.forestL_ids (cs : List (Src A K)) (p : List ℕ) (i : ℕ) :
    ∀ m ∈ (Src.forestL cs p i).ids, ∃ j, i ≤ j ∧ p ++ [j] <+: m := by
  match cs with
  | [] => intro m hm; simp [Src.forestL, Forest.ids] at hm
  | c :: r =>
    intro m hm
    rw [Src.forestL] at hm
    rcases Src.forest_ids c _ _ m hm with h | h
    · exact ⟨i, le_rfl, h⟩
    · obtain ⟨j, hj, h⟩ := Src.forestL_ids r p (i + 1) m h
      exact ⟨j, by omega, h⟩
end

theorem prefix_snoc_inj {p m : List ℕ} {i j : ℕ} (h1 : p ++ [i] <+: m) (h2 : p ++ [j] <+: m) :
    i = j := by
  obtain ⟨s, rfl⟩ := h1
  obtain ⟨t, ht⟩ := h2
  simp only [List.append_assoc, List.append_cancel_left_eq, List.cons_append, List.nil_append,
    List.cons.injEq] at ht
  exact ht.1.symm

theorem not_snoc_prefix (p : List ℕ) (j : ℕ) : ¬ p ++ [j] <+: p := by
  intro h
  have := h.length_le
  simp at this

mutual
theorem Src.forest_nodup (s : Src A K) (p : List ℕ) (i : ℕ) (rest : Forest (List ℕ) A)
    (hr : rest.ids.Nodup) (hd : ∀ m ∈ rest.ids, ¬ p ++ [i] <+: m) :
    (s.forest (p ++ [i]) rest).ids.Nodup := by
  match s with
  | .acct a =>
    simp only [Src.forest, Forest.ids, List.nodup_cons]
    exact ⟨fun h => hd _ h (List.prefix_refl _), hr⟩
  | .list cs =>
    simp only [Src.forest, Forest.ids, List.nodup_cons, List.mem_append, not_or, List.nodup_append]
    refine ⟨⟨fun h => ?_, fun h => hd _ h (List.prefix_refl _)⟩, Src.forestL_nodup cs _ 0, hr, ?_⟩
    · obtain ⟨j, -, hj⟩ := Src.forestL_ids cs _ 0 _ h
      exact not_snoc_prefix _ _ hj
    · rintro m hm m' hm' rfl
      obtain ⟨j, -, hj⟩ := Src.forestL_ids cs _ 0 _ hm
      exact hd _ hm' ((List.prefix_append _ _).trans hj)
  | .dict cs => simpa [Src.forest] using hr
theorem Src.forestL_nodup (cs : List (Src A K)) (p : List ℕ) (i : ℕ) :
    (Src.forestL cs p i).ids.Nodup := by
  match cs with
  | [] => simp [Src.forestL, Forest.ids]
  | c :: r =>
    rw [Src.forestL]
    refine Src.forest_nodup c p i _ (Src.forestL_nodup r p (i + 1)) fun m hm h => ?_
    obtain ⟨j, hj, h'⟩ := Src.forestL_ids r p (i + 1) m hm
    have := prefix_snoc_inj h h'
    omega
end

theorem sub_snoc (s : Src A K) (p : List ℕ) (i : ℕ) :
    s.sub (p ++ [i]) = (s.sub p).bind fun t => t.child i := by
  simp [Src.sub, List.foldl_append]

section Fits

variable [FloorRing K] {E : Env (List ℕ) A K} {lim : Lim} {s : Src A K}

mutual
theorem Src.forest_fits (ht : E.tree = s.toTree) (t : Src A K) (hp : t.Plain) (n : List ℕ)
    (hn : s.sub n = some t) (hg : ∀ a ∈ t.accounts, E.groupOf a lim = none)
    (rest : Forest (List ℕ) A) (hr : rest.Fits E lim) : (t.forest n rest).Fits E lim := by
  match t with
  | .acct a =>
    simp only [Src.forest, Forest.Fits]
    refine ⟨?_, ?_, hg a (by simp [Src.accounts]), hr⟩
    · rw [ht]; simp [Src.toTree, hn]
    · rw [ht]; rfl
  | .list cs =>
    rw [Src.Plain] at hp
    simp only [Src.forest, Forest.Fits]
    refine ⟨?_, ?_, ?_, hr⟩
    · rw [ht, Src.forestL_roots cs hp]
      simp [Src.toTree, hn, List.range_eq_range']
    · rw [ht]; rfl
    · refine Src.forestL_fits ht cs hp n 0 (fun j c hj => ?_) fun a ha => hg a (by
        rw [Src.accounts]; exact ha)
      rw [sub_snoc, hn]
      simpa [Src.child] using hj
  | .dict cs => exact absurd hp (by simp [Src.Plain])
theorem Src.forestL_fits (ht : E.tree = s.toTree) (cs : List (Src A K)) (hp : Src.PlainL cs)
    (p : List ℕ) (i : ℕ) (hn : ∀ j c, cs[j]? = some c → s.sub (p ++ [i + j]) = some c)
    (hg : ∀ a ∈ Src.accountsL cs, E.groupOf a lim = none) : (Src.forestL cs p i).Fits E lim := by
  match cs with
  | [] => simp [Src.forestL, Forest.Fits]
  | c :: r =>
    rw [Src.PlainL] at hp
    rw [Src.forestL]
    refine Src.forest_fits ht c hp.1 _ (by simpa using hn 0 c rfl) (fun a ha => hg a (by
      rw [Src.accountsL]; exact List.mem_append_left _ ha)) _ ?_
    refine Src.forestL_fits ht r hp.2 p (i + 1) (fun j c' hj => ?_) fun a ha => hg a (by
      rw [Src.accountsL]; exact List.mem_append_right _ ha)
    have := hn (j + 1) c' (by simpa using hj)
    rw [show i + 1 + j = i + (j + 1) by omega]
    exact this
end

/-- Nested lists without weights are the nested lists of C70. -/
theorem nested_of_plain (cs : List (Src A K)) (ht : E.tree = (Src.list cs).toTree)
    (hp : Src.PlainL cs) (hn : (Src.accountsL cs).Nodup)
    (hg : ∀ a ∈ Src.accountsL cs, E.groupOf a lim = none) :
    Nested E lim (Src.forestL cs [] 0) := by
  refine ⟨?_, ?_, ?_, ⟨?_, ?_⟩⟩
  · rw [ht, Src.forestL_roots cs hp]
    simp [Src.toTree, Src.sub, List.range_eq_range']
  · rw [ht]; rfl
  · refine Src.forestL_fits ht cs hp [] 0 (fun j c hj => ?_) hg
    simp [Src.sub, Src.child, hj]
  · rw [ht, List.nodup_cons]
    refine ⟨fun h => ?_, Src.forestL_nodup cs [] 0⟩
    obtain ⟨j, -, hj⟩ := Src.forestL_ids cs [] 0 _ h
    exact not_snoc_prefix [] j hj
  · rw [Src.forestL_accs cs hp]; exact hn

theorem root_no_child (ht : E.tree = s.toTree) (n : List ℕ) :
    E.tree.root ∉ childNodes E n := by
  unfold childNodes
  rw [ht]
  simp only [Src.toTree]
  cases s.sub n with
  | none => simp
  | some t => cases t <;> simp [Dict.keys]

end Fits

/-! ### The trees of the ordered strategy -/

/-- Specification: `a` is to be paid before `b` (or at the same time) under the debt strategy. -/
def DebtBefore (S : Strat K) (info : A → Info K) (a b : A) : Prop :=
  (S.debtStrategy = "Avalanche" ∧ (info b).rate ≤ (info a).rate) ∨
    (S.debtStrategy = "Snowball" ∧ |(info a).balance| ≤ |(info b).balance|)

/-- Specification: `a` comes before `b` under the ordered strategy: high-interest debts first, by the
debt strategy; then the account with the smaller weight, and low-interest debts by the debt
strategy. -/
def Prior (S : Strat K) (info : A → Info K) (a b : A) : Prop :=
  (High S (info a) ∧ ¬ High S (info b)) ∨
  (High S (info a) ∧ High S (info b) ∧ DebtBefore S info a b) ∨
  (¬ High S (info a) ∧ ¬ High S (info b) ∧ ∃ j k, KeyOf S.weights (info a) j ∧
    KeyOf S.weights (info b) k ∧ Dict.val S.weights j ≤ Dict.val S.weights k ∧
    (j = k → DebtBefore S info a b))

/-- Specification: every account that is no high-interest debt has a key of its own, except that the
low-interest debts may share one, with which nothing else has, and which has the smallest or the
largest weight. -/
def OwnKeys (S : Strat K) (info : A → Info K) (accounts : List A) : Prop :=
  ∀ k, let withKey := fun a => a ∈ accounts ∧ ¬ High S (info a) ∧ KeyOf S.weights (info a) k
    (∀ a b, withKey a → withKey b → a = b) ∨
    ((∀ a, withKey a ↔ a ∈ accounts ∧ Low S (info a)) ∧
      ((∀ b ∈ accounts, ∀ j, ¬ High S (info b) → KeyOf S.weights (info b) j → j ≠ k →
          Dict.val S.weights k < Dict.val S.weights j) ∨
        (∀ b ∈ accounts, ∀ j, ¬ High S (info b) → KeyOf S.weights (info b) j → j ≠ k →
          Dict.val S.weights j < Dict.val S.weights k)))

theorem forestL_accts_edges (l : List A) (p : List ℕ) (i : ℕ) (first : Bool) :
    (Src.forestL (l.map (Src.acct (K := K))) p i).EdgesOnly first := by
  induction l generalizing i first with
  | nil => simp [Src.forestL, Forest.EdgesOnly]
  | cons a l ih => simp [Src.forestL, Src.forest, Forest.EdgesOnly, ih]

theorem forestL_accts_single {l : List A} (h : l.length ≤ 1) (p : List ℕ) (i : ℕ) :
    (Src.forestL (l.map (Src.acct (K := K))) p i).Single := by
  match l, h with
  | [], _ => simp [Src.forestL, Forest.Single]
  | [a], _ => simp [Src.forestL, Src.forest, Forest.Single]

theorem plainL_accts (l : List A) : Src.PlainL (l.map (Src.acct (K := K))) := by
  induction l with
  | nil => simp [Src.PlainL]
  | cons a l ih => simp [Src.PlainL, Src.Plain, ih]

/-- An account, or a list of accounts. -/
def Shallow (t : Src A K) : Prop := (∃ a, t = .acct a) ∨ ∃ l : List A, t = .list (l.map .acct)

theorem Shallow.plain {ts : List (Src A K)} (h : ∀ t ∈ ts, Shallow t) : Src.PlainL ts := by
  induction ts with
  | nil => simp [Src.PlainL]
  | cons t ts ih =>
    rw [Src.PlainL]
    refine ⟨?_, ih fun t ht => h t (by simp [ht])⟩
    rcases h t (by simp) with ⟨a, rfl⟩ | ⟨l, rfl⟩
    · simp [Src.Plain]
    · rw [Src.Plain]; exact plainL_accts l

theorem forestL_edges (ts : List (Src A K)) (h : ∀ t ∈ ts, Shallow t) (p : List ℕ) (i : ℕ)
    (first : Bool) (hpos : ∀ pre t post, ts = pre ++ t :: post →
      (pre = [] ∧ first = true) ∨ post = [] ∨ t.accounts.length ≤ 1) :
    (Src.forestL ts p i).EdgesOnly first := by
  induction ts generalizing i first with
  | nil => simp [Src.forestL, Forest.EdgesOnly]
  | cons t ts ih =>
    have htail : (Src.forestL ts p (i + 1)).EdgesOnly false := by
      refine ih (fun t ht => h t (by simp [ht])) (i + 1) false fun pre t' post e => ?_
      rcases hpos (t :: pre) t' post (by simp [e]) with h1 | h1 | h1
      · simp at h1
      · exact .inr (.inl h1)
      · exact .inr (.inr h1)
    rw [Src.forestL]
    rcases h t (by simp) with ⟨a, rfl⟩ | ⟨l, rfl⟩
    · simpa [Src.forest, Forest.EdgesOnly] using htail
    · simp only [Src.forest, Forest.EdgesOnly]
      refine ⟨forestL_accts_edges l _ 0 true, htail, ?_⟩
      rcases hpos [] _ ts rfl with h1 | h1 | h1
      · exact .inl h1.2
      · subst h1; exact .inr (.inl (by simp [Src.forestL]))
      · refine .inr (.inr (forestL_accts_single ?_ _ 0))
        simpa [Src.accounts, accountsL_accts] using h1

/-- If position in a list `ks` of distinct keys follows the weights, a key of smallest or largest
weight is at the beginning or at the end. -/
theorem at_an_end {w : String → K} {pre post : List String} {k : String}
    (hs : (pre ++ k :: post).Pairwise fun i j => w i ≤ w j) (hn : (pre ++ k :: post).Nodup)
    (h : (∀ j ∈ pre ++ k :: post, j ≠ k → w k < w j) ∨ (∀ j ∈ pre ++ k :: post, j ≠ k → w j < w k)) :
    pre = [] ∨ post = [] := by
  rw [List.pairwise_append] at hs
  rw [List.nodup_append] at hn
  rcases h with h | h
  · left
    by_contra hne
    obtain ⟨j, hj⟩ := List.exists_mem_of_ne_nil _ hne
    have h1 := hs.2.2 j hj k (by simp)
    have h2 := h j (by simp [hj]) (hn.2.2 j hj k (by simp))
    exact absurd h1 (not_le.2 h2)
  · right
    by_contra hne
    obtain ⟨j, hj⟩ := List.exists_mem_of_ne_nil _ hne
    have h1 := List.rel_of_pairwise_cons hs.2.1 hj
    have h2 := h j (by simp [hj]) (by rintro rfl; exact (List.nodup_cons.1 hn.2.1).1 hj)
    exact absurd h1 (not_le.2 h2)

theorem forall₂_split {α β : Type} {R : α → β → Prop} {l : List α} {pre post : List β} {b : β}
    (h : List.Forall₂ R l (pre ++ b :: post)) :
    ∃ lp a lq, l = lp ++ a :: lq ∧ R a b ∧ lp.length = pre.length ∧ lq.length = post.length := by
  induction pre generalizing l with
  | nil =>
    cases h with
    | cons h1 h2 => exact ⟨[], _, _, rfl, h1, rfl, h2.length_eq⟩
  | cons c pre ih =>
    cases h with
    | cons h1 h2 =>
      obtain ⟨lp, a, lq, rfl, k1, k2, k3⟩ := ih h2
      exact ⟨_ :: lp, a, lq, rfl, k1, by simp [k2], k3⟩

theorem forall₂_pairwise {α β : Type} {R : α → β → Prop} {P : α → α → Prop} {Q : β → β → Prop}
    {l : List α} {m : List β} (h : List.Forall₂ R l m)
    (hl : l.Pairwise P) (hpq : ∀ a a' b b', P a a' → R a b → R a' b' → Q b b') :
    m.Pairwise Q := by
  induction h with
  | nil => exact List.Pairwise.nil
  | @cons a b l m h1 h2 ih =>
    rw [List.pairwise_cons] at hl ⊢
    refine ⟨fun b' hb' => ?_, ih hl.2⟩
    obtain ⟨a', ha', hr⟩ : ∃ a' ∈ l, R a' b' := by
      clear ih hl
      induction h2 with
      | nil => simp at hb'
      | cons k1 k2 ih =>
        rcases List.mem_cons.1 hb' with rfl | hb'
        · exact ⟨_, by simp, k1⟩
        · obtain ⟨a', h3, h4⟩ := ih hb'
          exact ⟨a', by simp [h3], h4⟩
    exact hpq a a' b b' (hl.1 a' ha') h1 hr

theorem InDebtOrder.pairwise {S : Strat K} {info : A → Info K} {s : A → Prop} {l : List A}
    (h : InDebtOrder S info s l) : l.Pairwise (DebtBefore S info) := by
  rcases h.order with rfl | ⟨h1, h2⟩ | ⟨h1, h2⟩
  · exact List.Pairwise.nil
  · exact h2.imp fun hab => .inl ⟨h1, hab⟩
  · exact h2.imp fun hab => .inr ⟨h1, hab⟩

theorem accountsD_accts' (w : A → K) (l : List A) :
    Src.accountsD (l.map fun a => (Src.acct (K := K) a, w a)) = l := by
  induction l with
  | nil => rfl
  | cons a l ih => simp [Src.accountsD, Src.accounts, ih]

section Ordered

variable {S : Strat K} {info : A → Info K} {order : List A → List A} {accounts : List A}

theorem ordered_tree (ho : ∀ l, (order l).Perm l) {src : Src A K} (hS : S.kind = .ordered)
    (hown : OwnKeys S info accounts) (h : buildTree S info order accounts = .ok src) :
    ∃ cs, src = .list cs ∧ Src.PlainL cs ∧ (Src.forestL cs [] 0).EdgesOnly true ∧
      (Src.accountsL cs).Pairwise (Prior S info) := by
  obtain ⟨highs, ks, rest, h1, h2, h3, h4, h5⟩ := C71_tree ho h
  have hra := (restTree_accounts h3 h5).2
  unfold RestTree at h5
  simp only [hS] at h5
  obtain ⟨hsort, ts, rfl, hts⟩ := h5
  have hshallow : ∀ t ∈ ts, Shallow t := by
    intro t ht
    obtain ⟨pre, post, rfl⟩ := List.append_of_mem ht
    obtain ⟨lp, k, lq, -, hk, -, -⟩ := forall₂_split hts
    cases hk with
    | debts l _ _ => exact .inr ⟨l, rfl⟩
    | one a _ _ => exact .inl ⟨a, rfl⟩
    | many l hne hl hg hlen =>
      exfalso
      rcases hown k with h6 | h6
      · match l, hlen, hl, hg with
        | a :: b :: l, _, hl, hg =>
          have := h6 a b ((hg a).1 (by simp)) ((hg b).1 (by simp))
          subst this
          simp at hl
      · exact hne fun a => h6.1 a
  have hedges : ∀ (p : List ℕ), (Src.forestL ts p 0).EdgesOnly true := by
    intro p
    refine forestL_edges ts hshallow p 0 true fun pre t post e => ?_
    subst e
    obtain ⟨lp, k, lq, rfl, hk, e1, e2⟩ := forall₂_split hts
    obtain ⟨n1, n2⟩ := groupTree_accounts hk
    have hmem : ∀ j ∈ lp ++ k :: lq, ∃ b ∈ accounts, ¬ High S (info b) ∧
        KeyOf S.weights (info b) j := fun j hj => (h4 j).1 hj
    rcases hown k with h6 | ⟨-, h6⟩
    · right; right
      match hacc : t.accounts with
      | [] => simp
      | [a] => simp
      | a :: b :: l =>
        exfalso
        rw [hacc] at n1 n2
        have := h6 a b ((n2 a).1 (by simp)) ((n2 b).1 (by simp))
        subst this
        simp at n1
    · have := at_an_end hsort h3 (by
        rcases h6 with h6 | h6
        · left
          intro j hj hjk
          obtain ⟨b, hb, hh, hkb⟩ := hmem j hj
          exact h6 b hb j hh hkb hjk
        · right
          intro j hj hjk
          obtain ⟨b, hb, hh, hkb⟩ := hmem j hj
          exact h6 b hb j hh hkb hjk)
      rcases this with rfl | rfl
      · left; exact ⟨by simpa using e1.symm, rfl⟩
      · right; left; simpa using e2.symm
  have hprior : (Src.accountsL ts).Pairwise (Prior S info) := by
    rw [accountsL_eq, List.pairwise_flatten]
    constructor
    · intro l hl
      obtain ⟨t, ht, rfl⟩ := List.mem_map.1 hl
      obtain ⟨pre, post, rfl⟩ := List.append_of_mem ht
      obtain ⟨lp, k, lq, -, hk, -, -⟩ := forall₂_split hts
      obtain ⟨n1, n2⟩ := groupTree_accounts hk
      have key : t.accounts.Pairwise (DebtBefore S info) → t.accounts.Pairwise (Prior S info) := by
        intro hd
        refine hd.imp_of_mem fun {a b} ha hb hab => ?_
        obtain ⟨-, ha1, ha2⟩ := (n2 a).1 ha
        obtain ⟨-, hb1, hb2⟩ := (n2 b).1 hb
        exact .inr (.inr ⟨ha1, hb1, k, k, ha2, hb2, le_rfl, fun _ => hab⟩)
      apply key
      cases hk with
      | debts l2 _ hord => simpa [Src.accounts, accountsL_accts] using hord.pairwise
      | one a _ _ => simp [Src.accounts]
      | many l hne hl hg hlen =>
        rcases hshallow _ ht with ⟨a, e⟩ | ⟨l', e⟩ <;> cases e
    · rw [List.pairwise_map]
      have hs' : ks.Pairwise fun j k => Dict.val S.weights j ≤ Dict.val S.weights k ∧ j ≠ k :=
        hsort.and h3
      refine forall₂_pairwise hts hs' ?_
      rintro j k t t' ⟨hjk, hne⟩ ht ht' a ha b hb
      obtain ⟨-, ha1, ha2⟩ := ((groupTree_accounts ht).2 a).1 ha
      obtain ⟨-, hb1, hb2⟩ := ((groupTree_accounts ht').2 b).1 hb
      exact .inr (.inr ⟨ha1, hb1, j, k, ha2, hb2, hjk, fun e => absurd e hne⟩)
  by_cases hh : highs = []
  · rw [if_pos hh] at h2
    exact ⟨ts, h2, Shallow.plain hshallow, hedges [], hprior⟩
  · rw [if_neg hh] at h2
    refine ⟨_, h2, ?_, ?_, ?_⟩
    · simp only [Src.PlainL, Src.Plain, and_true]
      exact ⟨plainL_accts highs, Shallow.plain hshallow⟩
    · simp only [Src.forestL, Src.forest, Forest.EdgesOnly, and_true, true_or, or_true, List.nil_append]
      exact ⟨forestL_accts_edges highs _ 0 true, hedges _⟩
    · simp only [Src.accountsL, Src.accounts, List.append_nil, accountsL_accts]
      rw [List.pairwise_append]
      refine ⟨?_, hprior, ?_⟩
      · refine h1.pairwise.imp_of_mem fun {a b} ha hb hab => ?_
        exact .inr (.inl ⟨((h1.mem a).1 ha).2, ((h1.mem b).1 hb).2, hab⟩)
      · intro a ha b hb
        obtain ⟨k, -, -, hb1, -⟩ := (hra b).1 (by rw [Src.accounts]; exact hb)
        exact .inl ⟨((h1.mem a).1 ha).2, hb1⟩

variable [FloorRing K] {E : Env (List ℕ) A K} {fuel : ℕ} {available : Dict K K}
  {r : Dict A (Dict K K)}

/-- The environment of the traversal. -/
theorem call_eq {src : Src A K} (hb : buildTree S info order accounts = .ok src)
    (h : call S info order E fuel accounts available = .ok r) :
    Traversal.call { E with tree := src.toTree } fuel (Dict.total available) = .ok r := by
  unfold call at h
  rw [hb, ok_bind] at h
  exact h

theorem call_tree (h : call S info order E fuel accounts available = .ok r) :
    ∃ src, buildTree S info order accounts = .ok src := by
  unfold call at h
  cases hb : buildTree S info order accounts with
  | error e => rw [hb] at h; cases h
  | ok src => exact ⟨src, rfl⟩

/-- **C72.** Under the ordered strategy money goes first to the minimums of the accounts and then to
their maximums, both in this order: high-interest debts, by the debt strategy; then the other
accounts, by the weight of their key, with low-interest debts among themselves again by the debt
strategy. -/
theorem C72_ordered_inflows (ho : ∀ l, (order l).Perm l) (hS : S.kind = .ordered)
    (hown : OwnKeys S info accounts) (hE : Optimal E) (hA : Answers E) (hX : Exact E)
    (hp : 0 < E.precision) (ht : E.precision < Dict.total available)
    (hg : ∀ a ∈ accounts, ∀ lim, E.groupOf a lim = none) (lo : A → K) (hi : A → Ext K)
    (hlo : ∀ a ∈ accounts, E.limitOf a .minIn = .ok (.fin (lo a)) ∧ 0 ≤ lo a)
    (hhi : ∀ a ∈ accounts, E.limitOf a .maxIn = .ok (hi a) ∧ .fin (lo a) ≤ hi a)
    (h : call S info order E fuel accounts available = .ok r) :
    ∃ l : List A, l.Nodup ∧
      (∀ a, a ∈ l ↔ a ∈ accounts ∧ (High S (info a) ∨ ∃ k, KeyOf S.weights (info a) k)) ∧
      l.Pairwise (Prior S info) ∧
      l.map (given r) = (twoPass ⌊Dict.total available / E.precision⌋
        (l.map fun a => ⌊lo a / E.precision⌋)
        (l.map fun a => wholeUnits E.precision (hi a))).map fun x : ℤ => E.precision * (x : K) := by
  obtain ⟨src, hb⟩ := call_tree h
  obtain ⟨n1, n2⟩ := C71_accounts ho hb
  obtain ⟨cs, rfl, hp1, hp2, hp3⟩ := ordered_tree ho hS hown hb
  rw [Src.accounts] at n1 n2
  have hacc := Src.forestL_accs cs hp1 [] 0
  refine ⟨Src.accountsL cs, n1, n2, hp3, ?_⟩
  rw [← hacc]
  rw [← hacc] at n2
  exact C70_inflows_in_order (E := { E with tree := (Src.list cs).toTree })
    ⟨hE.solver, hE.sets, hE.accts⟩ ⟨hA.inflow, hA.outflow⟩ ⟨hX.inflow, hX.outflow⟩ hp ht
    (nested_of_plain cs rfl hp1 n1 fun a ha => hg a (by rw [← hacc] at ha; exact ((n2 a).1 ha).1) _)
    (nested_of_plain cs rfl hp1 n1 fun a ha => hg a (by rw [← hacc] at ha; exact ((n2 a).1 ha).1) _)
    hp2 lo hi (fun a ha => hlo a ((n2 a).1 ha).1) (fun a ha => hhi a ((n2 a).1 ha).1)
    (call_eq hb h)

/-- **C72.** Under the ordered strategy money is withdrawn from the accounts in the same order. -/
theorem C72_ordered_outflows (ho : ∀ l, (order l).Perm l) (hS : S.kind = .ordered)
    (hown : OwnKeys S info accounts) (hE : Optimal E) (hA : Answers E) (hX : Exact E)
    (hp : 0 < E.precision) (ht : Dict.total available < -E.precision)
    (hg : ∀ a ∈ accounts, ∀ lim, E.groupOf a lim = none) (hi : A → K)
    (hhi : ∀ a ∈ accounts, E.limitOf a .maxOut = .ok (.fin (-hi a)) ∧ 0 ≤ hi a)
    (hlo : ∀ a ∈ accounts, ∃ lo, E.limitOf a .minOut = .ok (.fin lo) ∧ lo ≤ 0)
    (h : call S info order E fuel accounts available = .ok r) :
    ∃ l : List A, l.Nodup ∧
      (∀ a, a ∈ l ↔ a ∈ accounts ∧ (High S (info a) ∨ ∃ k, KeyOf S.weights (info a) k)) ∧
      l.Pairwise (Prior S info) ∧
      l.map (given r) = (fill ⌊-Dict.total available / E.precision⌋
        (l.map fun a => some ⌊hi a / E.precision⌋)).map fun x : ℤ => -(E.precision * (x : K)) := by
  obtain ⟨src, hb⟩ := call_tree h
  obtain ⟨n1, n2⟩ := C71_accounts ho hb
  obtain ⟨cs, rfl, hp1, hp2, hp3⟩ := ordered_tree ho hS hown hb
  rw [Src.accounts] at n1 n2
  have hacc := Src.forestL_accs cs hp1 [] 0
  refine ⟨Src.accountsL cs, n1, n2, hp3, ?_⟩
  rw [← hacc]
  rw [← hacc] at n2
  exact C70_outflows_in_order (E := { E with tree := (Src.list cs).toTree })
    ⟨hE.solver, hE.sets, hE.accts⟩ ⟨hA.inflow, hA.outflow⟩ ⟨hX.inflow, hX.outflow⟩ hp ht
    (nested_of_plain cs rfl hp1 n1 fun a ha => hg a (by rw [← hacc] at ha; exact ((n2 a).1 ha).1) _)
    hp2 rfl (fun n => root_no_child rfl n) hi (fun a ha => hhi a ((n2 a).1 ha).1)
    (fun a ha => hlo a ((n2 a).1 ha).1) (call_eq hb h)

end Ordered

section Weighted

variable {S : Strat K} {info : A → Info K} {order : List A → List A} {accounts : List A}

/-- Under the weighted strategy, without debts and with a key for each account, the accounts are the
entries of a single dict. -/
theorem weighted_tree (ho : ∀ l, (order l).Perm l) {src : Src A K} (hS : S.kind = .weighted)
    (hdebt : ∀ a ∈ accounts, ¬ ((info a).debt = true ∧ (info a).balance < 0))
    (hown : ∀ a ∈ accounts, ∀ b ∈ accounts, ∀ k, KeyOf S.weights (info a) k →
      KeyOf S.weights (info b) k → a = b)
    (w : A → K) (hw : ∀ a ∈ accounts, ∀ k, KeyOf S.weights (info a) k →
      Dict.get? S.weights k = some (w a))
    (h : buildTree S info order accounts = .ok src) :
    ∃ m : List A, src = .dict (m.map fun a => (.acct a, w a)) := by
  obtain ⟨highs, ks, rest, h1, h2, h3, h4, h5⟩ := C71_tree ho h
  have hh : highs = [] := by
    rcases List.eq_nil_or_concat highs with h | ⟨l, a, rfl⟩
    · exact h
    · obtain ⟨ha, hb, hc, -⟩ := (h1.mem a).1 (by simp)
      exact absurd ⟨hb, hc⟩ (hdebt a ha)
  rw [if_pos hh] at h2
  unfold RestTree at h5
  simp only [hS] at h5
  obtain ⟨ts, rfl, hts⟩ := h5
  subst h2
  have hks : ∀ k ∈ ks, ∃ a ∈ accounts, ¬ High S (info a) ∧ KeyOf S.weights (info a) k :=
    fun k hk => (h4 k).1 hk
  clear h4 h3
  suffices ∃ m : List A, ts = m.map fun a => (.acct a, w a) by
    obtain ⟨m, rfl⟩ := this
    exact ⟨m, rfl⟩
  clear h
  induction hts with
  | nil => exact ⟨[], rfl⟩
  | @cons k t ks ts ht _ ih =>
    obtain ⟨m, rfl⟩ := ih fun k hk => hks k (by simp [hk])
    obtain ⟨a, ha, hna, hk⟩ := hks k (by simp)
    obtain ⟨t, x⟩ := t
    have hx : x = w a := Option.some.inj (ht.2.symm.trans (hw a ha k hk))
    subst hx
    refine ⟨a :: m, ?_⟩
    have hg := ht.1
    simp only at hg
    simp only [List.map_cons, List.cons.injEq, Prod.mk.injEq, and_true]
    cases hg with
    | debts l hsame _ =>
      obtain ⟨-, hb, hc, -⟩ := (hsame a).1 ⟨ha, hna, hk⟩
      exact absurd ⟨hb, hc⟩ (hdebt a ha)
    | one b _ hb => rw [(hb a).1 ⟨ha, hna, hk⟩]
    | many l _ hl hm hlen =>
      match l, hlen, hl, hm with
      | b :: c :: l, _, hl, hm =>
        obtain ⟨b1, -, b2⟩ := (hm b).1 (by simp)
        obtain ⟨c1, -, c2⟩ := (hm c).1 (by simp)
        have := hown b b1 c c1 k b2 c2
        subst this
        simp at hl

variable [FloorRing K] {E : Env (List ℕ) A K} {fuel : ℕ} {available : Dict K K}
  {r : Dict A (Dict K K)} {lim : Lim}

/-- The weights of the children of the root of a dict of accounts. -/
def dictWeights (w : A → K) (m : List A) : Dict (List ℕ) K := m.zipIdx.map fun e => ([e.2], w e.1)

theorem dictWeights_keys (w : A → K) (m : List A) :
    Dict.keys (dictWeights w m) = (List.range m.length).map fun i => [i] := by
  unfold dictWeights Dict.keys
  rw [List.map_map]
  have : (Prod.fst ∘ fun e : A × ℕ => ([e.2], w e.1)) = (fun i : ℕ => [i]) ∘ Prod.snd := rfl
  rw [this, ← List.map_map, List.zipIdx_map_snd, List.range_eq_range']

theorem dictWeights_vals (w : A → K) (m : List A) : Dict.total (dictWeights w m) = (m.map w).sum := by
  unfold dictWeights Dict.total Dict.vals
  rw [List.map_map]
  have : (Prod.snd ∘ fun e : A × ℕ => ([e.2], w e.1)) = w ∘ Prod.fst := rfl
  rw [this, ← List.map_map, List.zipIdx_map_fst]

theorem dictWeights_mem (w : A → K) (m : List A) {e : List ℕ × K} :
    e ∈ dictWeights w m ↔ ∃ i a, m[i]? = some a ∧ e = ([i], w a) := by
  unfold dictWeights
  rw [List.mem_map]
  constructor
  · rintro ⟨⟨a, i⟩, h, rfl⟩
    exact ⟨i, a, List.mem_zipIdx_iff_getElem?.1 h, rfl⟩
  · rintro ⟨i, a, h, rfl⟩
    exact ⟨(a, i), List.mem_zipIdx_iff_getElem?.2 h, rfl⟩

/-- The account of a child of the root. -/
def dictAcc (a0 : A) (m : List A) : List ℕ → A
  | [] => a0
  | i :: _ => (m[i]?).getD a0

theorem flatW_dict (m : List A) (w : A → K) (a0 : A)
    (ht : E.tree = (Src.dict (m.map fun a => (Src.acct a, w a))).toTree)
    (hne : m ≠ []) (hn : m.Nodup) (hpos : ∀ a ∈ m, 0 < w a)
    (hg : ∀ a ∈ m, E.groupOf a lim = none) :
    FlatW E lim (dictWeights w m) (dictAcc a0 m) := by
  have hk : ∀ c ∈ Dict.keys (dictWeights w m), ∃ i a, m[i]? = some a ∧ c = [i] := by
    intro c hc
    obtain ⟨e, he, rfl⟩ := List.mem_map.1 hc
    obtain ⟨i, a, hi, rfl⟩ := (dictWeights_mem w m).1 he
    exact ⟨i, a, hi, rfl⟩
  refine ⟨?_, ?_, ?_, ?_, ?_, ?_, ?_, ?_, ?_⟩
  · rw [ht]
    simp [Src.toTree, Src.sub, dictWeights, List.zipIdx_map]
  · unfold Dict.WF
    rw [dictWeights_keys]
    exact List.nodup_range.map fun _ _ h => by simpa using h
  · intro h
    apply hne
    have := congrArg List.length h
    simpa [dictWeights] using this
  · intro e he
    obtain ⟨i, a, hi, rfl⟩ := (dictWeights_mem w m).1 he
    exact hpos a (List.mem_of_getElem? hi)
  · intro h
    obtain ⟨i, a, -, h⟩ := hk _ h
    rw [ht] at h
    simp [Src.toTree] at h
  · intro c hc
    obtain ⟨i, a, hi, rfl⟩ := hk c hc
    rw [ht]
    simp [Src.toTree, Src.sub, Src.child, dictAcc, hi]
  · intro c hc d hd h
    obtain ⟨i, a, hi, rfl⟩ := hk c hc
    obtain ⟨j, b, hj, rfl⟩ := hk d hd
    simp only [dictAcc, hi, hj, Option.getD_some] at h
    subst h
    obtain ⟨hi1, hi2⟩ := List.getElem?_eq_some_iff.1 hi
    obtain ⟨hj1, hj2⟩ := List.getElem?_eq_some_iff.1 hj
    rw [(hn.getElem_inj_iff).1 (hi2.trans hj2.symm)]
  · intro n _
    rw [ht]; rfl
  · intro c hc
    obtain ⟨i, a, hi, rfl⟩ := hk c hc
    simp only [dictAcc, hi, Option.getD_some]
    exact hg a (List.mem_of_getElem? hi)

/-- **C72.** Under the weighted strategy money is paid into accounts that each have a key of their
own in proportion to the weights. -/
theorem C72_weighted_inflows (ho : ∀ l, (order l).Perm l) (hS : S.kind = .weighted)
    (hdebt : ∀ a ∈ accounts, ¬ ((info a).debt = true ∧ (info a).balance < 0))
    (hown : ∀ a ∈ accounts, ∀ b ∈ accounts, ∀ k, KeyOf S.weights (info a) k →
      KeyOf S.weights (info b) k → a = b)
    (w : A → K) (hw : ∀ a ∈ accounts, ∀ k, KeyOf S.weights (info a) k →
      Dict.get? S.weights k = some (w a) ∧ 0 < w a)
    (l : List A) (hl : l.Nodup)
    (hmem : ∀ a, a ∈ l ↔ a ∈ accounts ∧ ∃ k, KeyOf S.weights (info a) k)
    (hE : Optimal E) (hA : Answers E) (hX : Exact E)
    (hp : 0 < E.precision) (ht : E.precision < Dict.total available)
    (hg : ∀ a ∈ accounts, ∀ lim, E.groupOf a lim = none)
    (hlo : ∀ a ∈ l, E.limitOf a .minIn = .ok (.fin 0))
    (hhi : ∀ a ∈ l, ∃ hi, E.limitOf a .maxIn = .ok hi ∧
      .fin (Dict.total available * w a / (l.map w).sum) ≤ hi)
    (hwhole : ∀ a ∈ l, ∃ n : ℤ,
      Dict.total available * w a / (l.map w).sum = E.precision * (n : K))
    (h : call S info order E fuel accounts available = .ok r) :
    ∀ a ∈ l, given r a = Dict.total available * w a / (l.map w).sum := by
  intro a0 ha0
  obtain ⟨src, hb⟩ := call_tree h
  obtain ⟨n1, n2⟩ := C71_accounts ho hb
  obtain ⟨m, rfl⟩ := weighted_tree ho hS hdebt hown w (fun a ha k hk => (hw a ha k hk).1) hb
  rw [Src.accounts, accountsD_accts'] at n1 n2
  have hlm : ∀ a, a ∈ l ↔ a ∈ m := by
    intro a
    rw [hmem a, n2 a]
    refine and_congr_right fun ha => ?_
    constructor
    · exact fun hk => .inr hk
    · rintro (hk | hk)
      · exact absurd ⟨hk.1, hk.2.1⟩ (hdebt a ha)
      · exact hk
  have hperm : l.Perm m := (List.perm_ext_iff_of_nodup hl n1).2 hlm
  have hsum : (l.map w).sum = Dict.total (dictWeights w m) := by
    rw [dictWeights_vals]; exact (hperm.map w).sum_eq
  rw [hsum] at hhi hwhole ⊢
  have hma : ∀ a ∈ m, a ∈ accounts := fun a ha => ((n2 a).1 ha).1
  have hF : ∀ lim, FlatW { E with tree := (Src.dict (m.map fun a => (Src.acct a, w a))).toTree } lim
      (dictWeights w m) (dictAcc a0 m) := fun lim => by
    refine flatW_dict m w a0 rfl ?_ n1 ?_ ?_
    · exact List.ne_nil_of_mem ((hlm a0).1 ha0)
    · intro a ha
      obtain ⟨h1, k, hk⟩ := (hmem a).1 ((hlm a).2 ha)
      exact (hw a h1 k hk).2
    · exact fun a ha => hg a (hma a ha) lim
  obtain ⟨i, hi⟩ := List.mem_iff_getElem?.1 ((hlm a0).1 ha0)
  have := C69_weighted_inflows
    (E := { E with tree := (Src.dict (m.map fun a => (Src.acct a, w a))).toTree })
    ⟨hE.solver, hE.sets, hE.accts⟩ ⟨hA.inflow, hA.outflow⟩ ⟨hX.inflow, hX.outflow⟩ hp ht
    (hF _) (hF _) (fun c hc => by
      obtain ⟨e, he, rfl⟩ := List.mem_map.1 hc
      obtain ⟨i, a, hi, rfl⟩ := (dictWeights_mem w m).1 he
      simp only [dictAcc, hi, Option.getD_some]
      exact hlo a ((hlm a).2 (List.mem_of_getElem? hi)))
    (fun e he => by
      obtain ⟨i, a, hi, rfl⟩ := (dictWeights_mem w m).1 he
      simp only [dictAcc, hi, Option.getD_some]
      exact hhi a ((hlm a).2 (List.mem_of_getElem? hi)))
    (fun e he => by
      obtain ⟨i, a, hi, rfl⟩ := (dictWeights_mem w m).1 he
      exact hwhole a ((hlm a).2 (List.mem_of_getElem? hi)))
    (call_eq hb h) ([i], w a0) ((dictWeights_mem w m).2 ⟨i, a0, hi, rfl⟩)
  simpa [dictAcc, hi] using this

/-- **C72.** Under the weighted strategy money is withdrawn from accounts that each have a key of
their own in proportion to the weights. -/
theorem C72_weighted_outflows (ho : ∀ l, (order l).Perm l) (hS : S.kind = .weighted)
    (hdebt : ∀ a ∈ accounts, ¬ ((info a).debt = true ∧ (info a).balance < 0))
    (hown : ∀ a ∈ accounts, ∀ b ∈ accounts, ∀ k, KeyOf S.weights (info a) k →
      KeyOf S.weights (info b) k → a = b)
    (w : A → K) (hw : ∀ a ∈ accounts, ∀ k, KeyOf S.weights (info a) k →
      Dict.get? S.weights k = some (w a) ∧ 0 < w a)
    (l : List A) (hl : l.Nodup)
    (hmem : ∀ a, a ∈ l ↔ a ∈ accounts ∧ ∃ k, KeyOf S.weights (info a) k)
    (hE : Optimal E) (hA : Answers E) (hX : Exact E)
    (hp : 0 < E.precision) (ht : Dict.total available < -E.precision)
    (hg : ∀ a ∈ accounts, ∀ lim, E.groupOf a lim = none)
    (hlo : ∀ a ∈ l, ∃ lo, E.limitOf a .minOut = .ok (.fin lo) ∧ lo ≤ 0)
    (hhi : ∀ a ∈ l, ∃ hi, E.limitOf a .maxOut = .ok (.fin hi) ∧
      hi ≤ Dict.total available * w a / (l.map w).sum)
    (hwhole : ∀ a ∈ l, ∃ n : ℤ,
      Dict.total available * w a / (l.map w).sum = E.precision * (n : K))
    (h : call S info order E fuel accounts available = .ok r) :
    ∀ a ∈ l, given r a = Dict.total available * w a / (l.map w).sum := by
  intro a0 ha0
  obtain ⟨src, hb⟩ := call_tree h
  obtain ⟨n1, n2⟩ := C71_accounts ho hb
  obtain ⟨m, rfl⟩ := weighted_tree ho hS hdebt hown w (fun a ha k hk => (hw a ha k hk).1) hb
  rw [Src.accounts, accountsD_accts'] at n1 n2
  have hlm : ∀ a, a ∈ l ↔ a ∈ m := by
    intro a
    rw [hmem a, n2 a]
    refine and_congr_right fun ha => ?_
    constructor
    · exact fun hk => .inr hk
    · rintro (hk | hk)
      · exact absurd ⟨hk.1, hk.2.1⟩ (hdebt a ha)
      · exact hk
  have hperm : l.Perm m := (List.perm_ext_iff_of_nodup hl n1).2 hlm
  have hsum : (l.map w).sum = Dict.total (dictWeights w m) := by
    rw [dictWeights_vals]; exact (hperm.map w).sum_eq
  rw [hsum] at hhi hwhole ⊢
  have hma : ∀ a ∈ m, a ∈ accounts := fun a ha => ((n2 a).1 ha).1
  have hF : ∀ lim, FlatW { E with tree := (Src.dict (m.map fun a => (Src.acct a, w a))).toTree } lim
      (dictWeights w m) (dictAcc a0 m) := fun lim => by
    refine flatW_dict m w a0 rfl ?_ n1 ?_ ?_
    · exact List.ne_nil_of_mem ((hlm a0).1 ha0)
    · intro a ha
      obtain ⟨h1, k, hk⟩ := (hmem a).1 ((hlm a).2 ha)
      exact (hw a h1 k hk).2
    · exact fun a ha => hg a (hma a ha) lim
  obtain ⟨i, hi⟩ := List.mem_iff_getElem?.1 ((hlm a0).1 ha0)
  have := C69_weighted_outflows
    (E := { E with tree := (Src.dict (m.map fun a => (Src.acct a, w a))).toTree })
    ⟨hE.solver, hE.sets, hE.accts⟩ ⟨hA.inflow, hA.outflow⟩ ⟨hX.inflow, hX.outflow⟩ hp ht
    (hF _) rfl (fun n => root_no_child rfl n) (fun c hc => by
      obtain ⟨e, he, rfl⟩ := List.mem_map.1 hc
      obtain ⟨i, a, hi, rfl⟩ := (dictWeights_mem w m).1 he
      simp only [dictAcc, hi, Option.getD_some]
      exact hlo a ((hlm a).2 (List.mem_of_getElem? hi)))
    (fun e he => by
      obtain ⟨i, a, hi, rfl⟩ := (dictWeights_mem w m).1 he
      simp only [dictAcc, hi, Option.getD_some]
      exact hhi a ((hlm a).2 (List.mem_of_getElem? hi)))
    (fun e he => by
      obtain ⟨i, a, hi, rfl⟩ := (dictWeights_mem w m).1 he
      exact hwhole a ((hlm a).2 (List.mem_of_getElem? hi)))
    (call_eq hb h) ([i], w a0) ((dictWeights_mem w m).2 ⟨i, a0, hi, rfl⟩)
  simpa [dictAcc, hi] using this

end Weighted

/-! ### The hypotheses are met -/

section Cases

/-- Accounts with minimum 0 that accept and give up to 100; the tree is replaced by the
strategy. -/
def stratEnv (solve : Graph (List ℕ) ℕ → Except PyErr (Flows (List ℕ) ℕ)) : Env (List ℕ) ℕ ℚ where
  tree := { root := [], kind := fun _ => .ordered [] }
  precision := 1
  limitOf a lim := .ok (match lim with
    | .minIn => if a = 2 then .fin 10 else .fin 0
    | .maxIn => .fin 100
    | .minOut => .fin 0
    | .maxOut => .fin (-100))
  txOf _ _ x := .ok [(1 / 2, x)]
  groupOf _ _ := none
  solve := solve

theorem strat_optimal : Optimal (stratEnv (certified greedy)) :=
  ⟨fun g f h => certified_sound greedy g f h, fun _ _ h => h, fun _ _ => Iff.rfl⟩

/-- The low-interest debts 4 and 5 share a key; the RRSP and the TFSA have their own. -/
theorem sample_own : OwnKeys sampleStrat sampleInfo [1, 2, 3, 4, 5] := by
  have key : ∀ a ∈ [1, 2, 3, 4, 5], ∀ k, KeyOf sampleStrat.weights (sampleInfo a) k →
      weightKey sampleStrat.weights (sampleInfo a) = some k := by
    intro a _ k hk
    exact weightKey_some.2 hk
  have h3 : High sampleStrat (sampleInfo 3) := ⟨rfl, by decide +kernel, 1 / 10, rfl, by decide +kernel⟩
  have hn : ∀ a ∈ [4, 5], ¬ High sampleStrat (sampleInfo a) := by
    rintro a ha ⟨-, -, t, ht, hr⟩
    have ht' : t = 1 / 10 := Option.some.inj ht.symm
    subst ht'
    revert a
    decide +kernel
  intro k
  by_cases hk : k = "Debt"
  · subst hk
    right
    refine ⟨fun a => ⟨?_, ?_⟩, .inl ?_⟩
    · rintro ⟨ha, h1, h2⟩
      have := key a ha _ h2
      refine ⟨ha, ?_⟩
      simp only [List.mem_cons, List.not_mem_nil, or_false] at ha
      rcases ha with rfl | rfl | rfl | rfl | rfl
      · exact absurd this (by decide +kernel)
      · exact absurd this (by decide +kernel)
      · exact absurd h3 h1
      · exact ⟨rfl, by decide +kernel, h1⟩
      · exact ⟨rfl, by decide +kernel, h1⟩
    · rintro ⟨ha, h1, h2, h4⟩
      refine ⟨ha, h4, weightKey_some.1 ?_⟩
      simp only [List.mem_cons, List.not_mem_nil, or_false] at ha
      rcases ha with rfl | rfl | rfl | rfl | rfl
      · exact absurd h1 (by decide +kernel)
      · exact absurd h1 (by decide +kernel)
      · exact absurd h3 h4
      · decide +kernel
      · decide +kernel
    · intro b hb j _ hj hne
      have hj' := hj.1
      have : j = "RegisteredAccount" ∨ j = "Debt" ∨ j = "TFSA" := by
        simpa [sampleStrat, Dict.keys] using hj'
      rcases this with rfl | rfl | rfl
      · decide +kernel
      · exact absurd rfl hne
      · decide +kernel
  · left
    rintro a b ⟨ha, ha1, ha2⟩ ⟨hb, hb1, hb2⟩
    have e1 := key a ha k ha2
    have e2 := key b hb k hb2
    rw [← e2] at e1
    clear ha2 hb2
    simp only [List.mem_cons, List.not_mem_nil, or_false] at ha hb
    rcases ha with rfl | rfl | rfl | rfl | rfl <;> rcases hb with rfl | rfl | rfl | rfl | rfl <;>
      first
        | rfl
        | exact absurd e1 (by decide +kernel)
        | exact absurd h3 ‹_›
        | exact absurd (Option.some.inj ((by decide +kernel :
            some "Debt" = weightKey sampleStrat.weights (sampleInfo 4)).trans
              e2)).symm hk

set_option maxRecDepth 100000 in
/-- 350 in: the minimum of 10 for account 2, then account 3 (high interest), 5 and 4 (low interest),
and the rest for account 1. -/
theorem strat_call : call sampleStrat sampleInfo id (stratEnv (certified greedy)) 12 [1, 2, 3, 4, 5]
    [(0, 300), (1 / 2, 50)] = .ok [(3, [(1 / 2, 100)]), (5, [(1 / 2, 100)]), (4, [(1 / 2, 100)]),
      (1, [(1 / 2, 40)]), (2, [(1 / 2, 10)])] := by
  decide +kernel

example : ∃ l : List ℕ, l.Nodup ∧
    (∀ a, a ∈ l ↔ a ∈ [1, 2, 3, 4, 5] ∧
      (High sampleStrat (sampleInfo a) ∨ ∃ k, KeyOf sampleStrat.weights (sampleInfo a) k)) ∧
    l.Pairwise (Prior sampleStrat sampleInfo) ∧
    l.map (given [(3, [(1 / 2, 100)]), (5, [(1 / 2, 100)]), (4, [(1 / 2, 100)]),
        (1, [(1 / 2, (40 : ℚ))]), (2, [(1 / 2, 10)])]) =
      (twoPass ⌊Dict.total [((0 : ℚ), (300 : ℚ)), (1 / 2, 50)] / (1 : ℚ)⌋
        (l.map fun a => ⌊(if a = 2 then (10 : ℚ) else 0) / (1 : ℚ)⌋)
        (l.map fun _ => wholeUnits (1 : ℚ) (.fin 100))).map fun x : ℤ => (1 : ℚ) * (x : ℚ) := by
  obtain ⟨h1, h2⟩ := plain_answers (E := stratEnv (certified greedy)) fun _ _ _ => rfl
  exact C72_ordered_inflows (fun l => List.Perm.refl l) rfl sample_own strat_optimal h1 h2
    (by decide +kernel) (by decide +kernel) (fun _ _ _ => rfl) (fun a => if a = 2 then 10 else 0)
    (fun _ => .fin 100) (by decide +kernel) (by decide +kernel) strat_call

set_option maxRecDepth 100000 in
/-- 150 out: all of account 3 and half of account 5. -/
theorem strat_call_out : call sampleStrat sampleInfo id (stratEnv (certified greedy)) 12
    [1, 2, 3, 4, 5] [(0, -150)] = .ok [(3, [(1 / 2, -100)]), (5, [(1 / 2, -50)]), (4, [(1 / 2, 0)]),
      (1, [(1 / 2, 0)]), (2, [(1 / 2, 0)])] := by
  decide +kernel

example : ∃ l : List ℕ, l.Nodup ∧
    (∀ a, a ∈ l ↔ a ∈ [1, 2, 3, 4, 5] ∧
      (High sampleStrat (sampleInfo a) ∨ ∃ k, KeyOf sampleStrat.weights (sampleInfo a) k)) ∧
    l.Pairwise (Prior sampleStrat sampleInfo) ∧
    l.map (given [(3, [(1 / 2, -100)]), (5, [(1 / 2, -50)]), (4, [(1 / 2, (0 : ℚ))]),
        (1, [(1 / 2, 0)]), (2, [(1 / 2, 0)])]) =
      (fill ⌊-Dict.total [((0 : ℚ), (-150 : ℚ))] / (1 : ℚ)⌋
        (l.map fun _ => some ⌊(100 : ℚ) / (1 : ℚ)⌋)).map fun x : ℤ => -((1 : ℚ) * (x : ℚ)) := by
  obtain ⟨h1, h2⟩ := plain_answers (E := stratEnv (certified greedy)) fun _ _ _ => rfl
  exact C72_ordered_outflows (fun l => List.Perm.refl l) rfl sample_own strat_optimal h1 h2
    (by decide +kernel) (by decide +kernel) (fun _ _ _ => rfl) (fun _ => 100)
    (by decide +kernel) (fun a _ => ⟨0, rfl, le_rfl⟩) strat_call_out

/-- An RRSP and a savings account in proportion 1 : 3. -/
def shareStrat : Strat ℚ :=
  ⟨.weighted, [("RRSP", 1), ("Savings", 3), ("TFSA", 5)], "Avalanche", some (1 / 10)⟩

def shareInfo : ℕ → Info ℚ
  | 1 => ⟨["RRSP", "RegisteredAccount", "Account", "object"], false, 100, 1 / 20⟩
  | 2 => ⟨["Account", "object"], false, 100, 1 / 20⟩
  | _ => ⟨["Savings", "Account", "object"], false, 100, 1 / 20⟩

def shareSolve : Graph (List ℕ) ℕ → Except PyErr (Flows (List ℕ) ℕ) :=
  certifiedBy [[(.source, -1)], [(.sink, 1)]]
    [[(.overflow [], 1), (.node [0], 1), (.limit [0], 1), (.acct 1, 1),
      (.node [1], 1), (.limit [1], 1), (.acct 3, 1), (.sink, 1)], []]
    (alongPaths [
      [.source, .node [], .limit [], .node [0], .limit [0], .acct 1, .sink],
      [.source, .node [], .limit [], .node [1], .limit [1], .acct 3, .sink],
      [.source, .node [], .limit [], .overflow [], .node [0], .limit [0], .acct 1, .sink],
      [.source, .node [], .limit [], .overflow [], .node [1], .limit [1], .acct 3, .sink]])

theorem share_optimal : Optimal (stratEnv shareSolve) :=
  ⟨fun _ _ h => certifiedBy_sound h, fun _ _ h => h, fun _ _ => Iff.rfl⟩

set_option maxRecDepth 100000 in
theorem share_in : call shareStrat shareInfo id (stratEnv shareSolve) 12 [1, 2, 3] [(0, 40)] =
    .ok [(1, [(1 / 2, 10)]), (3, [(1 / 2, 30)])] := by decide +kernel

set_option maxRecDepth 100000 in
theorem share_out : call shareStrat shareInfo id (stratEnv shareSolve) 12 [1, 2, 3] [(0, -40)] =
    .ok [(1, [(1 / 2, -10)]), (3, [(1 / 2, -30)])] := by decide +kernel

theorem share_keys (a : ℕ) (ha : a ∈ [1, 2, 3]) (k : String) :
    KeyOf shareStrat.weights (shareInfo a) k ↔ (a = 1 ∧ k = "RRSP") ∨ (a = 3 ∧ k = "Savings") := by
  rw [← weightKey_some]
  simp only [List.mem_cons, List.not_mem_nil, or_false] at ha
  rcases ha with rfl | rfl | rfl
  · rw [show weightKey shareStrat.weights (shareInfo 1) = some "RRSP" by decide +kernel]
    simp [eq_comm]
  · rw [show weightKey shareStrat.weights (shareInfo 2) = none by decide +kernel]
    simp
  · rw [show weightKey shareStrat.weights (shareInfo 3) = some "Savings" by decide +kernel]
    simp [eq_comm]

theorem share_own : ∀ a ∈ [1, 2, 3], ∀ b ∈ [1, 2, 3], ∀ k,
    KeyOf shareStrat.weights (shareInfo a) k → KeyOf shareStrat.weights (shareInfo b) k → a = b := by
  intro a ha b hb k h1 h2
  rw [share_keys a ha] at h1
  rw [share_keys b hb] at h2
  rcases h1 with ⟨rfl, rfl⟩ | ⟨rfl, rfl⟩ <;> rcases h2 with ⟨rfl, h⟩ | ⟨rfl, h⟩ <;>
    first | rfl | exact absurd h (by decide)

theorem share_weights : ∀ a ∈ [1, 2, 3], ∀ k, KeyOf shareStrat.weights (shareInfo a) k →
    Dict.get? shareStrat.weights k = some (if a = 1 then (1 : ℚ) else 3) ∧
      0 < (if a = 1 then (1 : ℚ) else 3) := by
  intro a ha k h
  rw [share_keys a ha] at h
  rcases h with ⟨rfl, rfl⟩ | ⟨rfl, rfl⟩ <;> decide +kernel

theorem share_mem (a : ℕ) : a ∈ [1, 3] ↔ a ∈ [1, 2, 3] ∧ ∃ k, KeyOf shareStrat.weights (shareInfo a) k := by
  constructor
  · intro h
    simp only [List.mem_cons, List.not_mem_nil, or_false] at h
    rcases h with rfl | rfl
    · exact ⟨by simp, "RRSP", (share_keys 1 (by simp) _).2 (.inl ⟨rfl, rfl⟩)⟩
    · exact ⟨by simp, "Savings", (share_keys 3 (by simp) _).2 (.inr ⟨rfl, rfl⟩)⟩
  · rintro ⟨h, k, hk⟩
    rw [share_keys a h] at hk
    rcases hk with ⟨rfl, -⟩ | ⟨rfl, -⟩ <;> simp

example : given [(1, [(1 / 2, (10 : ℚ))]), (3, [(1 / 2, 30)])] 3 =
    Dict.total [((0 : ℚ), (40 : ℚ))] * 3 / ([1, 3].map fun a => if a = 1 then (1 : ℚ) else 3).sum := by
  obtain ⟨h1, h2⟩ := plain_answers (E := stratEnv shareSolve) fun _ _ _ => rfl
  exact C72_weighted_inflows (fun l => List.Perm.refl l) rfl (by decide +kernel) share_own _
    share_weights [1, 3] (by decide) share_mem share_optimal h1 h2 (by decide +kernel)
    (by decide +kernel) (fun _ _ _ => rfl) (by decide +kernel)
    (fun a ha => ⟨.fin 100, rfl, by revert a; decide +kernel⟩)
    (fun a ha => by
      have : a = 1 ∨ a = 3 := by simpa using ha
      rcases this with rfl | rfl
      · exact ⟨10, by decide +kernel⟩
      · exact ⟨30, by decide +kernel⟩) share_in 3 (by simp)

example : given [(1, [(1 / 2, (-10 : ℚ))]), (3, [(1 / 2, -30)])] 3 =
    Dict.total [((0 : ℚ), (-40 : ℚ))] * 3 / ([1, 3].map fun a => if a = 1 then (1 : ℚ) else 3).sum := by
  obtain ⟨h1, h2⟩ := plain_answers (E := stratEnv shareSolve) fun _ _ _ => rfl
  exact C72_weighted_outflows (fun l => List.Perm.refl l) rfl (by decide +kernel) share_own _
    share_weights [1, 3] (by decide) share_mem share_optimal h1 h2 (by decide +kernel)
    (by decide +kernel) (fun _ _ _ => rfl) (fun a _ => ⟨0, rfl, le_rfl⟩)
    (fun a ha => ⟨-100, rfl, by revert a; decide +kernel⟩)
    (fun a ha => by
      have : a = 1 ∨ a = 3 := by simpa using ha
      rcases this with rfl | rfl
      · exact ⟨-10, by decide +kernel⟩
      · exact ⟨-30, by decide +kernel⟩) share_out 3 (by simp)

/-! ### Debts between other accounts -/

/-- Three accounts of different kinds, three low-interest debts and a TFSA, in this order. -/
def betweenStrat : Strat ℚ :=
  ⟨.ordered, [("RRSP", 1), ("RESP", 2), ("Savings", 3), ("Debt", 4), ("TFSA", 5)], "Avalanche",
    some (1 / 10)⟩

def betweenInfo : ℕ → Info ℚ
  | 1 => ⟨["RRSP", "Account", "object"], false, 100, 1 / 20⟩
  | 2 => ⟨["RESP", "Account", "object"], false, 100, 1 / 20⟩
  | 3 => ⟨["Savings", "Account", "object"], false, 100, 1 / 20⟩
  | 5 => ⟨["Debt", "Account", "object"], true, -100, 5 / 100⟩
  | 6 => ⟨["Debt", "Account", "object"], true, -100, 4 / 100⟩
  | 7 => ⟨["Debt", "Account", "object"], true, -100, 3 / 100⟩
  | _ => ⟨["TFSA", "Account", "object"], false, 100, 1 / 20⟩

/-- The cost of getting somewhere in the graph, if the last unit costs `k`. -/
def betweenCost (k : ℤ) : Dict (G (List ℕ) ℕ) ℤ :=
  ([([0], 1, 0), ([1], 2, 1), ([2], 3, 2), ([3, 0], 5, 3), ([3, 1], 6, 4), ([3, 2], 7, 5),
      ([4], 8, 4)] : List (List ℕ × ℕ × ℤ)).flatMap
    (fun e => [(.node e.1, e.2.2), (.limit e.1, e.2.2), (.acct e.2.1, e.2.2)]) ++
    [(.node [3], 3), (.limit [3], 3), (.sink, k)]

def betweenSolve : Graph (List ℕ) ℕ → Except PyErr (Flows (List ℕ) ℕ) :=
  let top := fun i a => [G.source, .node [], .limit [], .node [i], .limit [i], .acct a, .sink]
  let inner := fun i a => [G.source, .node [], .limit [], .node [3], .limit [3], .node [3, i],
    .limit [3, i], .acct a, .sink]
  certifiedBy [[(.source, -1)], [(.sink, 1)]] [betweenCost 5, betweenCost 4] (alongPaths
    [top 0 1, top 1 2, top 2 3, inner 0 5, inner 1 6, top 4 8, inner 2 7])

/-- Accounts without minimums that accept up to 100. -/
def betweenEnv : Env (List ℕ) ℕ ℚ :=
  { stratEnv betweenSolve with limitOf := fun _ lim => .ok (.fin (if lim = .maxIn then 100 else 0)) }

theorem between_optimal : Optimal betweenEnv :=
  ⟨fun _ _ h => certifiedBy_sound h, fun _ _ h => h, fun _ _ => Iff.rfl⟩

set_option maxRecDepth 100000 in
/-- **C72, refuted in general.** With the debts between the other accounts, the last debt (weight 4)
is not paid off although the TFSA (weight 5) is filled; the flow algorithm is optimal. -/
theorem C72_debts_between_refuted :
    buildTree betweenStrat betweenInfo id [1, 2, 3, 5, 6, 7, 8] =
      .ok (.list [.acct 1, .acct 2, .acct 3, .list [.acct 5, .acct 6, .acct 7], .acct 8]) ∧
    Optimal betweenEnv ∧
    call betweenStrat betweenInfo id betweenEnv 12 [1, 2, 3, 5, 6, 7, 8] [(0, 650)] =
      .ok [(1, [(1 / 2, 100)]), (2, [(1 / 2, 100)]), (3, [(1 / 2, 100)]), (5, [(1 / 2, 100)]),
        (6, [(1 / 2, 100)]), (7, [(1 / 2, 50)]), (8, [(1 / 2, 100)])] := by
  refine ⟨?_, between_optimal, ?_⟩ <;> decide +kernel

end Cases

end Forecaster.TxStrategy
