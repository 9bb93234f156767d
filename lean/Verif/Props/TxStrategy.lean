import Verif.Model.TxStrategy
import Verif.Props.Expenses
import Verif.Lemmas.Traversal
import Mathlib.Data.Rat.Floor
import Mathlib.Algebra.Order.Ring.Rat

/-!
# C71: what `TransactionStrategy` makes of a set of accounts
-/

set_option linter.unusedSectionVars false

namespace Forecaster.TxStrategy

open Forecaster Forecaster.Expenses Forecaster.Allocation

variable {K : Type} [Field K] [LinearOrder K] [IsStrictOrderedRing K]
variable {A : Type} [DecidableEq A]

/-! ### Specification -/

mutual
/-- Specification: the accounts of a priority tree, in the order in which they are written. -/
def Src.accounts : Src A K → List A
  | .acct a => [a]
  | .list cs => Src.accountsL cs
  | .dict cs => Src.accountsD cs
/-- The accounts of the entries of a list. -/
def Src.accountsL : List (Src A K) → List A
  | [] => []
  | c :: r => c.accounts ++ Src.accountsL r
/-- The accounts of the entries of a dict. -/
def Src.accountsD : List (Src A K × K) → List A
  | [] => []
  | (c, _) :: r => c.accounts ++ Src.accountsD r
end

/-- Specification: `k` is the first of the names of the account's type and supertypes that has a
weight. -/
def KeyOf (weights : Dict String K) (i : Info K) (k : String) : Prop :=
  k ∈ Dict.keys weights ∧
    ∃ pre post, i.mro = pre ++ k :: post ∧ ∀ x ∈ pre, x ∉ Dict.keys weights

/-- Specification: a debt with money owing and a rate at or above the threshold. -/
def High (S : Strat K) (i : Info K) : Prop :=
  i.debt = true ∧ i.balance < 0 ∧ ∃ t, S.threshold = some t ∧ t ≤ i.rate

/-- Specification: a debt with money owing that is not high-interest. -/
def Low (S : Strat K) (i : Info K) : Prop := i.debt = true ∧ i.balance < 0 ∧ ¬ High S i

/-- Specification: `l` lists the accounts with `s`, each once, in the order of the debt strategy:
highest rate first, or smallest debt first. -/
structure InDebtOrder (S : Strat K) (info : A → Info K) (s : A → Prop) (l : List A) : Prop where
  nodup : l.Nodup
  mem : ∀ a, a ∈ l ↔ s a
  order : l = [] ∨
    (S.debtStrategy = "Avalanche" ∧ l.Pairwise fun a b => (info b).rate ≤ (info a).rate) ∨
    (S.debtStrategy = "Snowball" ∧ l.Pairwise fun a b => |(info a).balance| ≤ |(info b).balance|)

/-- Specification: the tree for the accounts `g` that have the same key. If they are just the
low-interest debts, those debts in order; otherwise the account itself if there is only one; and
otherwise all of them with equal weights. -/
inductive GroupTree (S : Strat K) (info : A → Info K) (low g : A → Prop) : Src A K → Prop
  | debts (l : List A) (h : ∀ a, g a ↔ low a) (hl : InDebtOrder S info low l) :
      GroupTree S info low g (.list (l.map .acct))
  | one (a : A) (h : ¬ ∀ a, g a ↔ low a) (ha : ∀ b, g b ↔ b = a) : GroupTree S info low g (.acct a)
  | many (l : List A) (h : ¬ ∀ a, g a ↔ low a) (hl : l.Nodup) (hg : ∀ a, a ∈ l ↔ g a)
      (h2 : 2 ≤ l.length) : GroupTree S info low g (.dict (l.map fun a => (.acct a, 1)))

/-- Specification: the part of the tree that follows the weights. -/
def RestTree (S : Strat K) (info : A → Info K) (accounts : List A) (ks : List String)
    (rest : Src A K) : Prop :=
  let low := fun a => a ∈ accounts ∧ Low S (info a)
  let withKey := fun k a => a ∈ accounts ∧ ¬ High S (info a) ∧ KeyOf S.weights (info a) k
  match S.kind with
  | .ordered => ks.Pairwise (fun j k => Dict.val S.weights j ≤ Dict.val S.weights k) ∧
      ∃ ts, rest = .list ts ∧ List.Forall₂ (fun k t => GroupTree S info low (withKey k) t) ks ts
  | .weighted => ∃ ts, rest = .dict ts ∧
      List.Forall₂ (fun k t => GroupTree S info low (withKey k) t.1 ∧
        Dict.get? S.weights k = some t.2) ks ts

/-! ### Lemmas -/

theorem accountsL_accts (l : List A) : Src.accountsL (l.map (Src.acct (K := K))) = l := by
  induction l with
  | nil => rfl
  | cons a l ih => simp [Src.accountsL, Src.accounts, ih]

theorem accountsD_accts (l : List A) :
    Src.accountsD (l.map fun a => (Src.acct (K := K) a, (1 : K))) = l := by
  induction l with
  | nil => rfl
  | cons a l ih => simp [Src.accountsD, Src.accounts, ih]

theorem weightKey_some {weights : Dict String K} {i : Info K} {k : String} :
    weightKey weights i = some k ↔ KeyOf weights i k := by
  unfold weightKey KeyOf
  rw [List.find?_eq_some_iff_append]
  simp only [decide_eq_true_eq, Bool.not_eq_true']
  constructor
  · rintro ⟨h, p, q, e, hp⟩
    exact ⟨h, p, q, e, fun x hx => by simpa using hp x hx⟩
  · rintro ⟨h, p, q, e, hp⟩
    exact ⟨h, p, q, e, fun x hx => by simpa using hp x hx⟩

theorem keyOf_unique {weights : Dict String K} {i : Info K} {j k : String}
    (h : KeyOf weights i j) (h' : KeyOf weights i k) : j = k := by
  rw [← weightKey_some] at h h'
  rw [h] at h'
  exact Option.some.inj h'

theorem owes_iff {i : Info K} : owes i = true ↔ i.debt = true ∧ i.balance < 0 := by
  simp [owes]

theorem high_iff {S : Strat K} {i : Info K} :
    High S i ↔ owes i = true ∧ lowInterest S.threshold i = false := by
  unfold High lowInterest
  rw [owes_iff]
  cases S.threshold <;> simp [and_assoc]

theorem low_iff {S : Strat K} {i : Info K} :
    Low S i ↔ owes i = true ∧ lowInterest S.threshold i = true := by
  unfold Low
  rw [high_iff, owes_iff]
  cases lowInterest S.threshold i <;> simp [and_assoc] <;> tauto

theorem groups_foldl (weights : Dict String K) (info : A → Info K) (l : List A) :
    let d := l.foldl (groupStep weights info) []
    Dict.WF d ∧ (∀ k, (Dict.get? d k).getD [] =
        l.filter fun a => decide (weightKey weights (info a) = some k)) ∧
      ∀ k, k ∈ Dict.keys d ↔ ∃ a ∈ l, weightKey weights (info a) = some k := by
  induction l using List.reverseRecOn with
  | nil => simp
  | append_singleton l a ih =>
    simp only [List.foldl_append, List.foldl_cons, List.foldl_nil]
    generalize l.foldl (groupStep weights info) [] = d at ih
    obtain ⟨h1, h2, h3⟩ := ih
    unfold groupStep
    cases hk : weightKey weights (info a) with
    | none =>
      refine ⟨h1, fun k => ?_, fun k => ?_⟩
      · simp [List.filter_append, h2 k, hk]
      · rw [h3]; simp [or_and_right, exists_or, hk]
    | some j =>
      refine ⟨Dict.wf_set h1 _ _, fun k => ?_, fun k => ?_⟩
      · rw [Dict.get?_set, List.filter_append, ← h2 k]
        by_cases hjk : j = k
        · subst hjk; simp [hk]
        · simp [hk, hjk]
      · rw [Dict.mem_keys_set, h3]
        simp only [List.mem_append, List.mem_singleton, or_and_right, exists_or, exists_eq_left, hk,
          Option.some.injEq]
        rw [or_comm, eq_comm (a := k)]

/-- The groups, by key. -/
theorem groups_eq (weights : Dict String K) (info : A → Info K) (l : List A) :
    ∃ ks : List String, ks.Nodup ∧ (∀ k, k ∈ ks ↔ ∃ a ∈ l, KeyOf weights (info a) k) ∧
      weightGroups weights info l = ks.map fun k =>
        (l.filter fun a => decide (weightKey weights (info a) = some k), Dict.val weights k) := by
  obtain ⟨h1, h2, h3⟩ := groups_foldl weights info l
  refine ⟨Dict.keys (l.foldl (groupStep weights info) []), h1, fun k => ?_, ?_⟩
  · rw [h3]; simp only [weightKey_some]
  · unfold weightGroups Dict.keys
    rw [List.map_map]
    apply List.map_congr_left
    intro e he
    simp only [Function.comp]
    rw [← h2 e.1, Dict.get?_of_mem h1 (by exact he)]
    rfl

theorem sameSet_iff {s t : List A} : sameSet s t = true ↔ ∀ a, a ∈ s ↔ a ∈ t := by
  simp only [sameSet, Bool.and_eq_true, List.all_eq_true, decide_eq_true_eq]
  exact ⟨fun h a => ⟨h.1 a, h.2 a⟩, fun h => ⟨fun a => (h a).1, fun a => (h a).2⟩⟩

theorem debtPriority_ok {S : Strat K} {info : A → Info K} {debts l : List A}
    (hd : debts.Nodup) (h : debtPriority S info debts = .ok l) :
    InDebtOrder S info (· ∈ debts) l := by
  unfold debtPriority at h
  split_ifs at h with h0 h1 h2
  · cases h; subst h0; exact ⟨List.nodup_nil, fun a => Iff.rfl, .inl rfl⟩
  · cases h
    have := C41_avalanche (fun a => (info a).rate) debts
    exact ⟨this.perm.nodup_iff.2 hd, fun a => this.perm.mem_iff, .inr (.inl ⟨h1, this.sorted⟩)⟩
  · cases h
    have := C41_snowball (fun a => (info a).balance) debts
    exact ⟨this.perm.nodup_iff.2 hd, fun a => this.perm.mem_iff, .inr (.inr ⟨h2, this.sorted⟩)⟩

theorem InDebtOrder.congr {S : Strat K} {info : A → Info K} {s t : A → Prop} {l : List A}
    (h : InDebtOrder S info s l) (hst : ∀ a, s a ↔ t a) : InDebtOrder S info t l :=
  ⟨h.nodup, fun a => (h.mem a).trans (hst a), h.order⟩

theorem subtree_spec {S : Strat K} {info : A → Info K} {order : List A → List A}
    (ho : ∀ l, (order l).Perm l) {low lowPriority group : List A} (hne : group ≠ [])
    (hn : group.Nodup) (hl : InDebtOrder S info (· ∈ low) lowPriority) :
    GroupTree S info (· ∈ low) (· ∈ group) (subtree order low lowPriority group) := by
  unfold subtree
  by_cases h : sameSet group low = true
  · rw [if_pos h]
    exact .debts _ (sameSet_iff.1 h) hl
  · rw [if_neg h]
    rw [sameSet_iff] at h
    match group, hne with
    | [a], _ => exact .one a h fun b => by simp
    | a :: b :: g, _ =>
      exact .many _ h ((ho _).nodup_iff.2 hn) (fun x => (ho _).mem_iff) (by
        rw [(ho _).length_eq]; simp)

theorem GroupTree.congr {S : Strat K} {info : A → Info K} {low low' g g' : A → Prop} {t : Src A K}
    (h : GroupTree S info low g t) (hl : ∀ a, low a ↔ low' a) (hg : ∀ a, g a ↔ g' a) :
    GroupTree S info low' g' t := by
  have e1 : low = low' := funext fun a => propext (hl a)
  have e2 : g = g' := funext fun a => propext (hg a)
  subst e1; subst e2; exact h

theorem sortedBy_map {D : Type} (key : D → K) (f : String → D) (l : List String) :
    sortedBy key (l.map f) = (sortedBy (fun k => key (f k)) l).map f := by
  unfold sortedBy
  rw [List.map_insertionSort (r := fun a b => key (f a) ≤ key (f b))
    (s := fun a b => key a ≤ key b) f l]
  intros; rfl

/-! ### C71 -/

/-- **C71.** The constructor accepts exactly the two strategies, keeps what it is given and takes
the avalanche method for debts if none is given. -/
theorem C71_constructor (arg : StrategyArg) (weights : Dict String K) (debt : Option String)
    (threshold : Option K) (S : Strat K) :
    init arg weights debt threshold = .ok S ↔
      ∃ k, (arg = .str k ∨ arg = .method k) ∧
        (k = "Ordered" ∧ S.kind = .ordered ∨ k = "Weighted" ∧ S.kind = .weighted) ∧
        S.weights = weights ∧ S.threshold = threshold ∧
        (debt = some S.debtStrategy ∨ debt = none ∧ S.debtStrategy = "Avalanche") := by
  have hdef : (debt = some S.debtStrategy ∨ debt = none ∧ S.debtStrategy = "Avalanche") ↔
      S.debtStrategy = debt.getD "Avalanche" := by
    cases debt <;> simp [eq_comm]
  rw [hdef]
  obtain ⟨kd, w, ds, th⟩ := S
  have main : ∀ k, (do
      let key ← (if k ∈ ["Ordered", "Weighted"] then Except.ok k else .error .valueError)
      .ok ⟨if key = "Ordered" then Kind.ordered else .weighted, weights,
        debt.getD "Avalanche", threshold⟩ : Except PyErr (Strat K)) = .ok ⟨kd, w, ds, th⟩ ↔
      (k = "Ordered" ∧ kd = .ordered ∨ k = "Weighted" ∧ kd = .weighted) ∧
        w = weights ∧ th = threshold ∧ ds = debt.getD "Avalanche" := by
    intro k
    by_cases h1 : k = "Ordered"
    · subst h1
      simp [ok_bind, eq_comm]
      tauto
    · by_cases h2 : k = "Weighted"
      · subst h2
        simp [ok_bind, eq_comm]
        tauto
      · simp [h1, h2, bind, Except.bind]
  cases arg with
  | other => simp [init, strategyInit, bind, Except.bind]
  | str k =>
    simp only [init, strategyInit]
    rw [main]
    constructor
    · rintro ⟨h1, h2, h3, h4⟩; exact ⟨k, .inl rfl, h1, h2, h3, h4⟩
    · rintro ⟨j, hj, h1, h2, h3, h4⟩
      have : j = k := by rcases hj with hj | hj <;> cases hj; rfl
      subst this; exact ⟨h1, h2, h3, h4⟩
  | method k =>
    simp only [init, strategyInit]
    rw [main]
    constructor
    · rintro ⟨h1, h2, h3, h4⟩; exact ⟨k, .inr rfl, h1, h2, h3, h4⟩
    · rintro ⟨j, hj, h1, h2, h3, h4⟩
      have : j = k := by rcases hj with hj | hj <;> cases hj; rfl
      subst this; exact ⟨h1, h2, h3, h4⟩

section Tree

variable {S : Strat K} {info : A → Info K} {order : List A → List A} {accounts : List A}

theorem mem_debts (ho : ∀ l, (order l).Perm l) (a : A) :
    (a ∈ (divideDebts S info (order accounts.dedup)).1 ↔ a ∈ accounts ∧ Low S (info a)) ∧
    (a ∈ (divideDebts S info (order accounts.dedup)).2 ↔ a ∈ accounts ∧ High S (info a)) := by
  unfold divideDebts
  simp only [List.mem_filter, (ho _).mem_iff, List.mem_dedup, low_iff, high_iff, Bool.not_eq_true']
  tauto

theorem nodup_debts (ho : ∀ l, (order l).Perm l) :
    (divideDebts S info (order accounts.dedup)).1.Nodup ∧
    (divideDebts S info (order accounts.dedup)).2.Nodup := by
  unfold divideDebts
  have : (order accounts.dedup).Nodup := (ho _).nodup_iff.2 (List.nodup_dedup _)
  exact ⟨(this.filter _).filter _, (this.filter _).filter _⟩

/-- **C71.** The tree: first the high-interest debts, in the order of the debt strategy, if there
are any; then, for every key that an account has, the tree of its accounts: ordered by weight or
with the weight. -/
theorem C71_tree (ho : ∀ l, (order l).Perm l) {src : Src A K}
    (h : buildTree S info order accounts = .ok src) :
    ∃ highs ks rest, InDebtOrder S info (fun a => a ∈ accounts ∧ High S (info a)) highs ∧
      (src = if highs = [] then rest else .list [.list (highs.map .acct), rest]) ∧
      ks.Nodup ∧
      (∀ k, k ∈ ks ↔ ∃ a ∈ accounts, ¬ High S (info a) ∧ KeyOf S.weights (info a) k) ∧
      RestTree S info accounts ks rest := by
  unfold buildTree at h
  obtain ⟨hm1, hm2⟩ := forall_and.1 (mem_debts (S := S) (info := info) (accounts := accounts) ho)
  obtain ⟨hn1, hn2⟩ := nodup_debts (S := S) (info := info) (accounts := accounts) ho
  generalize divideDebts S info (order accounts.dedup) = ds at h hm1 hm2 hn1 hn2
  simp only at h
  rw [Traversal.bind_ok_iff] at h
  obtain ⟨lowP, hlow, h⟩ := h
  rw [Traversal.bind_ok_iff] at h
  obtain ⟨highs, hhigh, h⟩ := h
  have i1 := (debtPriority_ok ((ho _).nodup_iff.2 hn1) hlow).congr
    (t := (· ∈ ds.1)) fun a => (ho _).mem_iff
  have i2 := (debtPriority_ok ((ho _).nodup_iff.2 hn2) hhigh).congr
    (t := fun a => a ∈ accounts ∧ High S (info a)) fun a => (ho _).mem_iff.trans (hm2 a)
  generalize hl : order (accounts.dedup.filter fun a => decide (a ∉ ds.2)) = l at h
  have hlm : ∀ a, a ∈ l ↔ a ∈ accounts ∧ ¬ High S (info a) := by
    intro a
    rw [← hl, (ho _).mem_iff, List.mem_filter, List.mem_dedup, decide_eq_true_eq, hm2]
    tauto
  have hln : l.Nodup := by
    rw [← hl]; exact (ho _).nodup_iff.2 ((List.nodup_dedup _).filter _)
  obtain ⟨ks, hk1, hk2, hk3⟩ := groups_eq S.weights info l
  -- the tree of one key
  have key : ∀ k ∈ ks, GroupTree S info (fun a => a ∈ accounts ∧ Low S (info a))
      (fun a => a ∈ accounts ∧ ¬ High S (info a) ∧ KeyOf S.weights (info a) k)
      (subtree order ds.1 lowP
        (l.filter fun a => decide (weightKey S.weights (info a) = some k))) := by
    intro k hk
    refine (subtree_spec ho ?_ (hln.filter _) i1).congr hm1 fun a => ?_
    · obtain ⟨a, ha, hka⟩ := (hk2 k).1 hk
      refine List.ne_nil_of_mem (a := a) ?_
      rw [List.mem_filter]
      exact ⟨ha, by simpa using weightKey_some.2 hka⟩
    · rw [List.mem_filter, hlm, decide_eq_true_eq, weightKey_some, and_assoc]
  have mem : ∀ ks' : List String, ks'.Perm ks → ∀ k, k ∈ ks' ↔
      ∃ a ∈ accounts, ¬ High S (info a) ∧ KeyOf S.weights (info a) k := by
    intro ks' hp k
    rw [hp.mem_iff, hk2]
    constructor
    · rintro ⟨a, ha, hka⟩; exact ⟨a, ((hlm a).1 ha).1, ((hlm a).1 ha).2, hka⟩
    · rintro ⟨a, ha, hh, hka⟩; exact ⟨a, (hlm a).2 ⟨ha, hh⟩, hka⟩
  cases hkind : S.kind with
  | ordered =>
    have hs := sortedBy_ordered (Dict.val S.weights) ks
    refine ⟨highs, sortedBy (Dict.val S.weights) ks, basicTree S order ds.1 lowP
      (weightGroups S.weights info l), i2, ?_, hs.perm.nodup_iff.2 hk1, mem _ hs.perm, ?_⟩
    · cases h; rfl
    · unfold RestTree basicTree
      simp only [hkind]
      refine ⟨hs.sorted, _, rfl, ?_⟩
      rw [hk3, sortedBy_map, List.map_map, List.forall₂_map_right_iff, List.forall₂_same]
      intro k hk
      exact key k (hs.perm.mem_iff.1 hk)
  | weighted =>
    refine ⟨highs, ks, basicTree S order ds.1 lowP (weightGroups S.weights info l), i2, ?_, hk1,
      mem _ (List.Perm.refl _), ?_⟩
    · cases h; rfl
    · unfold RestTree basicTree
      simp only [hkind]
      refine ⟨_, rfl, ?_⟩
      rw [hk3, List.map_map, List.forall₂_map_right_iff, List.forall₂_same]
      intro k hk
      refine ⟨key k hk, ?_⟩
      obtain ⟨a, ha, hka⟩ := (hk2 k).1 hk
      exact Dict.get?_eq_some_val hka.1

/-- **C71.** A tree is built unless money is owed and the debt strategy is unknown: `KeyError`. -/
theorem C71_defined (ho : ∀ l, (order l).Perm l) :
    (¬ (∃ a ∈ accounts, (info a).debt = true ∧ (info a).balance < 0) ∨
        S.debtStrategy = "Avalanche" ∨ S.debtStrategy = "Snowball" →
      ∃ src, buildTree S info order accounts = .ok src) ∧
    ((∃ a ∈ accounts, (info a).debt = true ∧ (info a).balance < 0) →
      S.debtStrategy ≠ "Avalanche" → S.debtStrategy ≠ "Snowball" →
      buildTree S info order accounts = .error .keyError) := by
  obtain ⟨hm1, hm2⟩ := forall_and.1 (mem_debts (S := S) (info := info) (accounts := accounts) ho)
  unfold buildTree
  generalize divideDebts S info (order accounts.dedup) = ds at hm1 hm2
  simp only
  have empty : ∀ l : List A, order l = [] ↔ l = [] := fun l => by
    rw [← List.length_eq_zero_iff, (ho l).length_eq, List.length_eq_zero_iff]
  have ok : ∀ l : List A, (∀ a ∈ l, a ∈ accounts ∧ (info a).debt = true ∧ (info a).balance < 0) →
      (¬ (∃ a ∈ accounts, (info a).debt = true ∧ (info a).balance < 0) ∨
        S.debtStrategy = "Avalanche" ∨ S.debtStrategy = "Snowball") →
      ∃ r, debtPriority S info (order l) = .ok r := by
    intro l hl hc
    unfold debtPriority
    split_ifs with h0 h1 h2
    · exact ⟨_, rfl⟩
    · exact ⟨_, rfl⟩
    · exact ⟨_, rfl⟩
    · exfalso
      rw [empty] at h0
      obtain ⟨a, ha⟩ := List.exists_mem_of_ne_nil _ h0
      rcases hc with hc | hc | hc
      · exact hc ⟨a, (hl a ha).1, (hl a ha).2⟩
      · exact h1 hc
      · exact h2 hc
  constructor
  · intro hc
    obtain ⟨r1, e1⟩ := ok ds.1 (fun a ha => by
      obtain ⟨h1, h2⟩ := (hm1 a).1 ha; exact ⟨h1, h2.1, h2.2.1⟩) hc
    obtain ⟨r2, e2⟩ := ok ds.2 (fun a ha => by
      obtain ⟨h1, h2⟩ := (hm2 a).1 ha; exact ⟨h1, h2.1, h2.2.1⟩) hc
    rw [e1, e2]
    exact ⟨_, rfl⟩
  · rintro ⟨a, ha, hd, hb⟩ n1 n2
    by_cases hh : High S (info a)
    · have e2 : debtPriority S info (order ds.2) = .error .keyError := by
        unfold debtPriority
        rw [if_neg, if_neg n1, if_neg n2]
        rw [empty]
        exact List.ne_nil_of_mem ((hm2 a).2 ⟨ha, hh⟩)
      have e1 : debtPriority S info (order ds.1) = .ok [] ∨
          debtPriority S info (order ds.1) = .error .keyError := by
        unfold debtPriority
        rw [if_neg n1, if_neg n2]
        split_ifs
        · exact .inl rfl
        · exact .inr rfl
      rcases e1 with e1 | e1 <;> rw [e1]
      · rw [ok_bind, e2]; rfl
      · rfl
    · have e1 : debtPriority S info (order ds.1) = .error .keyError := by
        unfold debtPriority
        rw [if_neg, if_neg n1, if_neg n2]
        rw [empty]
        exact List.ne_nil_of_mem ((hm1 a).2 ⟨ha, hd, hb, hh⟩)
      rw [e1]; rfl

theorem groupTree_accounts {low g : A → Prop} {t : Src A K} (h : GroupTree S info low g t) :
    t.accounts.Nodup ∧ ∀ a, a ∈ t.accounts ↔ g a := by
  cases h with
  | debts l h hl =>
    simp only [Src.accounts, accountsL_accts]
    exact ⟨hl.nodup, fun a => (hl.mem a).trans (h a).symm⟩
  | one a h ha => simp [Src.accounts, ha]
  | many l h hl hg h2 =>
    simp only [Src.accounts, accountsD_accts]
    exact ⟨hl, hg⟩

theorem accounts_groups {g : String → A → Prop}
    (hdisj : ∀ j k a, g j a → g k a → j = k) {ks : List String} (hk : ks.Nodup)
    {ls : List (List A)} (h : List.Forall₂ (fun k l => l.Nodup ∧ ∀ a, a ∈ l ↔ g k a) ks ls) :
    ls.flatten.Nodup ∧ ∀ a, a ∈ ls.flatten ↔ ∃ k ∈ ks, g k a := by
  induction h with
  | nil => simp
  | @cons k l ks ls h1 _ ih =>
    obtain ⟨hk1, hk2⟩ := List.nodup_cons.1 hk
    obtain ⟨i1, i2⟩ := ih hk2
    constructor
    · rw [List.flatten_cons, List.nodup_append]
      refine ⟨h1.1, i1, ?_⟩
      rintro a ha b hb rfl
      obtain ⟨j, hj, hga⟩ := (i2 a).1 hb
      exact hk1 (hdisj k j a ((h1.2 a).1 ha) hga ▸ hj)
    · intro a
      rw [List.flatten_cons, List.mem_append, i2, h1.2]
      simp

theorem accountsL_eq (ts : List (Src A K)) : Src.accountsL ts = (ts.map Src.accounts).flatten := by
  induction ts with
  | nil => rfl
  | cons t ts ih => simp [Src.accountsL, ih]

theorem accountsD_eq (ts : List (Src A K × K)) :
    Src.accountsD ts = (ts.map fun t => t.1.accounts).flatten := by
  induction ts with
  | nil => rfl
  | cons t ts ih => obtain ⟨t, w⟩ := t; simp [Src.accountsD, ih]

/-- What accounts the part of the tree that follows the weights has. -/
theorem restTree_accounts {ks : List String} {rest : Src A K} (hk : ks.Nodup)
    (h : RestTree S info accounts ks rest) : rest.accounts.Nodup ∧ ∀ a, a ∈ rest.accounts ↔
      ∃ k ∈ ks, a ∈ accounts ∧ ¬ High S (info a) ∧ KeyOf S.weights (info a) k := by
  have hdisj : ∀ j k a, (a ∈ accounts ∧ ¬ High S (info a) ∧ KeyOf S.weights (info a) j) →
      (a ∈ accounts ∧ ¬ High S (info a) ∧ KeyOf S.weights (info a) k) → j = k :=
    fun j k a h1 h2 => keyOf_unique h1.2.2 h2.2.2
  unfold RestTree at h
  cases hkind : S.kind with
  | ordered =>
    simp only [hkind] at h
    obtain ⟨-, ts, rfl, h⟩ := h
    rw [Src.accounts, accountsL_eq]
    apply accounts_groups hdisj hk
    rw [List.forall₂_map_right_iff]
    exact h.imp fun k t ht => groupTree_accounts ht
  | weighted =>
    simp only [hkind] at h
    obtain ⟨ts, rfl, h⟩ := h
    rw [Src.accounts, accountsD_eq]
    apply accounts_groups hdisj hk
    rw [List.forall₂_map_right_iff]
    exact h.imp fun k t ht => groupTree_accounts ht.1

/-- **C71.** Every account that is a high-interest debt or has a key is in the tree exactly once;
no other account is in it. -/
theorem C71_accounts (ho : ∀ l, (order l).Perm l) {src : Src A K}
    (h : buildTree S info order accounts = .ok src) :
    src.accounts.Nodup ∧ ∀ a, a ∈ src.accounts ↔
      a ∈ accounts ∧ (High S (info a) ∨ ∃ k, KeyOf S.weights (info a) k) := by
  obtain ⟨highs, ks, rest, h1, rfl, h3, h4, h5⟩ := C71_tree ho h
  obtain ⟨r1, r2⟩ := restTree_accounts h3 h5
  have r3 : ∀ a, a ∈ rest.accounts ↔
      a ∈ accounts ∧ ¬ High S (info a) ∧ ∃ k, KeyOf S.weights (info a) k := by
    intro a
    rw [r2]
    constructor
    · rintro ⟨k, -, h6, h7, h8⟩; exact ⟨h6, h7, k, h8⟩
    · rintro ⟨h6, h7, k, h8⟩; exact ⟨k, (h4 k).2 ⟨a, h6, h7, h8⟩, h6, h7, h8⟩
  by_cases hh : highs = []
  · subst hh
    rw [if_pos rfl]
    refine ⟨r1, fun a => ?_⟩
    have := (h1.mem a).2
    rw [r3]
    simp only [List.not_mem_nil, imp_false] at this
    tauto
  · rw [if_neg hh]
    simp only [Src.accounts, Src.accountsL, List.append_nil, accountsL_accts]
    constructor
    · rw [List.nodup_append]
      refine ⟨h1.nodup, r1, ?_⟩
      rintro a ha b hb rfl
      exact ((r3 a).1 hb).2.1 ((h1.mem a).1 ha).2
    · intro a
      rw [List.mem_append, h1.mem, r3]
      tauto

end Tree

/-! ### Concrete cases -/

section Cases

/-- Accounts 1-5: an RRSP, a TFSA, a debt at 20%, debts at 5% and 3%; account 6 is a debt that has
been paid off. -/
def sampleInfo : ℕ → Info ℚ
  | 1 => ⟨["RRSP", "RegisteredAccount", "Account", "object"], false, 100, 1 / 20⟩
  | 2 => ⟨["TFSA", "RegisteredAccount", "Account", "object"], false, 0, 1 / 20⟩
  | 3 => ⟨["Debt", "Account", "object"], true, -100, 1 / 5⟩
  | 4 => ⟨["Debt", "Account", "object"], true, -10, 3 / 100⟩
  | 5 => ⟨["Debt", "Account", "object"], true, -500, 1 / 20⟩
  | _ => ⟨["Debt", "Account", "object"], true, 0, 1 / 20⟩

def sampleStrat : Strat ℚ :=
  ⟨.ordered, [("RegisteredAccount", 2), ("Debt", 1), ("TFSA", 3)], "Avalanche", some (1 / 10)⟩

mutual
/-- Equality of trees, as a function. -/
def Src.beq : Src A K → Src A K → Bool
  | .acct a, .acct b => decide (a = b)
  | .list l, .list m => Src.beqL l m
  | .dict l, .dict m => Src.beqD l m
  | _, _ => false
/-- Equality of lists of trees. -/
def Src.beqL : List (Src A K) → List (Src A K) → Bool
  | [], [] => true
  | a :: l, b :: m => a.beq b && Src.beqL l m
  | _, _ => false
/-- Equality of lists of weighted trees. -/
def Src.beqD : List (Src A K × K) → List (Src A K × K) → Bool
  | [], [] => true
  | (a, x) :: l, (b, y) :: m => a.beq b && decide (x = y) && Src.beqD l m
  | _, _ => false
end

mutual
theorem Src.beq_iff (s t : Src A K) : s.beq t = true ↔ s = t := by
  cases s <;> cases t <;> simp [Src.beq, Src.beqL_iff, Src.beqD_iff]
theorem Src.beqL_iff (s t : List (Src A K)) : Src.beqL s t = true ↔ s = t := by
  cases s <;> cases t <;> simp [Src.beqL]
  rename_i a l b m
  rw [Src.beq_iff a b, Src.beqL_iff l m]
theorem Src.beqD_iff (s t : List (Src A K × K)) : Src.beqD s t = true ↔ s = t := by
  match s, t with
  | [], [] => simp [Src.beqD]
  | [], _ :: _ => simp [Src.beqD]
  | _ :: _, [] => simp [Src.beqD]
  | (a, x) :: l, (b, y) :: m =>
    simp only [Src.beqD, Bool.and_eq_true, decide_eq_true_eq, List.cons.injEq, Prod.mk.injEq]
    rw [Src.beq_iff a b, Src.beqD_iff l m]
end

instance : DecidableEq (Src A K) := fun s t => decidable_of_iff _ (Src.beq_iff s t)

/-- The high-interest debt first, then the other debts (the more expensive one first), then the
registered account, then the TFSA. -/
example : buildTree sampleStrat sampleInfo id [1, 2, 3, 4, 5] =
    .ok (.list [.list [.acct 3],
      .list [.list [.acct 5, .acct 4], .acct 1, .acct 2]]) := by decide +kernel

example : sampleStrat.kind = .ordered ∧ ∀ l : List ℕ, (id l).Perm l :=
  ⟨rfl, fun l => List.Perm.refl l⟩

theorem sample_tree : buildTree sampleStrat sampleInfo id [1, 2, 3, 4, 5] =
    .ok (.list [.list [.acct 3],
      .list [.list [.acct 5, .acct 4], .acct 1, .acct 2]]) := by decide +kernel

/-- The general theorems apply to this case. -/
example : ∃ highs ks rest,
    InDebtOrder sampleStrat sampleInfo (fun a => a ∈ [1, 2, 3, 4, 5] ∧ High sampleStrat (sampleInfo a))
      highs ∧
    (Src.list [.list [.acct 3], .list [.list [.acct 5, .acct 4], .acct 1, .acct 2]] =
      if highs = [] then rest else .list [.list (highs.map .acct), rest]) ∧ ks.Nodup ∧
    (∀ k, k ∈ ks ↔ ∃ a ∈ [1, 2, 3, 4, 5], ¬ High sampleStrat (sampleInfo a) ∧
      KeyOf sampleStrat.weights (sampleInfo a) k) ∧
    RestTree sampleStrat sampleInfo [1, 2, 3, 4, 5] ks rest :=
  C71_tree (fun l => List.Perm.refl l) sample_tree

example : [3, 5, 4, 1, 2].Nodup ∧ ∀ a, a ∈ [3, 5, 4, 1, 2] ↔ a ∈ [1, 2, 3, 4, 5] ∧
    (High sampleStrat (sampleInfo a) ∨ ∃ k, KeyOf sampleStrat.weights (sampleInfo a) k) :=
  C71_accounts (fun l => List.Perm.refl l) sample_tree

/-- **C71, refuted.** Low-interest debts are documented to be paid in the order of the debt
strategy; but once one debt has been paid off (and the account is still there), the others are
paid in equal parts. -/
theorem C71_debt_order_refuted :
    buildTree sampleStrat sampleInfo id [1, 2, 4, 5] =
      .ok (.list [.list [.acct 5, .acct 4], .acct 1, .acct 2]) ∧
    buildTree sampleStrat sampleInfo id [1, 2, 4, 5, 6] =
      .ok (.list [.dict [(.acct 4, 1), (.acct 5, 1), (.acct 6, 1)], .acct 1, .acct 2]) :=
  ⟨by decide +kernel, by decide +kernel⟩

/-- **C71, refuted.** The documentation says that without a threshold all debts are high-interest
debts; they are all treated as low-interest debts. -/
theorem C71_no_threshold_refuted :
    buildTree (A := ℕ) (K := ℚ) ⟨.ordered, [("RRSP", 1), ("Debt", 2)], "Avalanche", none⟩
      sampleInfo id [1, 3] = .ok (.list [.acct 1, .list [.acct 3]]) := by decide +kernel

end Cases

end Forecaster.TxStrategy
