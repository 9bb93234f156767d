import Verif.Model.Defaults
import Verif.Props.TxStrategyFill

/-!
# C73: what the shipped defaults do with which account
-/

set_option linter.unusedSectionVars false

namespace Forecaster.Defaults

open Forecaster Forecaster.Traversal Forecaster.TxStrategy

variable {K : Type} [Field K] [LinearOrder K] [IsStrictOrderedRing K]
variable {A : Type} [DecidableEq A]

/-! ### Specification -/

/-- Specification: account `a` is an instance of the class `cls a` (and so a debt only if that is
`Debt`). -/
def Typed (cls : A → Cls) (info : A → Info K) : Prop :=
  ∀ a, (info a).mro = (cls a).mro ∧ ((info a).debt = true ↔ cls a = .debt)

/-! ### Accounts of trees -/

section

variable {s : Src A K}

theorem foldl_none (p : List ℕ) :
    p.foldl (fun o i => o.bind fun t : Src A K => t.child i) none = none := by
  induction p with
  | nil => rfl
  | cons j p ih => rw [List.foldl_cons, Option.bind_none, ih]

theorem accounts_sub : ∀ (p : List ℕ) (s t : Src A K), s.sub p = some t →
    ∀ a ∈ t.accounts, a ∈ s.accounts := by
  intro p
  induction p with
  | nil => intro s t h a ha; cases h; exact ha
  | cons i p ih =>
    intro s t h a ha
    have hs : s.sub (i :: p) = (s.child i).bind fun c => c.sub p := by
      unfold Src.sub
      rw [List.foldl_cons, Option.bind_some]
      cases s.child i with
      | some c => rfl
      | none => exact foldl_none p
    rw [hs] at h
    cases hc : s.child i with
    | none => rw [hc] at h; cases h
    | some c =>
      rw [hc, Option.bind_some] at h
      have hm := ih c t h a ha
      cases s with
      | acct b => cases hc
      | list cs =>
        simp only [Src.child] at hc
        rw [Src.accounts, accountsL_eq, List.mem_flatten]
        exact ⟨c.accounts, List.mem_map.2 ⟨c, List.mem_of_getElem? hc, rfl⟩, hm⟩
      | dict cs =>
        simp only [Src.child, Option.map_eq_some_iff] at hc
        obtain ⟨e, he, rfl⟩ := hc
        rw [Src.accounts, accountsD_eq, List.mem_flatten]
        exact ⟨e.1.accounts, List.mem_map.2 ⟨e, List.mem_of_getElem? he, rfl⟩, hm⟩

theorem leaf_accounts {p : List ℕ} {a : A} (h : s.toTree.kind p = .leaf a) : a ∈ s.accounts := by
  simp only [Src.toTree] at h
  split at h <;> try cases h
  rename_i heq
  exact accounts_sub p s _ heq a (by simp [Src.accounts])

theorem leafBelow_accounts {p : List ℕ} {a : A} (h : LeafBelow s.toTree p a) : a ∈ s.accounts := by
  generalize ht : s.toTree = t at h
  induction h with
  | leaf h => subst ht; exact leaf_accounts h
  | ordered _ _ _ ih => exact ih
  | weighted _ _ _ ih => exact ih

end

section

variable {S : Strat K} {info : A → Info K} {order : List A → List A} {accounts : List A}

theorem hasKey_iff (w : Dict String K) (i : Info K) :
    (∃ k, KeyOf w i k) ↔ ∃ k ∈ i.mro, k ∈ Dict.keys w := by
  constructor
  · rintro ⟨k, h1, pre, post, h2, -⟩
    exact ⟨k, by rw [h2]; simp, h1⟩
  · rintro ⟨k, h1, h2⟩
    have : (i.mro.find? fun k => decide (k ∈ Dict.keys w)).isSome := by
      rw [List.find?_isSome]; exact ⟨k, h1, by simpa using h2⟩
    obtain ⟨j, hj⟩ := Option.isSome_iff_exists.1 this
    obtain ⟨h3, pre, post, h4, h5⟩ := List.find?_eq_some_iff_append.1 hj
    exact ⟨j, by simpa using h3, pre, post, h4, fun x hx => by simpa using h5 x hx⟩

/-- Without a threshold, accounts come in the order of the weights of their keys. -/
theorem by_weight (ho : ∀ l, (order l).Perm l) {src : Src A K} (hS : S.kind = .ordered)
    (ht : S.threshold = none) (h : buildTree S info order accounts = .ok src) :
    src.accounts.Pairwise fun a b => ∃ j k, KeyOf S.weights (info a) j ∧
      KeyOf S.weights (info b) k ∧ Dict.val S.weights j ≤ Dict.val S.weights k := by
  obtain ⟨highs, ks, rest, h1, rfl, h3, h4, h5⟩ := C71_tree ho h
  have hh : highs = [] := by
    rcases List.eq_nil_or_concat highs with h | ⟨l, a, rfl⟩
    · exact h
    · obtain ⟨-, -, -, t, ht', -⟩ := (h1.mem a).1 (by simp)
      rw [ht] at ht'; cases ht'
  rw [if_pos hh]
  unfold RestTree at h5
  simp only [hS] at h5
  obtain ⟨hs, ts, rfl, hts⟩ := h5
  rw [Src.accounts, accountsL_eq]
  clear h h3 h4
  induction hts with
  | nil => simp
  | @cons k t ks ts hk hts ih =>
    rw [List.pairwise_cons] at hs
    rw [List.map_cons, List.flatten_cons, List.pairwise_append]
    have hmem : ∀ a ∈ t.accounts, KeyOf S.weights (info a) k := fun a ha =>
      (((groupTree_accounts hk).2 a).1 ha).2.2
    refine ⟨?_, ih hs.2, ?_⟩
    · exact List.Pairwise.imp_of_mem (fun ha hb _ => ⟨k, k, hmem _ ha, hmem _ hb, le_rfl⟩)
        (List.pairwise_of_forall (R := fun _ _ => True) (fun _ _ => trivial))
    · intro a ha b hb
      have : ∃ j ∈ ks, KeyOf S.weights (info b) j := by
        clear ih hs
        induction hts with
        | nil => simp at hb
        | @cons j u js us hj _ ih2 =>
          rw [List.map_cons, List.flatten_cons, List.mem_append] at hb
          rcases hb with hb | hb
          · exact ⟨j, by simp, (((groupTree_accounts hj).2 b).1 hb).2.2⟩
          · obtain ⟨i, hi, hk'⟩ := ih2 hb
            exact ⟨i, by simp [hi], hk'⟩
      obtain ⟨j, hj, hk'⟩ := this
      exact ⟨k, j, hmem a ha, hk', hs.1 j hj⟩

/-- Only the accounts of the tree are used. -/
theorem only_tree [FloorRing K] {E : Env (List ℕ) A K} {fuel : ℕ} {available : Dict K K}
    {r : Dict A (Dict K K)} (hE : Sound E) (hA : Answers E) (hp : 0 < E.precision)
    (h : call S info order E fuel accounts available = .ok r) {src : Src A K}
    (hb : buildTree S info order accounts = .ok src) (a : A) (ha : a ∉ src.accounts) :
    Dict.get? r a = none := by
  have hc := call_eq hb h
  have hE' : Sound { E with tree := src.toTree } := ⟨hE.solver, hE.sets, hE.accts⟩
  have hA' : Answers { E with tree := src.toTree } := ⟨hA.inflow, hA.outflow⟩
  cases hr : Dict.get? r a with
  | none => rfl
  | some t =>
    refine absurd ?_ ha
    rcases lt_or_ge E.precision (Dict.total available) with h1 | h1
    · exact leafBelow_accounts ((C42_inflows_total hE' hA' hp h1 hc).1 a t hr).1
    · rcases lt_or_ge (Dict.total available) (-E.precision) with h2 | h2
      · exact leafBelow_accounts ((C42_outflows_total hE' hA' hp h2 hc).1 a t hr).1
      · rw [C42_nothing (E := { E with tree := src.toTree }) h1 h2] at hc
        cases hc
        simp at hr

end

/-! ### C73 -/

section

variable {cls : A → Cls} {info : A → Info K} {order : List A → List A} {accounts : List A}
  {S : TxStrategy.Strat K}

/-- The default strategy. -/
theorem strategy_ok {w : Dict String K} (hS : strategy w = .ok S) :
    S.kind = .ordered ∧ S.weights = w ∧ S.debtStrategy = "Avalanche" ∧ S.threshold = none := by
  unfold strategy TxStrategy.init at hS
  have : Allocation.strategyInit ["Ordered", "Weighted"] (.str "Ordered") = .ok "Ordered" := rfl
  rw [this] at hS
  cases hS
  exact ⟨rfl, rfl, rfl, rfl⟩

/-- **C73.** With the default settings there is a tree for every set of accounts, for contributions
and for withdrawals. -/
theorem C73_defined (ho : ∀ l, (order l).Perm l) (w : Dict String K) :
    ∃ S, strategy w = .ok S ∧ ∃ src, buildTree S info order accounts = .ok src :=
  ⟨⟨.ordered, w, "Avalanche", none⟩, rfl, (C71_defined ho).1 (.inr (.inl rfl))⟩

/-- **C73.** With the settings of `Settings`, every account that is passed - of whatever class - has
a place in the tree, for contributions and for withdrawals. -/
theorem C73_base (ho : ∀ l, (order l).Perm l) (hm : ∀ a ∈ accounts, "Account" ∈ (info a).mro)
    (hS : strategy savingWeights = .ok S ∨ strategy withdrawalWeights = .ok S) {src : Src A K}
    (h : buildTree S info order accounts = .ok src) :
    src.accounts.Nodup ∧ ∀ a, a ∈ src.accounts ↔ a ∈ accounts := by
  have hw : S.weights = [("Account", 1)] := by
    rcases hS with h | h
    · exact (strategy_ok h).2.1
    · exact (strategy_ok h).2.1
  obtain ⟨h1, h2⟩ := C71_accounts ho h
  refine ⟨h1, fun a => ?_⟩
  rw [h2]
  constructor
  · exact And.left
  · intro ha
    refine ⟨ha, .inr ((hasKey_iff _ _).2 ⟨"Account", hm a ha, ?_⟩)⟩
    rw [hw]; simp [Dict.keys]

/-- The place of a class in the order of contributions: TFSAs, RRSPs, taxable accounts. -/
def savingRank : Cls → Option ℕ
  | .tfsa => some 0
  | .rrsp => some 1
  | .taxable => some 2
  | _ => none

/-- The place of a class in the order of withdrawals: RRSPs, TFSAs. -/
def withdrawalRank : Cls → Option ℕ
  | .rrsp => some 0
  | .tfsa => some 1
  | _ => none

theorem key_saving {i : Info K} {c : Cls} (hi : i.mro = c.mro) {k : String}
    (h : KeyOf savingWeightsCanada i k) :
    (c = .tfsa ∧ k = "TFSA") ∨ (c = .rrsp ∧ k = "RRSP") ∨ (c = .taxable ∧ k = "TaxableAccount") := by
  obtain ⟨h1, pre, post, h2, -⟩ := h
  have hk : k ∈ c.mro := by rw [← hi, h2]; simp
  simp only [savingWeightsCanada, Dict.keys, List.map_cons, List.map_nil, List.mem_cons,
    List.not_mem_nil, or_false] at h1
  cases c <;> rcases h1 with rfl | rfl | rfl <;> revert hk <;> decide

theorem key_withdrawal {i : Info K} {c : Cls} (hi : i.mro = c.mro) {k : String}
    (h : KeyOf withdrawalWeightsCanada i k) :
    (c = .tfsa ∧ k = "TFSA") ∨ (c = .rrsp ∧ k = "RRSP") := by
  obtain ⟨h1, pre, post, h2, -⟩ := h
  have hk : k ∈ c.mro := by rw [← hi, h2]; simp
  simp only [withdrawalWeightsCanada, Dict.keys, List.map_cons, List.map_nil, List.mem_cons,
    List.not_mem_nil, or_false] at h1
  cases c <;> rcases h1 with rfl | rfl | rfl <;> revert hk <;> decide

/-- **C73.** With the settings of `SettingsCanada`, contributions are for TFSAs first, then RRSPs,
then taxable accounts. No other account has a place. -/
theorem C73_canada_saving (ho : ∀ l, (order l).Perm l) (hc : Typed cls info)
    (hS : strategy savingWeightsCanada = .ok S) {src : Src A K}
    (h : buildTree S info order accounts = .ok src) :
    src.accounts.Nodup ∧
    (∀ a, a ∈ src.accounts ↔ a ∈ accounts ∧ (savingRank (cls a)).isSome) ∧
    src.accounts.Pairwise fun a b =>
      ∃ i j, savingRank (cls a) = some i ∧ savingRank (cls b) = some j ∧ i ≤ j := by
  obtain ⟨s1, s2, -, s3⟩ := strategy_ok hS
  obtain ⟨h1, h2⟩ := C71_accounts ho h
  refine ⟨h1, fun a => ?_, ?_⟩
  · rw [h2, s2]
    refine and_congr_right fun _ => ?_
    constructor
    · rintro (⟨-, -, t, ht, -⟩ | ⟨k, hk⟩)
      · rw [s3] at ht; cases ht
      · rcases key_saving (hc a).1 hk with ⟨e, -⟩ | ⟨e, -⟩ | ⟨e, -⟩ <;> rw [e] <;> rfl
    · intro hr
      refine .inr ((hasKey_iff _ _).2 ?_)
      rw [(hc a).1]
      cases hcl : cls a <;> rw [hcl] at hr <;> try cases hr
      · exact ⟨"RRSP", by decide, by simp [savingWeightsCanada, Dict.keys]⟩
      · exact ⟨"TFSA", by decide, by simp [savingWeightsCanada, Dict.keys]⟩
      · exact ⟨"TaxableAccount", by decide, by simp [savingWeightsCanada, Dict.keys]⟩
  · refine (by_weight ho s1 s3 h).imp ?_
    rintro a b ⟨j, k, hj, hk, hle⟩
    rw [s2] at hj hk hle
    rcases key_saving (hc a).1 hj with ⟨e, rfl⟩ | ⟨e, rfl⟩ | ⟨e, rfl⟩ <;>
    rcases key_saving (hc b).1 hk with ⟨e', rfl⟩ | ⟨e', rfl⟩ | ⟨e', rfl⟩ <;> rw [e, e'] <;>
    simp [savingWeightsCanada, Dict.val, Dict.get?_cons] at hle <;>
    first
      | exact ⟨_, _, rfl, rfl, by decide⟩
      | norm_num at hle

/-- **C73.** With the settings of `SettingsCanada`, withdrawals are from RRSPs first, then TFSAs.
(Refuted is thus what the settings are meant for:) No other account has a place - there is no class
`SavingsAccount`. -/
theorem C73_canada_withdrawal (ho : ∀ l, (order l).Perm l) (hc : Typed cls info)
    (hS : strategy withdrawalWeightsCanada = .ok S) {src : Src A K}
    (h : buildTree S info order accounts = .ok src) :
    src.accounts.Nodup ∧
    (∀ a, a ∈ src.accounts ↔ a ∈ accounts ∧ (withdrawalRank (cls a)).isSome) ∧
    src.accounts.Pairwise fun a b =>
      ∃ i j, withdrawalRank (cls a) = some i ∧ withdrawalRank (cls b) = some j ∧ i ≤ j := by
  obtain ⟨s1, s2, -, s3⟩ := strategy_ok hS
  obtain ⟨h1, h2⟩ := C71_accounts ho h
  refine ⟨h1, fun a => ?_, ?_⟩
  · rw [h2, s2]
    refine and_congr_right fun _ => ?_
    constructor
    · rintro (⟨-, -, t, ht, -⟩ | ⟨k, hk⟩)
      · rw [s3] at ht; cases ht
      · rcases key_withdrawal (hc a).1 hk with ⟨e, -⟩ | ⟨e, -⟩ <;> rw [e] <;> rfl
    · intro hr
      refine .inr ((hasKey_iff _ _).2 ?_)
      rw [(hc a).1]
      cases hcl : cls a <;> rw [hcl] at hr <;> try cases hr
      · exact ⟨"RRSP", by decide, by simp [withdrawalWeightsCanada, Dict.keys]⟩
      · exact ⟨"TFSA", by decide, by simp [withdrawalWeightsCanada, Dict.keys]⟩
  · refine (by_weight ho s1 s3 h).imp ?_
    rintro a b ⟨j, k, hj, hk, hle⟩
    rw [s2] at hj hk hle
    rcases key_withdrawal (hc a).1 hj with ⟨e, rfl⟩ | ⟨e, rfl⟩ <;>
    rcases key_withdrawal (hc b).1 hk with ⟨e', rfl⟩ | ⟨e', rfl⟩ <;> rw [e, e'] <;>
    simp [withdrawalWeightsCanada, Dict.val, Dict.get?_cons] at hle <;>
    first
      | exact ⟨_, _, rfl, rfl, by decide⟩
      | norm_num at hle

variable [FloorRing K] {E : Env (List ℕ) A K} {fuel : ℕ} {available : Dict K K}
  {r : Dict A (Dict K K)}

/-- **C73, refuted.** With the settings of `SettingsCanada`, taxable accounts are never withdrawn
from, however much is needed and whatever else there is. -/
theorem C73_taxable_withdrawals_refuted (ho : ∀ l, (order l).Perm l) (hc : Typed cls info)
    (hS : strategy withdrawalWeightsCanada = .ok S) (hE : Sound E) (hA : Answers E)
    (hp : 0 < E.precision) (h : call S info order E fuel accounts available = .ok r) (a : A)
    (ha : cls a = .taxable) : Dict.get? r a = none := by
  obtain ⟨src, hb⟩ := call_tree h
  refine only_tree hE hA hp h hb a fun hm => ?_
  have := (((C73_canada_withdrawal ho hc hS hb).2.1 a).1 hm).2
  rw [ha] at this
  cases this

/-- **C73, refuted.** With the settings of `SettingsCanada`, nothing of what is saved goes to debts,
not even their minimum payments. -/
theorem C73_debt_payments_refuted (ho : ∀ l, (order l).Perm l) (hc : Typed cls info)
    (hS : strategy savingWeightsCanada = .ok S) (hE : Sound E) (hA : Answers E)
    (hp : 0 < E.precision) (h : call S info order E fuel accounts available = .ok r) (a : A)
    (ha : cls a = .debt) : Dict.get? r a = none := by
  obtain ⟨src, hb⟩ := call_tree h
  refine only_tree hE hA hp h hb a fun hm => ?_
  have := (((C73_canada_saving ho hc hS hb).2.1 a).1 hm).2
  rw [ha] at this
  cases this

end

/-! ### Examples -/

section Cases

/-- An RRSP, a TFSA, a taxable account, a debt and a residence. -/
def household : ℕ → Cls
  | 1 => .rrsp
  | 2 => .tfsa
  | 3 => .taxable
  | 4 => .debt
  | _ => .residence

/-- All have money except for the debt. -/
def householdInfo (a : ℕ) : Info ℚ :=
  ⟨(household a).mro, decide (household a = .debt), if a = 4 then -100 else 100, 1 / 20⟩

theorem household_typed : Typed household householdInfo := fun a =>
  ⟨rfl, by simp [householdInfo]⟩

/-- The default strategies. -/
def householdStrat (w : Dict String ℚ) : TxStrategy.Strat ℚ := ⟨.ordered, w, "Avalanche", none⟩

example : strategy (K := ℚ) savingWeightsCanada = .ok (householdStrat savingWeightsCanada) := rfl

/-- The order of contributions. -/
example : (buildTree (householdStrat savingWeightsCanada) householdInfo id [1, 2, 3, 4, 5]).map
    (·.accounts) = .ok [2, 1, 3] := by decide +kernel

/-- The order of withdrawals. -/
example : (buildTree (householdStrat withdrawalWeightsCanada) householdInfo id [1, 2, 3, 4, 5]).map
    (·.accounts) = .ok [1, 2] := by decide +kernel

/-- All accounts have a place by default. -/
example : (buildTree (householdStrat savingWeights) householdInfo id [1, 2, 3, 4, 5]).map
    (·.accounts) = .ok [1, 2, 3, 4, 5] := by decide +kernel

set_option maxRecDepth 100000 in
/-- 250 are needed and each account has 100: nothing comes from the taxable account. -/
theorem household_call : call (householdStrat withdrawalWeightsCanada) householdInfo id
    (stratEnv (certified greedy)) 12 [1, 2, 3, 4, 5] [(0, -250)] =
      .ok [(1, [(1 / 2, -100)]), (2, [(1 / 2, -100)])] := by
  decide +kernel

example : Dict.get? [(1, [((1 : ℚ) / 2, (-100 : ℚ))]), (2, [(1 / 2, -100)])] 3 = none :=
  C73_taxable_withdrawals_refuted (fun l => List.Perm.refl l) household_typed rfl
    ⟨fun g f h => (strat_optimal.solver g f h).1, fun _ _ h => h, fun _ _ h => h⟩
    (plain_answers (E := stratEnv (certified greedy)) fun _ _ _ => rfl).1 (by decide +kernel)
    household_call 3 rfl

end Cases

end Forecaster.Defaults
