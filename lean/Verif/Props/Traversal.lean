import Verif.Lemmas.TraversalCheck
import Mathlib.Data.Rat.Floor

/-!
# C42: the transactions a `TransactionTraversal` hands out

Everything below holds for any answers of the flow algorithm that are feasible flows
(`Sound`), any tree, any limits and any grouping of accounts.
-/

set_option linter.unusedSectionVars false

namespace Forecaster.Traversal

open Forecaster Forecaster.Timing

variable {K : Type} [Field K] [LinearOrder K] [IsStrictOrderedRing K] [FloorRing K]
variable {N A : Type} [DecidableEq N] [DecidableEq A]

/-- Specification: what is asked of accounts (C22, C23): the transactions for a limit and a
total have the sign of the total and do not exceed it. -/
structure Answers (E : Env N A K) : Prop where
  inflow : ∀ a lim x d, lim = .minIn ∨ lim = .maxIn → 0 ≤ x → E.txOf a lim x = .ok d →
    Dict.WF d ∧ (∀ e ∈ d, 0 ≤ e.2) ∧ Dict.total d ≤ x
  outflow : ∀ a lim x d, lim = .minOut ∨ lim = .maxOut → x ≤ 0 → E.txOf a lim x = .ok d →
    Dict.WF d ∧ (∀ e ∈ d, e.2 ≤ 0) ∧ x ≤ Dict.total d

/-! ### Numbers -/

theorem pyInt_le {x : K} (h : 0 ≤ x) : (pyInt x : K) ≤ x := by
  unfold pyInt; rw [if_pos h]; exact Int.floor_le x

theorem pyInt_nonneg {x : K} (h : 0 ≤ x) : 0 ≤ pyInt x := by
  unfold pyInt; rw [if_pos h]; exact Int.floor_nonneg.2 h

theorem pyInt_int (n : ℤ) : pyInt (n : K) = n := by
  unfold pyInt
  split_ifs <;> simp

theorem abs_pyInt_le (x : K) : |(pyInt x : K)| ≤ |x| := by
  unfold pyInt
  split_ifs with h
  · rw [abs_of_nonneg h, abs_of_nonneg]
    · exact Int.floor_le x
    · exact_mod_cast Int.floor_nonneg.2 h
  · push Not at h
    rw [abs_of_neg h, abs_of_nonpos]
    · exact neg_le_neg (Int.le_ceil x)
    · exact_mod_cast Int.ceil_nonpos.2 h.le

theorem acctCap_fin (E : Env N A K) (memo : Flows N A) (t : G N A) (x : K) :
    acctCap E memo t (.fin x) = some (pyInt |x / E.precision - (flowsFrom memo t : K)|) := by
  simp [acctCap, edgeCapacity, scale, lessFlow]

/-! ### One pass -/

section Pass

variable {E : Env N A K} {lim : Lim} {memo : Flows N A} {src : Option ℤ} {g : Graph N A}
  {f : Flows N A}

theorem cast_le_pyInt_abs {n : ℤ} {x : K} (h : n ≤ pyInt |x|) : (n : K) ≤ |x| :=
  le_trans (by exact_mod_cast h) (pyInt_le (abs_nonneg x))

theorem alone_le (hg : Shape E lim memo src g) (hf : Feasible g f) {a : A} {x : K}
    (hn : E.groupOf a lim = none) (hx : E.limitOf a lim = .ok (.fin x)) :
    (out g f (.acct a) : K) ≤ |x / E.precision - (flowsFrom memo (.acct a) : K)| := by
  apply cast_le_pyInt_abs
  rw [out_acct_none hg hf hn]
  refine flow_le_cap hf ?_ (pyInt_nonneg (abs_nonneg _))
  intro e he
  obtain ⟨-, y, hy, hc⟩ := hg _ _ he
  rw [hx] at hy; cases hy
  rw [hc, acctCap_fin]

theorem member_le (hg : Shape E lim memo src g) (hf : Feasible g f) {a : A} {x : K} {s : Finset A}
    (hn : E.groupOf a lim = some s) (hx : E.limitOf a lim = .ok (.fin x)) :
    (out g f (.acct a) : K) ≤ |x / E.precision - (flowsFrom memo (.group s) : K)| := by
  apply cast_le_pyInt_abs
  rw [out_acct_some hg hf hn]
  refine flow_le_cap hf ?_ (pyInt_nonneg (abs_nonneg _))
  intro e he
  obtain ⟨-, y, hy, hc⟩ := hg _ _ he
  rw [hx] at hy; cases hy
  rw [hc, acctCap_fin]

/-- The flow through a group is within the limit of one of its members. -/
theorem shared_le (hg : Shape E lim memo src g) (hf : Feasible g f) {s : Finset A}
    (hpos : out g f (.group s) ≠ 0)
    (hx : ∀ a, E.groupOf a lim = some s → ∃ x, E.limitOf a lim = .ok (.fin x)) :
    ∃ a x, E.groupOf a lim = some s ∧ E.limitOf a lim = .ok (.fin x) ∧
      (out g f (.group s) : K) ≤ |x / E.precision - (flowsFrom memo (.group s) : K)| := by
  rw [out_group hg hf] at hpos ⊢
  obtain ⟨e, he, b, y, h1, h2, h3⟩ := flow_ne_zero hg hf hpos
  obtain ⟨x, hbx⟩ := hx b h1
  rw [hbx] at h2; cases h2
  refine ⟨b, x, h1, hbx, cast_le_pyInt_abs ?_⟩
  exact hf.capacity _ _ e _ he (h3.trans (acctCap_fin _ _ _ _))

theorem node_le (hg : Shape E lim memo src g) (hf : Feasible g f) {n : N} {l : K}
    (hl : E.tree.limits n lim = some l) :
    (out g f (.node n) : K) ≤ |l / E.precision - (flowsFrom memo (.node n) : K)| := by
  apply cast_le_pyInt_abs
  rw [out_node hg hf]
  refine flow_le_cap hf ?_ (pyInt_nonneg (abs_nonneg _))
  intro e he
  exact (hg _ _ he).2 l hl

end Pass

/-! ### Two passes -/

/-- What the two passes of a call do: flows `f₁`, `f₂` in graphs `g₁`, `g₂`, the second of which
takes the first flow into account, and transactions of at most those flows. -/
structure Passes (E : Env N A K) (l₁ l₂ : Lim) (t₁ t₂ : Ext K) (r : Dict A (Dict K K))
    (g₁ g₂ : Graph N A) (f₁ f₂ : Flows N A) (memo : Flows N A) : Prop where
  shape₁ : Shape E l₁ [] (edgeCapacity (units E.precision t₁) 0) g₁
  shape₂ : Shape E l₂ memo (edgeCapacity (units E.precision t₂)
    (flow f₁ .source (.node E.tree.root))) g₂
  source₂ : ∃ e, Dict.get? g₂ (.source, .node E.tree.root) = some e
  feasible₁ : Feasible g₁ f₁
  feasible₂ : Feasible g₂ f₂
  memo_from : ∀ u, flowsFrom memo u = out g₁ f₁ u

theorem money_pos (E : Env N A K) {total : K} (h : 0 ≤ total) (x : ℤ) :
    money E (.fin total) x = E.precision * x := by
  unfold money; rw [if_neg]; simpa using h

theorem money_neg (E : Env N A K) {total : Ext K} (h : total < .fin 0) (x : ℤ) :
    money E total x = -(E.precision * x) := by
  unfold money; rw [if_pos h]

theorem mem_add_sign {d t : Dict K K} (hd : Dict.WF d) (ht : Dict.WF t) {e : K × K}
    (he : e ∈ addTransactions d t) :
    e.2 = Dict.val d e.1 + Dict.val t e.1 := by
  have h1 := Dict.get?_of_mem (Timing.wf_add hd t) (k := e.1) (v := e.2) he
  have h2 := Timing.val_add d ht e.1
  unfold Dict.val at h2 ⊢
  rw [h1] at h2
  simpa using h2

theorem val_nonneg {d : Dict K K} (h : ∀ e ∈ d, 0 ≤ e.2) (k : K) : 0 ≤ Dict.val d k := by
  unfold Dict.val
  cases hx : Dict.get? d k with
  | none => simp
  | some v => exact h _ (Dict.mem_of_get? hx)

theorem val_nonpos {d : Dict K K} (h : ∀ e ∈ d, e.2 ≤ 0) (k : K) : Dict.val d k ≤ 0 := by
  unfold Dict.val
  cases hx : Dict.get? d k with
  | none => simp
  | some v => exact h _ (Dict.mem_of_get? hx)

theorem total_nonpos {d : Dict K K} (h : ∀ e ∈ d, e.2 ≤ 0) : Dict.total d ≤ 0 := by
  induction d with
  | nil => simp
  | cons a d ih =>
    rw [Dict.total_cons]
    have h1 := h a (by simp)
    have h2 := ih fun e he => h e (List.mem_cons_of_mem _ he)
    linarith

/-- The two passes for a positive total. -/
theorem passes_in {E : Env N A K} (hE : Sound E) (hA : Answers E) (hp : 0 < E.precision)
    {total : K} (ht : E.precision < total) {fuel : ℕ} {r : Dict A (Dict K K)}
    (h : call E fuel total = .ok r) :
    ∃ g₁ g₂ f₁ f₂ memo, Passes E .minIn .maxIn (.fin total) (.fin total) r g₁ g₂ f₁ f₂ memo ∧
      (∀ a, 0 ≤ given r a ∧ given r a ≤
        E.precision * (out g₁ f₁ (.acct a) : K) + E.precision * (out g₂ f₂ (.acct a) : K)) ∧
      (∀ a t, Dict.get? r a = some t → LeafBelow E.tree E.tree.root a ∧ ∀ e ∈ t, 0 ≤ e.2) := by
  unfold call at h
  rw [if_pos ht, bind_ok_iff] at h
  obtain ⟨⟨r₁, m₁⟩, h1, h⟩ := h
  rw [bind_ok_iff] at h
  obtain ⟨⟨r₂, m₂⟩, h2, h⟩ := h
  cases h
  obtain ⟨g₁, f₁, s₁, -, F₁, rfl, w₁, b₁, x₁⟩ := traverse_spec hE h1
  obtain ⟨g₂, f₂, s₂, e₂, F₂, -, w₂, b₂, x₂⟩ := traverse_spec hE h2
  obtain ⟨-, hmt, hmf⟩ := merge_spec f₁ [] innerWF_nil F₁.wf.1 F₁.wf.2
  have ht0 : 0 ≤ total := (hp.trans ht).le
  have a₁ : ∀ a t, Dict.get? r₁ a = some t → Dict.WF t ∧ (∀ e ∈ t, 0 ≤ e.2) ∧
      Dict.total t ≤ E.precision * (out g₁ f₁ (.acct a) : K) := by
    intro a t hat
    have := (x₁ a t hat).2
    rw [money_pos E ht0] at this
    exact hA.inflow a _ _ t (.inl rfl)
      (mul_nonneg hp.le (by exact_mod_cast out_nonneg F₁ _)) this
  have a₂ : ∀ a t, Dict.get? r₂ a = some t → Dict.WF t ∧ (∀ e ∈ t, 0 ≤ e.2) ∧
      Dict.total t ≤ E.precision * (out g₂ f₂ (.acct a) : K) := by
    intro a t hat
    have := (x₂ a t hat).2
    rw [money_pos E ht0] at this
    exact hA.inflow a _ _ t (.inr rfl)
      (mul_nonneg hp.le (by exact_mod_cast out_nonneg F₂ _)) this
  refine ⟨g₁, g₂, f₁, f₂, mergeFlows [] f₁, ⟨by simpa [flowsTo] using s₁, ?_, e₂, F₁, F₂, ?_⟩, ?_, ?_⟩
  · simp only [hmt] at s₂
    simpa [flowsTo] using s₂
  · intro u
    rw [hmf, flowsFrom_eq_out F₁]; simp [flowsFrom]
  · intro a
    rw [given_combine w₁ (fun a t hat => (a₂ a t hat).1)]
    have b₁ : 0 ≤ given r₁ a ∧ given r₁ a ≤ E.precision * (out g₁ f₁ (.acct a) : K) := by
      unfold given
      cases hx : Dict.get? r₁ a with
      | none => simpa using mul_nonneg hp.le (by exact_mod_cast out_nonneg F₁ _)
      | some t => exact ⟨Dict.total_nonneg (a₁ a t hx).2.1, (a₁ a t hx).2.2⟩
    have b₂ : 0 ≤ given r₂ a ∧ given r₂ a ≤ E.precision * (out g₂ f₂ (.acct a) : K) := by
      unfold given
      cases hx : Dict.get? r₂ a with
      | none => simpa using mul_nonneg hp.le (by exact_mod_cast out_nonneg F₂ _)
      | some t => exact ⟨Dict.total_nonneg (a₂ a t hx).2.1, (a₂ a t hx).2.2⟩
    exact ⟨add_nonneg b₁.1 b₂.1, add_le_add b₁.2 b₂.2⟩
  · intro a t hat
    rw [get?_combine r₁ w₁] at hat
    cases hx₂ : Dict.get? r₂ a with
    | none =>
      rw [hx₂] at hat
      exact ⟨(x₁ a t hat).1, (a₁ a t hat).2.1⟩
    | some d =>
      rw [hx₂] at hat
      cases hx₁ : Dict.get? r₁ a with
      | none =>
        rw [hx₁] at hat
        cases hat
        exact ⟨(x₂ a t hx₂).1, (a₂ a t hx₂).2.1⟩
      | some t' =>
        rw [hx₁] at hat
        cases hat
        refine ⟨(x₂ a d hx₂).1, fun e he => ?_⟩
        rw [mem_add_sign (a₂ a d hx₂).1 (a₁ a t' hx₁).1 he]
        exact add_nonneg (val_nonneg (a₂ a d hx₂).2.1 _) (val_nonneg (a₁ a t' hx₁).2.1 _)

/-- The two passes for a negative total. -/
theorem passes_out {E : Env N A K} (hE : Sound E) (hA : Answers E) (hp : 0 < E.precision)
    {total : K} (ht : total < -E.precision) {fuel : ℕ} {r : Dict A (Dict K K)}
    (h : call E fuel total = .ok r) :
    ∃ g₁ g₂ f₁ f₂ memo, Passes E .minOut .maxOut .negInf (.fin total) r g₁ g₂ f₁ f₂ memo ∧
      (∀ a, given r a ≤ 0 ∧
        -(E.precision * (out g₁ f₁ (.acct a) : K) + E.precision * (out g₂ f₂ (.acct a) : K)) ≤
          given r a) ∧
      (∀ a t, Dict.get? r a = some t → LeafBelow E.tree E.tree.root a ∧ ∀ e ∈ t, e.2 ≤ 0) ∧
      buildGraph E .minOut [] fuel .negInf = .ok g₁ := by
  unfold call at h
  have hn : ¬ total > E.precision := by linarith
  rw [if_neg hn, if_pos ht, bind_ok_iff] at h
  obtain ⟨⟨r₁, m₁⟩, h1, h⟩ := h
  rw [bind_ok_iff] at h
  obtain ⟨⟨r₂, m₂⟩, h2, h⟩ := h
  cases h
  obtain ⟨g₁, f₁, s₁, -, F₁, rfl, w₁, b₁, x₁⟩ := traverse_spec hE h1
  obtain ⟨g₂, f₂, s₂, e₂, F₂, -, w₂, b₂, x₂⟩ := traverse_spec hE h2
  obtain ⟨-, hmt, hmf⟩ := merge_spec f₁ [] innerWF_nil F₁.wf.1 F₁.wf.2
  have ht0 : (Ext.fin total : Ext K) < .fin 0 := by simp; linarith
  have ht1 : (Ext.negInf : Ext K) < .fin 0 := by
    rw [← not_le]; simp
  have nn : ∀ x : ℤ, 0 ≤ x → -(E.precision * (x : K)) ≤ 0 := fun x hx =>
    neg_nonpos.2 (mul_nonneg hp.le (by exact_mod_cast hx))
  have a₁ : ∀ a t, Dict.get? r₁ a = some t → Dict.WF t ∧ (∀ e ∈ t, e.2 ≤ 0) ∧
      -(E.precision * (out g₁ f₁ (.acct a) : K)) ≤ Dict.total t := by
    intro a t hat
    have := (x₁ a t hat).2
    rw [money_neg E ht1] at this
    exact hA.outflow a _ _ t (.inl rfl) (nn _ (out_nonneg F₁ _)) this
  have a₂ : ∀ a t, Dict.get? r₂ a = some t → Dict.WF t ∧ (∀ e ∈ t, e.2 ≤ 0) ∧
      -(E.precision * (out g₂ f₂ (.acct a) : K)) ≤ Dict.total t := by
    intro a t hat
    have := (x₂ a t hat).2
    rw [money_neg E ht0] at this
    exact hA.outflow a _ _ t (.inr rfl) (nn _ (out_nonneg F₂ _)) this
  refine ⟨g₁, g₂, f₁, f₂, mergeFlows [] f₁, ⟨by simpa [flowsTo] using s₁, ?_, e₂, F₁, F₂, ?_⟩, ?_, ?_, b₁⟩
  · simp only [hmt] at s₂
    simpa [flowsTo] using s₂
  · intro u
    rw [hmf, flowsFrom_eq_out F₁]; simp [flowsFrom]
  · intro a
    rw [given_combine w₁ (fun a t hat => (a₂ a t hat).1)]
    have c₁ : given r₁ a ≤ 0 ∧ -(E.precision * (out g₁ f₁ (.acct a) : K)) ≤ given r₁ a := by
      unfold given
      cases hx : Dict.get? r₁ a with
      | none => simpa using mul_nonneg hp.le (by exact_mod_cast out_nonneg F₁ _)
      | some t => exact ⟨total_nonpos (a₁ a t hx).2.1, (a₁ a t hx).2.2⟩
    have c₂ : given r₂ a ≤ 0 ∧ -(E.precision * (out g₂ f₂ (.acct a) : K)) ≤ given r₂ a := by
      unfold given
      cases hx : Dict.get? r₂ a with
      | none => simpa using mul_nonneg hp.le (by exact_mod_cast out_nonneg F₂ _)
      | some t => exact ⟨total_nonpos (a₂ a t hx).2.1, (a₂ a t hx).2.2⟩
    constructor
    · linarith
    · linarith
  · intro a t hat
    rw [get?_combine r₁ w₁] at hat
    cases hx₂ : Dict.get? r₂ a with
    | none =>
      rw [hx₂] at hat
      exact ⟨(x₁ a t hat).1, (a₁ a t hat).2.1⟩
    | some d =>
      rw [hx₂] at hat
      cases hx₁ : Dict.get? r₁ a with
      | none =>
        rw [hx₁] at hat
        cases hat
        exact ⟨(x₂ a t hx₂).1, (a₂ a t hx₂).2.1⟩
      | some t' =>
        rw [hx₁] at hat
        cases hat
        refine ⟨(x₂ a d hx₂).1, fun e he => ?_⟩
        rw [mem_add_sign (a₂ a d hx₂).1 (a₁ a t' hx₁).1 he]
        exact add_nonpos (val_nonpos (a₂ a d hx₂).2.1 _) (val_nonpos (a₁ a t' hx₁).2.1 _)

/-- Both passes together do not use more than the total of the second. -/
theorem sum_le_units {E : Env N A K} {l₁ l₂ : Lim} {t₁ : Ext K} {total : K}
    {r : Dict A (Dict K K)} {g₁ g₂ : Graph N A} {f₁ f₂ memo : Flows N A}
    (h : Passes E l₁ l₂ t₁ (.fin total) r g₁ g₂ f₁ f₂ memo) (hp : 0 < E.precision)
    (S : Finset A) :
    E.precision * ((∑ a ∈ S, out g₁ f₁ (.acct a) : ℤ) : K) +
      E.precision * ((∑ a ∈ S, out g₂ f₂ (.acct a) : ℤ) : K) ≤ |total| := by
  have h1 := accounts_le_source h.shape₁ h.feasible₁ S
  have h2 := accounts_le_source h.shape₂ h.feasible₂ S
  obtain ⟨e, he⟩ := h.source₂
  have hc := (h.shape₂ _ _ he).2
  have h3 := h.feasible₂.capacity _ _ e _ he hc
  set F₁ := flow f₁ .source (.node E.tree.root)
  set F₂ := flow f₂ .source (.node E.tree.root)
  have h4 : pyInt (|((pyInt (total / E.precision) : ℤ) : K)| - (F₁ : K)) =
      |pyInt (total / E.precision)| - F₁ := by
    rw [← Int.cast_abs, ← Int.cast_sub, pyInt_int]
  rw [h4] at h3
  have h5 : ((∑ a ∈ S, out g₁ f₁ (.acct a) : ℤ) : K) + ((∑ a ∈ S, out g₂ f₂ (.acct a) : ℤ) : K) ≤
      |total / E.precision| := by
    refine le_trans ?_ (abs_pyInt_le (total / E.precision))
    rw [← Int.cast_abs]
    exact_mod_cast (by linarith)
  rw [← mul_add]
  calc E.precision * _ ≤ E.precision * |total / E.precision| :=
        mul_le_mul_of_nonneg_left h5 hp.le
    _ = |total| := by
        rw [abs_div, abs_of_pos hp, mul_div_cancel₀ _ hp.ne']

/-! ### C42 -/

/-- **C42.** With money to contribute, the accounts of the tree and nothing else receive
transactions, all of them inflows, and together no more than the total. -/
theorem C42_inflows_total {E : Env N A K} (hE : Sound E) (hA : Answers E) (hp : 0 < E.precision)
    {total : K} (ht : E.precision < total) {fuel : ℕ} {r : Dict A (Dict K K)}
    (h : call E fuel total = .ok r) :
    (∀ a t, Dict.get? r a = some t → LeafBelow E.tree E.tree.root a ∧ ∀ e ∈ t, 0 ≤ e.2) ∧
    (∀ S : Finset A, ∑ a ∈ S, given r a ≤ total) := by
  obtain ⟨g₁, g₂, f₁, f₂, memo, hP, hg, hk⟩ := passes_in hE hA hp ht h
  refine ⟨hk, fun S => ?_⟩
  calc ∑ a ∈ S, given r a
      ≤ ∑ a ∈ S, (E.precision * (out g₁ f₁ (.acct a) : K) +
          E.precision * (out g₂ f₂ (.acct a) : K)) := Finset.sum_le_sum fun a _ => (hg a).2
    _ = E.precision * ((∑ a ∈ S, out g₁ f₁ (.acct a) : ℤ) : K) +
          E.precision * ((∑ a ∈ S, out g₂ f₂ (.acct a) : ℤ) : K) := by
        rw [Finset.sum_add_distrib, ← Finset.mul_sum, ← Finset.mul_sum]; push_cast; rfl
    _ ≤ |total| := sum_le_units hP hp S
    _ = total := abs_of_pos (hp.trans ht)

theorem two_pass_bound {p x₁ x₂ hi : K} (hp : 0 < p) (h1 : x₁ ≤ hi / p)
    (h2 : x₂ ≤ |hi / p - x₁|) : p * x₁ + p * x₂ ≤ hi := by
  rw [abs_of_nonneg (by linarith)] at h2
  have : x₁ + x₂ ≤ hi / p := by linarith
  rw [le_div_iff₀ hp] at this
  linarith

/-- **C42.** No account is given more than its maximum inflow (for accounts that share that
maximum with others, see `C42_inflows_group`). -/
theorem C42_inflows_account {E : Env N A K} (hE : Sound E) (hA : Answers E)
    (hp : 0 < E.precision) {total : K} (ht : E.precision < total) {fuel : ℕ}
    {r : Dict A (Dict K K)} (h : call E fuel total = .ok r) (a : A)
    (hg : E.groupOf a .maxIn = none) (lo hi : K) (hlo : E.limitOf a .minIn = .ok (.fin lo))
    (hhi : E.limitOf a .maxIn = .ok (.fin hi)) (h0 : 0 ≤ lo) (hle : lo ≤ hi) :
    0 ≤ given r a ∧ given r a ≤ hi := by
  obtain ⟨g₁, g₂, f₁, f₂, memo, hP, hb, -⟩ := passes_in hE hA hp ht h
  refine ⟨(hb a).1, (hb a).2.trans ?_⟩
  apply two_pass_bound hp
  · have h1 : (out g₁ f₁ (.acct a) : K) ≤ |lo / E.precision - 0| := by
      cases hs : E.groupOf a .minIn with
      | none => simpa [flowsFrom] using alone_le hP.shape₁ hP.feasible₁ hs hlo
      | some s => simpa [flowsFrom] using member_le hP.shape₁ hP.feasible₁ hs hlo
    rw [sub_zero, abs_of_nonneg (div_nonneg h0 hp.le)] at h1
    exact h1.trans (div_le_div_of_nonneg_right hle hp.le)
  · have h2 := alone_le hP.shape₂ hP.feasible₂ hg hhi
    rwa [hP.memo_from] at h2

/-- **C42.** Accounts that share a maximum inflow are together given no more than that, if the
accounts with a non-zero minimum inflow share that minimum in the same way. -/
theorem C42_inflows_group {E : Env N A K} (hE : Sound E) (hA : Answers E)
    (hp : 0 < E.precision) {total : K} (ht : E.precision < total) {fuel : ℕ}
    {r : Dict A (Dict K K)} (h : call E fuel total = .ok r) (s : Finset A) (hi : K)
    (hhi : ∀ a, E.groupOf a .maxIn = some s → E.limitOf a .maxIn = .ok (.fin hi))
    (h0 : 0 ≤ hi)
    (hlo : ∀ a, E.groupOf a .minIn = some s → ∃ lo, E.limitOf a .minIn = .ok (.fin lo) ∧
      0 ≤ lo ∧ lo ≤ hi)
    (hsame : ∀ a, E.groupOf a .maxIn = some s →
      E.groupOf a .minIn = some s ∨ E.limitOf a .minIn = .ok (.fin 0))
    (S : Finset A) (hS : ∀ a ∈ S, E.groupOf a .maxIn = some s) :
    ∑ a ∈ S, given r a ≤ hi := by
  obtain ⟨g₁, g₂, f₁, f₂, memo, hP, hb, -⟩ := passes_in hE hA hp ht h
  calc ∑ a ∈ S, given r a
      ≤ ∑ a ∈ S, (E.precision * (out g₁ f₁ (.acct a) : K) +
          E.precision * (out g₂ f₂ (.acct a) : K)) := Finset.sum_le_sum fun a _ => (hb a).2
    _ = E.precision * ((∑ a ∈ S, out g₁ f₁ (.acct a) : ℤ) : K) +
          E.precision * ((∑ a ∈ S, out g₂ f₂ (.acct a) : ℤ) : K) := by
        rw [Finset.sum_add_distrib, ← Finset.mul_sum, ← Finset.mul_sum]; push_cast; rfl
    _ ≤ E.precision * ((out g₁ f₁ (.group s) : ℤ) : K) +
          E.precision * ((out g₂ f₂ (.group s) : ℤ) : K) := by
        have e1 : ∑ a ∈ S, out g₁ f₁ (.acct a) ≤ out g₁ f₁ (.group s) := by
          have hz : ∀ a ∈ S, E.groupOf a .minIn ≠ some s → out g₁ f₁ (.acct a) = 0 := by
            intro a ha hne
            have hl := (hsame a (hS a ha)).resolve_left hne
            have : (out g₁ f₁ (.acct a) : K) ≤ 0 := by
              cases hs : E.groupOf a .minIn with
              | none => simpa [flowsFrom] using alone_le hP.shape₁ hP.feasible₁ hs hl
              | some s' => simpa [flowsFrom] using member_le hP.shape₁ hP.feasible₁ hs hl
            exact le_antisymm (by exact_mod_cast this) (out_nonneg hP.feasible₁ _)
          calc ∑ a ∈ S, out g₁ f₁ (.acct a)
              = ∑ a ∈ S.filter (fun a => E.groupOf a .minIn = some s), out g₁ f₁ (.acct a) := by
                symm
                apply Finset.sum_subset (Finset.filter_subset _ _)
                intro a ha hna
                exact hz a ha fun h => hna (Finset.mem_filter.2 ⟨ha, h⟩)
            _ ≤ _ := group_eq hP.shape₁ hP.feasible₁ _ fun a ha => (Finset.mem_filter.1 ha).2
        have e2 : ∑ a ∈ S, out g₂ f₂ (.acct a) ≤ out g₂ f₂ (.group s) :=
          group_eq hP.shape₂ hP.feasible₂ S hS
        exact add_le_add (mul_le_mul_of_nonneg_left (by exact_mod_cast e1) hp.le)
          (mul_le_mul_of_nonneg_left (by exact_mod_cast e2) hp.le)
    _ ≤ hi := by
        apply two_pass_bound hp
        · by_cases hz : out g₁ f₁ (.group s) = 0
          · rw [hz]; simpa using div_nonneg h0 hp.le
          · obtain ⟨a, x, h1, h2, h3⟩ := shared_le hP.shape₁ hP.feasible₁ hz
              fun a ha => by obtain ⟨lo, h, -⟩ := hlo a ha; exact ⟨lo, h⟩
            obtain ⟨lo, h4, h5, h6⟩ := hlo a h1
            rw [h2] at h4; cases h4
            simp only [flowsFrom, Dict.get?_nil, Int.cast_zero, sub_zero] at h3
            rw [abs_of_nonneg (div_nonneg h5 hp.le)] at h3
            exact h3.trans (div_le_div_of_nonneg_right h6 hp.le)
        · by_cases hz : out g₂ f₂ (.group s) = 0
          · rw [hz]; simp
          · obtain ⟨a, x, h1, h2, h3⟩ := shared_le hP.shape₂ hP.feasible₂ hz
              fun a ha => ⟨hi, hhi a ha⟩
            rw [hhi a h1] at h2; cases h2
            rwa [hP.memo_from] at h3

/-- **C42.** Limits set on a node of the tree hold for all accounts below it together. -/
theorem C42_inflows_node {E : Env N A K} (hE : Sound E) (hA : Answers E)
    (hp : 0 < E.precision) {total : K} (ht : E.precision < total) {fuel : ℕ}
    {r : Dict A (Dict K K)} (h : call E fuel total = .ok r) (n : N) (D : Finset N)
    (hD : Subtree E n D) (lo hi : K) (hlo : E.tree.limits n .minIn = some lo)
    (hhi : E.tree.limits n .maxIn = some hi) (h0 : 0 ≤ lo) (hle : lo ≤ hi)
    (S : Finset A) (hS : ∀ a ∈ S, ∀ p, E.tree.kind p = .leaf a → p ∈ D) :
    ∑ a ∈ S, given r a ≤ hi := by
  obtain ⟨g₁, g₂, f₁, f₂, memo, hP, hb, -⟩ := passes_in hE hA hp ht h
  calc ∑ a ∈ S, given r a
      ≤ ∑ a ∈ S, (E.precision * (out g₁ f₁ (.acct a) : K) +
          E.precision * (out g₂ f₂ (.acct a) : K)) := Finset.sum_le_sum fun a _ => (hb a).2
    _ = E.precision * ((∑ a ∈ S, out g₁ f₁ (.acct a) : ℤ) : K) +
          E.precision * ((∑ a ∈ S, out g₂ f₂ (.acct a) : ℤ) : K) := by
        rw [Finset.sum_add_distrib, ← Finset.mul_sum, ← Finset.mul_sum]; push_cast; rfl
    _ ≤ E.precision * ((out g₁ f₁ (.node n) : ℤ) : K) +
          E.precision * ((out g₂ f₂ (.node n) : ℤ) : K) := by
        have e1 := subtree_le hP.shape₁ hP.feasible₁ hD S hS
        have e2 := subtree_le hP.shape₂ hP.feasible₂ hD S hS
        exact add_le_add (mul_le_mul_of_nonneg_left (by exact_mod_cast e1) hp.le)
          (mul_le_mul_of_nonneg_left (by exact_mod_cast e2) hp.le)
    _ ≤ hi := by
        apply two_pass_bound hp
        · have h1 := node_le hP.shape₁ hP.feasible₁ hlo
          simp only [flowsFrom, Dict.get?_nil, Int.cast_zero, sub_zero] at h1
          rw [abs_of_nonneg (div_nonneg h0 hp.le)] at h1
          exact h1.trans (div_le_div_of_nonneg_right hle hp.le)
        · have h2 := node_le hP.shape₂ hP.feasible₂ hhi
          rwa [hP.memo_from] at h2

/-- **C42.** With money to withdraw, the accounts of the tree and nothing else get transactions,
all of them outflows, and together no more than the total. -/
theorem C42_outflows_total {E : Env N A K} (hE : Sound E) (hA : Answers E) (hp : 0 < E.precision)
    {total : K} (ht : total < -E.precision) {fuel : ℕ} {r : Dict A (Dict K K)}
    (h : call E fuel total = .ok r) :
    (∀ a t, Dict.get? r a = some t → LeafBelow E.tree E.tree.root a ∧ ∀ e ∈ t, e.2 ≤ 0) ∧
    (∀ S : Finset A, total ≤ ∑ a ∈ S, given r a) := by
  obtain ⟨g₁, g₂, f₁, f₂, memo, hP, hg, hk, -⟩ := passes_out hE hA hp ht h
  refine ⟨hk, fun S => ?_⟩
  have h1 : ∑ a ∈ S, -given r a ≤ |total| :=
    calc ∑ a ∈ S, -given r a
      ≤ ∑ a ∈ S, (E.precision * (out g₁ f₁ (.acct a) : K) +
          E.precision * (out g₂ f₂ (.acct a) : K)) :=
        Finset.sum_le_sum fun a _ => by have := (hg a).2; linarith
    _ = E.precision * ((∑ a ∈ S, out g₁ f₁ (.acct a) : ℤ) : K) +
          E.precision * ((∑ a ∈ S, out g₂ f₂ (.acct a) : ℤ) : K) := by
        rw [Finset.sum_add_distrib, ← Finset.mul_sum, ← Finset.mul_sum]; push_cast; rfl
    _ ≤ |total| := sum_le_units hP hp S
  rw [abs_of_neg (by linarith), Finset.sum_neg_distrib] at h1
  linarith

/-- **C42.** Minimum outflows are not assigned: unless the root of the tree has a
`min_outflow` limit of its own, the first pass of a withdrawal sends nothing through the tree,
whatever the accounts' minimum outflows are. -/
theorem C42_min_outflows_not_assigned {E : Env N A K} (hE : Sound E) {fuel : ℕ}
    {r : Dict A (Dict K K)} {memo : Flows N A}
    (hroot : ∀ n, E.tree.root ∉ childNodes E n)
    (hlim : E.tree.limits E.tree.root .minOut = none)
    (h : traverse E fuel .minOut .negInf [] = .ok (r, memo)) :
    ∀ a t, Dict.get? r a = some t → E.txOf a .minOut 0 = .ok t := by
  obtain ⟨g, f, s, -, F, -, w, b, x⟩ := traverse_spec hE h
  intro a t hat
  have := (x a t hat).2
  rw [dead_out (dead_buildGraph hE.solver hE.sets hroot hlim b) F] at this
  simpa [money] using this

section Outflows

variable {E : Env N A K} {total : K} {fuel : ℕ} {r : Dict A (Dict K K)}

theorem passes_out_zero (hE : Sound E) (hA : Answers E) (hp : 0 < E.precision)
    (ht : total < -E.precision) (h : call E fuel total = .ok r)
    (hroot : ∀ n, E.tree.root ∉ childNodes E n)
    (hlim : E.tree.limits E.tree.root .minOut = none) :
    ∃ g₂ f₂ memo src, Shape E .maxOut memo src g₂ ∧ Feasible g₂ f₂ ∧
      (∀ a, flowsFrom memo (.acct a) = 0) ∧ (∀ s, flowsFrom memo (.group s) = 0) ∧
      (∀ rank : N → ℕ, (∀ n, ∀ c ∈ childNodes E n, rank c < rank n) →
        ∀ n, flowsFrom memo (.node n) = 0) ∧
      ∀ a, given r a ≤ 0 ∧ -(E.precision * (out g₂ f₂ (.acct a) : K)) ≤ given r a := by
  obtain ⟨g₁, g₂, f₁, f₂, memo, hP, hb, -, hg⟩ := passes_out hE hA hp ht h
  have hd := dead_buildGraph hE.solver hE.sets hroot hlim hg
  have hz : ∀ a, out g₁ f₁ (.acct a) = 0 := dead_out hd hP.feasible₁
  refine ⟨g₂, f₂, memo, _, hP.shape₂, hP.feasible₂, ?_, ?_, ?_, ?_⟩
  · intro a; rw [hP.memo_from, hz]
  · intro s
    rw [hP.memo_from]
    unfold out
    rw [← hP.feasible₁.conserve _ (by simp) (by simp)]
    apply Finset.sum_eq_zero
    intro u _
    by_contra hnz
    obtain ⟨e, -, he⟩ := flow_ne_zero hP.shape₁ hP.feasible₁ hnz
    cases u with
    | acct a =>
      have h1 := hz a
      rw [out_acct_some hP.shape₁ hP.feasible₁ he.1] at h1
      exact hnz h1
    | _ => exact he
  · intro rank hrank n
    rw [hP.memo_from]
    exact out_node_zero hP.shape₁ hP.feasible₁ rank hrank hz n
  · intro a
    have := hb a
    rw [hz a] at this
    simpa using this

theorem le_of_units {p x hi : K} (hp : 0 < p) (hhi : hi ≤ 0) (h : x ≤ |hi / p|) : hi ≤ -(p * x) := by
  rw [abs_div, abs_of_pos hp, abs_of_nonpos hhi, le_div_iff₀ hp] at h
  linarith

/-- **C42.** No account is asked for more than its maximum outflow (a negative number). -/
theorem C42_outflows_account (hE : Sound E) (hA : Answers E) (hp : 0 < E.precision)
    (ht : total < -E.precision) (h : call E fuel total = .ok r)
    (hroot : ∀ n, E.tree.root ∉ childNodes E n)
    (hlim : E.tree.limits E.tree.root .minOut = none)
    (a : A) (hi : K) (hhi : E.limitOf a .maxOut = .ok (.fin hi)) (h0 : hi ≤ 0) :
    given r a ≤ 0 ∧ hi ≤ given r a := by
  obtain ⟨g, f, memo, src, hg, hf, hz1, hz2, -, hb⟩ :=
    passes_out_zero hE hA hp ht h hroot hlim
  refine ⟨(hb a).1, le_trans (le_of_units hp h0 ?_) (hb a).2⟩
  cases hs : E.groupOf a .maxOut with
  | none => simpa [hz1] using alone_le hg hf hs hhi
  | some s => simpa [hz2] using member_le hg hf hs hhi

/-- **C42.** Accounts that share a maximum outflow are together asked for no more than that. -/
theorem C42_outflows_group (hE : Sound E) (hA : Answers E) (hp : 0 < E.precision)
    (ht : total < -E.precision) (h : call E fuel total = .ok r)
    (hroot : ∀ n, E.tree.root ∉ childNodes E n)
    (hlim : E.tree.limits E.tree.root .minOut = none)
    (s : Finset A) (hi : K) (h0 : hi ≤ 0)
    (hhi : ∀ a, E.groupOf a .maxOut = some s → E.limitOf a .maxOut = .ok (.fin hi))
    (S : Finset A) (hS : ∀ a ∈ S, E.groupOf a .maxOut = some s) :
    hi ≤ ∑ a ∈ S, given r a := by
  obtain ⟨g, f, memo, src, hg, hf, hz1, hz2, -, hb⟩ :=
    passes_out_zero hE hA hp ht h hroot hlim
  have h1 : ((∑ a ∈ S, out g f (.acct a) : ℤ) : K) ≤ |hi / E.precision| := by
    have e1 := group_eq hg hf S hS
    refine le_trans (b := (out g f (.group s) : K)) (by exact_mod_cast e1) ?_
    by_cases hz : out g f (.group s) = 0
    · rw [hz]; simp
    · obtain ⟨a, x, h1, h2, h3⟩ := shared_le hg hf hz fun a ha => ⟨hi, hhi a ha⟩
      rw [hhi a h1] at h2; cases h2
      simpa [hz2] using h3
  refine le_trans (le_of_units hp h0 h1) ?_
  calc -(E.precision * ((∑ a ∈ S, out g f (.acct a) : ℤ) : K))
      = ∑ a ∈ S, -(E.precision * (out g f (.acct a) : K)) := by
        rw [Finset.sum_neg_distrib, ← Finset.mul_sum]; push_cast; rfl
    _ ≤ _ := Finset.sum_le_sum fun a _ => (hb a).2

/-- **C42.** Limits set on a node of the tree hold for withdrawals from all accounts below it
together. -/
theorem C42_outflows_node (hE : Sound E) (hA : Answers E) (hp : 0 < E.precision)
    (ht : total < -E.precision) (h : call E fuel total = .ok r)
    (hroot : ∀ n, E.tree.root ∉ childNodes E n)
    (hlim : E.tree.limits E.tree.root .minOut = none)
    (rank : N → ℕ) (hrank : ∀ n, ∀ c ∈ childNodes E n, rank c < rank n)
    (n : N) (D : Finset N) (hD : Subtree E n D) (hi : K)
    (hhi : E.tree.limits n .maxOut = some hi) (h0 : hi ≤ 0)
    (S : Finset A) (hS : ∀ a ∈ S, ∀ p, E.tree.kind p = .leaf a → p ∈ D) :
    hi ≤ ∑ a ∈ S, given r a := by
  obtain ⟨g, f, memo, src, hg, hf, hz1, hz2, hz3, hb⟩ :=
    passes_out_zero hE hA hp ht h hroot hlim
  have h1 : ((∑ a ∈ S, out g f (.acct a) : ℤ) : K) ≤ |hi / E.precision| := by
    have e1 := subtree_le hg hf hD S hS
    refine le_trans (b := (out g f (.node n) : K)) (by exact_mod_cast e1) ?_
    simpa [hz3 rank hrank] using node_le hg hf hhi
  refine le_trans (le_of_units hp h0 h1) ?_
  calc -(E.precision * ((∑ a ∈ S, out g f (.acct a) : ℤ) : K))
      = ∑ a ∈ S, -(E.precision * (out g f (.acct a) : K)) := by
        rw [Finset.sum_neg_distrib, ← Finset.mul_sum]; push_cast; rfl
    _ ≤ _ := Finset.sum_le_sum fun a _ => (hb a).2

end Outflows

/-- **C42.** An amount within the precision is not allocated at all. -/
theorem C42_nothing {E : Env N A K} {total : K} (h1 : total ≤ E.precision)
    (h2 : -E.precision ≤ total) (fuel : ℕ) : call E fuel total = .ok [] := by
  unfold call
  rw [if_neg (not_lt.2 h1), if_neg (not_lt.2 h2)]

/-! ### Concrete cases -/

section Cases

/-- A tree with an ordered root: account 1 first, then accounts 2 and 3 in proportion 1 : 3 with
a joint node limit, then account 4, which shares its limit with account 1. -/
def caseTree : Tree ℕ ℕ ℚ where
  root := 0
  kind
    | 0 => .ordered [1, 2, 5]
    | 2 => .weighted [(3, 1), (4, 3)]
    | 1 => .leaf 1
    | 3 => .leaf 2
    | 4 => .leaf 3
    | _ => .leaf 4
  limits n lim :=
    if n = 2 then
      match lim with
      | .minIn => some 10
      | .maxIn => some 80
      | .maxOut => some (-40)
      | .minOut => none
    else none

/-- What the accounts answer: at least 5 into accounts 1 and 4 together and 4
into each of the others, at most 60 into and 50 out of each (accounts 1 and 4 together). -/
def caseLimit (a : ℕ) : Lim → ℚ
  | .minIn => if a = 1 ∨ a = 4 then 5 else 4
  | .maxIn => 60
  | .minOut => 0
  | .maxOut => -50

/-- The accounts of the concrete cases, with transactions in the middle of the year. -/
def caseEnv : Env ℕ ℕ ℚ where
  tree := caseTree
  precision := 1 / 2
  limitOf a lim := .ok (.fin (caseLimit a lim))
  txOf _ _ x := .ok [(1 / 2, x)]
  groupOf a _ := if a = 1 ∨ a = 4 then some {1, 4} else none
  solve := checked greedy

theorem case_sound : Sound caseEnv :=
  ⟨fun g f h => checked_feasible greedy g f h, fun _ _ h => h, fun _ _ h => h⟩

theorem case_answers : Answers caseEnv := by
  constructor
  · intro a lim x d _ hx h
    cases h
    refine ⟨by simp [Dict.WF, Dict.keys], by simpa using hx, by simp [Dict.total]⟩
  · intro a lim x d _ hx h
    cases h
    refine ⟨by simp [Dict.WF, Dict.keys], by simpa using hx, by simp [Dict.total]⟩

/-- Putting 100 in. -/
theorem case_in : call caseEnv 12 100 =
    .ok [(1, [(1 / 2, 60)]), (2, [(1 / 2, 10)]), (3, [(1 / 2, 30)]), (4, [(1 / 2, 0)])] := by
  decide +kernel

/-- Putting 300 in, which is more than there is room for. -/
theorem case_in' : call caseEnv 12 300 =
    .ok [(1, [(1 / 2, 60)]), (2, [(1 / 2, 20)]), (3, [(1 / 2, 60)]), (4, [(1 / 2, 0)])] := by
  decide +kernel

/-- Taking 100 out. -/
theorem case_out : call caseEnv 12 (-100) =
    .ok [(1, [(1 / 2, -50)]), (2, [(1 / 2, -40)]), (3, [(1 / 2, 0)]), (4, [(1 / 2, 0)])] := by
  decide +kernel

theorem case_root (n : ℕ) : caseEnv.tree.root ∉ childNodes caseEnv n := by
  change 0 ∉ childNodes caseEnv n
  unfold childNodes caseEnv caseTree
  simp only
  split
  · simp
  · rename_i cs h
    split at h <;> simp_all
    subst h; decide
  · rename_i cs h
    split at h <;> simp_all
    subst h; decide

theorem case_rank (n : ℕ) : ∀ c ∈ childNodes caseEnv n, 10 - c < 10 - n := by
  unfold childNodes caseEnv caseTree
  simp only
  split
  · simp
  · rename_i cs h
    split at h <;> simp_all
    subst h; decide
  · rename_i cs h
    split at h <;> simp_all
    subst h; decide

theorem case_subtree : Subtree caseEnv 2 {2, 3, 4} := by
  refine ⟨by decide, ?_, ?_, by decide⟩
  · decide +kernel
  · intro p c hc hcD
    unfold childNodes caseEnv caseTree at hc
    simp only at hc
    by_cases hp : p = 0
    · subst hp
      left
      revert hc hcD
      simp
      omega
    · by_cases hp2 : p = 2
      · right; subst hp2; decide
      · exfalso
        split at hc
        · simp at hc
        · rename_i h
          split at h <;> simp_all
        · rename_i h
          split at h <;> simp_all

example : (∀ S : Finset ℕ, ∑ a ∈ S, given
    [(1, [(1 / 2, 60)]), (2, [(1 / 2, 10)]), (3, [(1 / 2, 30)]), (4, [(1 / 2, 0)])] a ≤
    (100 : ℚ)) :=
  (C42_inflows_total case_sound case_answers (by decide +kernel) (by decide +kernel) case_in).2

example : given [(1, [(1 / 2, 60)]), (2, [(1 / 2, 10)]), (3, [(1 / 2, 30)]), (4, [(1 / 2, 0)])] 3 ≤
    (60 : ℚ) :=
  (C42_inflows_account (total := 100) (fuel := 12) case_sound case_answers (by decide +kernel)
    (by decide +kernel) case_in 3 (by decide +kernel) 4 60 rfl rfl (by decide +kernel)
    (by decide +kernel)).2

theorem case_group {a : ℕ} {lim : Lim} (h : caseEnv.groupOf a lim = some {1, 4}) :
    a = 1 ∨ a = 4 := by
  by_contra hn
  simp [caseEnv, hn] at h

example : ∑ a ∈ ({1, 4} : Finset ℕ), given
    [(1, [(1 / 2, 60)]), (2, [(1 / 2, 10)]), (3, [(1 / 2, 30)]), (4, [(1 / 2, 0)])] a ≤
    (60 : ℚ) :=
  C42_inflows_group (total := 100) (fuel := 12) case_sound case_answers (by decide +kernel)
    (by decide +kernel) case_in {1, 4} 60 (fun _ _ => rfl) (by decide +kernel)
    (fun a ha => ⟨5, by rcases case_group ha with rfl | rfl <;> rfl, by decide +kernel,
      by decide +kernel⟩)
    (fun a ha => .inl (by rcases case_group ha with rfl | rfl <;> rfl))
    {1, 4} (by decide +kernel)

example : ∑ a ∈ ({2, 3} : Finset ℕ), given
    [(1, [(1 / 2, 60)]), (2, [(1 / 2, 20)]), (3, [(1 / 2, 60)]), (4, [(1 / 2, 0)])] a ≤
    (80 : ℚ) :=
  C42_inflows_node (total := 300) (fuel := 12) case_sound case_answers (by decide +kernel)
    (by decide +kernel) case_in' 2 {2, 3, 4} case_subtree 10 80 rfl rfl (by decide +kernel)
    (by decide +kernel) {2, 3} (by
      intro a ha p hp
      by_contra hn
      simp only [Finset.mem_insert, Finset.mem_singleton] at ha hn
      simp only [caseEnv, caseTree] at hp
      split at hp <;> simp_all <;> omega)

example : (-100 : ℚ) ≤ ∑ a ∈ ({1, 2, 3, 4} : Finset ℕ), given
    [(1, [(1 / 2, -50)]), (2, [(1 / 2, -40)]), (3, [(1 / 2, 0)]), (4, [(1 / 2, 0)])] a :=
  (C42_outflows_total case_sound case_answers (by decide +kernel) (by decide +kernel) case_out).2 _

example : ∃ r memo, traverse caseEnv 12 .minOut .negInf [] = .ok (r, memo) ∧
    ∀ a t, Dict.get? r a = some t → caseEnv.txOf a .minOut 0 = .ok t := by
  have h : (traverse caseEnv 12 .minOut .negInf []).toOption.isSome = true := by decide +kernel
  cases hr : traverse caseEnv 12 .minOut .negInf [] with
  | error e => rw [hr] at h; cases h
  | ok x => exact ⟨x.1, x.2, rfl, C42_min_outflows_not_assigned case_sound case_root rfl hr⟩

example : (-50 : ℚ) ≤ given
    [(1, [(1 / 2, -50)]), (2, [(1 / 2, -40)]), (3, [(1 / 2, 0)]), (4, [(1 / 2, 0)])] 2 :=
  (C42_outflows_account (total := -100) (fuel := 12) case_sound case_answers (by decide +kernel)
    (by decide +kernel) case_out case_root rfl 2 (-50) rfl (by decide +kernel)).2

example : (-50 : ℚ) ≤ ∑ a ∈ ({1, 4} : Finset ℕ), given
    [(1, [(1 / 2, -50)]), (2, [(1 / 2, -40)]), (3, [(1 / 2, 0)]), (4, [(1 / 2, 0)])] a :=
  C42_outflows_group (total := -100) (fuel := 12) case_sound case_answers (by decide +kernel)
    (by decide +kernel) case_out case_root rfl {1, 4} (-50) (by decide +kernel)
    (fun _ _ => rfl) {1, 4} (by decide +kernel)

example : (-40 : ℚ) ≤ ∑ a ∈ ({2, 3} : Finset ℕ), given
    [(1, [(1 / 2, -50)]), (2, [(1 / 2, -40)]), (3, [(1 / 2, 0)]), (4, [(1 / 2, 0)])] a :=
  C42_outflows_node (total := -100) (fuel := 12) case_sound case_answers (by decide +kernel)
    (by decide +kernel) case_out case_root rfl (fun n => 10 - n) case_rank 2 {2, 3, 4}
    case_subtree (-40) rfl (by decide +kernel) {2, 3} (by
      intro a ha p hp
      by_contra hn
      simp only [Finset.mem_insert, Finset.mem_singleton] at ha hn
      simp only [caseEnv, caseTree] at hp
      split at hp <;> simp_all <;> omega)

example : call caseEnv 12 (1 / 4) = .ok [] :=
  C42_nothing (by decide +kernel) (by decide +kernel) 12

end Cases

end Forecaster.Traversal
