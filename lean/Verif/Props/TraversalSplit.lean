import Verif.Lemmas.TraversalWeighted
import Verif.Props.TraversalTree

/-!
# C69: money is split between weighted accounts in proportion to their weights
-/

set_option linter.unusedSectionVars false

namespace Forecaster.Traversal

open Forecaster Forecaster.Timing

variable {K : Type} [Field K] [LinearOrder K] [IsStrictOrderedRing K] [FloorRing K]
variable {N A : Type} [DecidableEq N] [DecidableEq A]

/-- Nothing passes through the part `P` of a tree if nothing reaches its accounts. -/
theorem out_part_zero {E : Env N A K} {lim : Lim} {memo : Flows N A} {src : Option ℤ}
    {g : Graph N A} {f : Flows N A} (hg : Shape E lim memo src g) (hf : Feasible g f)
    (P : N → Prop) (rank : N → ℕ)
    (hrank : ∀ n, P n → ∀ c ∈ childNodes E n, P c ∧ rank c < rank n)
    (hz : ∀ n a, P n → E.tree.kind n = .leaf a → out g f (.acct a) = 0) (n : N) (hn : P n) :
    out g f (.node n) = 0 ∧ ∀ v, flow f (.limit n) v = 0 := by
  induction hr : rank n using Nat.strong_induction_on generalizing n with
  | _ k ih =>
    subst hr
    have hc : ∀ c ∈ childNodes E n, out g f (.node c) = 0 :=
      fun c hc => (ih _ (hrank n hn c hc).2 c (hrank n hn c hc).1 rfl).1
    have h1 : out g f (.overflow n) = 0 := by
      apply Finset.sum_eq_zero
      intro v _
      by_contra hnz
      obtain ⟨e, -, he⟩ := flow_ne_zero hg hf hnz
      cases v with
      | node c =>
        have h2 := flow_le_out hf (.overflow n) (.node c) (by simp) (by simp)
        rw [hc c he] at h2
        exact hnz (le_antisymm h2 (hf.nonneg _ _))
      | _ => exact he
    have h2 : ∀ v, flow f (.limit n) v = 0 := by
      intro v
      by_contra hnz
      obtain ⟨e, -, he⟩ := flow_ne_zero hg hf hnz
      cases v with
      | node c =>
        have h2 := flow_le_out hf (.limit n) (.node c) (by simp) (by simp)
        rw [hc c he] at h2
        exact hnz (le_antisymm h2 (hf.nonneg _ _))
      | overflow m =>
        have : n = m := he
        subst this
        have h2 := flow_le_out hf (.limit n) (.overflow n) (by simp) (by simp)
        rw [h1] at h2
        exact hnz (le_antisymm h2 (hf.nonneg _ _))
      | acct a =>
        have h2 := flow_le_out hf (.limit n) (.acct a) (by simp) (by simp)
        rw [hz n a hn he] at h2
        exact hnz (le_antisymm h2 (hf.nonneg _ _))
      | _ => exact he
    refine ⟨?_, h2⟩
    rw [out_node hg hf]
    have h3 := flow_le_out hf (.node n) (.limit n) (by simp) (by simp)
    rw [show out g f (.limit n) = 0 from Finset.sum_eq_zero fun v _ => h2 v] at h3
    exact le_antisymm h3 (hf.nonneg _ _)

/-- What one pass over weighted accounts does, if nothing went before and the shares are whole. -/
theorem weighted_pass {E : Env N A K} (hE : Optimal E) {lim : Lim} {ws : Dict N K} {acc : N → A}
    (hF : FlatW E lim ws acc) {fuel : ℕ} {total : K} {memo memo' : Flows N A}
    (hsrc : flowsTo memo .source (.node E.tree.root) = 0)
    (hm : ∀ v, flowsTo memo (.limit E.tree.root) v = 0) {s : N → ℤ}
    (hs : ∀ e ∈ ws, (s e.1 : K) * Dict.total ws = (|pyInt (total / E.precision)| : K) * e.2)
    (hcap : ∀ c ∈ Dict.keys ws, ∀ k, capOf E lim memo (acc c) = some k → s c ≤ k)
    {r : Dict A (Dict K K)} (h : traverse E fuel lim (.fin total) memo = .ok (r, memo')) :
    (∀ c ∈ Dict.keys ws, (Dict.get? r (acc c) = none → s c = 0) ∧
      ∀ t, Dict.get? r (acc c) = some t → E.txOf (acc c) lim (money E (.fin total) (s c)) = .ok t) ∧
    Dict.WF r := by
  obtain ⟨-, -, -, -, -, -, hw, -, -⟩ := traverse_spec hE.sound h
  unfold traverse at h
  rw [bind_ok_iff] at h
  obtain ⟨g', h1, h⟩ := h
  rw [bind_ok_iff] at h
  obtain ⟨f', h2, h⟩ := h
  rw [bind_ok_iff] at h
  obtain ⟨accounts, h3, h⟩ := h
  rw [bind_ok_iff] at h
  obtain ⟨txs, h4, h⟩ := h
  cases h
  have hopt := hE.solver _ _ h2
  set T := |pyInt (total / E.precision)| with hT
  have hW : 0 < Dict.total ws := by
    unfold Dict.total
    apply List.sum_pos
    · intro x hx
      obtain ⟨e, he, rfl⟩ := List.mem_map.1 hx
      exact hF.pos e he
    · simpa [Dict.vals] using hF.ne
  have hs' : ∀ e ∈ ws, (s e.1 : K) * Dict.total ws = (T : K) * e.2 := by
    intro e he
    rw [hs e he, hT, Int.cast_abs]
  have h0 : ∀ c ∈ Dict.keys ws, 0 ≤ s c := by
    intro c hc
    obtain ⟨e, he, rfl⟩ := List.mem_map.1 hc
    have h1 : (0 : K) ≤ (s e.1 : K) * Dict.total ws := by
      rw [hs' e he]
      exact mul_nonneg (by exact_mod_cast abs_nonneg _) (hF.pos e he).le
    have := nonneg_of_mul_nonneg_left h1 hW
    exact_mod_cast this
  have hsum : ∑ c ∈ (Dict.keys ws).toFinset, s c = T := by
    rw [List.sum_toFinset s hF.wf]
    have : (((Dict.keys ws).map s).sum : K) * Dict.total ws = (T : K) * Dict.total ws := by
      have key : ∀ l : Dict N K, (∀ e ∈ l, e ∈ ws) →
          (((Dict.keys l).map s).sum : K) * Dict.total ws = (T : K) * Dict.total l := by
        intro l
        induction l with
        | nil => intro _; simp [Dict.keys, Dict.total, Dict.vals]
        | cons x l ih =>
          intro hl
          have h1 := ih fun e he => hl e (by simp [he])
          have h2 := hs' x (hl x (by simp))
          simp only [Dict.keys, Dict.total, Dict.vals, List.map_cons, List.sum_cons,
            Int.cast_add] at h1 ⊢
          unfold Dict.total Dict.vals at h2
          rw [add_mul, h1, h2]; ring
      exact key ws fun _ h => h
    have := mul_right_cancel₀ hW.ne' this
    exact_mod_cast this
  have hB := weighted_build hF hE.solver hT hsrc hm hs' h0 hsum hcap h1
  obtain ⟨-, -, hout⟩ := weighted_optimal hF hB h0 hsum hcap hopt
  refine ⟨fun c hc => ⟨fun hn => ?_, fun t ht => ?_⟩, hw⟩
  · rw [← hout c hc, ← flowsFrom_eq_out hopt.feasible]
    refine convert_all h4 ?_ hn
    rw [hE.accts, List.mem_dedup, mem_getAccounts h3]
    exact .weighted hF.root hc (.leaf (hF.leaf c hc))
  · rw [← hout c hc, ← flowsFrom_eq_out hopt.feasible]
    exact ((convert_spec h4).2 _ _ ht).2

section Split

variable {E : Env N A K} {ws : Dict N K} {acc : N → A} {total : K} {fuel : ℕ}
  {r : Dict A (Dict K K)}

theorem whole_share (hp : 0 < E.precision) (hW : Dict.total ws ≠ 0) {s : N → ℤ} {x : K}
    (hs : ∀ e ∈ ws, x * e.2 / Dict.total ws = E.precision * (s e.1 : K)) :
    x / E.precision = (((Dict.keys ws).map s).sum : ℤ) ∧
    ∀ e ∈ ws, (s e.1 : K) * Dict.total ws = ((⌊x / E.precision⌋ : ℤ) : K) * e.2 := by
  have key : ∀ l : Dict N K, (∀ e ∈ l, e ∈ ws) →
      x * Dict.total l / Dict.total ws = E.precision * (((Dict.keys l).map s).sum : ℤ) := by
    intro l
    induction l with
    | nil => intro _; simp [Dict.keys, Dict.total, Dict.vals]
    | cons y l ih =>
      intro hl
      have h1 := ih fun e he => hl e (by simp [he])
      have h2 := hs y (hl y (by simp))
      simp only [Dict.keys, Dict.total, Dict.vals, List.map_cons, List.sum_cons,
        Int.cast_add] at h1 ⊢
      unfold Dict.total Dict.vals at h2
      rw [mul_add, mul_add, ← h1, ← h2, add_div]
  have h1 := key ws fun _ h => h
  rw [mul_div_cancel_right₀ _ hW] at h1
  have h2 : x / E.precision = (((Dict.keys ws).map s).sum : ℤ) := by
    rw [h1, mul_div_cancel_left₀ _ hp.ne']
  refine ⟨h2, fun e he => ?_⟩
  have h3 := hs e he
  rw [h2, Int.floor_intCast, ← h2]
  rw [div_eq_iff hW] at h3
  field_simp
  rw [h3]; ring

/-- **C69.** Money put into a collection of weighted accounts (none of which shares a limit or has
a minimum, in a tree without limits of its own) is split in proportion to the weights, if the
shares are whole units of the precision and no more than the accounts' maximums. -/
theorem C69_weighted_inflows (hE : Optimal E) (hA : Answers E) (hX : Exact E)
    (hp : 0 < E.precision) (ht : E.precision < total)
    (hmin : FlatW E .minIn ws acc) (hmax : FlatW E .maxIn ws acc)
    (hlo : ∀ c ∈ Dict.keys ws, E.limitOf (acc c) .minIn = .ok (.fin 0))
    (hhi : ∀ e ∈ ws, ∃ hi, E.limitOf (acc e.1) .maxIn = .ok hi ∧
      .fin (total * e.2 / Dict.total ws) ≤ hi)
    (hwhole : ∀ e ∈ ws, ∃ n : ℤ, total * e.2 / Dict.total ws = E.precision * (n : K))
    (h : call E fuel total = .ok r) :
    ∀ e ∈ ws, given r (acc e.1) = total * e.2 / Dict.total ws := by
  have ht0 : 0 ≤ total := (hp.trans ht).le
  have hW : 0 < Dict.total ws := by
    unfold Dict.total
    apply List.sum_pos
    · intro x hx
      obtain ⟨e, he, rfl⟩ := List.mem_map.1 hx
      exact hmax.pos e he
    · simpa [Dict.vals] using hmax.ne
  -- the shares as a function
  obtain ⟨s, hs⟩ : ∃ s : N → ℤ, ∀ e ∈ ws, total * e.2 / Dict.total ws = E.precision * (s e.1 : K) := by
    refine ⟨fun c => ⌊total * Dict.val ws c / Dict.total ws / E.precision⌋, fun e he => ?_⟩
    have hv : Dict.val ws e.1 = e.2 := by
      unfold Dict.val
      rw [Dict.get?_of_mem hmax.wf (by exact he)]; rfl
    obtain ⟨n, hn⟩ := hwhole e he
    simp only [hv]
    rw [hn, mul_div_cancel_left₀ _ hp.ne', Int.floor_intCast]
  obtain ⟨-, hs2⟩ := whole_share hp hW.ne' hs
  have hT : (|pyInt (total / E.precision)| : K) = ((⌊total / E.precision⌋ : ℤ) : K) := by
    rw [← Int.cast_abs, abs_pyInt, abs_of_nonneg (div_nonneg ht0 hp.le)]
  rw [← hT] at hs2
  unfold call at h
  rw [if_pos ht, bind_ok_iff] at h
  obtain ⟨⟨r₁, m₁⟩, h1, h⟩ := h
  rw [bind_ok_iff] at h
  obtain ⟨⟨r₂, m₂⟩, h2, h⟩ := h
  cases h
  have sgn : ¬ (Ext.fin total : Ext K) < .fin 0 := by simpa using ht0
  -- the first pass moves nothing
  obtain ⟨g₁, f₁, s₁, -, F₁, rfl, w₁, b₁, x₁⟩ := traverse_spec hE.sound h1
  obtain ⟨-, hmt, hmf⟩ := merge_spec f₁ [] innerWF_nil F₁.wf.1 F₁.wf.2
  have hz : ∀ c ∈ Dict.keys ws, out g₁ f₁ (.acct (acc c)) = 0 := by
    intro c hc
    have := alone_le s₁ F₁ (hmin.alone c hc) (hlo c hc)
    simp only [zero_div, zero_sub, abs_neg] at this
    rw [show flowsFrom ([] : Flows N A) (.acct (acc c)) = 0 from rfl] at this
    have h0 := out_nonneg F₁ (.acct (acc c))
    have : out g₁ f₁ (.acct (acc c)) ≤ 0 := by
      have h3 : ((out g₁ f₁ (.acct (acc c)) : ℤ) : K) ≤ ((0 : ℤ) : K) := by simpa using this
      exact_mod_cast h3
    omega
  have hroot := out_part_zero s₁ F₁ (fun n => n = E.tree.root ∨ n ∈ Dict.keys ws)
    (fun n => if n = E.tree.root then 1 else 0) (by
      rintro n (rfl | hn) c hc
      · unfold childNodes at hc
        rw [hmin.root] at hc
        simp only at hc
        refine ⟨.inr hc, ?_⟩
        rw [if_pos rfl, if_neg (fun h : c = E.tree.root => hmin.notroot (h ▸ hc))]; exact Nat.one_pos
      · unfold childNodes at hc
        rw [hmin.leaf n hn] at hc
        simp at hc) (by
      rintro n a (rfl | hn) hk
      · rw [hmin.root] at hk; cases hk
      · rw [hmin.leaf n hn] at hk; cases hk; exact hz n hn) E.tree.root (.inl rfl)
  have hm1 : flowsTo (mergeFlows [] f₁) .source (.node E.tree.root) = 0 := by
    rw [hmt]
    have := flow_le_out F₁ .source (.node E.tree.root) (by simp) (by simp)
    rw [hroot.1] at this
    have h0 := F₁.nonneg .source (.node E.tree.root)
    have : flowsTo f₁ .source (.node E.tree.root) = 0 := le_antisymm this h0
    rw [this]; simp [flowsTo]
  have hm2 : ∀ v, flowsTo (mergeFlows [] f₁) (.limit E.tree.root) v = 0 := by
    intro v
    rw [hmt, show flowsTo f₁ (.limit E.tree.root) v = 0 from hroot.2 v]; simp [flowsTo]
  have hm3 : ∀ c ∈ Dict.keys ws, flowsFrom (mergeFlows [] f₁) (.acct (acc c)) = 0 := by
    intro c hc
    rw [hmf, flowsFrom_eq_out F₁, hz c hc]; simp [flowsFrom]
  have g₁0 : ∀ c ∈ Dict.keys ws, given r₁ (acc c) = 0 := by
    intro c hc
    cases hx : Dict.get? r₁ (acc c) with
    | none => exact given_none hx
    | some t =>
      have h5 := (x₁ _ t hx).2
      rw [money_pos E ht0, hz c hc] at h5
      rw [given_some hx]
      refine (hX.inflow _ _ _ 0 t (.inl rfl) (hlo c hc) le_rfl (by simp) ?_).2
      simpa using h5
  -- the second pass
  have hcap : ∀ c ∈ Dict.keys ws, ∀ k,
      capOf E .maxIn (mergeFlows [] f₁) (acc c) = some k → s c ≤ k := by
    intro c hc k hk
    obtain ⟨e, he, rfl⟩ := List.mem_map.1 hc
    obtain ⟨hi, hhi1, hhi2⟩ := hhi e he
    have h0 : (0 : K) ≤ total * e.2 / Dict.total ws :=
      div_nonneg (mul_nonneg ht0 (hmax.pos e he).le) hW.le
    have h00 : Ext.fin (0 : K) ≤ hi := le_trans (by simpa using h0) hhi2
    rw [capOf_eq hp hhi1 (by rw [hm3 e.1 hc]; simpa using h00), hm3 e.1 hc] at hk
    cases hi with
    | fin y =>
      simp only [wholeUnits, roomLeft, sub_zero, Option.some.injEq] at hk
      rw [← hk, Int.le_floor, le_div_iff₀ hp, mul_comm, ← hs e he]
      simpa using hhi2
    | posInf => simp [wholeUnits, roomLeft] at hk
    | negInf => simp [wholeUnits, roomLeft] at hk
  obtain ⟨hr, w₂⟩ := weighted_pass hE hmax hm1 hm2 hs2 hcap h2
  have s0 : ∀ e ∈ ws, (0 : K) ≤ E.precision * (s e.1 : K) := by
    intro e he
    rw [← hs e he]
    exact div_nonneg (mul_nonneg ht0 (hmax.pos e he).le) hW.le
  have tx₂ : ∀ a t, Dict.get? r₂ a = some t → Dict.WF t := by
    intro a t hat
    obtain ⟨g₂, f₂, -, -, F₂, -, -, -, hx₂⟩ := traverse_spec hE.sound h2
    have := (hx₂ a t hat).2
    rw [money_pos E ht0] at this
    exact (hA.inflow a _ _ t (.inr rfl)
      (mul_nonneg hp.le (by exact_mod_cast out_nonneg F₂ _)) this).1
  intro e he
  have hc : e.1 ∈ Dict.keys ws := List.mem_map.2 ⟨e, he, rfl⟩
  rw [given_combine w₁ tx₂, g₁0 e.1 hc, zero_add, hs e he]
  obtain ⟨hn, hso⟩ := hr e.1 hc
  cases hx : Dict.get? r₂ (acc e.1) with
  | none => rw [given_none hx, hn hx]; simp
  | some t =>
    have h5 := hso t hx
    rw [money_pos E ht0] at h5
    obtain ⟨hi, hhi1, hhi2⟩ := hhi e he
    rw [given_some hx]
    exact (hX.inflow _ _ _ _ t (.inr rfl) hhi1 (s0 e he) (by rw [← hs e he]; exact hhi2) h5).2

/-- **C69.** Money taken out of a collection of weighted accounts is taken in proportion to the
weights, if the shares are whole units of the precision and no more than the accounts' maximum
outflows. -/
theorem C69_weighted_outflows (hE : Optimal E) (hA : Answers E) (hX : Exact E)
    (hp : 0 < E.precision) (ht : total < -E.precision)
    (hmax : FlatW E .maxOut ws acc) (hmin : E.tree.limits E.tree.root .minOut = none)
    (hroot : ∀ n, E.tree.root ∉ childNodes E n)
    (hlo : ∀ c ∈ Dict.keys ws, ∃ lo, E.limitOf (acc c) .minOut = .ok (.fin lo) ∧ lo ≤ 0)
    (hhi : ∀ e ∈ ws, ∃ hi, E.limitOf (acc e.1) .maxOut = .ok (.fin hi) ∧
      hi ≤ total * e.2 / Dict.total ws)
    (hwhole : ∀ e ∈ ws, ∃ n : ℤ, total * e.2 / Dict.total ws = E.precision * (n : K))
    (h : call E fuel total = .ok r) :
    ∀ e ∈ ws, given r (acc e.1) = total * e.2 / Dict.total ws := by
  have hn0 : total < 0 := by linarith
  have ht0 : 0 ≤ -total := by linarith
  have hW : 0 < Dict.total ws := by
    unfold Dict.total
    apply List.sum_pos
    · intro x hx
      obtain ⟨e, he, rfl⟩ := List.mem_map.1 hx
      exact hmax.pos e he
    · simpa [Dict.vals] using hmax.ne
  obtain ⟨s, hs⟩ : ∃ s : N → ℤ, ∀ e ∈ ws,
      -total * e.2 / Dict.total ws = E.precision * (s e.1 : K) := by
    refine ⟨fun c => ⌊-total * Dict.val ws c / Dict.total ws / E.precision⌋, fun e he => ?_⟩
    have hv : Dict.val ws e.1 = e.2 := by
      unfold Dict.val
      rw [Dict.get?_of_mem hmax.wf (by exact he)]; rfl
    obtain ⟨n, hn⟩ := hwhole e he
    have hn' : -total * e.2 / Dict.total ws = E.precision * ((-n : ℤ) : K) := by
      rw [neg_mul, neg_div, hn]; push_cast; ring
    simp only [hv]
    rw [hn', mul_div_cancel_left₀ _ hp.ne', Int.floor_intCast]
  obtain ⟨-, hs2⟩ := whole_share hp hW.ne' hs
  have hT : (|pyInt (total / E.precision)| : K) = ((⌊-total / E.precision⌋ : ℤ) : K) := by
    rw [← Int.cast_abs, abs_pyInt, abs_div, abs_of_pos hp, abs_of_neg hn0]
  rw [← hT] at hs2
  have hng : ¬ total > E.precision := by linarith
  unfold call at h
  rw [if_neg hng, if_pos ht, bind_ok_iff] at h
  obtain ⟨⟨r₁, m₁⟩, h1, h⟩ := h
  rw [bind_ok_iff] at h
  obtain ⟨⟨r₂, m₂⟩, h2, h⟩ := h
  cases h
  have sgn : (Ext.fin total : Ext K) < .fin 0 := by simpa using hn0
  have sgn1 : (Ext.negInf : Ext K) < .fin 0 := by rw [← not_le]; simp
  obtain ⟨g₁, f₁, s₁, -, F₁, rfl, w₁, b₁, x₁⟩ := traverse_spec hE.sound h1
  obtain ⟨-, hmt, hmf⟩ := merge_spec f₁ [] innerWF_nil F₁.wf.1 F₁.wf.2
  have hdead := dead_buildGraph hE.sound.solver hE.sets hroot hmin b₁
  have hz : ∀ a, out g₁ f₁ (.acct a) = 0 := dead_out hdead F₁
  have hl : ∀ v, flow f₁ (.limit E.tree.root) v = 0 := fun v => dead_flow hdead F₁ v
  have hm1 : flowsTo (mergeFlows [] f₁) .source (.node E.tree.root) = 0 := by
    have e1 : out g₁ f₁ (.limit E.tree.root) = 0 := Finset.sum_eq_zero fun v _ => hl v
    have e2 := out_node s₁ F₁ E.tree.root
    have e3 := flow_le_out F₁ (.node E.tree.root) (.limit E.tree.root) (by simp) (by simp)
    have e4 := flow_le_out F₁ .source (.node E.tree.root) (by simp) (by simp)
    have e5 := F₁.nonneg .source (.node E.tree.root)
    have : flow f₁ .source (.node E.tree.root) = 0 := by omega
    rw [hmt, show flowsTo f₁ .source (.node E.tree.root) = 0 from this]; simp [flowsTo]
  have hm2 : ∀ v, flowsTo (mergeFlows [] f₁) (.limit E.tree.root) v = 0 := by
    intro v
    rw [hmt, show flowsTo f₁ (.limit E.tree.root) v = 0 from hl v]; simp [flowsTo]
  have hm3 : ∀ a, flowsFrom (mergeFlows [] f₁) (.acct a) = 0 := by
    intro a
    rw [hmf, flowsFrom_eq_out F₁, hz]; simp [flowsFrom]
  have g₁0 : ∀ c ∈ Dict.keys ws, given r₁ (acc c) = 0 := by
    intro c hc
    cases hx : Dict.get? r₁ (acc c) with
    | none => exact given_none hx
    | some t =>
      have h5 := (x₁ _ t hx).2
      rw [money_neg E sgn1, hz] at h5
      obtain ⟨lo, hl1, hl2⟩ := hlo c hc
      rw [given_some hx]
      refine (hX.outflow _ _ _ 0 t (.inl rfl) hl1 le_rfl (by simpa using hl2) ?_).2
      simpa using h5
  have hneg : ∀ e : N × K, total * e.2 / Dict.total ws = -(-total * e.2 / Dict.total ws) := by
    intro e; ring
  have hcap : ∀ c ∈ Dict.keys ws, ∀ k,
      capOf E .maxOut (mergeFlows [] f₁) (acc c) = some k → s c ≤ k := by
    intro c hc k hk
    obtain ⟨e, he, rfl⟩ := List.mem_map.1 hc
    obtain ⟨hi, hhi1, hhi2⟩ := hhi e he
    have h0 : (0 : K) ≤ -total * e.2 / Dict.total ws :=
      div_nonneg (mul_nonneg ht0 (hmax.pos e he).le) hW.le
    unfold capOf at hk
    rw [hhi1] at hk
    simp only at hk
    rw [acctCap_fin, hm3] at hk
    simp only [Int.cast_zero, sub_zero, Option.some.injEq] at hk
    rw [← hk, pyInt_of_nonneg (abs_nonneg _), abs_div, abs_of_pos hp, Int.le_floor,
      le_div_iff₀ hp, mul_comm, ← hs e he]
    rw [hneg] at hhi2
    rw [abs_of_nonpos (by linarith)]
    linarith
  obtain ⟨hr, w₂⟩ := weighted_pass hE hmax hm1 hm2 hs2 hcap h2
  have s0 : ∀ e ∈ ws, -(E.precision * (s e.1 : K)) ≤ 0 := by
    intro e he
    rw [← hs e he, neg_nonpos]
    exact div_nonneg (mul_nonneg ht0 (hmax.pos e he).le) hW.le
  have tx₂ : ∀ a t, Dict.get? r₂ a = some t → Dict.WF t := by
    intro a t hat
    obtain ⟨g₂, f₂, -, -, F₂, -, -, -, hx₂⟩ := traverse_spec hE.sound h2
    have := (hx₂ a t hat).2
    rw [money_neg E sgn] at this
    exact (hA.outflow a _ _ t (.inr rfl)
      (neg_nonpos.2 (mul_nonneg hp.le (by exact_mod_cast out_nonneg F₂ _))) this).1
  intro e he
  have hc : e.1 ∈ Dict.keys ws := List.mem_map.2 ⟨e, he, rfl⟩
  rw [given_combine w₁ tx₂, g₁0 e.1 hc, zero_add, hneg, hs e he]
  obtain ⟨hn, hso⟩ := hr e.1 hc
  cases hx : Dict.get? r₂ (acc e.1) with
  | none => rw [given_none hx, hn hx]; simp
  | some t =>
    have h5 := hso t hx
    rw [money_neg E sgn] at h5
    obtain ⟨hi, hhi1, hhi2⟩ := hhi e he
    rw [given_some hx]
    refine (hX.outflow _ _ _ _ t (.inr rfl) hhi1 (s0 e he) ?_ h5).2
    rw [hneg, hs e he] at hhi2
    simpa using hhi2

end Split

/-! ### The hypotheses are met -/

/-- Two accounts in proportion 1 : 3 that accept up to 100 and give up to 100. -/
def splitEnv : Env ℕ ℕ ℚ where
  tree :=
    { root := 0
      kind := fun n => if n = 0 then .weighted [(1, 1), (2, 3)] else .leaf n }
  precision := 1
  limitOf _ lim := .ok (.fin (match lim with | .maxIn => 100 | .maxOut => -100 | _ => 0))
  txOf _ _ x := .ok [(1 / 2, x)]
  groupOf _ _ := none
  solve := certifiedBy [[(.source, -1)], [(.sink, 1)]]
    [[(.overflow 0, 1), (.node 1, 1), (.limit 1, 1), (.acct 1, 1),
      (.node 2, 1), (.limit 2, 1), (.acct 2, 1), (.sink, 1)], []]
    (alongPaths [
      [.source, .node 0, .limit 0, .node 1, .limit 1, .acct 1, .sink],
      [.source, .node 0, .limit 0, .node 2, .limit 2, .acct 2, .sink],
      [.source, .node 0, .limit 0, .overflow 0, .node 1, .limit 1, .acct 1, .sink],
      [.source, .node 0, .limit 0, .overflow 0, .node 2, .limit 2, .acct 2, .sink]])

theorem split_optimal : Optimal splitEnv :=
  ⟨fun _ _ h => certifiedBy_sound h, fun _ _ h => h, fun _ _ => Iff.rfl⟩

theorem split_flat (lim : Lim) : FlatW splitEnv lim [(1, 1), (2, 3)] id := by
  refine ⟨rfl, by unfold Dict.WF; decide, by decide, by decide +kernel, by decide, ?_, ?_, fun _ _ => ?_, fun _ _ => rfl⟩
  · intro c hc
    have : c = 1 ∨ c = 2 := by simpa [Dict.keys] using hc
    rcases this with rfl | rfl <;> rfl
  · intro c _ d _ h; exact h
  · rfl

theorem split_in : call splitEnv 12 40 = .ok [(1, [(1 / 2, 10)]), (2, [(1 / 2, 30)])] := by
  decide +kernel

theorem split_out : call splitEnv 12 (-40) = .ok [(1, [(1 / 2, -10)]), (2, [(1 / 2, -30)])] := by
  decide +kernel

example : given ([(1, [(1 / 2, 10)]), (2, [(1 / 2, 30)])] : Dict ℕ (Dict ℚ ℚ)) 2 = 40 * 3 / 4 := by
  obtain ⟨h1, h2⟩ := plain_answers (E := splitEnv) fun _ _ _ => rfl
  have := C69_weighted_inflows split_optimal h1 h2 (by decide +kernel) (by decide +kernel)
    (split_flat _) (split_flat _) (fun _ _ => rfl)
    (fun e he => ⟨.fin 100, rfl, by
      have : e = (1, 1) ∨ e = (2, 3) := by simpa using he
      rcases this with rfl | rfl <;> decide +kernel⟩)
    (fun e he => by
      have : e = (1, 1) ∨ e = (2, 3) := by simpa using he
      rcases this with rfl | rfl
      · exact ⟨10, by decide +kernel⟩
      · exact ⟨30, by decide +kernel⟩) split_in (2, 3) (by simp)
  exact this.trans (by decide +kernel)

end Forecaster.Traversal
