import Verif.Props.Solvency
import Verif.Props.TxStrategyFill
import Mathlib.Data.Rat.Floor
import Mathlib.Analysis.SpecialFunctions.Log.Basic

/-!
# C95, continued: the strategies of the program are prudent
-/

set_option linter.unusedSectionVars false

namespace Forecaster.Household

open Forecaster Forecaster.Timing Forecaster.Account Forecaster.SubForecast Forecaster.CashFlow
open Forecaster.Traversal (OfAccounts Leaf Answers accountLimit flowsOf given childNodes)

variable {K : Type} [Field K] [LinearOrder K] [IsStrictOrderedRing K] [FloorRing K]
variable {M A : Type} [DecidableEq M] [DecidableEq A]

/-- Specification: a strategy that hands the money at hand to the traversal of a priority tree, at
the times at which the money is there. `T` gives the tree, the flow algorithm etc.; the root of the
tree is not below any node and has no minimum of its own, and debts do not share their limits. -/
structure Traverses (owed : A → Bool) (limits : A → Acct K → Limits K)
    (T : ℤ → (Option A → Pool K) → Traversal.Env M A K) (fuel : ℤ → (Option A → Pool K) → ℕ)
    (strategy : ℤ → (Option A → Pool K) → Except PyErr (Dict A (Dict K K))) : Prop where
  call : ∀ y q d, strategy y q = .ok d →
    Traversal.call (T y q) (fuel y q) (Dict.total (q none).txns) = .ok d
  asks : ∀ y q (x : A → Acct K), (∀ a, q (some a) = .acct (limits a (x a)) (x a)) →
    OfAccounts (T y q) (fun a => ⟨x a, limits a (x a), owed a⟩) (some (.dict (q none).txns))
  sound : ∀ y q, Traversal.Sound (T y q)
  precision : ∀ y q, 0 < (T y q).precision
  root : ∀ y q n, (T y q).tree.root ∉ childNodes (T y q) n
  free : ∀ y q, (T y q).tree.limits (T y q).tree.root .minOut = none
  alone : ∀ y q a, owed a = true → (T y q).groupOf a .maxIn = none
  bounds : ∀ a x, owed a = true → (limits a x).minIn ≤ (limits a x).maxIn

/-! ### What an account is asked for -/

theorem wf_combine {r₁ r₂ : Dict A (Dict K K)} (h : Dict.WF r₂) :
    Dict.WF (Traversal.combine r₁ r₂) := by
  unfold Traversal.combine
  induction r₁ generalizing r₂ with
  | nil => exact h
  | cons e r ih =>
    rw [List.foldl_cons]
    apply ih
    unfold Traversal.combineOne
    split <;> exact Dict.wf_set h _ _

/-- Transactions spread like the weights `nt`. -/
structure Even (x : Acct K) (nt d : Dict K K) : Prop where
  wf : Dict.WF d
  rng : ∀ k ∈ Dict.keys d, 0 ≤ k ∧ k ≤ 1
  grown : grown x.A d 1 = Dict.total d * weightedAccum x.A nt

theorem Even.add {x : Acct K} {nt d e : Dict K K} (hd : Even x nt d) (he : Even x nt e) :
    Even x nt (addTransactions d e) := by
  refine ⟨Timing.wf_add hd.wf e, within_add hd.rng he.rng, ?_⟩
  rw [grown_add x.A hd.wf, hd.grown, he.grown, Timing.total_add hd.wf]
  ring

theorem even_mul {x : Acct K} {nt : Dict K K} (hw : Weights nt) (c : K) :
    Even x nt (Dict.mapVals (fun w => c * w) nt) := by
  refine ⟨(dated_mapVals hw.toDated _).wf, (dated_mapVals hw.toDated _).rng, ?_⟩
  rw [grown_map_mul, total_mapVals_mul', hw.total, mul_one, weightedAccum_eq x.A hw.toDated]

theorem finite_even {x : Acct K} {nt d : Dict K K} (hw : Weights nt) (V : Ext K)
    (h : Traversal.finiteVals (Dict.mapVals (fun w => V.mulFin w) nt) = some d) :
    Even x nt d := by
  have hne : nt ≠ [] := by
    rintro rfl; have := hw.total; simp at this
  cases hV : V with
  | fin c =>
    rw [hV, mapVals_fin, Traversal.finiteVals_fin] at h
    cases h
    exact even_mul hw c
  | posInf =>
    obtain ⟨e, l, rfl⟩ := List.exists_cons_of_ne_nil hne
    have := hw.pos e (by simp)
    simp [hV, Traversal.finiteVals, Dict.mapVals, Ext.mulFin, List.mapM_cons, this,
      not_lt.2 this.le, this.ne'] at h
  | negInf =>
    obtain ⟨e, l, rfl⟩ := List.exists_cons_of_ne_nil hne
    have := hw.pos e (by simp)
    simp [hV, Traversal.finiteVals, Dict.mapVals, Ext.mulFin, List.mapM_cons, this,
      not_lt.2 this.le, this.ne'] at h

/-- What accounts answer is spread evenly. -/
theorem tx_even {E : Traversal.Env M A K} {leaf : A → Leaf K} {timing : Option (Arg K)}
    (h : OfAccounts E leaf timing) {a : A} {tm nt : Dict K K}
    (hf : Fit (leaf a).acct timing none tm) (hnt : normalizedWeights tm = .ok nt)
    (hw : Weights nt) {lim : Traversal.Lim} {x : K} {d : Dict K K}
    (hd : E.txOf a lim x = .ok d) : Even (leaf a).acct nt d := by
  rw [h.tx] at hd
  unfold Traversal.accountTx at hd
  obtain ⟨nt', ref, hnt', -, -, href, -⟩ := core hf
  rw [hnt] at hnt'; cases hnt'
  obtain ⟨t, C, m, hct⟩ : ∃ t C m, flowsOf (leaf a) lim
      { timing := timing, transactionLimit := some (.fin x) } =
      transactionsToBalance (leaf a).acct t timing (some C) (some m) none := by
    cases lim
    · unfold flowsOf debtMinInflows minInflows
      simp only; split_ifs <;> exact ⟨_, _, _, rfl⟩
    · unfold flowsOf debtMaxInflows maxInflows
      simp only; split_ifs <;> exact ⟨_, _, _, rfl⟩
    · exact ⟨_, _, _, rfl⟩
    · exact ⟨_, _, _, rfl⟩
  rw [hct, ttb_eq href hf.resolves hnt hf.growth hw, ok_bind] at hd
  simp only at hd
  generalize hv : Traversal.finiteVals (Dict.mapVals _ nt) = v at hd
  cases v with
  | none => cases hd
  | some d' =>
    cases hd
    exact finite_even hw _ hv

/-- An account that is all right says how much can be taken out. -/
theorem limit_out {E : Traversal.Env M A K} {leaf : A → Leaf K} {timing : Option (Arg K)}
    (h : OfAccounts E leaf timing) {a : A} {tm nt : Dict K K} {ref : K}
    (hf : Fit (leaf a).acct timing none tm) (hnt : normalizedWeights tm = .ok nt)
    (hw : Weights nt) (href : balanceAtTime (leaf a).acct (.str "end") none = .ok ref)
    (h0 : 0 ≤ ref) :
    ∃ hi, E.limitOf a .maxOut = .ok (.fin hi) ∧ hi ≤ 0 ∧
      0 ≤ ref + hi * weightedAccum (leaf a).acct.A nt := by
  have hW := weightedAccum_pos hf.growth hw
  set W := weightedAccum (leaf a).acct.A nt
  rw [h.limit]
  unfold accountLimit
  have hct : flowsOf (leaf a) .maxOut { timing := timing } =
      transactionsToBalance (leaf a).acct (.fin 0) timing (some (.fin 0))
        (some (outCap (leaf a).limits.maxOut (outflows (leaf a).acct none) none)) none := rfl
  rw [hct, ttb_eq href hf.resolves hnt hf.growth hw, ok_bind, Traversal.sum_spread hw]
  set C := outCap (leaf a).limits.maxOut (outflows (leaf a).acct none) none with hC
  have hC0 : C ≤ .fin 0 := by rw [hC]; exact min_le_right _ _
  have hT : (Ext.subFin (.fin 0) ref).mulFin W⁻¹ = (.fin ((0 - ref) * W⁻¹) : Ext K) := by
    simp only [Ext.subFin, mulFin_fin]
  have hT0 : (0 - ref) * W⁻¹ ≤ 0 :=
    mul_nonpos_of_nonpos_of_nonneg (by linarith) (inv_nonneg.2 hW.le)
  simp only
  rw [hT, Ext.min_fin_fin, min_eq_left hT0]
  have key : ∀ c : K, (0 - ref) * W⁻¹ ≤ c → 0 ≤ ref + c * W := by
    intro c hc
    have := mul_le_mul_of_nonneg_right hc hW.le
    rw [inv_mul_cancel_right₀ hW.ne'] at this
    linarith
  cases hc : C with
  | fin c =>
    rw [hc] at hC0
    exact ⟨_, by rw [Ext.max_fin_fin], max_le hT0 (by simpa using hC0), key _ (le_max_left _ _)⟩
  | posInf => rw [hc] at hC0; simp at hC0
  | negInf => exact ⟨_, by rw [max_eq_left (by simp)], hT0, key _ le_rfl⟩

/-- A debt says how much can be paid. -/
theorem limit_in {E : Traversal.Env M A K} {leaf : A → Leaf K} {timing : Option (Arg K)}
    (h : OfAccounts E leaf timing) {a : A} {tm nt : Dict K K} {ref : K}
    (hf : Fit (leaf a).acct timing none tm) (hnt : normalizedWeights tm = .ok nt)
    (hw : Weights nt) (href : balanceAtTime (leaf a).acct (.str "end") none = .ok ref)
    (h0 : ref ≤ 0) (hdebt : (leaf a).debt = true)
    (hle : (leaf a).limits.minIn ≤ (leaf a).limits.maxIn) :
    ∃ lo hi, E.limitOf a .minIn = .ok (.fin lo) ∧ E.limitOf a .maxIn = .ok (.fin hi) ∧
      0 ≤ lo ∧ lo ≤ hi ∧ ref + hi * weightedAccum (leaf a).acct.A nt ≤ 0 := by
  have hW := weightedAccum_pos hf.growth hw
  set W := weightedAccum (leaf a).acct.A nt
  rw [h.limit, h.limit]
  unfold accountLimit
  have hct : flowsOf (leaf a) .maxIn { timing := timing } =
      transactionsToBalance (leaf a).acct (.fin 0) timing
        (some (inCap (leaf a).limits.maxIn (inflows (leaf a).acct none) none)) (some (.fin 0))
        none := by
    unfold flowsOf; simp only [if_pos hdebt]; rfl
  have hct' : flowsOf (leaf a) .minIn { timing := timing } =
      transactionsToBalance (leaf a).acct (.fin 0) timing
        (some (inCap (leaf a).limits.minIn (inflows (leaf a).acct none) none)) (some (.fin 0))
        none := by
    unfold flowsOf; simp only [if_pos hdebt]; rfl
  rw [hct, hct', ttb_eq href hf.resolves hnt hf.growth hw,
    ttb_eq href hf.resolves hnt hf.growth hw, ok_bind, ok_bind, Traversal.sum_spread hw,
    Traversal.sum_spread hw]
  have hT : (Ext.subFin (.fin 0) ref).mulFin W⁻¹ = (.fin ((0 - ref) * W⁻¹) : Ext K) := by
    simp only [Ext.subFin, mulFin_fin]
  have hT0 : 0 ≤ (0 - ref) * W⁻¹ := mul_nonneg (by linarith) (inv_nonneg.2 hW.le)
  simp only
  rw [hT]
  set t := (0 - ref) * W⁻¹ with ht
  have key : ∀ c : K, c ≤ t → ref + c * W ≤ 0 := by
    intro c hc
    have := mul_le_mul_of_nonneg_right hc hW.le
    rw [ht, inv_mul_cancel_right₀ hW.ne'] at this
    linarith
  have fin : ∀ C : Ext K, ∃ c, max (min (.fin t) C) (.fin 0) = .fin c ∧ 0 ≤ c ∧ c ≤ t := by
    intro C
    cases C with
    | fin c =>
      exact ⟨max (min t c) 0, by simp, le_max_right _ _, max_le (min_le_left _ _) hT0⟩
    | posInf => exact ⟨t, by rw [min_eq_left (by simp), max_eq_left (by simpa using hT0)], hT0, le_rfl⟩
    | negInf => exact ⟨0, by rw [min_eq_right (by simp), max_eq_right (by simp)], le_rfl, hT0⟩
  obtain ⟨lo, l1, l2, l3⟩ := fin (inCap (leaf a).limits.minIn (inflows (leaf a).acct none) none)
  obtain ⟨hi, h1, h2, h3⟩ := fin (inCap (leaf a).limits.maxIn (inflows (leaf a).acct none) none)
  refine ⟨lo, hi, by rw [l1], by rw [h1], l2, ?_, key hi h3⟩
  have : (.fin lo : Ext K) ≤ .fin hi := by
    rw [← l1, ← h1]
    refine max_le_max (min_le_min le_rfl ?_) le_rfl
    unfold inCap
    exact max_le_max (subFin_mono hle _) le_rfl
  simpa using this

/-! ### Plans -/

/-- The result of a call is the result of two passes, put together. -/
theorem call_parts {E : Traversal.Env M A K} (hE : Traversal.Sound E) {fuel : ℕ} {total : K}
    {r : Dict A (Dict K K)} (h : Traversal.call E fuel total = .ok r) :
    Dict.WF r ∧ ∀ a t, Dict.get? r a = some t →
      (∃ lim x, E.txOf a lim x = .ok t) ∨
      ∃ t₁ t₂ l₁ l₂ x₁ x₂, t = Timing.addTransactions t₂ t₁ ∧ E.txOf a l₁ x₁ = .ok t₁ ∧
        E.txOf a l₂ x₂ = .ok t₂ := by
  have key : ∀ (l₁ l₂ : Traversal.Lim) (s₁ s₂ : Ext K) (p₁ p₂ : Dict A (Dict K K) × Traversal.Flows M A),
      Traversal.traverse E fuel l₁ s₁ [] = .ok p₁ →
      Traversal.traverse E fuel l₂ s₂ p₁.2 = .ok p₂ → r = Traversal.combine p₁.1 p₂.1 →
      Dict.WF r ∧ ∀ a t, Dict.get? r a = some t →
      (∃ lim x, E.txOf a lim x = .ok t) ∨
      ∃ t₁ t₂ l₁ l₂ x₁ x₂, t = Timing.addTransactions t₂ t₁ ∧ E.txOf a l₁ x₁ = .ok t₁ ∧
        E.txOf a l₂ x₂ = .ok t₂ := by
    intro l₁ l₂ s₁ s₂ p₁ p₂ h1 h2 hr
    obtain ⟨r₁, m₁⟩ := p₁
    obtain ⟨r₂, m₂⟩ := p₂
    obtain ⟨g₁, f₁, -, -, -, -, w₁, -, x₁⟩ := Traversal.traverse_spec hE h1
    obtain ⟨g₂, f₂, -, -, -, -, w₂, -, x₂⟩ := Traversal.traverse_spec hE h2
    refine ⟨by rw [hr]; exact wf_combine w₂, fun a t hat => ?_⟩
    rw [hr, Traversal.get?_combine r₁ w₁] at hat
    cases hx₂ : Dict.get? r₂ a with
    | none =>
      rw [hx₂] at hat
      exact .inl ⟨_, _, (x₁ a t hat).2⟩
    | some d =>
      rw [hx₂] at hat
      cases hx₁ : Dict.get? r₁ a with
      | none =>
        rw [hx₁] at hat
        cases hat
        exact .inl ⟨_, _, (x₂ a t hx₂).2⟩
      | some t' =>
        rw [hx₁] at hat
        cases hat
        exact .inr ⟨t', d, _, _, _, _, rfl, (x₁ a t' hx₁).2, (x₂ a d hx₂).2⟩
  unfold Traversal.call at h
  split_ifs at h
  · rw [Traversal.bind_ok_iff] at h
    obtain ⟨p₁, h1, h⟩ := h
    rw [Traversal.bind_ok_iff] at h
    obtain ⟨p₂, h2, h⟩ := h
    exact key _ _ _ _ p₁ p₂ h1 h2 (Except.ok.inj h).symm
  · rw [Traversal.bind_ok_iff] at h
    obtain ⟨p₁, h1, h⟩ := h
    rw [Traversal.bind_ok_iff] at h
    obtain ⟨p₂, h2, h⟩ := h
    exact key _ _ _ _ p₁ p₂ h1 h2 (Except.ok.inj h).symm
  · cases h
    exact ⟨Dict.wf_nil, by simp⟩

theorem moved_eq_given {r : Dict A (Dict K K)} (h : Dict.WF r) :
    moved r = ∑ a ∈ (Dict.keys r).toFinset, given r a := by
  rw [List.sum_toFinset _ h]
  exact (sum_due_keys h).symm

/-- Recording an even plan. -/
theorem closing_apply {x x' : Acct K} {nt p : Dict K K} (hi : Inv x) (hp : Even x nt p)
    (h : applyAll x p = .ok x') :
    closing x' = closing x + Dict.total p * weightedAccum x.A nt := by
  rw [applyAll_eq x hp.rng] at h
  cases h
  have hi' : Inv { x with txns := Timing.addTransactions x.txns p } :=
    ⟨⟨Timing.wf_add hi.tx.wf _, within_add hi.tx.rng hp.rng⟩, hi.future, hi.opening⟩
  have e1 : opening { x with txns := Timing.addTransactions x.txns p } = opening x := by
    unfold opening; rw [balance_txns_irrel]
  have e2 : Acct.A { x with txns := Timing.addTransactions x.txns p } = x.A := rfl
  rw [closing_grown hi', closing_grown hi, e1, e2, grown_add x.A hi.tx.wf, hp.grown]
  ring

theorem closing_end {x : Acct K} (hi : Inv x) :
    balanceAtTime x (.str "end") none = .ok (closing x) := by
  rw [balanceAtTime_end, balance_at hi ⟨zero_le_one, le_refl _⟩, closing_grown hi]

/-- The accounts can answer about the timing of the money at hand. -/
theorem traverses_fits {debt : A → Bool} {limits : A → Acct K → Limits K}
    {T : ℤ → (Option A → Pool K) → Traversal.Env M A K} {fuel : ℤ → (Option A → Pool K) → ℕ}
    {strategy : ℤ → (Option A → Pool K) → Except PyErr (Dict A (Dict K K))}
    (h : Traverses debt limits T fuel strategy) :
    ∀ y q, Real limits q → Dict.total (q none).txns ≠ 0 →
    ∃ x : A → Acct K, (∀ a, q (some a) = .acct (limits a (x a)) (x a)) ∧
      OfAccounts (T y q) (fun a => ⟨x a, limits a (x a), debt a⟩)
        (some (.dict (q none).txns)) ∧
      ∀ a, ∃ tm nt, Fit (x a) (some (.dict (q none).txns)) none tm ∧
        normalizedWeights tm = .ok nt ∧ Weights nt := by
  intro y q hq hne
  choose x hx hi hA using hq.acct
  refine ⟨x, hx, h.asks y q x hx, fun a => ?_⟩
  obtain ⟨d, hd, hdd⟩ := hq.cash
  rw [hd] at hne ⊢
  obtain ⟨tm, h1, h2⟩ := (ready_timing (x a) d hdd
    (by rintro rfl; exact hne rfl)).2.1 fun _ => hne
  have hf : Fit (x a) (some (.dict d)) none tm := ⟨hi a, hA a, h1, h2, by simp⟩
  obtain ⟨nt, ref, hnt, hw, -⟩ := core hf
  exact ⟨tm, nt, hf, hnt, hw⟩

/-- What is planned is spread like the money at hand. -/
theorem traverses_evens {debt : A → Bool} {limits : A → Acct K → Limits K}
    {T : ℤ → (Option A → Pool K) → Traversal.Env M A K} {fuel : ℤ → (Option A → Pool K) → ℕ}
    {strategy : ℤ → (Option A → Pool K) → Except PyErr (Dict A (Dict K K))}
    (h : Traverses debt limits T fuel strategy) :
    ∀ y q d, Real limits q → strategy y q = .ok d → d ≠ [] →
    ∃ x : A → Acct K, (∀ a, q (some a) = .acct (limits a (x a)) (x a)) ∧
      OfAccounts (T y q) (fun a => ⟨x a, limits a (x a), debt a⟩)
        (some (.dict (q none).txns)) ∧ Dict.WF d ∧ Answers (T y q) ∧
      ∀ a, ∃ tm nt, Fit (x a) (some (.dict (q none).txns)) none tm ∧
        normalizedWeights tm = .ok nt ∧ Weights nt ∧
        ∀ t, Dict.get? d a = some t → Even (x a) nt t := by
  intro y q d hq hs hne
  have hc := h.call y q d hs
  have hp := h.precision y q
  have ht : Dict.total (q none).txns ≠ 0 := by
    intro h0
    rw [h0, Traversal.C42_nothing hp.le (by linarith)] at hc
    exact hne (Except.ok.inj hc).symm
  obtain ⟨x, hx, ho, hf⟩ := traverses_fits h y q hq ht
  obtain ⟨hwf, hparts⟩ := call_parts (h.sound y q) hc
  refine ⟨x, hx, ho, hwf, (Traversal.accounts_answer ho fun a => ?_).1, fun a => ?_⟩
  · obtain ⟨tm, nt, h1, -⟩ := hf a
    exact ⟨tm, h1⟩
  · obtain ⟨tm, nt, h1, h2, h3⟩ := hf a
    refine ⟨tm, nt, h1, h2, h3, fun t hat => ?_⟩
    rcases hparts a t hat with ⟨lim, z, hz⟩ | ⟨t₁, t₂, l₁, l₂, z₁, z₂, rfl, hz₁, hz₂⟩
    · exact tx_even ho (a := a) h1 h2 h3 hz
    · exact (tx_even ho (a := a) h1 h2 h3 hz₂).add (tx_even ho (a := a) h1 h2 h3 hz₁)

/-- A strategy that traverses a priority tree is prudent, even if some debts are regarded as accounts
that are owned. -/
theorem traversals_prudent {debt owed : A → Bool} (hod : ∀ a, owed a = true → debt a = true)
    {limits : A → Acct K → Limits K}
    {T : ℤ → (Option A → Pool K) → Traversal.Env M A K} {fuel : ℤ → (Option A → Pool K) → ℕ}
    {strategy : ℤ → (Option A → Pool K) → Except PyErr (Dict A (Dict K K))}
    (h : Traverses debt limits T fuel strategy) : Prudent owed limits strategy := by
  have evens := traverses_evens h
  refine ⟨fun y q d hq hs => ?_, fun y q d hq hs ht => ?_, fun y q d hq hs ht => ?_,
    fun y q d hq hs a p L x x' hat hqa hside hap => ?_⟩
  · by_cases hne : d = []
    · subst hne; exact ⟨Dict.wf_nil, by simp⟩
    obtain ⟨x, -, -, hwf, -, he⟩ := evens y q d hq hs hne
    refine ⟨hwf, fun e hed => ?_⟩
    obtain ⟨tm, nt, -, -, -, h4⟩ := he e.1
    exact (h4 e.2 (Dict.get?_of_mem hwf hed)).wf
  · by_cases hne : d = []
    · subst hne; exact ⟨by simp, by simpa [moved] using ht⟩
    obtain ⟨x, -, -, hwf, hA, -⟩ := evens y q d hq hs hne
    have hc := h.call y q d hs
    have hp := h.precision y q
    have hlt : (T y q).precision < Dict.total (q none).txns := by
      by_contra hn
      rw [Traversal.C42_nothing (not_lt.1 hn) (by linarith)] at hc
      exact hne (Except.ok.inj hc).symm
    obtain ⟨h1, h2⟩ := Traversal.C42_inflows_total (h.sound y q) hA hp hlt hc
    exact ⟨fun e he => (h1 e.1 e.2 (Dict.get?_of_mem hwf he)).2,
      by rw [moved_eq_given hwf]; exact h2 _⟩
  · by_cases hne : d = []
    · subst hne; exact ⟨by simp, by simpa [moved] using ht⟩
    obtain ⟨x, -, -, hwf, hA, -⟩ := evens y q d hq hs hne
    have hc := h.call y q d hs
    have hp := h.precision y q
    have hlt : Dict.total (q none).txns < -(T y q).precision := by
      by_contra hn
      rw [Traversal.C42_nothing (by linarith) (not_lt.1 hn)] at hc
      exact hne (Except.ok.inj hc).symm
    obtain ⟨h1, h2⟩ := Traversal.C42_outflows_total (h.sound y q) hA hp hlt hc
    exact ⟨fun e he => (h1 e.1 e.2 (Dict.get?_of_mem hwf he)).2,
      by rw [moved_eq_given hwf]; exact h2 _⟩
  · have hne : d ≠ [] := by rintro rfl; simp at hat
    obtain ⟨xs, hxs, ho, hwf, hA, he⟩ := evens y q d hq hs hne
    obtain ⟨tm, nt, hf, hnt, hw, hev⟩ := he a
    rw [hxs a] at hqa
    cases hqa
    have hev' := hev p hat
    have hcl := closing_apply hf.inv hev' hap
    have hW := weightedAccum_pos hf.growth hw
    have hgiven : given d a = Dict.total p := by unfold Traversal.given; rw [hat]; rfl
    have hc := h.call y q d hs
    have hp := h.precision y q
    have hend := closing_end hf.inv
    rw [hcl, ← hgiven]
    by_cases hpos : (T y q).precision < Dict.total (q none).txns
    · cases ho' : owed a with
      | false =>
        rw [ho'] at hside
        simp only [onSide, Bool.false_eq_true, if_false] at hside ⊢
        have h1 : 0 ≤ given d a := by
          rw [hgiven]
          exact Dict.total_nonneg
            ((Traversal.C42_inflows_total (h.sound y q) hA hp hpos hc).1 a p hat).2
        have := mul_nonneg h1 hW.le
        linarith
      | true =>
        rw [ho'] at hside
        simp only [onSide, if_true] at hside ⊢
        obtain ⟨lo, hi, l1, l2, l3, l4, l5⟩ := limit_in ho (a := a) hf hnt hw hend hside
          (hod a ho') (h.bounds a _ (hod a ho'))
        obtain ⟨-, h2⟩ := Traversal.C42_inflows_account (h.sound y q) hA hp hpos hc a
          (h.alone y q a (hod a ho')) lo hi l1 l2 l3 l4
        have := mul_le_mul_of_nonneg_right h2 hW.le
        simp only at l5
        linarith
    · by_cases hneg : Dict.total (q none).txns < -(T y q).precision
      · cases ho' : owed a with
        | true =>
          rw [ho'] at hside
          simp only [onSide, if_true] at hside ⊢
          have h1 : given d a ≤ 0 := by
            rw [hgiven]
            exact Traversal.total_nonpos
              ((Traversal.C42_outflows_total (h.sound y q) hA hp hneg hc).1 a p hat).2
          have := mul_nonpos_of_nonpos_of_nonneg h1 hW.le
          linarith
        | false =>
          rw [ho'] at hside
          simp only [onSide, Bool.false_eq_true, if_false] at hside ⊢
          obtain ⟨hi, l1, l2, l3⟩ := limit_out ho (a := a) hf hnt hw hend hside
          obtain ⟨-, h2⟩ := Traversal.C42_outflows_account (h.sound y q) hA hp hneg hc
            (h.root y q) (h.free y q) a hi l1 l2
          have := mul_le_mul_of_nonneg_right h2 hW.le
          simp only at l3
          linarith
      · rw [Traversal.C42_nothing (not_lt.1 hpos) (not_lt.1 hneg)] at hc
        exact absurd (Except.ok.inj hc).symm hne

/-- C95: a strategy that traverses a priority tree is prudent. -/
theorem C95_traversals_prudent {owed : A → Bool} {limits : A → Acct K → Limits K}
    {T : ℤ → (Option A → Pool K) → Traversal.Env M A K} {fuel : ℤ → (Option A → Pool K) → ℕ}
    {strategy : ℤ → (Option A → Pool K) → Except PyErr (Dict A (Dict K K))}
    (h : Traverses owed limits T fuel strategy) : Prudent owed limits strategy :=
  traversals_prudent (fun _ h => h) h

/-- What a `TransactionStrategy` traverses. -/
def strategyEnv (S : TxStrategy.Strat K) (info : A → TxStrategy.Info K) (order : List A → List A)
    (E : Traversal.Env (List ℕ) A K) (accounts : List A) : Traversal.Env (List ℕ) A K :=
  { E with
    tree := ((TxStrategy.buildTree S info order accounts).toOption.getD (.list [])).toTree }

/-- Specification: the household's strategy is a `TransactionStrategy` with the given settings,
whose accounts are the household's, and which gets a flow algorithm that gives flows. -/
structure Employs (owed : A → Bool) (limits : A → Acct K → Limits K) (S : TxStrategy.Strat K)
    (info : (Option A → Pool K) → A → TxStrategy.Info K) (order : List A → List A)
    (E : (Option A → Pool K) → Traversal.Env (List ℕ) A K) (fuel : ℕ) (accounts : List A)
    (strategy : ℤ → (Option A → Pool K) → Except PyErr (Dict A (Dict K K))) : Prop where
  call : ∀ y q, strategy y q =
    TxStrategy.call S (info q) order (E q) fuel accounts (q none).txns
  asks : ∀ q (x : A → Acct K), (∀ a, q (some a) = .acct (limits a (x a)) (x a)) →
    OfAccounts (E q) (fun a => ⟨x a, limits a (x a), owed a⟩) (some (.dict (q none).txns))
  flows : ∀ q g f, (E q).solve g = .ok f → Traversal.Feasible g f
  sets : ∀ q l, ∀ c ∈ (E q).setOrder l, c ∈ l
  accts : ∀ q l, ∀ a ∈ (E q).acctOrder l, a ∈ l
  precision : ∀ q, 0 < (E q).precision
  alone : ∀ q a, owed a = true → (E q).groupOf a .maxIn = none
  bounds : ∀ a x, owed a = true → (limits a x).minIn ≤ (limits a x).maxIn

/-- A `TransactionStrategy` traverses a priority tree. -/
theorem Employs.traverses {owed : A → Bool} {limits : A → Acct K → Limits K}
    {S : TxStrategy.Strat K} {info : (Option A → Pool K) → A → TxStrategy.Info K}
    {order : List A → List A} {E : (Option A → Pool K) → Traversal.Env (List ℕ) A K} {fuel : ℕ}
    {accounts : List A}
    {strategy : ℤ → (Option A → Pool K) → Except PyErr (Dict A (Dict K K))}
    (h : Employs owed limits S info order E fuel accounts strategy) :
    Traverses owed limits (fun _ q => strategyEnv S (info q) order (E q) accounts)
      (fun _ _ => fuel) strategy := by
  refine ⟨fun y q d hs => ?_, fun y q x hx => ?_, fun y q => ?_, fun y q => h.precision q,
      fun y q n => ?_, fun _ _ => rfl, fun _ q a ha => h.alone q a ha, h.bounds⟩
  · rw [h.call] at hs
    unfold TxStrategy.call at hs
    cases hb : TxStrategy.buildTree S (info q) order accounts with
    | error e => rw [hb] at hs; cases hs
    | ok src =>
      rw [hb, ok_bind] at hs
      have : strategyEnv S (info q) order (E q) accounts = { E q with tree := src.toTree } := by
        unfold strategyEnv; rw [hb]; rfl
      rw [this]; exact hs
  · exact ⟨(h.asks q x hx).tx, (h.asks q x hx).limit⟩
  · exact ⟨h.flows q, h.sets q, h.accts q⟩
  · exact TxStrategy.root_no_child rfl n

/-- C95: a household's `TransactionStrategy` is prudent, whatever its kind, weights, debt strategy
and threshold. -/
theorem C95_strategies_prudent {owed : A → Bool} {limits : A → Acct K → Limits K}
    {S : TxStrategy.Strat K} {info : (Option A → Pool K) → A → TxStrategy.Info K}
    {order : List A → List A} {E : (Option A → Pool K) → Traversal.Env (List ℕ) A K} {fuel : ℕ}
    {accounts : List A}
    {strategy : ℤ → (Option A → Pool K) → Except PyErr (Dict A (Dict K K))}
    (h : Employs owed limits S info order E fuel accounts strategy) :
    Prudent owed limits strategy := C95_traversals_prudent h.traverses

/-- C95, put together: in the forecast of a household whose strategies traverse priority trees,
none of whose rates ever falls, no account is overdrawn and no debt overpaid, at any time of any
year; and at the end of a run the same goes for the balances that are reported. -/
theorem C95_household_solvent {N : Type} [DecidableEq N] {M' : Type} [DecidableEq M']
    {owed : A → Bool} {E : Env N A K}
    {T : ℤ → (Option A → Pool K) → Traversal.Env M A K} {fuel : ℤ → (Option A → Pool K) → ℕ}
    {T' : ℤ → (Option A → Pool K) → Traversal.Env M' A K} {fuel' : ℤ → (Option A → Pool K) → ℕ}
    (hs : Traverses owed E.limits T fuel E.saving)
    (hw : Traverses owed E.limits T' fuel' E.withdrawal)
    (people : E.people ≠ [])
    (paid : ∀ i y, Dated (E.earner i y).timing ∧ Dict.total (E.earner i y).timing ≠ 0)
    (timing : Dated (E.default .income) ∧ Dict.total (E.default .income) ≠ 0)
    (refund : Dated E.refund ∧ Dict.total E.refund ≠ 0)
    (payment : Dated E.payment ∧ Dict.total E.payment ≠ 0)
    {initial : ℤ} {n : ℕ} {accounts : A → Acct K} (hacc : ∀ a, Reachable (accounts a))
    (hyear : ∀ a ∈ holdings E, (accounts a).year = initial)
    (hg : ∀ a y, IsGrowth ((accounts a).growth y))
    (hfresh : ∀ a ∈ holdings E, (accounts a).txns = [])
    (hopen : ∀ a ∈ holdings E, onSide (owed a) (opening (accounts a)))
    (hrate : ∀ a ∈ holdings E, ∀ y, Monotone ((accounts a).growth y) ∨
      owed a = false ∧ Antitone ((accounts a).growth y))
    (hrise : ∀ a ∈ holdings E, ∀ y t, 0 ≤ t → t ≤ 1 →
      (accounts a).growth y t ≤ (accounts a).growth (y + 1) t)
    {s : Forecast.FS K (Home N A K)}
    (h : forecast E initial (Forecast.scenarioYears initial (n + 1)) accounts = .ok s) :
    ∀ a ∈ holdings E, ∀ t, 0 ≤ t → t ≤ 1 →
      ∃ b, balanceAtTime (s.w.accounts a) (.num t) none = .ok b ∧ onSide (owed a) b := by
  obtain ⟨start, fin, hr⟩ := C79_run hyear h
  have := C95_solvent (owed := owed) ⟨people, paid, timing, refund, payment,
    C95_traversals_prudent hs, C95_traversals_prudent hw⟩ hacc hg hfresh hopen hrate hrise hr n
    (le_refl _)
  rwa [hr.last] at this

/-! ### A household -/

section examples

/-- The savings account `true` and, for saving, the loan `false`; the loan first. -/
def exTree (saving : Bool) : Traversal.Tree ℕ Bool ℚ where
  root := 2
  kind n := if n = 2 then .ordered (if saving then [0, 1] else [1]) else .leaf (n = 1)

/-- What the two accounts answer. -/
def exLeaf (q : Option Bool → Pool ℚ) (a : Bool) : Leaf ℚ :=
  match q (some a) with
  | .acct L x => ⟨x, L, !a⟩
  | .dict _ _ => ⟨init 0 0 (fun _ _ => 1) [], plainLimits, !a⟩

/-- The traversal of the tree. -/
def exTraversal (saving : Bool) (q : Option Bool → Pool ℚ) : Traversal.Env ℕ Bool ℚ where
  tree := exTree saving
  precision := 1 / 100
  limitOf a lim := accountLimit (exLeaf q a) (some (.dict (q none).txns)) lim
  txOf a lim x := Traversal.accountTx (exLeaf q a) (some (.dict (q none).txns)) lim x
  groupOf _ _ := none
  solve := Traversal.checked Traversal.greedy

/-- The strategy of the tree. -/
def exStrategy (saving : Bool) (_ : ℤ) (q : Option Bool → Pool ℚ) : Except PyErr (Dict Bool (Dict ℚ ℚ)) :=
  Traversal.call (exTraversal saving q) 12 (Dict.total (q none).txns)

/-- Somebody with the two accounts, who has 40 left in 2020 and lacks 60 a year from 2021 on. -/
def exFamily : Env Unit Bool ℚ where
  people := [()]
  assets := [true]
  debts := [false]
  owner _ := some ()
  earner _ _ := { gross := 100, withheld := 0, net := 100, timing := [(1 / 2, 1)],
                  accounts := [some true, some false] }
  limits _ _ := plainLimits
  default _ := [(1 / 2, 1)]
  ttv := exTtv
  expenses y _ := .ok (if y ≤ 2020 then 60 else 160)
  saving := exStrategy true
  withdrawal := exStrategy false
  accountTax _ _ := 0
  owing _ _ := .ok 0
  refund := [(1 / 2, 1)]
  payment := [(1 / 2, 1)]

theorem exFamily_traverses (saving : Bool) :
    Traverses (fun a => !a) exFamily.limits (fun _ q => exTraversal saving q) (fun _ _ => 12)
      (exStrategy saving) where
  call _ _ _ h := h
  asks _ q x hx := by
    have : exLeaf q = fun a => ⟨x a, exFamily.limits a (x a), !a⟩ := by
      funext a; unfold exLeaf; rw [hx a]
    exact ⟨fun a lim z => by show Traversal.accountTx (exLeaf q a) _ lim z = _; rw [this],
      fun a lim => by show accountLimit (exLeaf q a) _ lim = _; rw [this]⟩
  sound _ q := ⟨Traversal.checked_feasible _, fun _ _ h => h, fun _ _ h => h⟩
  precision _ _ := by show (0 : ℚ) < 1 / 100; norm_num
  root _ q n := by
    show 2 ∉ childNodes (exTraversal saving q) n
    unfold childNodes exTraversal exTree
    simp only
    split
    · simp
    · rename_i cs h
      split at h
      · cases h; cases saving <;> simp
      · cases h
    · rename_i cs h
      split at h <;> cases h
  free _ _ := rfl
  alone _ _ _ _ := rfl
  bounds _ _ _ := by show (Ext.fin (0 : ℚ)) ≤ .posInf; simp

theorem dated_one {k : ℚ} (h : 0 ≤ k ∧ k ≤ 1) :
    Dated [(k, (1 : ℚ))] ∧ Dict.total [(k, (1 : ℚ))] ≠ 0 := by
  refine ⟨⟨by simp [Dict.WF, Dict.keys], fun x hx => ?_⟩, by simp [Dict.total, Dict.vals]⟩
  simp only [Dict.keys, List.map_cons, List.map_nil, List.mem_singleton] at hx
  rw [hx]; exact h

/-- Their accounts, at rates of 0. -/
def exIdle : Bool → Acct ℚ := fun a => init 2020 (if a then 100 else -50) (fun _ _ => 1) []

/-- In 2020 they pay 40 of the loan of 50, in 2021 and 2022 they draw on the savings of 100, which
run dry: all the hypotheses are met. -/
example : (forecast exFamily 2020 (Forecast.scenarioYears 2020 3) exIdle).map
    (fun s => [closing (s.w.accounts true), closing (s.w.accounts false), Dict.total s.available])
      = .ok [0, -10, -20] := by decide +kernel

example {s : Forecast.FS ℚ (Home Unit Bool ℚ)}
    (h : forecast exFamily 2020 (Forecast.scenarioYears 2020 (2 + 1)) exIdle = .ok s) :
    ∀ a ∈ holdings exFamily, ∀ t, 0 ≤ t → t ≤ 1 →
      ∃ b, balanceAtTime (s.w.accounts a) (.num t) none = .ok b ∧ onSide (!a) b := by
  have half : (0 : ℚ) ≤ 1 / 2 ∧ (1 / 2 : ℚ) ≤ 1 := by norm_num
  refine C95_household_solvent (n := 2) (owed := fun a => !a) (accounts := exIdle)
    (exFamily_traverses true) (exFamily_traverses false) (by decide)
    (fun _ _ => dated_one half) (dated_one half) (dated_one half) (dated_one half)
    (fun a => ⟨_, _, _, _, [], rfl⟩) (fun a _ => rfl)
    (fun a y => ⟨rfl, fun _ _ => (one_mul _).symm, fun _ => zero_lt_one⟩)
    (fun a _ => rfl) (fun a _ => ?_) (fun a _ y => .inl fun _ _ _ => le_refl _)
    (fun a _ y t _ _ => le_refl _) h
  cases a
  · show opening (exIdle false) ≤ 0
    decide +kernel
  · show 0 ≤ opening (exIdle true)
    decide +kernel

/-- A `TransactionStrategy` for the two accounts: savings before debts, except for debts at more
than 15 %. -/
def exSettings : TxStrategy.Strat ℚ := ⟨.ordered, [("Account", 1), ("Debt", 2)], "Avalanche", some (3 / 20)⟩

/-- What it gets to know about them. -/
def exInfo (q : Option Bool → Pool ℚ) (a : Bool) : TxStrategy.Info ℚ :=
  ⟨if a then ["Account"] else ["Debt", "Account"], !a, opening (exLeaf q a).acct, 1 / 10⟩

/-- What it gets besides the tree. -/
def exGiven (q : Option Bool → Pool ℚ) : Traversal.Env (List ℕ) Bool ℚ where
  tree := ⟨[], fun _ => .ordered [], fun _ _ => none⟩
  precision := 1 / 100
  limitOf a lim := accountLimit (exLeaf q a) (some (.dict (q none).txns)) lim
  txOf a lim x := Traversal.accountTx (exLeaf q a) (some (.dict (q none).txns)) lim x
  groupOf _ _ := none
  solve := Traversal.checked Traversal.greedy

theorem exEmploys : Employs (fun a => !a) exFamily.limits exSettings exInfo id exGiven 12
    [true, false]
    (fun _ q => TxStrategy.call exSettings (exInfo q) id (exGiven q) 12 [true, false]
      (q none).txns) where
  call _ _ := rfl
  asks q x hx := by
    have : exLeaf q = fun a => ⟨x a, exFamily.limits a (x a), !a⟩ := by
      funext a; unfold exLeaf; rw [hx a]
    exact ⟨fun a lim z => by show Traversal.accountTx (exLeaf q a) _ lim z = _; rw [this],
      fun a lim => by show accountLimit (exLeaf q a) _ lim = _; rw [this]⟩
  flows _ := Traversal.checked_feasible _
  sets _ _ _ h := h
  accts _ _ _ h := h
  precision _ := by show (0 : ℚ) < 1 / 100; norm_num
  alone _ _ _ := rfl
  bounds _ _ _ := by show (Ext.fin (0 : ℚ)) ≤ .posInf; simp

/-- With 140 missing in the middle of the year, it draws the 100 there are. -/
example : TxStrategy.call exSettings
    (exInfo fun p => p.elim (.dict true [(1 / 2, -140)]) fun a => .acct plainLimits (exIdle a)) id
    (exGiven fun p => p.elim (.dict true [(1 / 2, -140)]) fun a => .acct plainLimits (exIdle a)) 12
    [true, false] [(1 / 2, -140)] = .ok [(true, [(1 / 2, -100)]), (false, [(1 / 2, 0)])] := by
  decide +kernel

end examples


/-- C95 (falling rates, refuted): the rates must not fall. Whoever takes out all that is in an
account at the end of a year, as `max_outflows` allows, leaves nothing in it; and yet, if the rate
falls, the account is overdrawn at the start of the next year. (Next year's opening balance is
worked out afresh at next year's rate, from this year's opening balance and transactions.) -/
theorem C95_falling_rates_refuted {year : ℤ} {b : K} {growth : ℤ → K → K} (hb : 0 < b)
    (hA : IsGrowth (growth year)) (hfall : growth (year + 1) 1 < growth year 1)
    (hB : IsGrowth (growth (year + 1))) :
    ∃ d x' x'' c, maxOutflows plainLimits (init year b growth [])
        { timing := some (.timing [(1, 1)]) } = .ok (Dict.mapVals Ext.fin d) ∧
      applyAll (init year b growth []) d = .ok x' ∧
      balanceAtTime x' (.str "end") none = .ok 0 ∧ Account.nextYear x' = .ok x'' ∧
      balance x'' = .ok c ∧ c < 0 := by
  have hd : Dated [((1 : K), (1 : K))] :=
    ⟨by simp [Dict.WF, Dict.keys], fun k hk => by
      simp only [Dict.keys, List.map_cons, List.map_nil, List.mem_singleton] at hk
      rw [hk]; exact ⟨zero_le_one, le_refl _⟩⟩
  generalize hx : Account.init year b growth [] = x
  have hi : Inv x := by rw [← hx]; exact inv_init _ _ _ _
  have hyr : x.year = year := by rw [← hx]; rfl
  have hgr : x.growth = growth := by rw [← hx]; rfl
  have htx : x.txns = [] := by rw [← hx]; rfl
  have hxA : x.A = growth year := by unfold Acct.A; rw [hyr, hgr]
  have hbal : balance x = .ok b := by
    rw [← hx]; unfold balance; simp [Account.init, Dict.get?_cons]
  have hop : opening x = b := by unfold opening; rw [hbal]; rfl
  have hcl : closing x = b * growth year 1 := by
    rw [closing_grown hi, hop, htx, grown_nil, add_zero, hxA]
  obtain ⟨h1, h2⟩ := (ready_timing x [((1 : K), (1 : K))] hd (by simp)).1 (by simp)
  have hf : Fit x (some (.timing [(1, 1)])) none [(1, 1)] :=
    ⟨hi, by rw [hxA]; exact hA, h1, h2, by simp⟩
  have hnt : normalizedWeights [((1 : K), (1 : K))] = .ok [(1, 1)] := by
    simp [normalizedWeights, Dict.total, Dict.vals]
  have hw : Weights [((1 : K), (1 : K))] := by
    obtain ⟨nt, -, hnt', hw, -⟩ := core hf
    rw [hnt] at hnt'; cases hnt'; exact hw
  have hW : weightedAccum x.A [((1 : K), (1 : K))] = 1 := by
    simp [weightedAccum, hxA, hA.zero]
  have hev : Even x [((1 : K), (1 : K))] [(1, -(b * growth year 1))] := by
    have := even_mul (x := x) hw (-(b * growth year 1))
    simpa [Dict.mapVals] using this
  obtain ⟨x', hx'⟩ : ∃ x', applyAll x [(1, -(b * growth year 1))] = .ok x' :=
    ⟨_, applyAll_eq x hev.rng⟩
  have hx'' := hx'
  rw [applyAll_eq x hev.rng, htx] at hx''
  have hi' : Inv x' := by
    rw [← Except.ok.inj hx'']
    exact ⟨⟨Timing.wf_add Dict.wf_nil _, within_add within_nil hev.rng⟩, hi.future, hi.opening⟩
  have e1 : balance x' = .ok b := by rw [← Except.ok.inj hx'']; exact hbal
  have e2 : x'.txns = [(1, -(b * growth year 1))] := by
    rw [← Except.ok.inj hx'']; rfl
  have e3 : x'.year = year := by rw [← Except.ok.inj hx'']; exact hyr
  have e4 : x'.growth = growth := by rw [← Except.ok.inj hx'']; exact hgr
  have e5 : Dict.get? x'.balHist (year + 1) = none := by
    have := hi'.future (year + 1) (by omega)
    exact this
  refine ⟨[(1, -(b * growth year 1))], x', _, _, ?_, hx', ?_, nextYear_eq e1,
    balance_of_prev (b := b) (tx := [(1, -(b * growth year 1))]) ?_ ?_ ?_ ⟨hev.wf, hev.rng⟩, ?_⟩
  · unfold maxOutflows
    rw [ttb_eq (closing_end hi) hf.resolves hnt hf.growth hw, hW, hcl]
    have hb' : (0 - b * growth year 1) * 1⁻¹ = -(b * growth year 1) := by ring
    have hneg : -(b * growth year 1) ≤ 0 := by
      have := mul_pos hb (hA.pos 1); linarith
    simp [outCap, plainLimits, Ext.subFin, Dict.mapVals, Ext.mulFin, hneg]
  · rw [closing_end hi', closing_apply hi hev hx', hcl, hW]
    simp [Dict.total, Dict.vals]
  · simp only [e3]
    rw [Dict.get?_set_ne _ _ (by omega)]
    exact e5
  · simp
  · simp [e2]
  · show b * x'.growth (x'.year + 1) 1 + grown (x'.growth (x'.year + 1)) _ 1 < 0
    rw [e3, e4, grown_cons, grown_nil]
    simp only [le_refl, if_true, sub_self, hB.zero]
    have := mul_lt_mul_of_pos_left hfall hb
    linarith

/-- 10 % in 2020 and nothing from 2021 on. -/
noncomputable def fallingRate (y : ℤ) (t : ℝ) : ℝ :=
  if y ≤ 2020 then Real.exp (t * Real.log (11 / 10)) else 1

theorem fallingRate_growth (y : ℤ) : IsGrowth (fallingRate y) := by
  unfold fallingRate
  by_cases h : y ≤ 2020
  · simp only [if_pos h]
    refine ⟨by simp, fun s t => ?_, fun t => Real.exp_pos _⟩
    rw [add_mul, Real.exp_add]
  · simp only [if_neg h]
    exact ⟨rfl, fun _ _ => (one_mul _).symm, fun _ => zero_lt_one⟩

example : ∃ d x' x'' c, maxOutflows plainLimits (Account.init 2020 100 fallingRate [])
      { timing := some (.timing [(1, 1)]) } = .ok (Dict.mapVals Ext.fin d) ∧
    applyAll (Account.init 2020 100 fallingRate []) d = .ok x' ∧
    balanceAtTime x' (.str "end") none = .ok 0 ∧ Account.nextYear x' = .ok x'' ∧
    balance x'' = .ok c ∧ c < 0 := by
  refine C95_falling_rates_refuted (by norm_num) (fallingRate_growth _) ?_ (fallingRate_growth _)
  simp only [fallingRate]
  norm_num
  exact Real.log_pos (by norm_num)

end Forecaster.Household
