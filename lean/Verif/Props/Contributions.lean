import Verif.Props.SolvencyStrategy
import Verif.Props.LifetimeRoom

/-!
# C113: a forecast keeps to the limits of the accounts

Whatever a household earns and spends, and for however many years: in no year do the strategies,
which share out the money at hand over a priority tree, pay more into an account than the account's
`max_inflow_limit` of that year, or take out more than its `max_outflow_limit`. For a registered
account on its own this means that the contribution room is never exceeded (C105 shows the same for
somebody who asks `max_inflows` before every contribution; here nobody needs to be careful).
-/

set_option linter.unusedSectionVars false

namespace Forecaster.Household

open Forecaster Forecaster.Timing Forecaster.Account Forecaster.SubForecast Forecaster.CashFlow
open Forecaster.Traversal (OfAccounts Leaf Answers accountLimit flowsOf given childNodes)
open Forecaster.Forecast (FS scenarioYears Clockwork Timed components)

section general

variable {K : Type} [Field K] [LinearOrder K] [IsStrictOrderedRing K]
variable {N A : Type} [DecidableEq N] [DecidableEq A]

/-- Specification: what was paid in, in all, by the transactions of a year. -/
def paidIn (d : Dict K K) : K := (d.map fun e => max e.2 0).sum

/-- Specification: what was taken out, in all, by the transactions of a year. -/
def takenOut (d : Dict K K) : K := (d.map fun e => max (-e.2) 0).sum

/-- A strategy that keeps to the limits of an account, given what has been moved already. -/
structure Modest (limits : A → Acct K → Limits K)
    (strategy : ℤ → (Option A → Pool K) → Except PyErr (Dict A (Dict K K))) (a : A) : Prop where
  ins : ∀ y q d, Real limits q → strategy y q = .ok d → 0 ≤ Dict.total (q none).txns → ∀ L x m,
    q (some a) = .acct L x → max L.maxIn (.fin 0) = .fin m → L.minIn ≤ max L.maxIn (.fin 0) →
    due d a ≤ max (m - paidIn x.txns) 0
  outs : ∀ y q d, Real limits q → strategy y q = .ok d → Dict.total (q none).txns ≤ 0 → ∀ L x m,
    q (some a) = .acct L x → min L.maxOut (.fin 0) = .fin m →
    min (m + takenOut x.txns) 0 ≤ due d a

theorem paidIn_pos (d : Dict K K) : posSum d = paidIn d := posSum_eq d

theorem takenOut_neg (d : Dict K K) : negSum d = - takenOut d := by
  have h := pos_add_neg d
  rw [paidIn_pos] at h
  have : Dict.total d = paidIn d - takenOut d := by
    unfold paidIn takenOut Dict.total Dict.vals
    clear h
    induction d with
    | nil => simp
    | cons e l ih =>
      simp only [List.map_cons, List.sum_cons, ih]
      have : e.2 = max e.2 0 - max (-e.2) 0 := by
        rcases le_total 0 e.2 with h | h
        · rw [max_eq_left h, max_eq_right (by linarith)]; ring
        · rw [max_eq_right h, max_eq_left (by linarith)]; ring
      linarith
  linarith

theorem paidIn_of_nonneg {d : Dict K K} (hd : Dict.WF d) (h : Signed (1 : K) d) :
    paidIn d = Dict.total d ∧ takenOut d = 0 := by
  have h' : ∀ e ∈ d, 0 ≤ e.2 := fun e he => by simpa using h.mem hd he
  clear h hd
  unfold paidIn takenOut Dict.total Dict.vals
  induction d with
  | nil => simp
  | cons e l ih =>
    obtain ⟨i1, i2⟩ := ih fun x hx => h' x (by simp [hx])
    have := h' e (by simp)
    simp only [List.map_cons, List.sum_cons, i1, i2, max_eq_left this,
      max_eq_right (by linarith : -e.2 ≤ 0)]
    simp

theorem takenOut_of_nonpos {d : Dict K K} (hd : Dict.WF d) (h : Signed (-1 : K) d) :
    takenOut d = - Dict.total d ∧ paidIn d = 0 := by
  have h' : ∀ e ∈ d, e.2 ≤ 0 := fun e he => by have := h.mem hd he; linarith
  clear h hd
  unfold paidIn takenOut Dict.total Dict.vals
  induction d with
  | nil => simp
  | cons e l ih =>
    obtain ⟨i1, i2⟩ := ih fun x hx => h' x (by simp [hx])
    have := h' e (by simp)
    simp only [List.map_cons, List.sum_cons, i1, i2, max_eq_right this,
      max_eq_left (by linarith : 0 ≤ -e.2)]
    constructor
    · ring
    · simp

/-- The plans of a year of a careful household. -/
theorem careful_plans {owed : A → Bool} {E : Env N A K} (hE : Careful owed E)
    {s s' : FS K (Home N A K)} (hr : Ready s.w s.available) (hw : Within s.available)
    (hA : ∀ a, IsGrowth (s.w.accounts a).A)
    (h : Forecast.callSubforecasts (world E) s = .ok s') :
    ∃ (P Q : Dict A (Dict K K)) (y2 y3 : ℤ) (x3 : A → Acct K) (q2 q3 : Option A → Pool K),
      Real E.limits q2 ∧ Real E.limits q3 ∧
      (∀ a, q2 (some a) = .acct (E.limits a (s.w.accounts a)) (s.w.accounts a)) ∧
      (∀ a, q3 (some a) = .acct (E.limits a (x3 a)) (x3 a)) ∧
      E.saving y2 q2 = .ok P ∧ E.withdrawal y3 q3 = .ok Q ∧
      (0 ≤ Dict.total (q2 none).txns → 0 ≤ Dict.total (q3 none).txns ∧
        (∀ e ∈ P, ∀ f ∈ e.2, 0 ≤ f.2) ∧ ∀ e ∈ Q, ∀ f ∈ e.2, 0 ≤ f.2) ∧
      (Dict.total (q2 none).txns ≤ 0 → Dict.total (q3 none).txns ≤ 0 ∧
        (∀ e ∈ P, ∀ f ∈ e.2, f.2 ≤ 0) ∧ ∀ e ∈ Q, ∀ f ∈ e.2, f.2 ≤ 0) ∧
      ∀ (σ : K) a, Took σ (s.w.accounts a) (x3 a) ((Dict.get? P a).getD []) ∧
        Took σ (x3 a) (s'.w.accounts a) ((Dict.get? Q a).getD []) ∧
        Dict.total (x3 a).txns = Dict.total (s.w.accounts a).txns + due P a ∧
        Dict.total (s'.w.accounts a).txns = Dict.total (x3 a).txns + due Q a := by
  have hD := hE.dates
  have hpaid : ∀ w : Home N A K, PaidProperly (earners E w) := by
    intro w e he
    simp only [earners, List.mem_map] at he
    obtain ⟨i, -, rfl⟩ := he
    exact ⟨(hE.paid i _).1.wf, (hE.paid i _).2⟩
  obtain ⟨w1, v1, w2, v2, w3, v3, w4, v4, h1, h2, h3, h4, h5, -⟩ := calls_parts h
  obtain ⟨a1, a2, a3, -, -⟩ := call_income hr.books (hr.idle _) hE.timing.2 (hpaid _) h1
  have t1 := call_within hD hr.books (hr.idle _) hw h1
  have i2 : Idle (w1.sub .living) := (hr.idle .living).of_only a1 (by decide)
  obtain ⟨b1, b2, b3, -, -, -⟩ := call_living a2 i2 hE.people (hpaid _) h2
  have t2 := call_within hD a2 i2 t1 h2
  have i3 : Idle (w2.sub .saving) :=
    Idle.of_only b1 (by decide) (Idle.of_only a1 (by decide) (hr.idle .saving))
  have acc2 : w2.accounts = s.w.accounts := b3.trans a3
  have real2 : Real E.limits (pools E w2 v2) := real_pools b2 t2 (by rw [acc2]; exact hA)
  obtain ⟨c1, c2, c3, -, P, c5, -, c7, -, c9⟩ :=
    call_saving b2 i3 (fun p hp => (hE.saving.shape _ _ p real2 hp).1) h3
  have t3 := call_within hD b2 i3 t2 h3
  have i4 : Idle (w3.sub .withdrawal) := Idle.of_only c1 (by decide)
    (Idle.of_only b1 (by decide) (Idle.of_only a1 (by decide) (hr.idle .withdrawal)))
  have growth3 : ∀ a, IsGrowth (w3.accounts a).A := by
    intro a
    rw [(same_A (c3 a)).1, acc2]; exact hA a
  have real3 : Real E.limits (pools E w3 v3) := real_pools c2 t3 growth3
  obtain ⟨wfP, wfP'⟩ := hE.saving.shape _ _ P real2 c5
  have mP : ((Dict.keys P).map (due P)).sum = moved P := sum_due_keys wfP
  have T3 : Dict.total v3 = Dict.total v2 - moved P := by rw [c9, mP]
  have hP := fun hT => hE.saving.pays _ _ P real2 c5 hT
  have hP' := fun hT => hE.saving.draws _ _ P real2 c5 hT
  have T3p : 0 ≤ Dict.total v2 → 0 ≤ Dict.total v3 := fun hT => by
    have h6 : moved P ≤ Dict.total v2 := (hP hT).2
    rw [T3]; linarith
  have T3n : Dict.total v2 ≤ 0 → Dict.total v3 ≤ 0 := fun hT => by
    have h6 : Dict.total v2 ≤ moved P := (hP' hT).2
    rw [T3]; linarith
  have signQ : ∀ Q, E.withdrawal (w3.sub .withdrawal).year (pools E w3 v3) = .ok Q →
      (0 ≤ Dict.total v2 → ∀ e ∈ Q, ∀ f ∈ e.2, 0 ≤ f.2) ∧
      (Dict.total v2 ≤ 0 → ∀ e ∈ Q, ∀ f ∈ e.2, f.2 ≤ 0) := fun Q hQ =>
    ⟨fun hT => (hE.withdrawal.pays _ _ Q real3 hQ (T3p hT)).1,
      fun hT => (hE.withdrawal.draws _ _ Q real3 hQ (T3n hT)).1⟩
  have resQ : ∀ Q, E.withdrawal (w3.sub .withdrawal).year (pools E w3 v3) = .ok Q →
      Dict.WF Q ∧ ∀ e ∈ Q, Rescalable e.2 := by
    intro Q hQ
    obtain ⟨wfQ, wfQ'⟩ := hE.withdrawal.shape _ _ Q real3 hQ
    refine ⟨wfQ, fun e he => rescalable_of_signs (wfQ' e he) ?_⟩
    rcases le_total 0 (Dict.total v2) with hT | hT
    · exact .inl ((signQ Q hQ).1 hT e he)
    · exact .inr ((signQ Q hQ).2 hT e he)
  obtain ⟨d1, d2, d3, -, -, Q, d6, -, -, d9, -⟩ := call_withdrawal c2 i4 resQ h4
  obtain ⟨wfQ, -⟩ := hE.withdrawal.shape _ _ Q real3 d6
  have i5 : Idle (w4.sub .tax) := Idle.of_only d1 (by decide) (Idle.of_only c1 (by decide)
    (Idle.of_only b1 (by decide) (Idle.of_only a1 (by decide) (hr.idle .tax))))
  obtain ⟨-, e2, -⟩ := call_tax d2 i5 h5
  refine ⟨P, Q, _, _, w3.accounts, pools E w2 v2, pools E w3 v3, real2, real3, fun a => ?_,
    fun a => rfl, c5, d6, fun hT => ⟨T3p hT, (hP hT).1, (signQ Q d6).1 hT⟩,
    fun hT => ⟨T3n hT, (hP' hT).1, (signQ Q d6).2 hT⟩, fun σ a => ?_⟩
  · show Pool.acct (E.limits a (w2.accounts a)) (w2.accounts a) = _
    rw [acc2]
  · rw [e2, ← acc2]
    exact ⟨call_saving_took b2 i3 c5 wfP h3 (by rw [acc2]; exact hA a),
      call_withdrawal_took c2 i4 d6 wfQ h4 (growth3 a), c7 a, d9 a⟩

/-- What is paid in during a year keeps to the limit. -/
theorem year_in {owed : A → Bool} {E : Env N A K} (hE : Careful owed E)
    {s s' : FS K (Home N A K)} (hr : Ready s.w s.available) (hw : Within s.available)
    (hA : ∀ a, IsGrowth (s.w.accounts a).A)
    (h : Forecast.callSubforecasts (world E) s = .ok s') {a : A}
    (h1 : Modest E.limits E.saving a) (h2 : Modest E.limits E.withdrawal a)
    (hl : ∀ x', { x' with txns := [] } = { s.w.accounts a with txns := [] } → Account.Inv x' →
      (E.limits a x').maxIn = (E.limits a (s.w.accounts a)).maxIn ∧
      (E.limits a x').minIn = (E.limits a (s.w.accounts a)).minIn)
    (hn : (s.w.accounts a).txns = []) {m : K}
    (hm : max (E.limits a (s.w.accounts a)).maxIn (.fin 0) = .fin m)
    (hb : (E.limits a (s.w.accounts a)).minIn ≤ max (E.limits a (s.w.accounts a)).maxIn (.fin 0)) :
    paidIn (s'.w.accounts a).txns ≤ max m 0 := by
  obtain ⟨P, Q, y2, y3, x3, q2, q3, r2, r3, p2, p3, eP, eQ, pos, neg, took⟩ :=
    careful_plans hE hr hw hA h
  rcases le_total 0 (Dict.total (q2 none).txns) with hT | hT
  · obtain ⟨c3, sP, sQ⟩ := pos hT
    obtain ⟨k1, k2, t1, t2⟩ := took 1 a
    have f1 : Signed (1 : K) (x3 a).txns := k1.toward (by rw [hn]; exact signed_nil _) fun e he => by
      obtain ⟨p, hp, hep⟩ := mem_plan_of_get? he
      simpa using sP p hp e hep
    have f2 : Signed (1 : K) (s'.w.accounts a).txns := k2.toward f1 fun e he => by
      obtain ⟨p, hp, hep⟩ := mem_plan_of_get? he
      simpa using sQ p hp e hep
    have e3 := (paidIn_of_nonneg k1.inv.tx.wf f1).1
    have e4 := (paidIn_of_nonneg k2.inv.tx.wf f2).1
    obtain ⟨ls1, ls2⟩ := hl _ k1.same k1.inv
    have b1 := h1.ins y2 q2 P r2 eP hT _ _ m (p2 a) hm hb
    have b2 := h2.ins y3 q3 Q r3 eQ c3 _ _ m (p3 a) (by rw [ls1]; exact hm)
      (by rw [ls1, ls2]; exact hb)
    rw [hn] at b1 t1
    rw [e4, t2]
    rw [e3] at b2
    simp only [paidIn, List.map_nil, List.sum_nil, sub_zero] at b1
    simp only [Dict.total_nil, zero_add] at t1
    rw [t1] at b2 ⊢
    rcases le_max_iff.1 b2 with h3 | h3
    · exact le_trans (by linarith) (le_max_left _ _)
    · linarith
  · obtain ⟨-, sP, sQ⟩ := neg hT
    obtain ⟨k1, k2, -, -⟩ := took (-1) a
    have f1 : Signed (-1 : K) (x3 a).txns := k1.toward (by rw [hn]; exact signed_nil _) fun e he => by
      obtain ⟨p, hp, hep⟩ := mem_plan_of_get? he
      have := sP p hp e hep
      linarith
    have f2 : Signed (-1 : K) (s'.w.accounts a).txns := k2.toward f1 fun e he => by
      obtain ⟨p, hp, hep⟩ := mem_plan_of_get? he
      have := sQ p hp e hep
      linarith
    rw [(takenOut_of_nonpos k2.inv.tx.wf f2).2]
    exact le_max_right _ _

/-- What is taken out during a year keeps to the limit. -/
theorem year_out {owed : A → Bool} {E : Env N A K} (hE : Careful owed E)
    {s s' : FS K (Home N A K)} (hr : Ready s.w s.available) (hw : Within s.available)
    (hA : ∀ a, IsGrowth (s.w.accounts a).A)
    (h : Forecast.callSubforecasts (world E) s = .ok s') {a : A}
    (h1 : Modest E.limits E.saving a) (h2 : Modest E.limits E.withdrawal a)
    (hl : ∀ x', { x' with txns := [] } = { s.w.accounts a with txns := [] } → Account.Inv x' →
      (E.limits a x').maxOut = (E.limits a (s.w.accounts a)).maxOut)
    (hn : (s.w.accounts a).txns = []) {m : K}
    (hm : min (E.limits a (s.w.accounts a)).maxOut (.fin 0) = .fin m) :
    takenOut (s'.w.accounts a).txns ≤ max (-m) 0 := by
  obtain ⟨P, Q, y2, y3, x3, q2, q3, r2, r3, p2, p3, eP, eQ, pos, neg, took⟩ :=
    careful_plans hE hr hw hA h
  rcases le_total 0 (Dict.total (q2 none).txns) with hT | hT
  · obtain ⟨c3, sP, sQ⟩ := pos hT
    obtain ⟨k1, k2, t1, t2⟩ := took 1 a
    have f1 : Signed (1 : K) (x3 a).txns := k1.toward (by rw [hn]; exact signed_nil _) fun e he => by
      obtain ⟨p, hp, hep⟩ := mem_plan_of_get? he
      simpa using sP p hp e hep
    have f2 : Signed (1 : K) (s'.w.accounts a).txns := k2.toward f1 fun e he => by
      obtain ⟨p, hp, hep⟩ := mem_plan_of_get? he
      simpa using sQ p hp e hep
    rw [(paidIn_of_nonneg k2.inv.tx.wf f2).2]
    exact le_max_right _ _
  · obtain ⟨c3, sP, sQ⟩ := neg hT
    obtain ⟨k1, k2, t1, t2⟩ := took (-1) a
    have f1 : Signed (-1 : K) (x3 a).txns := k1.toward (by rw [hn]; exact signed_nil _) fun e he => by
      obtain ⟨p, hp, hep⟩ := mem_plan_of_get? he
      have := sP p hp e hep
      linarith
    have f2 : Signed (-1 : K) (s'.w.accounts a).txns := k2.toward f1 fun e he => by
      obtain ⟨p, hp, hep⟩ := mem_plan_of_get? he
      have := sQ p hp e hep
      linarith
    have e3 := (takenOut_of_nonpos k1.inv.tx.wf f1).1
    have e4 := (takenOut_of_nonpos k2.inv.tx.wf f2).1
    have ls3 := hl _ k1.same k1.inv
    have b1 := h1.outs y2 q2 P r2 eP hT _ _ m (p2 a) hm
    have b2 := h2.outs y3 q3 Q r3 eQ c3 _ _ m (p3 a) (by rw [ls3]; exact hm)
    rw [hn] at b1 t1
    rw [e4, t2]
    rw [e3] at b2
    simp only [takenOut, List.map_nil, List.sum_nil, add_zero] at b1
    simp only [Dict.total_nil, zero_add] at t1
    rw [t1] at b2 ⊢
    rcases min_le_iff.1 b2 with h3 | h3
    · exact le_trans (by linarith) (le_max_left _ _)
    · rcases min_le_iff.1 b1 with h4 | h4
      · exact le_trans (by linarith) (le_max_left _ _)
      · exact le_trans (by linarith) (le_max_right _ _)

end general

/-! ### Priority trees -/

section trees

variable {K : Type} [Field K] [LinearOrder K] [IsStrictOrderedRing K] [FloorRing K]
variable {M A : Type} [DecidableEq M] [DecidableEq A]

/-- What an account with a limit answers when it is asked how much can be paid in. -/
theorem limit_in_cap {E : Traversal.Env M A K} {leaf : A → Leaf K} {timing : Option (Arg K)}
    (h : OfAccounts E leaf timing) {a : A} {tm nt : Dict K K} {ref : K}
    (hf : Fit (leaf a).acct timing none tm) (hnt : normalizedWeights tm = .ok nt)
    (hw : Weights nt) (href : balanceAtTime (leaf a).acct (.str "end") none = .ok ref) {m : K}
    (hm : max (leaf a).limits.maxIn (.fin 0) = .fin m)
    (hle : (leaf a).limits.minIn ≤ max (leaf a).limits.maxIn (.fin 0)) :
    ∃ lo hi, E.limitOf a .minIn = .ok (.fin lo) ∧ E.limitOf a .maxIn = .ok (.fin hi) ∧
      0 ≤ lo ∧ lo ≤ hi ∧ hi ≤ max (m - paidIn (leaf a).acct.txns) 0 := by
  obtain ⟨t, ht, ht'⟩ : ∃ t : Ext K, flowsOf (leaf a) .maxIn { timing := timing } =
        transactionsToBalance (leaf a).acct t timing
          (some (inCap (leaf a).limits.maxIn (inflows (leaf a).acct none) none)) (some (.fin 0))
          none ∧
      flowsOf (leaf a) .minIn { timing := timing } =
        transactionsToBalance (leaf a).acct t timing
          (some (inCap (leaf a).limits.minIn (inflows (leaf a).acct none) none)) (some (.fin 0))
          none := by
    cases hd : (leaf a).debt with
    | true => exact ⟨.fin 0, by unfold flowsOf; simp only [if_pos hd]; rfl,
        by unfold flowsOf; simp only [if_pos hd]; rfl⟩
    | false =>
      have hd' : ¬ (leaf a).debt = true := by rw [hd]; simp
      exact ⟨.posInf, by unfold flowsOf; simp only [if_neg hd']; rfl,
        by unfold flowsOf; simp only [if_neg hd']; rfl⟩
  rw [h.limit, h.limit]
  unfold accountLimit
  rw [ht, ht', ttb_eq href hf.resolves hnt hf.growth hw,
    ttb_eq href hf.resolves hnt hf.growth hw, ok_bind, ok_bind, Traversal.sum_spread hw,
    Traversal.sum_spread hw]
  simp only
  generalize (t.subFin ref).mulFin (weightedAccum (leaf a).acct.A nt)⁻¹ = T
  have hin : inflows (leaf a).acct none = paidIn (leaf a).acct.txns := by
    unfold inflows; rw [paidIn_pos]; simp
  rw [hin]
  have hz : 0 ≤ paidIn (leaf a).acct.txns := by rw [← paidIn_pos]; exact posSum_nonneg _
  generalize paidIn (leaf a).acct.txns = z at hz ⊢
  have hc : inCap (leaf a).limits.maxIn z none = .fin (max (m - z) 0) := by
    unfold inCap
    simp only
    cases hmax : (leaf a).limits.maxIn with
    | fin k =>
      rw [hmax, Ext.max_fin_fin] at hm
      have hm : max k 0 = m := by simpa using hm
      simp only [Ext.subFin, Ext.max_fin_fin, Ext.fin.injEq]
      rw [← hm]
      apply le_antisymm
      · exact max_le_max (by have := le_max_left k 0; linarith) le_rfl
      · refine max_le ?_ (le_max_right _ _)
        rcases max_choice k 0 with e | e <;> rw [e]
        · exact le_max_left _ _
        · exact le_trans (by linarith) (le_max_right _ _)
    | posInf => rw [hmax] at hm; simp at hm
    | negInf =>
      rw [hmax] at hm
      have hm : 0 = m := by simpa using hm
      rw [← hm]
      simp [Ext.subFin, hz]
  have hc' : ∃ c, inCap (leaf a).limits.minIn z none = .fin c ∧ 0 ≤ c ∧ c ≤ max (m - z) 0 := by
    rw [hm] at hle
    cases hmin : (leaf a).limits.minIn with
    | fin k =>
      rw [hmin] at hle
      have hle : k ≤ m := by simpa using hle
      refine ⟨max (k - z) 0, by unfold inCap; simp [Ext.subFin], le_max_right _ _,
        max_le ?_ (le_max_right _ _)⟩
      exact le_trans (by linarith) (le_max_left _ _)
    | posInf => rw [hmin] at hle; simp at hle
    | negInf => exact ⟨0, by unfold inCap; simp [Ext.subFin], le_rfl, le_max_right _ _⟩
  obtain ⟨c, hc1, hc2, hc3⟩ := hc'
  rw [hc, hc1]
  have fin : ∀ b : K, 0 ≤ b → ∃ x, max (min T (.fin b)) (.fin 0) = .fin x ∧ 0 ≤ x ∧ x ≤ b := by
    intro b hb
    cases T with
    | fin t => exact ⟨max (min t b) 0, by simp, le_max_right _ _, max_le (min_le_right _ _) hb⟩
    | posInf => exact ⟨b, by rw [min_eq_right (by simp), max_eq_left (by simpa using hb)], hb, le_rfl⟩
    | negInf => exact ⟨0, by rw [min_eq_left (by simp), max_eq_right (by simp)], le_rfl, hb⟩
  obtain ⟨lo, l1, l2, -⟩ := fin c hc2
  obtain ⟨hi, h1, h2, h3⟩ := fin (max (m - z) 0) (le_max_right _ _)
  refine ⟨lo, hi, by rw [l1], by rw [h1], l2, ?_, h3⟩
  have : (.fin lo : Ext K) ≤ .fin hi := by
    rw [← l1, ← h1]
    exact max_le_max (min_le_min le_rfl (by simpa using hc3)) le_rfl
  simpa using this

/-- What an account with a limit answers when it is asked how much can be taken out. -/
theorem limit_out_cap {E : Traversal.Env M A K} {leaf : A → Leaf K} {timing : Option (Arg K)}
    (h : OfAccounts E leaf timing) {a : A} {tm nt : Dict K K} {ref : K}
    (hf : Fit (leaf a).acct timing none tm) (hnt : normalizedWeights tm = .ok nt)
    (hw : Weights nt) (href : balanceAtTime (leaf a).acct (.str "end") none = .ok ref) {m : K}
    (hm : min (leaf a).limits.maxOut (.fin 0) = .fin m) :
    ∃ hi, E.limitOf a .maxOut = .ok (.fin hi) ∧ hi ≤ 0 ∧
      min (m + takenOut (leaf a).acct.txns) 0 ≤ hi := by
  rw [h.limit]
  unfold accountLimit
  have hct : flowsOf (leaf a) .maxOut { timing := timing } =
      transactionsToBalance (leaf a).acct (.fin 0) timing (some (.fin 0))
        (some (outCap (leaf a).limits.maxOut (outflows (leaf a).acct none) none)) none := rfl
  rw [hct, ttb_eq href hf.resolves hnt hf.growth hw, ok_bind, Traversal.sum_spread hw]
  simp only
  have hout : outflows (leaf a).acct none = -takenOut (leaf a).acct.txns := by
    unfold outflows; rw [takenOut_neg]; simp
  rw [hout]
  have hz : 0 ≤ takenOut (leaf a).acct.txns := by
    have := negSum_nonpos (leaf a).acct.txns
    rw [takenOut_neg] at this
    linarith
  generalize takenOut (leaf a).acct.txns = z at hz ⊢
  have hc : outCap (leaf a).limits.maxOut (-z) none = .fin (min (m + z) 0) := by
    unfold outCap
    simp only
    cases hmax : (leaf a).limits.maxOut with
    | fin k =>
      rw [hmax, Ext.min_fin_fin] at hm
      have hm : min k 0 = m := by simpa using hm
      simp only [Ext.subFin, Ext.min_fin_fin, Ext.fin.injEq]
      rw [← hm]
      apply le_antisymm
      · refine le_min ?_ (min_le_right _ _)
        rcases min_choice k 0 with e | e <;> rw [e]
        · exact (min_le_left _ _).trans (by linarith)
        · exact (min_le_right _ _).trans (by linarith)
      · exact min_le_min (by have := min_le_left k 0; linarith) le_rfl
    | negInf => rw [hmax] at hm; simp at hm
    | posInf =>
      rw [hmax] at hm
      have hm : 0 = m := by simpa using hm
      rw [← hm]
      simp [Ext.subFin, hz]
  rw [hc]
  have hT : ∃ b : K, (Ext.subFin (.fin 0) ref).mulFin (weightedAccum (leaf a).acct.A nt)⁻¹ = .fin b :=
    ⟨(0 - ref) * (weightedAccum (leaf a).acct.A nt)⁻¹, by simp only [Ext.subFin, mulFin_fin]⟩
  obtain ⟨b, hb⟩ := hT
  rw [hb, Ext.min_fin_fin, Ext.max_fin_fin]
  exact ⟨_, rfl, max_le (min_le_right _ _) (min_le_right _ _), le_max_right _ _⟩

/-- A strategy that traverses a priority tree keeps to the limits of an account that does not share
them. -/
theorem traverses_modest {owed : A → Bool} {limits : A → Acct K → Limits K}
    {T : ℤ → (Option A → Pool K) → Traversal.Env M A K} {fuel : ℤ → (Option A → Pool K) → ℕ}
    {strategy : ℤ → (Option A → Pool K) → Except PyErr (Dict A (Dict K K))}
    (h : Traverses owed limits T fuel strategy) {a : A}
    (ha : ∀ y q, (T y q).groupOf a .maxIn = none) : Modest limits strategy a := by
  have evens := traverses_evens h
  refine ⟨fun y q d hq hs ht L x m hqa hm hle => ?_, fun y q d hq hs ht L x m hqa hm => ?_⟩
  · by_cases hne : d = []
    · subst hne; exact le_max_right _ _
    obtain ⟨xs, hxs, ho, hwf, hA, he⟩ := evens y q d hq hs hne
    obtain ⟨tm, nt, hf, hnt, hw, -⟩ := he a
    rw [hxs a] at hqa
    cases hqa
    have hc := h.call y q d hs
    have hp := h.precision y q
    have hlt : (T y q).precision < Dict.total (q none).txns := by
      by_contra hn
      rw [Traversal.C42_nothing (not_lt.1 hn) (by linarith)] at hc
      exact hne (Except.ok.inj hc).symm
    obtain ⟨lo, hi, l1, l2, l3, l4, l5⟩ := limit_in_cap ho (a := a) hf hnt hw (closing_end hf.inv)
      hm hle
    exact (Traversal.C42_inflows_account (h.sound y q) hA hp hlt hc a (ha y q) lo hi l1 l2 l3
      l4).2.trans l5
  · by_cases hne : d = []
    · subst hne; exact min_le_right _ _
    obtain ⟨xs, hxs, ho, hwf, hA, he⟩ := evens y q d hq hs hne
    obtain ⟨tm, nt, hf, hnt, hw, -⟩ := he a
    rw [hxs a] at hqa
    cases hqa
    have hc := h.call y q d hs
    have hp := h.precision y q
    have hlt : Dict.total (q none).txns < -(T y q).precision := by
      by_contra hn
      rw [Traversal.C42_nothing (by linarith) (not_lt.1 hn)] at hc
      exact hne (Except.ok.inj hc).symm
    obtain ⟨hi, l1, l2, l3⟩ := limit_out_cap ho (a := a) hf hnt hw (closing_end hf.inv) hm
    exact l3.trans (Traversal.C42_outflows_account (h.sound y q) hA hp hlt hc
      (h.root y q) (h.free y q) a hi l1 l2).2

/-! ### The whole run -/

/-- Every year of a careful household's run starts and ends with its books in order. -/
theorem run_books {N : Type} [DecidableEq N] {owed : A → Bool} {E : Env N A K}
    (hE : Careful owed E) {initial : ℤ} {n : ℕ}
    {accounts : A → Acct K} (hacc : ∀ a, Reachable (accounts a))
    (hg : ∀ a y, IsGrowth ((accounts a).growth y))
    (hfresh : ∀ a ∈ holdings E, (accounts a).txns = [])
    {s : FS K (Home N A K)} {start fin : ℕ → FS K (Home N A K)}
    (hr : Run E initial n accounts s start fin) :
    ∀ k ≤ n, Ready (start k).w (start k).available ∧ Within (start k).available ∧
      (∀ a, IsGrowth ((start k).w.accounts a).A) ∧
      (∀ a ∈ holdings E, ((start k).w.accounts a).txns = []) ∧
      Books (fin k).w (fin k).available ∧ SameAccounts (start k).w (fin k).w ∧
      (k < n → ∀ a ∈ holdings E,
        Account.nextYear ((fin k).w.accounts a) = .ok ((start (k + 1)).w.accounts a)) := by
  have hT := hE.timed
  have key : ∀ k ≤ n, Ready (start k).w (start k).available ∧ Within (start k).available ∧
      (∀ a, ((start k).w.accounts a).growth = (accounts a).growth) ∧
      ∀ a ∈ holdings E, ((start k).w.accounts a).txns = [] := by
    intro k
    induction k with
    | zero =>
      intro _
      rw [hr.first]
      exact ⟨⟨⟨Dict.wf_nil, fun a => (hacc a).inv⟩, fun k => ⟨rfl, rfl⟩⟩, within_nil,
        fun _ => rfl, fun a ha => hfresh a ha⟩
    | succ k ih =>
      intro hk
      obtain ⟨i1, i2, i3, i4⟩ := ih (by omega)
      have hA : ∀ a, IsGrowth ((start k).w.accounts a).A := fun a => by
        unfold Acct.A; rw [i3]; exact hg a _
      obtain ⟨y1, -, y3, -⟩ := careful_year hE i1 i2 hA (hr.year k (by omega))
      obtain ⟨n1, -, -, -, n5, n6⟩ := new_year hT y1 (hr.step (by omega)) (hr.next k (by omega))
      refine ⟨n1, next_within hE.dates hT (hr.next k (by omega)), fun a => ?_, fun a ha => ?_⟩
      · by_cases ha : a ∈ holdings E
        · have hn := n5 a ha
          rw [nextYear_eq (opening_eq (y1.acct a))] at hn
          rw [← Except.ok.inj hn]
          exact (same_A (y3 a)).2.2.1.trans (i3 a)
        · rw [n6 a ha]; exact (same_A (y3 a)).2.2.1.trans (i3 a)
      · have hn := n5 a ha
        rw [nextYear_eq (opening_eq (y1.acct a))] at hn
        rw [← Except.ok.inj hn]
  intro k hk
  obtain ⟨i1, i2, i3, i4⟩ := key k hk
  have hA : ∀ a, IsGrowth ((start k).w.accounts a).A := fun a => by
    unfold Acct.A; rw [i3]; exact hg a _
  obtain ⟨y1, -, y3, -⟩ := careful_year hE i1 i2 hA (hr.year k hk)
  refine ⟨i1, i2, hA, i4, y1, y3, fun hk' => ?_⟩
  obtain ⟨-, -, -, -, n5, -⟩ := new_year hT y1 (hr.step hk) (hr.next k hk')
  exact n5

/-- Specification: an account's limits do not change in the course of a year. -/
def Yearly (limits : Acct K → Limits K) : Prop :=
  ∀ x d, limits { x with txns := d } = limits x

theorem Yearly.same {limits : Acct K → Limits K} (h : Yearly limits) {x x' : Acct K}
    (hs : { x' with txns := [] } = { x with txns := [] }) : limits x' = limits x := by
  rw [← h x [], ← h x' [], hs]

/-- **C113.** In the forecast of a household whose strategies traverse priority trees, in no year
is more paid into an account, or taken out of it, than its limits of that year allow - provided that
it does not share its limits with others, that they do not change in the course of a year, and that
its minimum inflow is not more than its maximum (or 0). -/
theorem C113_limits_kept {N : Type} [DecidableEq N] {M' : Type} [DecidableEq M']
    {owed : A → Bool} {E : Env N A K}
    {T : ℤ → (Option A → Pool K) → Traversal.Env M A K} {fuel : ℤ → (Option A → Pool K) → ℕ}
    {T' : ℤ → (Option A → Pool K) → Traversal.Env M' A K} {fuel' : ℤ → (Option A → Pool K) → ℕ}
    (hs : Traverses owed E.limits T fuel E.saving)
    (hw : Traverses owed E.limits T' fuel' E.withdrawal)
    (people : E.people ≠ [])
    (paid : ∀ i y, Dated (E.earner i y).timing ∧ Dict.total (E.earner i y).timing ≠ 0)
    (timing : Dated (E.default .income) ∧ Dict.total (E.default .income) ≠ 0)
    (refund : Dated E.refund ∧ Dict.total E.refund ≠ 0)
    (payment : Dated E.payment ∧ Dict.total E.payment ≠ 0)
    {initial : ℤ} {n : ℕ} {accounts : A → Acct K} (hacc : ∀ a, Reachable (accounts a))
    (hg : ∀ a y, IsGrowth ((accounts a).growth y))
    (hfresh : ∀ a ∈ holdings E, (accounts a).txns = [])
    {s : FS K (Home N A K)} {start fin : ℕ → FS K (Home N A K)}
    (hr : Run E initial n accounts s start fin)
    {a : A} (ha : a ∈ holdings E)
    (alone : ∀ y q, (T y q).groupOf a .maxIn = none ∧ (T' y q).groupOf a .maxIn = none)
    (hl : Yearly (E.limits a))
    (hb : ∀ x, (E.limits a x).minIn ≤ max (E.limits a x).maxIn (.fin 0)) :
    ∀ k ≤ n,
      .fin (paidIn ((fin k).w.accounts a).txns)
        ≤ max (E.limits a ((fin k).w.accounts a)).maxIn (.fin 0) ∧
      min (E.limits a ((fin k).w.accounts a)).maxOut (.fin 0)
        ≤ .fin (-takenOut ((fin k).w.accounts a).txns) := by
  have hE : Careful owed E := ⟨people, paid, timing, refund, payment,
    C95_traversals_prudent hs, C95_traversals_prudent hw⟩
  intro k hk
  obtain ⟨i1, i2, i3, i4, i5, i6, -⟩ := run_books hE hacc hg hfresh hr k hk
  have m1 := traverses_modest hs fun y q => (alone y q).1
  have m2 := traverses_modest hw fun y q => (alone y q).2
  rw [hl.same (i6 a)]
  refine ⟨?_, ?_⟩
  · cases hm : max (E.limits a ((start k).w.accounts a)).maxIn (.fin 0) with
    | fin m =>
      have h0 : 0 ≤ m := by
        have : (.fin 0 : Ext K) ≤ .fin m := by rw [← hm]; exact le_max_right _ _
        simpa using this
      have := year_in hE i1 i2 i3 (hr.year k hk) m1 m2
        (fun x' hx _ => by rw [hl.same hx]; exact ⟨rfl, rfl⟩) (i4 a ha) hm (hb _)
      rw [max_eq_left h0] at this
      simpa using this
    | posInf => simp
    | negInf =>
      have : (.fin 0 : Ext K) ≤ .negInf := by rw [← hm]; exact le_max_right _ _
      simp at this
  · cases hm : min (E.limits a ((start k).w.accounts a)).maxOut (.fin 0) with
    | fin m =>
      have h0 : m ≤ 0 := by
        have : (.fin m : Ext K) ≤ .fin 0 := by rw [← hm]; exact min_le_right _ _
        simpa using this
      have := year_out hE i1 i2 i3 (hr.year k hk) m1 m2
        (fun x' hx _ => by rw [hl.same hx]) (i4 a ha) hm
      rw [max_eq_left (by linarith)] at this
      have : m ≤ -takenOut ((fin k).w.accounts a).txns := by linarith
      simpa using this
    | negInf => simp
    | posInf =>
      have : (.posInf : Ext K) ≤ .fin 0 := by rw [← hm]; exact min_le_right _ _
      simp at this

end trees

end Forecaster.Household

namespace Forecaster.Registered

open Forecaster Forecaster.Timing Forecaster.Account

variable {K : Type} [Field K] [LinearOrder K] [IsStrictOrderedRing K]

/-- Contributing to the only account of a group. -/
theorem alone_add_num (next : Grp K → Reg K → Except PyErr K) (fuel : ℕ) {y0 : ℤ} {G : ℤ → K → K}
    {n : ℕ} {g : Grp K} {r : Reg K} (h : Alone y0 G n g r) {t v : K} (h0 : 0 ≤ t) (h1 : t ≤ 1) :
    ∃ g' r', step next fuel g (.add 0 v (.num t)) = .ok g' ∧ Alone y0 G n g' r' ∧
      g'.room = g.room ∧
      r'.acct = { r.acct with txns := Dict.set r.acct.txns t (Dict.val r.acct.txns t + v) } := by
  have hw : whenConv (.num t : When K) = .ok t := by simp [whenConv, h0, h1]
  have hadd := addTransaction_eq (a := r.acct) (v := v) hw
  have hs : step next fuel g (.add 0 v (.num t)) = .ok { g with
      accts := [{ r with acct :=
        { r.acct with txns := Dict.set r.acct.txns t (Dict.val r.acct.txns t + v) } }] } := by
    show addTo g 0 v (.num t) = _
    unfold addTo
    rw [h.one]
    simp only [List.getElem?_cons_zero, hadd, ok_bind, List.set_cons_zero]
  exact ⟨_, _, hs, ⟨rfl, h.year, reachable_step h.reach (.add v (.num t)) hadd, h.growth, h.inputs,
    h.fut⟩, rfl, rfl⟩

/-- Any transactions can be made, one by one. -/
theorem alone_txns (next : Grp K → Reg K → Except PyErr K) (fuel : ℕ) {y0 : ℤ} {G : ℤ → K → K}
    {n : ℕ} {g0 : Grp K} {ops : List (Op K)} {r : Reg K}
    (h : Alone y0 G n (run next fuel g0 ops) r) (hr : r.acct.txns = []) {d : Dict K K}
    (hd : Dict.WF d) (hk : ∀ k ∈ Dict.keys d, 0 ≤ k ∧ k ≤ 1) :
    ∃ more r', Alone y0 G n (run next fuel g0 (ops ++ more)) r' ∧
      (run next fuel g0 (ops ++ more)).room = (run next fuel g0 ops).room ∧
      r'.acct = { r.acct with txns := d } := by
  induction d using List.reverseRecOn with
  | nil => exact ⟨[], r, by simpa using h, by simp, by rw [← hr]⟩
  | append_singleton d e ih =>
    have hkeys : Dict.keys (d ++ [e]) = Dict.keys d ++ [e.1] := by simp [Dict.keys]
    have hd' := hd
    unfold Dict.WF at hd'
    rw [hkeys, List.nodup_append] at hd'
    obtain ⟨d1, -, d3⟩ := hd'
    obtain ⟨more, r1, i1, i2, i3⟩ := ih d1 fun k hk' => hk k (by rw [hkeys]; simp [hk'])
    obtain ⟨t0, t1⟩ := hk e.1 (by rw [hkeys]; simp)
    obtain ⟨g', r', j1, j2, j3, j4⟩ := alone_add_num next fuel i1 (t := e.1) (v := e.2) t0 t1
    have hrun : run next fuel g0 (ops ++ (more ++ [.add 0 e.2 (.num e.1)])) = g' := by
      rw [← List.append_assoc, run_snoc, j1]
    have hnm : e.1 ∉ Dict.keys d := fun hc => d3 _ hc _ (by simp) rfl
    refine ⟨more ++ [.add 0 e.2 (.num e.1)], r', by rw [hrun]; exact j2,
      by rw [hrun, j3, i2], ?_⟩
    rw [j4, i3]
    simp only
    rw [Dict.set_of_not_mem _ hnm, Dict.val, Dict.get?_eq_none.2 hnm]
    simp

/-- A new year of the only account of a group. -/
theorem alone_year {next : Grp K → Reg K → Except PyErr K} {y0 : ℤ} {G : ℤ → K → K} {n : ℕ}
    {g : Grp K} {r : Reg K} (h : Alone y0 G n g r) {v : K} (hv : next g r = .ok v) (fuel : ℕ) :
    ∃ g' r', step next (fuel + 1) g (.nextYear 0) = .ok g' ∧ Alone y0 G (n + 1) g' r' ∧
      g'.room = v ∧ Account.nextYear r.acct = .ok r'.acct := by
  have hinv0 := h.reach.inv
  have hsync : ∀ s ∈ g.accts, s.acct.year = y0 + n := by
    intro s hs; rw [h.one] at hs; simp at hs; subst hs; exact h.year
  have hinv : ∀ s ∈ g.accts, Account.Inv s.acct := by
    intro s hs; rw [h.one] at hs; simp at hs; subst hs; exact hinv0
  have hi : g.accts[0]? = some r := by rw [h.one]; rfl
  have hp : plannedRoom next g r = .ok (some v) := by
    unfold plannedRoom
    rw [if_pos (inSync_iff.2 (by rw [h.year]; exact hsync)), h.fut _ (by rw [h.year]; omega)]
    simp only [hv]; rfl
  obtain ⟨r', g1, e1, ey, q2, q3, q4, -, q6⟩ := nextYear_sync next hsync hinv hi hp
    (fuel := fuel + 1) (by rw [h.one]; simp)
  obtain ⟨r1, e2, f1, f2, f3, f4, f5, f6⟩ := advance_spec (g := g) hinv0
  rw [e1] at e2
  cases e2
  unfold setContributionRoom at q6
  rw [q4] at q6
  simp only [f4, h.inputs, Dict.keys, List.map_nil, List.not_mem_nil, if_false] at q6
  obtain ⟨r2, v2, a1, a2, a3, a4, a5⟩ := alone_next h q6
  rw [hv] at a2
  cases a2
  have hacct : r2.acct = r'.acct := by
    have h3 := a1.one
    have hone : g1.accts = [r'] := by
      have := q2.each.length_eq
      rw [h.one] at this
      obtain ⟨x, hx⟩ := List.length_eq_one_iff.1 this.symm
      rw [hx] at q4
      simp at q4
      rw [hx, q4]
    simp only [hone, List.set_cons_zero, List.cons.injEq, and_true] at h3
    rw [← h3]
  exact ⟨_, r2, q6, a1, a3, by rw [hacct]; exact f3⟩

end Forecaster.Registered

namespace Forecaster.Household

open Forecaster Forecaster.Timing Forecaster.Account Forecaster.SubForecast Forecaster.CashFlow
open Forecaster.Forecast (FS scenarioYears)

variable {K : Type} [Field K] [LinearOrder K] [IsStrictOrderedRing K] [FloorRing K]
variable {N A : Type} [DecidableEq N] [DecidableEq A]

/-- Specification: the account's limit for contributions is, after whatever history, the
contribution room of a registered account `a0` that is opened with room `room0` and is not linked to
others; `next` is its `next_contribution_room`. -/
def RoomLimits (next : Registered.Grp K → Registered.Reg K → Except PyErr K) (a0 : Acct K)
    (room0 : K) (c : ℤ) (limits : Acct K → Limits K) : Prop :=
  ∀ ops r, (Registered.run next 1 (Registered.single a0 [] room0 c) ops).accts = [r] →
    (limits r.acct).minIn = .fin 0 ∧ (limits r.acct).maxIn
      = .fin (Registered.run next 1 (Registered.single a0 [] room0 c) ops).room

theorem paid_eq (d : Dict K K) : Registered.paid d = paidIn d := by
  unfold Registered.paid paidIn Dict.vals
  rw [List.map_map]; rfl

/-- The years of a registered account in a household's forecast. -/
theorem room_run {next : Registered.Grp K → Registered.Reg K → Except PyErr K}
    {flow : Dict K K → K} {acc : ℤ → K}
    (hnext : ∀ g r v, next g r = .ok v →
      Registered.paid r.acct.txns ≤ Registered.contributionRoom g r →
      0 ≤ v ∧ v + flow r.acct.txns ≤ Registered.contributionRoom g r + acc (r.acct.year + 1))
    (hok : ∀ g r, ∃ v, next g r = .ok v)
    {owed : A → Bool} {E : Env N A K} (hE : Careful owed E) {initial : ℤ} {n : ℕ}
    {accounts : A → Acct K} (hacc : ∀ a, Reachable (accounts a))
    (hg : ∀ a y, IsGrowth ((accounts a).growth y))
    (hfresh : ∀ a ∈ holdings E, (accounts a).txns = [])
    {s : FS K (Home N A K)} {start fin : ℕ → FS K (Home N A K)}
    (hr : Run E initial n accounts s start fin)
    {a : A} (ha : a ∈ holdings E) (h1 : Modest E.limits E.saving a)
    (h2 : Modest E.limits E.withdrawal a) {bal : K} {G : ℤ → K → K} {dt : Dict K K}
    (hnew : accounts a = Account.init initial bal G dt) {room0 : K} (h0 : 0 ≤ room0) {c : ℤ}
    (hlim : RoomLimits next (accounts a) room0 c (E.limits a)) :
    ∀ k ≤ n, ∃ ops r, Registered.Careful flow acc initial G room0 k
        (Registered.run next 1 (Registered.single (accounts a) [] room0 c) ops) r ∧
      r.acct = (fin k).w.accounts a := by
  have half : ∀ k ≤ n, (∃ ops r, Registered.Careful flow acc initial G room0 k
        (Registered.run next 1 (Registered.single (accounts a) [] room0 c) ops) r ∧
        r.acct = (start k).w.accounts a) →
      ∃ ops r, Registered.Careful flow acc initial G room0 k
        (Registered.run next 1 (Registered.single (accounts a) [] room0 c) ops) r ∧
      r.acct = (fin k).w.accounts a := by
    rintro k hk ⟨ops, r, hc, hra⟩
    obtain ⟨i1, i2, i3, i4, i5, i6, -⟩ := run_books hE hacc hg hfresh hr k hk
    have hnil : r.acct.txns = [] := by rw [hra]; exact i4 a ha
    have reach : ∀ x', { x' with txns := [] } = { (start k).w.accounts a with txns := [] } →
        Account.Inv x' → ∃ more r', Registered.Alone initial G k
          (Registered.run next 1 (Registered.single (accounts a) [] room0 c) (ops ++ more)) r' ∧
        (Registered.run next 1 (Registered.single (accounts a) [] room0 c) (ops ++ more)).room
          = (Registered.run next 1 (Registered.single (accounts a) [] room0 c) ops).room ∧
        r'.acct = x' := by
      intro x' hx hi
      obtain ⟨more, r', m1, m2, m3⟩ := Registered.alone_txns next 1 hc.alone hnil hi.tx.wf hi.tx.rng
      refine ⟨more, r', m1, m2, ?_⟩
      rw [m3, hra]
      have := congrArg (fun z : Acct K => { z with txns := x'.txns }) hx
      exact this.symm
    obtain ⟨l1, l2⟩ := hlim ops r hc.alone.one
    rw [hra] at l1 l2
    have hroom : 0 ≤ (Registered.run next 1 (Registered.single (accounts a) [] room0 c) ops).room :=
      (Registered.paid_nonneg _).trans hc.now
    obtain ⟨more, r', m1, m2, m3⟩ := reach _ (i6 a) (i5.acct a)
    refine ⟨ops ++ more, r', ⟨m1, ?_, ?_⟩, m3⟩
    · have : ∀ y, Registered.recorded r' y = Registered.recorded r y := by
        intro y
        unfold Registered.recorded
        rw [m3, hra, (same_A (i6 a)).2.2.2.2.1]
      simp only [this, m2]
      exact hc.past
    · rw [paid_eq, m3, m2]
      have := year_in hE i1 i2 i3 (hr.year k hk) h1 h2 (fun x' hx hi => by
        obtain ⟨more', r'', p1, p2, p3⟩ := reach x' hx hi
        obtain ⟨q1, q2⟩ := hlim _ r'' p1.one
        rw [p3] at q1 q2
        rw [q1, q2, l1, l2, p2]
        exact ⟨rfl, rfl⟩) (i4 a ha) (m := (Registered.run next 1
          (Registered.single (accounts a) [] room0 c) ops).room)
        (by rw [l2, Ext.max_fin_fin, max_eq_left hroom]) (by rw [l1]; exact le_max_right _ _)
      rwa [max_eq_left hroom] at this
  intro k
  induction k with
  | zero =>
    intro hk
    refine half 0 hk ⟨[], ⟨accounts a, [], []⟩, ⟨?_, ?_, ?_⟩, ?_⟩
    · rw [hnew]
      simpa [Registered.run] using Registered.alone_init initial bal G dt room0 c
    · simp [Registered.run, Registered.single]
    · rw [hnew]
      simpa [Registered.paid, Account.init, Registered.run, Registered.single, Dict.vals] using h0
    · rw [hr.first]; rfl
  | succ k ih =>
    intro hk
    obtain ⟨ops, r, hc, hra⟩ := ih (by omega)
    obtain ⟨-, -, -, -, i5, -, i7⟩ := run_books hE hacc hg hfresh hr k (by omega)
    have hny := i7 (by omega) a ha
    obtain ⟨v, hv⟩ := hok (Registered.run next 1 (Registered.single (accounts a) [] room0 c) ops) r
    obtain ⟨g', r', a1, a2, a3, a4⟩ := Registered.alone_year hc.alone hv 0
    rw [hra, hny] at a4
    have hacct := Except.ok.inj a4
    obtain ⟨r2, v2, b1, b2, b3, b4, b5⟩ := Registered.alone_next hc.alone a1
    obtain rfl : r' = r2 := by have := a2.one; rw [b1.one] at this; simpa using this.symm
    rw [hv] at b2
    cases b2
    obtain ⟨hv0, hv'⟩ := hnext _ r v hv (by rw [hc.alone.room]; exact hc.now)
    rw [hc.alone.room] at hv'
    have hrun : Registered.run next 1 (Registered.single (accounts a) [] room0 c)
        (ops ++ [.nextYear 0]) = g' := by rw [Registered.run_snoc, a1]
    refine half (k + 1) hk ⟨ops ++ [.nextYear 0], r', ?_, hacct.symm⟩
    rw [hrun]
    refine ⟨a2, ?_, ?_⟩
    · have hsum : ∑ j ∈ Finset.range k, flow (Registered.recorded r' (initial + j))
          = ∑ j ∈ Finset.range k, flow (Registered.recorded r (initial + j)) := by
        refine Finset.sum_congr rfl fun j hj => ?_
        rw [b5, if_neg]
        have := Finset.mem_range.1 hj
        have := hc.alone.year
        omega
      rw [Finset.sum_range_succ, Finset.sum_range_succ, hsum, b5, if_pos hc.alone.year.symm, a3]
      have h3 := hc.past
      rw [hc.alone.year] at hv'
      linarith
    · rw [b4, a3]
      simpa [Registered.paid, Dict.vals] using hv0

/-- **C113 (TFSA).** A household's forecast never over-contributes to a TFSA that is not linked to
others: however many years the forecast covers, what has been contributed up to any year (net of what
was withdrawn in past years) is at most the first room plus the room that has accrued since, and the
contributions of the last year are within that year's room. -/
theorem C113_tfsa (e : Registered.TfsaEnv K) (acc : ℤ → K)
    (haccr : ∀ y, Registered.accrual e y = .ok (acc y)) (hpos : ∀ y, 0 ≤ acc y)
    {M M' : Type} [DecidableEq M] [DecidableEq M'] {owed : A → Bool} {E : Env N A K}
    {T : ℤ → (Option A → Pool K) → Traversal.Env M A K} {fuel : ℤ → (Option A → Pool K) → ℕ}
    {T' : ℤ → (Option A → Pool K) → Traversal.Env M' A K} {fuel' : ℤ → (Option A → Pool K) → ℕ}
    (hs : Traverses owed E.limits T fuel E.saving)
    (hw : Traverses owed E.limits T' fuel' E.withdrawal)
    (people : E.people ≠ [])
    (paid : ∀ i y, Dated (E.earner i y).timing ∧ Dict.total (E.earner i y).timing ≠ 0)
    (timing : Dated (E.default .income) ∧ Dict.total (E.default .income) ≠ 0)
    (refund : Dated E.refund ∧ Dict.total E.refund ≠ 0)
    (payment : Dated E.payment ∧ Dict.total E.payment ≠ 0)
    {initial : ℤ} {n : ℕ} {accounts : A → Acct K} (hacc : ∀ a, Reachable (accounts a))
    (hyear : ∀ a ∈ holdings E, (accounts a).year = initial)
    (hg : ∀ a y, IsGrowth ((accounts a).growth y))
    (hfresh : ∀ a ∈ holdings E, (accounts a).txns = [])
    {a : A} (ha : a ∈ holdings E)
    (alone : ∀ y q, (T y q).groupOf a .maxIn = none ∧ (T' y q).groupOf a .maxIn = none)
    {bal : K} {growth : ℤ → K → K} {dt : Dict K K}
    (hnew : accounts a = Account.init initial bal growth dt) {room0 : K} (h0 : 0 ≤ room0) {c : ℤ}
    (hlim : RoomLimits (Registered.tfsaNext e) (accounts a) room0 c (E.limits a))
    {s : FS K (Home N A K)}
    (h : forecast E initial (scenarioYears initial (n + 1)) accounts = .ok s) :
    ∑ k ∈ Finset.range n,
        Dict.total ((Dict.get? (s.w.accounts a).txHist (initial + k)).getD [])
      + paidIn (s.w.accounts a).txns
      ≤ room0 + ∑ k ∈ Finset.range n, acc (initial + k + 1) ∧
    ∃ room, (E.limits a (s.w.accounts a)).maxIn = .fin room ∧
      paidIn (s.w.accounts a).txns ≤ room := by
  have hE : Careful owed E := ⟨people, paid, timing, refund, payment,
    C95_traversals_prudent hs, C95_traversals_prudent hw⟩
  obtain ⟨start, fin, hr⟩ := C79_run hyear h
  obtain ⟨ops, r, hc, hra⟩ := room_run (next := Registered.tfsaNext e) (flow := Registered.net)
    (acc := acc) (fun g r v hv hr => by
      have hp := pos_add_neg r.acct.txns
      have hn := Registered.net_le_paid r.acct.txns
      unfold Dict.total at hp
      unfold Registered.net at hn ⊢
      simp only [Registered.tfsaNext, haccr, ok_bind, outflows, inflows] at hv
      have hv := Except.ok.inj hv
      have h3 := hpos (r.acct.year + 1)
      rw [← hp] at hn ⊢
      refine ⟨?_, ?_⟩ <;> rw [← hv] <;> linarith)
    (fun g r => ⟨_, by simp only [Registered.tfsaNext, haccr, ok_bind]; rfl⟩) hE hacc hg hfresh hr ha
    (traverses_modest hs fun y q => (alone y q).1) (traverses_modest hw fun y q => (alone y q).2)
    hnew h0 hlim n le_rfl
  rw [hr.last] at hra
  obtain ⟨-, l2⟩ := hlim ops r hc.alone.one
  have h1 := hc.past
  have h2 := hc.now
  unfold Registered.recorded at h1
  rw [hra] at h1 h2 l2
  rw [paid_eq] at h2
  exact ⟨by
    have : ∀ d : Dict K K, Registered.net d = Dict.total d := fun d => rfl
    simp only [this] at h1
    linarith, _, l2, h2⟩

/-- **C113 (RRSP).** The same for an RRSP that is not linked to others: contributions are never more
than the first room plus what has accrued, at the given rate of the contributor's income of the year
before and at most the year's maximum. (Withdrawals do not restore room.) -/
theorem C113_rrsp (e : Registered.RrspEnv K) (income most : ℤ → K)
    (hage : ∀ y, ∃ age, e.contributorAge y = .ok age) (hinc : ∀ y, e.income y = .ok (income y))
    (hmost : ∀ y, Registered.extendScalar e.const.accrualMax e.adj y = .ok (most y))
    (hrate : 0 ≤ e.const.rate) (hinc0 : ∀ y, 0 ≤ income y) (hmost0 : ∀ y, 0 ≤ most y)
    {M M' : Type} [DecidableEq M] [DecidableEq M'] {owed : A → Bool} {E : Env N A K}
    {T : ℤ → (Option A → Pool K) → Traversal.Env M A K} {fuel : ℤ → (Option A → Pool K) → ℕ}
    {T' : ℤ → (Option A → Pool K) → Traversal.Env M' A K} {fuel' : ℤ → (Option A → Pool K) → ℕ}
    (hs : Traverses owed E.limits T fuel E.saving)
    (hw : Traverses owed E.limits T' fuel' E.withdrawal)
    (people : E.people ≠ [])
    (paid : ∀ i y, Dated (E.earner i y).timing ∧ Dict.total (E.earner i y).timing ≠ 0)
    (timing : Dated (E.default .income) ∧ Dict.total (E.default .income) ≠ 0)
    (refund : Dated E.refund ∧ Dict.total E.refund ≠ 0)
    (payment : Dated E.payment ∧ Dict.total E.payment ≠ 0)
    {initial : ℤ} {n : ℕ} {accounts : A → Acct K} (hacc : ∀ a, Reachable (accounts a))
    (hyear : ∀ a ∈ holdings E, (accounts a).year = initial)
    (hg : ∀ a y, IsGrowth ((accounts a).growth y))
    (hfresh : ∀ a ∈ holdings E, (accounts a).txns = [])
    {a : A} (ha : a ∈ holdings E)
    (alone : ∀ y q, (T y q).groupOf a .maxIn = none ∧ (T' y q).groupOf a .maxIn = none)
    {bal : K} {growth : ℤ → K → K} {dt : Dict K K}
    (hnew : accounts a = Account.init initial bal growth dt) {room0 : K} (h0 : 0 ≤ room0) {c : ℤ}
    (hlim : RoomLimits (Registered.rrspNext e) (accounts a) room0 c (E.limits a))
    {s : FS K (Home N A K)}
    (h : forecast E initial (scenarioYears initial (n + 1)) accounts = .ok s) :
    ∑ k ∈ Finset.range n,
        paidIn ((Dict.get? (s.w.accounts a).txHist (initial + k)).getD [])
      + paidIn (s.w.accounts a).txns
      ≤ room0 + ∑ k ∈ Finset.range n,
          min (e.const.rate * income (initial + k)) (most (initial + k + 1)) ∧
    ∃ room, (E.limits a (s.w.accounts a)).maxIn = .fin room ∧
      paidIn (s.w.accounts a).txns ≤ room := by
  have hE : Careful owed E := ⟨people, paid, timing, refund, payment,
    C95_traversals_prudent hs, C95_traversals_prudent hw⟩
  obtain ⟨start, fin, hr⟩ := C79_run hyear h
  obtain ⟨ops, r, hc, hra⟩ := room_run (next := Registered.rrspNext e) (flow := Registered.paid)
    (acc := fun y => min (e.const.rate * income (y - 1)) (most y)) (fun g r v hv hr => by
      have h3 : 0 ≤ min (e.const.rate * income r.acct.year) (most (r.acct.year + 1)) :=
        le_min (mul_nonneg hrate (hinc0 _)) (hmost0 _)
      simp only [add_sub_cancel_right]
      unfold Registered.rrspNext at hv
      cases ha : e.contributorAge (r.acct.year + 1) with
      | error er => rw [ha] at hv; cases hv
      | ok age =>
        rw [ha, ok_bind] at hv
        split_ifs at hv with hlt
        · have hv := Except.ok.inj hv
          rw [← hv]
          exact ⟨le_rfl, by linarith⟩
        · rw [hinc, ok_bind, hmost, ok_bind] at hv
          have hv := Except.ok.inj hv
          have hp := Registered.paid_filter r.acct.txns
          simp only [inflows, posSum, gt_iff_lt, zero_add] at hv
          rw [mul_comm] at hv
          simp only [hp] at hv
          refine ⟨?_, ?_⟩ <;> rw [← hv] <;> linarith)
    (fun g r => by
      obtain ⟨age, h1⟩ := hage (r.acct.year + 1)
      unfold Registered.rrspNext
      rw [h1, ok_bind]
      split_ifs
      · exact ⟨_, rfl⟩
      · rw [hinc, ok_bind, hmost, ok_bind]; exact ⟨_, rfl⟩) hE hacc hg hfresh hr ha
    (traverses_modest hs fun y q => (alone y q).1) (traverses_modest hw fun y q => (alone y q).2)
    hnew h0 hlim n le_rfl
  rw [hr.last] at hra
  obtain ⟨-, l2⟩ := hlim ops r hc.alone.one
  have h1 := hc.past
  have h2 := hc.now
  unfold Registered.recorded at h1
  simp only [add_sub_cancel_right, paid_eq] at h1
  rw [hra] at h1 h2 l2
  rw [paid_eq] at h2
  exact ⟨by linarith, _, l2, h2⟩

/-! ### A household with a TFSA -/

section examples

/-- Room of 10 accrues every year. -/
def exTfsa : Registered.TfsaEnv ℚ where
  const := ⟨[(2009, 10)], 18, 5⟩
  adj _ _ := .ok 1
  ownerAge _ := .ok 40
  contributorAge _ := .ok 40

theorem exTfsa_accrual (y : ℤ) : Registered.accrual exTfsa y = .ok 10 := by
  unfold Registered.accrual
  by_cases h : y = 2009
  · subst h; decide +kernel
  · have hg : Dict.get? exTfsa.const.annual y = none := by
      rw [Dict.get?_eq_none]
      simp [exTfsa, Dict.keys, h]
    have h1 : exTfsa.ownerAge (y + 1) = .ok 40 := rfl
    rw [h1, ok_bind, if_neg (by decide)]
    simp only [hg]
    show (do let b ← Registered.baseAccrual exTfsa; let yr ← Registered.baseYear exTfsa
             let f ← exTfsa.adj yr y; Registered.roundTo exTfsa.const.unit (b * f)) = _
    have h2 : Registered.baseAccrual exTfsa = .ok 10 := by decide +kernel
    have h3 : Registered.baseYear exTfsa = .ok 2009 := by decide +kernel
    have h4 : exTfsa.adj 2009 y = .ok 1 := rfl
    rw [h2, ok_bind, h3, ok_bind, h4, ok_bind]
    decide +kernel

/-- The account `true` of `exFamily` is a TFSA that had room of 25 in 2020. -/
def exTfsaLimits (a : Bool) (x : Acct ℚ) : Limits ℚ :=
  if a then
    { plainLimits with
      maxIn := .fin (25 + 10 * ((x.year - 2020).toNat : ℚ)
        - ∑ k ∈ Finset.range (x.year - 2020).toNat,
            Dict.total ((Dict.get? x.txHist (2020 + (k : ℤ))).getD [])) }
  else plainLimits

/-- The family, with less to spend. -/
def exSavers : Env Unit Bool ℚ :=
  { exFamily with
    limits := exTfsaLimits
    expenses := fun _ _ => .ok 60 }

theorem exSavers_traverses (saving : Bool) :
    Traverses (fun a => !a) exSavers.limits (fun _ q => exTraversal saving q) (fun _ _ => 12)
      (exStrategy saving) where
  call _ _ _ h := h
  asks _ q x hx := by
    have : exLeaf q = fun a => ⟨x a, exSavers.limits a (x a), !a⟩ := by
      funext a; unfold exLeaf; rw [hx a]
    exact ⟨fun a lim z => by show Traversal.accountTx (exLeaf q a) _ lim z = _; rw [this],
      fun a lim => by show Traversal.accountLimit (exLeaf q a) _ lim = _; rw [this]⟩
  sound := (exFamily_traverses saving).sound
  precision := (exFamily_traverses saving).precision
  root := (exFamily_traverses saving).root
  free _ _ := rfl
  alone _ _ _ _ := rfl
  bounds a x h := by
    cases a
    · show (Ext.fin (0 : ℚ)) ≤ .posInf
      simp
    · simp at h

theorem exSavers_room : RoomLimits (Registered.tfsaNext exTfsa) (exIdle true) 25 2020
    (exSavers.limits true) := by
  intro ops r hr
  refine ⟨rfl, ?_⟩
  obtain ⟨n, r', e1, e2, e3⟩ := Registered.C35_room_conserved exTfsa (fun _ => 10) exTfsa_accrual 2020
    100 (fun _ _ => 1) [] 25 2020 1 ops
  have hx : exIdle true = Account.init 2020 100 (fun _ _ => 1) [] := rfl
  rw [hx] at hr ⊢
  obtain rfl : r = r' := by rw [e1] at hr; simpa using hr.symm
  have hn : (r.acct.year - 2020).toNat = n := by rw [e2]; omega
  show Ext.fin _ = _
  rw [hn]
  congr 1
  rw [Finset.sum_const, Finset.card_range, nsmul_eq_mul] at e3
  unfold Dict.total
  linarith

/-- In 2020 and 2021 they pay off the loan of 50 and put 30 into the TFSA; in 2022, of the 40 they
have left, only the remaining room of 15 can be contributed, and 25 stay as cash. -/
example : (forecast exSavers 2020 (scenarioYears 2020 3) exIdle).map
    (fun s => [closing (s.w.accounts true), closing (s.w.accounts false), Dict.total s.available])
      = .ok [145, 0, 25] := by decide +kernel

example {n : ℕ} {s : FS ℚ (Home Unit Bool ℚ)}
    (h : forecast exSavers 2020 (scenarioYears 2020 (n + 1)) exIdle = .ok s) :
    ∑ k ∈ Finset.range n,
        Dict.total ((Dict.get? (s.w.accounts true).txHist (2020 + (k : ℤ))).getD [])
      + paidIn (s.w.accounts true).txns ≤ 25 + ∑ k ∈ Finset.range n, (10 : ℚ) := by
  have half : (0 : ℚ) ≤ 1 / 2 ∧ (1 / 2 : ℚ) ≤ 1 := by norm_num
  exact (C113_tfsa (a := true) (accounts := exIdle) (initial := 2020) exTfsa (fun _ => 10) exTfsa_accrual (by norm_num)
    (exSavers_traverses true) (exSavers_traverses false) (by decide)
    (fun _ _ => dated_one half) (dated_one half) (dated_one half) (dated_one half)
    (fun a => ⟨_, _, _, _, [], rfl⟩) (fun a _ => rfl)
    (fun a y => ⟨rfl, fun _ _ => (one_mul _).symm, fun _ => zero_lt_one⟩)
    (fun a _ => rfl) (by decide) (fun _ _ => ⟨rfl, rfl⟩) rfl (by norm_num) exSavers_room h).1

/-- The family of `C95`, from whose savings at most 30 a year can be withdrawn. -/
def exRationed : Env Unit Bool ℚ :=
  { exFamily with
    limits := fun a _ => if a then { plainLimits with maxOut := .fin (-30) } else plainLimits }

/-- They lack 60 in 2021, but take out only 30. -/
example : (forecast exRationed 2020 (scenarioYears 2020 2) exIdle).map
    (fun s => [takenOut (s.w.accounts true).txns, closing (s.w.accounts false),
      Dict.total s.available]) = .ok [30, -10, -30] := by decide +kernel

theorem exRationed_traverses (saving : Bool) :
    Traverses (fun a => !a) exRationed.limits (fun _ q => exTraversal saving q) (fun _ _ => 12)
      (exStrategy saving) where
  call _ _ _ h := h
  asks _ q x hx := by
    have : exLeaf q = fun a => ⟨x a, exRationed.limits a (x a), !a⟩ := by
      funext a; unfold exLeaf; rw [hx a]
    exact ⟨fun a lim z => by show Traversal.accountTx (exLeaf q a) _ lim z = _; rw [this],
      fun a lim => by show Traversal.accountLimit (exLeaf q a) _ lim = _; rw [this]⟩
  sound := (exFamily_traverses saving).sound
  precision := (exFamily_traverses saving).precision
  root := (exFamily_traverses saving).root
  free _ _ := rfl
  alone _ _ _ _ := rfl
  bounds a x h := by
    cases a
    · show (Ext.fin (0 : ℚ)) ≤ .posInf
      simp
    · simp at h

example {n : ℕ} {s : FS ℚ (Home Unit Bool ℚ)} {start fin : ℕ → FS ℚ (Home Unit Bool ℚ)}
    (hr : Run exRationed 2020 n exIdle s start fin) :
    ∀ k ≤ n, takenOut ((fin k).w.accounts true).txns ≤ 30 := by
  have half : (0 : ℚ) ≤ 1 / 2 ∧ (1 / 2 : ℚ) ≤ 1 := by norm_num
  intro k hk
  have := (C113_limits_kept (a := true) (exRationed_traverses true) (exRationed_traverses false)
    (by decide) (fun _ _ => dated_one half) (dated_one half) (dated_one half) (dated_one half)
    (fun a => ⟨2020, if a then 100 else -50, fun _ _ => 1, [], [], rfl⟩)
    (fun a y => ⟨rfl, fun _ _ => (one_mul _).symm, fun _ => zero_lt_one⟩)
    (fun a _ => rfl) hr (by decide) (fun _ _ => ⟨rfl, rfl⟩) (fun _ _ => rfl)
    (fun _ => le_max_right _ _) k hk).2
  have h2 : min (Ext.fin (-30 : ℚ)) (.fin 0) ≤ .fin (-takenOut ((fin k).w.accounts true).txns) := this
  rw [Ext.min_fin_fin] at h2
  have h3 : min (-30 : ℚ) 0 ≤ -takenOut ((fin k).w.accounts true).txns := by simpa using h2
  rw [min_eq_left (by norm_num)] at h3
  linarith

end examples

end Forecaster.Household
