import Verif.Lemmas.Household
import Verif.Props.Household

/-! Helper lemmas for `Verif/Props/Solvency.lean`: the money at hand only ever has dates within
the year. -/

set_option linter.unusedSectionVars false

namespace Forecaster.SubForecast

open Forecaster Forecaster.Timing Forecaster.Account

variable {K : Type} [Field K] [LinearOrder K] [IsStrictOrderedRing K]
variable {P : Type} [DecidableEq P]

/-- Dates within a year. -/
def Within (d : Dict K K) : Prop := ∀ k ∈ Dict.keys d, 0 ≤ k ∧ k ≤ 1

theorem within_nil : Within ([] : Dict K K) := by simp [Within, Dict.keys]

theorem Within.set {d : Dict K K} (h : Within d) {w : K} (h0 : 0 ≤ w ∧ w ≤ 1) (x : K) :
    Within (Dict.set d w x) := by
  intro k hk
  rcases Dict.mem_keys_set.1 hk with rfl | hk
  · exact h0
  · exact h k hk

/-- Pools that are not accounts have dates within the year. -/
def OnTime (s : St P K) : Prop := ∀ p f d, s.pools p = .dict f d → Within d

theorem leg_onTime {s s' : St P K} (hs : OnTime s) {o : Option P} {w x : K} (hw : 0 ≤ w ∧ w ≤ 1)
    (h : leg s o w x = .ok s') : OnTime s' := by
  cases o with
  | none => cases h; exact hs
  | some p =>
    unfold leg at h
    simp only at h
    cases hq : poolAdd (s.pools p) w x with
    | error e => rw [hq] at h; simp at h
    | ok q =>
      rw [hq] at h
      simp only [ok_bind, Except.ok.injEq] at h
      subst h
      intro p' f d hp
      by_cases hpp : p' = p
      · subst hpp
        simp only [setPool, if_true] at hp
        subst hp
        cases hsp : s.pools p' with
        | dict f' d' =>
          rw [hsp] at hq
          unfold poolAdd at hq
          simp only at hq
          have hd' := hs p' f' d' hsp
          cases hg : Dict.get? d' w <;> rw [hg] at hq <;>
            simp only [Except.ok.injEq, Pool.dict.injEq] at hq <;> rw [← hq.2] <;>
            exact hd'.set hw _
        | acct L a =>
          rw [hsp] at hq
          have := CashFlow.kind_poolAdd hq
          simp [SameKind] at this
      · simp only [setPool, hpp, if_false] at hp
        exact hs p' f d hp

variable (ttv : Acct K → K → K → Except PyErr (Ext K)) (default : Dict K K)

theorem leg_acct_date {s s' : St P K} {p : P} {L : Limits K} {a : Acct K} {w x : K}
    (hp : s.pools p = .acct L a) (h : leg s (some p) w x = .ok s') : 0 ≤ w ∧ w ≤ 1 := by
  unfold leg at h
  simp only [hp, poolAdd, contains] at h
  cases hw : whenConv (.num w) with
  | error e => rw [hw] at h; simp at h
  | ok t =>
    have h1 := whenConv_rng hw
    unfold whenConv at hw
    simp only at hw
    split_ifs at hw with hc
    simpa [and_comm] using hc

theorem earliest_within {accum : Dict K (Ext K)} {v w : K} (hw : 0 ≤ w ∧ w ≤ 1)
    (h : ∀ k ∈ Dict.keys accum, 0 ≤ k ∧ k ≤ 1) : 0 ≤ earliest accum v w ∧ earliest accum v w ≤ 1 := by
  unfold earliest
  cases hm : (((Dict.keys accum).filter fun t =>
    decide (∀ kv ∈ accum, kv.1 ≥ t → kv.2 ≥ .fin v)).min?) with
  | none => exact hw
  | some t =>
    have := List.min?_mem hm
    exact h t (List.mem_filter.1 this).1

theorem add1_onTime {s s' : St P K} (hs : OnTime s) {v w0 : K} (hw : 0 ≤ w0 ∧ w0 ≤ 1)
    {src dst : Option P} {strict : Bool}
    (h : addTransaction1 ttv s v w0 src dst strict = (s', none)) : OnTime s' := by
  obtain ⟨w, s1, hd, h1, h2⟩ := add1_legs ttv h
  have hr : 0 ≤ w ∧ w ≤ 1 := by
    unfold dateFor at hd
    cases src with
    | none => cases hd; exact hw
    | some p =>
      simp only at hd
      split_ifs at hd
      · cases hd; exact hw
      · cases hp : s.pools p with
        | dict f d =>
          rw [hp] at hd
          simp only [shiftWhen, Except.ok.injEq] at hd
          subst hd
          apply earliest_within hw
          intro k hk
          simp only [accumDict, Dict.keys, List.map_map, List.mem_map, Function.comp_apply] at hk
          obtain ⟨t, ht, rfl⟩ := hk
          simp only [materialTimes, List.mem_filter, List.mem_cons] at ht
          rcases ht.1 with rfl | ht
          · exact hw
          · exact hs p f d hp t ht
        | acct L a => exact leg_acct_date hp h1
  exact leg_onTime (leg_onTime hs hr h1) hr h2

theorem forEach_keeps {α : Type} {I : St P K → Prop} {body : St P K → α → St P K × Option PyErr}
    {l : List α} (hb : ∀ x ∈ l, ∀ s s', I s → body s x = (s', none) → I s') {s s' : St P K}
    (hs : I s) (h : forEach body s l = (s', none)) : I s' := by
  induction l generalizing s with
  | nil => cases h; exact hs
  | cons x l ih =>
    obtain ⟨s1, h1, h2⟩ := forEach_cons_ok h
    exact ih (fun y hy => hb y (List.mem_cons_of_mem _ hy)) (hb x (by simp) _ _ hs h1) h2

theorem add_onTime {s s' : St P K} (hs : OnTime s) {q : Req P K}
    (hq : ∀ t, resolve default q.timing = .ok t → Within t)
    (h : SubForecast.addTransaction ttv default s q = (s', none)) : OnTime s' := by
  unfold SubForecast.addTransaction at h
  cases ht : resolve default q.timing with
  | error e => rw [ht] at h; simp at h
  | ok timing =>
    rw [ht] at h
    have hw := hq timing ht
    refine forEach_keeps (I := OnTime) (l := timing) ?_ hs h
    intro kv hkv s s' hs' hb
    split_ifs at hb
    · simp at hb
    · exact add1_onTime ttv hs' (hw kv.1 (Dict.mem_keys_of_mem hkv)) hb

theorem series_onTime {s s' : St P K} (hs : OnTime s) {txs : Dict K K} {src dst : Option P}
    {strict : Bool}
    (h : SubForecast.addTransactions ttv default s txs src dst strict = (s', none)) :
    OnTime s' := by
  refine forEach_keeps (I := OnTime) (l := txs) ?_ hs h
  intro kv hkv s s' hs' hb
  refine add_onTime ttv default hs' (fun t ht => ?_) hb
  obtain ⟨rfl, h0, h1⟩ := CashFlow.scalar_resolved default ht
  intro k hk
  simp only [Dict.keys, List.map_cons, List.map_nil, List.mem_singleton] at hk
  subst hk
  exact ⟨h0, h1⟩

end Forecaster.SubForecast

namespace Forecaster.CashFlow

open Forecaster Forecaster.Timing Forecaster.Account Forecaster.SubForecast

variable {K : Type} [Field K] [LinearOrder K] [IsStrictOrderedRing K]
variable {P : Type} [DecidableEq P]
variable (ttv : Acct K → K → K → Except PyErr (Ext K)) (default : Dict K K)

theorem moveAll_onTime {available : P} {s s' : St P K} (hs : OnTime s) {txs : Dict P (Dict K K)}
    (h : moveAll ttv default available s txs = (s', none)) : OnTime s' :=
  forEach_keeps (I := OnTime) (fun _ _ _ _ hs' hb => series_onTime ttv default hs' hb) hs h

theorem update_onTime {available : P} (tax : P → Pool K → Except PyErr K)
    {f f' : Alloc P K} {q : P} {d : Dict K K} {o : K} (hs : OnTime f.s)
    (h : updateTaxWithheld ttv default available tax f q d o = (f', none)) : OnTime f'.s := by
  unfold updateTaxWithheld at h
  cases h1 : tax q (f.s.pools q) with
  | error e => rw [h1] at h; simp at h
  | ok x =>
    rw [h1] at h
    simp only at h
    split_ifs at h with hx
    · cases h; exact hs
    · cases h2 : transactionsFromArg (.dict d) (x - o) with
      | error e => rw [h2] at h; simp at h
      | ok t =>
        rw [h2] at h
        simp only at h
        rcases h3 : SubForecast.addTransactions ttv default f.s t none (some available) false with
          ⟨s', _ | e⟩
        · rw [h3] at h
          cases h
          exact series_onTime ttv default hs h3
        · rw [h3] at h; simp at h

theorem withdrawAll_onTime {txs : Dict P (Dict K K)} {tax : P → Pool K → Except PyErr K}
    {old : Dict P K} {available : P} {f f' : Alloc P K} (hs : OnTime f.s)
    (h : withdrawAll ttv default available tax old f txs = (f', none)) : OnTime f'.s := by
  induction txs generalizing f with
  | nil => cases h; exact hs
  | cons e l ih =>
    unfold withdrawAll at h
    rcases h1 : SubForecast.addTransactions ttv default f.s e.2 (some available) (some e.1) false
      with ⟨s1, _ | err⟩
    · rw [h1] at h
      simp only at h
      cases h2 : Dict.get? old e.1 with
      | none => rw [h2] at h; simp at h
      | some o =>
        rw [h2] at h
        simp only at h
        rcases h3 : updateTaxWithheld ttv default available tax { f with s := s1 } e.1 e.2 o with
          ⟨f1, _ | err⟩
        · rw [h3] at h
          simp only at h
          exact ih (update_onTime ttv default tax (f := { f with s := s1 })
            (series_onTime ttv default hs h1) h3) h
        · rw [h3] at h; simp at h
    · rw [h1] at h; simp at h

end Forecaster.CashFlow

namespace Forecaster.Household

open Forecaster Forecaster.Timing Forecaster.Account Forecaster.SubForecast Forecaster.CashFlow

variable {K : Type} [Field K] [LinearOrder K] [IsStrictOrderedRing K]
variable {N A : Type} [DecidableEq N] [DecidableEq A]

theorem enter_onTime {E : Env N A K} {w : Home N A K} {k : Kind} {av : Dict K K} (h : Within av) :
    OnTime (enter E w k av) := by
  intro p f d hp
  cases p with
  | none =>
    simp only [enter, pools, Pool.dict.injEq] at hp
    rw [← hp.2]; exact h
  | some a => simp [enter, pools] at hp

theorem leave_within {w : Home N A K} {k : Kind} {f : Alloc (Option A) K} (h : OnTime f.s)
    {b : Bool} {d : Dict K K} (hd : f.s.pools none = .dict b d) : Within (leave w k f).2 := by
  simp only [leave, hd, Pool.txns]
  exact h none b d hd

/-- Specification: everything is dated within the year. -/
structure Dates (E : Env N A K) : Prop where
  paid : ∀ i y, Within (E.earner i y).timing
  timing : Within (E.default .income)
  refund : Within E.refund
  payment : Within E.payment

theorem earners_within {E : Env N A K} (hD : Dates E) (w : Home N A K) :
    ∀ e ∈ earners E w, Within e.timing := by
  intro e he
  simp only [earners, List.mem_map] at he
  obtain ⟨i, -, rfl⟩ := he
  exact hD.paid i _

/-- Every call leaves the money at hand dated within the year. -/
theorem call_within {E : Env N A K} (hD : Dates E) {k : Kind} {w w' : Home N A K}
    {av av' : Dict K K} (hb : Books w av) (hi : Idle (w.sub k)) (hw : Within av)
    (h : call E k w av = .ok (w', av')) : Within av' := by
  have hg := good_enter (E := E) hb hi
  obtain ⟨x, hx, -⟩ := call_first hg hi.2 none
  have ho : OnTime { enter E w k av with called := true, totalAvailable := x } :=
    fun p f d hp => enter_onTime (E := E) (w := w) (k := k) hw p f d hp
  have kinds : ∀ f : Alloc (Option A) K, Kinds (enter E w k av) f.s → OnTime f.s →
      Within (leave w k f).2 := by
    intro f hk hf
    have h1 := hk none
    cases hq : f.s.pools none with
    | acct L a => rw [hq] at h1; simp [enter, pools, SameKind] at h1
    | dict b d => exact leave_within hf hq
  have timing : ∀ (t : Dict K K) (r : Dict K K) (k : Kind), Within t →
      resolve (E.default k) (some (.timing t)) = .ok r → Within r := by
    intro t r k ht hr
    cases hr; exact ht
  cases k with
  | income =>
    simp only [call, finishPlain] at h
    obtain ⟨h1, h2⟩ := finish_ok h
    have : av' = _ := congrArg Prod.snd h2
    rw [this]
    refine kinds _ (kinds_income _ _ _ _ _) ?_
    rcases hm : incomeCall E.ttv (E.default .income) none (earners E w) (enter E w .income av)
      with ⟨s', _ | e⟩
    · unfold incomeCall callWith at hm
      rw [hx] at hm
      simp only at hm
      refine forEach_keeps (I := OnTime) ?_ ho hm
      intro q hq s s' hs hadd
      refine add_onTime E.ttv _ hs (fun t ht => ?_) hadd
      simp only [incomeReqs, List.mem_cons, List.mem_map] at hq
      rcases hq with rfl | ⟨e, he, rfl⟩
      · cases ht; exact hD.timing
      · exact timing _ _ _ (earners_within hD w e he) ht
    · rw [hm] at h1; simp at h1
  | living =>
    simp only [call] at h
    cases hf : finishPlain w .living
        (livingCall E.ttv (E.default .living) none (earners E w)
          (E.expenses (w.sub .living).year w.accounts) (enter E w .living av)) with
    | error e => rw [hf] at h; simp [Except.map] at h
    | ok r =>
      rw [hf] at h
      simp only [Except.map, Except.ok.injEq] at h
      have : av' = r.2 := by
        rw [← show (noteLiving (E.expenses (w.sub .living).year w.accounts) r).2 = av' from
          congrArg Prod.snd h]
        unfold noteLiving
        split <;> rfl
      rw [this]
      simp only [finishPlain] at hf
      obtain ⟨h1, h2⟩ := finish_ok hf
      rw [h2]
      refine kinds _ (kinds_living _ _ _ _ _ _) ?_
      rcases hm : livingCall E.ttv (E.default .living) none (earners E w)
          (E.expenses (w.sub .living).year w.accounts) (enter E w .living av) with ⟨s', _ | e⟩
      · unfold livingCall at hm
        rw [hx] at hm
        simp only at hm
        cases hr : livingReqs none (earners E w) (E.expenses (w.sub .living).year w.accounts) with
        | error e => rw [hr] at hm; simp at hm
        | ok reqs =>
          rw [hr] at hm
          simp only at hm
          refine forEach_keeps (I := OnTime) ?_ ho hm
          intro q hq s s' hs hadd
          refine add_onTime E.ttv _ hs (fun t ht => ?_) hadd
          unfold livingReqs at hr
          split at hr
          · cases hr; simp at hq
          · split_ifs at hr
            cases hx : E.expenses (w.sub .living).year w.accounts with
            | error e => rw [hx] at hr; simp at hr
            | ok x =>
              rw [hx] at hr
              simp only [ok_bind, Except.ok.injEq] at hr
              subst hr
              simp only [List.mem_map] at hq
              obtain ⟨e, he, rfl⟩ := hq
              exact timing _ _ _ (earners_within hD w e he) ht
      · rw [hm] at h1; simp at h1
  | saving =>
    simp only [call] at h
    obtain ⟨h1, h2⟩ := finish_ok h
    have : av' = _ := congrArg Prod.snd h2
    rw [this]
    refine kinds _ ?_ ?_
    · obtain ⟨-, y, -, -, hl⟩ := legs_saving E.ttv (E.default .saving)
        (f := enterAlloc E w .saving av) hg hi.2 h1
      exact fun p => (hl.inv (good_begin hg y)).2.1 p
    · unfold savingCall at h1 ⊢
      simp only [enterAlloc, hx] at h1 ⊢
      cases hp : planOf (E.saving (w.sub .saving).year (enter E w .saving av).pools) with
      | error e => simp only [hp] at h1; simp at h1
      | ok p =>
        simp only [hp] at h1 ⊢
        rcases hm : moveAll E.ttv (E.default .saving) none
          { enter E w .saving av with called := true, totalAvailable := x } p with ⟨s', _ | e⟩
        · exact moveAll_onTime _ _ ho hm
        · rw [hm] at h1; simp at h1
  | withdrawal =>
    simp only [call] at h
    obtain ⟨h1, h2⟩ := finish_ok h
    have : av' = _ := congrArg Prod.snd h2
    rw [this]
    refine kinds _ ?_ ?_
    · obtain ⟨-, y, -, -, hl⟩ := legs_withdrawal E.ttv (E.default .withdrawal)
        (f := enterAlloc E w .withdrawal av) hg hi.2 h1
      exact fun p => (hl.inv (good_begin hg y)).2.1 p
    · unfold withdrawalCall at h1 ⊢
      simp only [enterAlloc, hx] at h1 ⊢
      cases hp : planOf (E.withdrawal (w.sub .withdrawal).year (enter E w .withdrawal av).pools) with
      | error e => simp only [hp] at h1; simp at h1
      | ok p =>
        simp only [hp] at h1 ⊢
        cases ho' : taxSnapshot (poolTax E) (enter E w .withdrawal av).pools (E.assets.map some) with
        | error e => rw [ho'] at h1; simp at h1
        | ok old =>
          simp only [ho'] at h1 ⊢
          generalize hm : withdrawAll (P := Option A) (K := K) E.ttv _ _ _ _ _ _ = r at h1 ⊢
          obtain ⟨f', o⟩ := r
          simp only [Prod.mk.injEq, true_and] at h1
          subst h1
          exact withdrawAll_onTime _ _ ho hm
  | tax =>
    simp only [call, finishPlain] at h
    obtain ⟨h1, h2⟩ := finish_ok h
    rw [hx] at h2
    have : av' = _ := congrArg Prod.snd h2
    rw [this]
    exact kinds _ (fun p => SameKind.refl _) ho

theorem within_add {d e : Dict K K} (hd : Within d) (he : Within e) :
    Within (Timing.addTransactions d e) := by
  unfold Timing.addTransactions
  induction e generalizing d with
  | nil => exact hd
  | cons a e ih =>
    rw [List.foldl_cons, addOne_eq]
    refine ih (hd.set (he a.1 (by simp [Dict.keys])) _) fun k hk => he k ?_
    simp only [Dict.keys, List.map_cons, List.mem_cons]
    exact .inr hk

theorem next_within {E : Env N A K} (hD : Dates E) (hT : Forecast.Timed (world E))
    {s s' : Forecast.FS K (Home N A K)} (h : Forecast.nextYear (world E) s = .ok s') :
    Within s'.available := by
  obtain ⟨adj, w0, w1, w2, -, -, -, h4, -, -⟩ := Forecast.nextYear_parts h
  have h0 : Within [((0 : K), 0 + Dict.total s.available)] := by
    intro k hk
    simp only [Dict.keys, List.map_cons, List.map_nil, List.mem_singleton] at hk
    subst hk; exact ⟨le_refl _, zero_le_one⟩
  have main : ∀ (d : Dict K K) (x : K), Dict.WF d → Dict.total d ≠ 0 → Within d →
      ∀ a, (do let t ← timeSeries d x none
               .ok (Timing.addTransactions [(0, 0 + Dict.total s.available)] t)
               : Except PyErr (Dict K K)) = .ok a → Within a := by
    intro d x hd hn hw a ha
    obtain ⟨r, hr, -, hk, -, -⟩ := C05_split_conserves d hd hn x
    rw [hr, ok_bind] at ha
    cases ha
    exact within_add h0 (by unfold Within; rw [hk]; exact hw)
  unfold Forecast.carryoverTax at h4
  cases adj with
  | none => simp only [Except.ok.injEq] at h4; rw [← h4]; exact h0
  | some x =>
    simp only at h4
    split_ifs at h4
    · have := hT.refund w2 E.refund rfl
      exact main E.refund x this.1 this.2 hD.refund _ h4
    · have := hT.payment w2 E.payment rfl
      exact main E.payment x this.1 this.2 hD.payment _ h4
    · simp only [Except.ok.injEq] at h4; rw [← h4]; exact h0

end Forecaster.Household
