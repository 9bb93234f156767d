import Verif.Model.Household
import Verif.Props.CashFlow
import Verif.Props.Forecast

/-! Helper lemmas for `Verif/Props/Household.lean`. -/

set_option linter.unusedSectionVars false

namespace Forecaster.CashFlow

open Forecaster Forecaster.Timing Forecaster.Account Forecaster.SubForecast

variable {K : Type} [Field K] [LinearOrder K] [IsStrictOrderedRing K]
variable {P : Type} [DecidableEq P]
variable (ttv : Acct K → K → K → Except PyErr (Ext K)) (default : Dict K K)

theorem legs_series (s : St P K) (txs : Dict K K) (src dst : Option P) (strict : Bool) :
    Legs s (SubForecast.addTransactions ttv default s txs src dst strict).1 :=
  forEach_rel (R := Legs) (fun _ => .refl) (fun h h' => .trans h h')
    (fun s _ => legs_addTransaction ttv default s _) s txs

theorem legs_moveAll (available : P) (s : St P K) (txs : Dict P (Dict K K)) :
    Legs s (moveAll ttv default available s txs).1 :=
  forEach_rel (R := Legs) (fun _ => .refl) (fun h h' => .trans h h')
    (fun s _ => legs_series ttv default s _ _ _ _) s txs

theorem legs_updateTax (available : P) (tax : P → Pool K → Except PyErr K) (f : Alloc P K) (p : P)
    (d : Dict K K) (old : K) :
    Legs f.s (updateTaxWithheld ttv default available tax f p d old).1.s := by
  unfold updateTaxWithheld
  split
  · exact .refl
  · split_ifs
    · exact .refl
    · split
      · exact .refl
      · rename_i t _
        have := legs_series ttv default f.s t none (some available) false
        split <;> · rename_i h; rw [h] at this; exact this

theorem legs_withdrawAll (available : P) (tax : P → Pool K → Except PyErr K) (old : Dict P K)
    (l : Dict P (Dict K K)) (f : Alloc P K) :
    Legs f.s (withdrawAll ttv default available tax old f l).1.s := by
  induction l generalizing f with
  | nil => exact .refl
  | cons e l ih =>
    unfold withdrawAll
    have h1 := legs_series ttv default f.s e.2 (some available) (some e.1) false
    split
    · rename_i h; rw [h] at h1; exact h1
    · rename_i s1 h
      rw [h] at h1
      split
      · exact h1
      · rename_i o _
        have h2 := legs_updateTax ttv default available tax { f with s := s1 } e.1 e.2 o
        split
        · rename_i h'; rw [h'] at h2; exact .trans h1 h2
        · rename_i f1 h'
          rw [h'] at h2
          exact .trans (.trans h1 h2) (ih f1)

/-- Every call that succeeds is the beginning of the call and legs of transactions. -/
theorem legs_income {s s' : St P K} (hs : Good s) (hc : s.called = false) {available : P}
    {people : List (Earner P K)}
    (h : incomeCall ttv default available people s = (s', none)) :
    ∃ y, totalOf (s.pools available) = .ok y ∧
      Legs { s with called := true, totalAvailable := y } s' := by
  obtain ⟨y, hx, hy⟩ := call_first hs hc available
  unfold incomeCall callWith at h
  rw [hx] at h
  have := legs_requests ttv default { s with called := true, totalAvailable := y }
    (incomeReqs available people)
  simp only at h
  rw [h] at this
  exact ⟨y, hy, this⟩

theorem legs_living {s s' : St P K} (hs : Good s) (hc : s.called = false) {available : P}
    {people : List (Earner P K)} {x : Except PyErr K}
    (h : livingCall ttv default available people x s = (s', none)) :
    ∃ y, totalOf (s.pools available) = .ok y ∧
      Legs { s with called := true, totalAvailable := y } s' := by
  obtain ⟨y, hx, hy⟩ := call_first hs hc available
  unfold livingCall at h
  rw [hx] at h
  simp only at h
  cases hr : livingReqs available people x with
  | error e => rw [hr] at h; simp at h
  | ok reqs =>
    rw [hr] at h
    have := legs_requests ttv default { s with called := true, totalAvailable := y } reqs
    simp only at h
    rw [h] at this
    exact ⟨y, hy, this⟩

theorem legs_saving {f f' : Alloc P K} (hs : Good f.s) (hc : f.s.called = false) {available : P}
    {strategy : (P → Pool K) → Except PyErr (Dict P (Dict K K))}
    (h : savingCall ttv default available strategy f = (f', none)) :
    ∃ txs y, strategy f.s.pools = .ok txs ∧ totalOf (f.s.pools available) = .ok y ∧
      Legs { f.s with called := true, totalAvailable := y } f'.s := by
  obtain ⟨y, hx, hy⟩ := call_first hs hc available
  unfold savingCall at h
  rw [hx] at h
  simp only at h
  cases hr : strategy f.s.pools with
  | error e => rw [hr] at h; simp at h
  | ok txs =>
    rw [hr] at h
    have := legs_moveAll ttv default available { f.s with called := true, totalAvailable := y } txs
    simp only [Prod.mk.injEq] at h
    rw [← h.1]
    exact ⟨txs, y, rfl, hy, this⟩

theorem legs_withdrawal {f f' : Alloc P K} (hs : Good f.s) (hc : f.s.called = false) {available : P}
    {strategy : (P → Pool K) → Except PyErr (Dict P (Dict K K))}
    {tax : P → Pool K → Except PyErr K} {accounts : List P}
    (h : withdrawalCall ttv default available strategy tax accounts f = (f', none)) :
    ∃ txs y, strategy f.s.pools = .ok txs ∧ totalOf (f.s.pools available) = .ok y ∧
      Legs { f.s with called := true, totalAvailable := y } f'.s := by
  obtain ⟨y, hx, hy⟩ := call_first hs hc available
  unfold withdrawalCall at h
  rw [hx] at h
  simp only at h
  cases hr : strategy f.s.pools with
  | error e => rw [hr] at h; simp at h
  | ok txs =>
    simp only [hr] at h
    cases hsn : taxSnapshot tax f.s.pools accounts with
    | error e => simp only [hsn] at h; simp at h
    | ok old =>
      simp only [hsn] at h
      have := legs_withdrawAll ttv default available tax old txs
        ⟨{ f.s with called := true, totalAvailable := y }, txs,
          if f.s.called = true then 0 else f.withheld⟩
      rw [h] at this
      exact ⟨txs, y, rfl, hy, this⟩

/-! ### Pools stay what they are -/

theorem kind_addTransaction {a a' : Acct K} {v : K} {w : When K}
    (h : Account.addTransaction a v w = .ok a') : { a' with txns := [] } = { a with txns := [] } := by
  unfold Account.addTransaction at h
  cases hw : whenConv w with
  | error e => rw [hw] at h; simp at h
  | ok t => rw [hw] at h; simp only [ok_bind, Except.ok.injEq] at h; subst h; rfl

theorem kind_setItem {a a' : Acct K} {k : When K} {v : K} (h : setItem a k v = .ok a') :
    { a' with txns := [] } = { a with txns := [] } := by
  unfold setItem at h
  cases k with
  | str s => exact kind_addTransaction h
  | num x =>
    simp only at h
    rw [kind_addTransaction h]
    split_ifs <;> rfl

theorem kind_poolAdd {q q' : Pool K} {w x : K} (h : poolAdd q w x = .ok q') : SameKind q q' := by
  cases q with
  | dict f d =>
    unfold poolAdd at h
    simp only at h
    cases hg : Dict.get? d w <;> rw [hg] at h <;> simp only [Except.ok.injEq] at h <;> subst h <;>
      simp [SameKind]
  | acct L a =>
    unfold poolAdd at h
    simp only at h
    cases hc : contains a (.num w) with
    | error e => rw [hc] at h; simp at h
    | ok b =>
      rw [hc, ok_bind] at h
      cases hs : setItem a (.num w) (if b = true then Dict.val a.txns w + x else x) with
      | error e => rw [hs] at h; simp at h
      | ok a' =>
        rw [hs] at h
        simp only [ok_bind, Except.ok.injEq] at h
        subst h
        exact ⟨rfl, (kind_setItem hs).symm⟩

theorem kind_poolSub {q q' : Pool K} {w x : K} (h : poolSub q w x = .ok q') : SameKind q q' := by
  cases q with
  | dict f d =>
    unfold poolSub at h
    simp only at h
    cases hg : Dict.get? d w with
    | none =>
      rw [hg] at h
      simp only at h
      split_ifs at h
      simp only [Except.ok.injEq] at h
      subst h
      simp [SameKind]
    | some y => rw [hg] at h; simp only [Except.ok.injEq] at h; subst h; simp [SameKind]
  | acct L a =>
    unfold poolSub at h
    simp only at h
    cases hs : setItem a (.num w) (Dict.val a.txns w - x) with
    | error e => rw [hs] at h; simp at h
    | ok a' =>
      rw [hs] at h
      simp only [ok_bind, Except.ok.injEq] at h
      subst h
      exact ⟨rfl, (kind_setItem hs).symm⟩

/-- Every pool is of the same kind. -/
def Kinds (s s' : St P K) : Prop := ∀ p, SameKind (s.pools p) (s'.pools p)

theorem kinds_setPool {s : St P K} {p : P} {q : Pool K} (h : SameKind (s.pools p) q) :
    Kinds s (setPool s p q) := by
  intro p'
  by_cases hp : p' = p
  · subst hp; simpa [setPool] using h
  · simpa [setPool, hp] using SameKind.refl _

theorem kinds_legs {s s' : St P K} (h : Legs s s') : Kinds s s' := by
  induction h with
  | refl => exact fun p => SameKind.refl _
  | tail _ hstep ih =>
    obtain ⟨o, w, x, hl⟩ := hstep
    refine fun p => (ih p).trans ?_
    cases o with
    | none => cases hl; exact SameKind.refl _
    | some q =>
      simp only [leg] at hl
      rename_i b c _
      cases hq : poolAdd (b.pools q) w x with
      | error e => rw [hq] at hl; simp at hl
      | ok r =>
        rw [hq, ok_bind] at hl
        cases hl
        exact kinds_setPool (kind_poolAdd hq) p

theorem kinds_undo (s : St P K) : Kinds s (undo s).1 := by
  have h : Kinds s (forEach undoEntry s s.record).1 := by
    refine forEach_rel (R := Kinds) (fun _ _ => SameKind.refl _)
      (fun h h' p => (h p).trans (h' p)) (fun s e => ?_) s _
    unfold undoEntry
    split
    · exact fun _ => SameKind.refl _
    · refine forEach_rel (R := Kinds) (fun _ _ => SameKind.refl _)
        (fun h h' p => (h p).trans (h' p)) (fun s kv => ?_) s _
      unfold undoPool
      split
      · rename_i hq
        exact kinds_setPool (kind_poolSub hq)
      · exact fun _ => SameKind.refl _
  unfold undo
  split
  · rename_i h'; rw [h'] at h; exact h
  · rename_i h'; rw [h'] at h; exact h

theorem kinds_begin (s : St P K) (available : P) : Kinds s (begin s available).1 := by
  unfold begin
  split <;> exact fun _ => SameKind.refl _

theorem kinds_call (s : St P K) (available : P) : Kinds s (SubForecast.call s available).1 := by
  unfold SubForecast.call
  split_ifs
  · have h := kinds_undo s
    split
    · rename_i h'; rw [h'] at h; exact h
    · rename_i h'; rw [h'] at h
      exact fun p => (h p).trans (kinds_begin _ available p)
  · exact kinds_begin s available

theorem kinds_income (available : P) (people : List (Earner P K)) (s : St P K) :
    Kinds s (incomeCall ttv default available people s).1 := by
  unfold incomeCall callWith
  have h := kinds_call s available
  split
  · rename_i h'; rw [h'] at h; exact h
  · rename_i h'; rw [h'] at h
    exact fun p => (h p).trans (kinds_legs (legs_requests ttv default _ _) p)

theorem kinds_living (available : P) (people : List (Earner P K)) (x : Except PyErr K)
    (s : St P K) : Kinds s (livingCall ttv default available people x s).1 := by
  unfold livingCall
  have h := kinds_call s available
  split
  · rename_i h'; rw [h'] at h; exact h
  · rename_i h'; rw [h'] at h
    split
    · exact h
    · exact fun p => (h p).trans (kinds_legs (legs_requests ttv default _ _) p)

theorem kinds_saving (available : P)
    (strategy : (P → Pool K) → Except PyErr (Dict P (Dict K K))) (f : Alloc P K) :
    Kinds f.s (savingCall ttv default available strategy f).1.s := by
  unfold savingCall
  have h := kinds_call f.s available
  split
  · rename_i h'; rw [h'] at h; exact h
  · rename_i h'; rw [h'] at h
    split
    · exact h
    · exact fun p => (h p).trans (kinds_legs (legs_moveAll ttv default available _ _) p)

theorem kinds_withdrawal (available : P)
    (strategy : (P → Pool K) → Except PyErr (Dict P (Dict K K)))
    (tax : P → Pool K → Except PyErr K) (accounts : List P) (f : Alloc P K) :
    Kinds f.s (withdrawalCall ttv default available strategy tax accounts f).1.s := by
  unfold withdrawalCall
  have h := kinds_call f.s available
  split
  · rename_i h'; rw [h'] at h; exact h
  · rename_i s' h'; rw [h'] at h
    simp only
    split
    · exact h
    · rename_i txs _
      split
      · exact h
      · rename_i old _
        exact fun p => (h p).trans (kinds_legs (legs_withdrawAll ttv default available tax old txs
          ⟨s', txs, if f.s.called = true then 0 else f.withheld⟩) p)

end Forecaster.CashFlow

namespace Forecaster.Household

open Forecaster Forecaster.Timing Forecaster.Account Forecaster.SubForecast Forecaster.CashFlow

variable {K : Type} [Field K] [LinearOrder K] [IsStrictOrderedRing K]
variable {N A : Type} [DecidableEq N] [DecidableEq A]

theorem put_same {X Y : Type} [DecidableEq X] (f : X → Y) (x : X) (y : Y) : put f x y x = y := by
  simp [put]

theorem put_other {X Y : Type} [DecidableEq X] (f : X → Y) {x x' : X} (h : x' ≠ x) (y : Y) :
    put f x y x' = f x' := by
  simp [put, h]

/-- The pools are real. -/
structure Books (w : Home N A K) (available : Dict K K) : Prop where
  cash : Dict.WF available
  acct : ∀ a, Inv (w.accounts a)

/-- A sub-forecast at the start of its year. -/
def Idle (s : Sub A K) : Prop := s.record = [] ∧ s.called = false

theorem good_enter {E : Env N A K} {w : Home N A K} {k : Kind} {available : Dict K K}
    (hb : Books w available) (hi : Idle (w.sub k)) : Good (enter E w k available) := by
  refine ⟨fun p => ?_, ?_, ?_, ?_⟩
  · cases p with
    | none => exact hb.cash
    | some a => exact hb.acct a
  all_goals simp [enter, hi.1, Dict.wf_nil]

/-- What a call leaves of the accounts: the same accounts, with other transactions. -/
def SameAccounts (w w' : Home N A K) : Prop :=
  ∀ a, { w'.accounts a with txns := [] } = { w.accounts a with txns := [] }

theorem leave_spec {E : Env N A K} {w : Home N A K} {k : Kind} {available : Dict K K} {y : Ext K}
    (hb : Books w available) (hi : Idle (w.sub k)) {f : Alloc (Option A) K}
    (hl : Legs { enter E w k available with called := true, totalAvailable := y } f.s) :
    Books (leave w k f).1 (leave w k f).2 ∧ SameAccounts w (leave w k f).1 ∧
      (∀ a, Dict.total ((leave w k f).1.accounts a).txns = poolTotal f.s (some a)) ∧
      Dict.total (leave w k f).2 = poolTotal f.s none ∧
      (∀ a, f.s.pools (some a)
        = .acct (E.limits a (w.accounts a)) ((leave w k f).1.accounts a)) ∧
      f.s.pools none = .dict true (leave w k f).2 := by
  obtain ⟨hg, hk, -⟩ := hl.inv (good_begin (good_enter (E := E) hb hi) y)
  have ha : ∀ a, ∃ x, f.s.pools (some a) = .acct (E.limits a (w.accounts a)) x ∧
      (leave w k f).1.accounts a = x ∧ { x with txns := [] } = { w.accounts a with txns := [] } := by
    intro a
    have h1 := hk (some a)
    cases hq : f.s.pools (some a) with
    | dict b d => rw [hq] at h1; exact absurd h1 (by simp [enter, pools, SameKind])
    | acct L x =>
      rw [hq] at h1
      simp only [enter, pools, SameKind] at h1
      exact ⟨x, by rw [h1.1], by simp [leave, accountsAfter, hq], h1.2.symm⟩
  have hn : f.s.pools none = .dict true (leave w k f).2 := by
    have h1 := hk none
    cases hq : f.s.pools none with
    | acct L x => rw [hq] at h1; exact absurd h1 (by simp [enter, pools, SameKind])
    | dict b d =>
      rw [hq] at h1
      simp only [enter, pools, SameKind] at h1
      simp [leave, hq, Pool.txns, ← h1]
  refine ⟨⟨?_, fun a => ?_⟩, fun a => ?_, fun a => ?_, ?_, fun a => ?_, hn⟩
  · have := hg.pools none
    rw [hn] at this; exact this
  · obtain ⟨x, h1, h2, -⟩ := ha a
    have := hg.pools (some a)
    rw [h1] at this
    rw [h2]; exact this
  · obtain ⟨x, -, h2, h3⟩ := ha a
    rw [h2]; exact h3
  · obtain ⟨x, h1, h2, -⟩ := ha a
    rw [h2]; unfold poolTotal; rw [h1]; rfl
  · unfold poolTotal; rw [hn]; rfl
  · obtain ⟨x, h1, h2, -⟩ := ha a
    rw [h1, h2]

theorem finish_ok {w : Home N A K} {k : Kind} {r : Alloc (Option A) K × Option PyErr}
    {x : Home N A K × Dict K K} (h : finish w k r = .ok x) :
    r = (r.1, none) ∧ x = leave w k r.1 := by
  obtain ⟨f, o⟩ := r
  cases o with
  | some e => simp [finish] at h
  | none => simp only [finish, Except.ok.injEq] at h; exact ⟨rfl, h.symm⟩

/-- Nothing but the accounts and the state of sub-forecast `k` changed. -/
structure OnlySub (w w' : Home N A K) (k : Kind) : Prop where
  others : ∀ k', k' ≠ k → w'.sub k' = w.sub k'
  year : (w'.sub k).year = (w.sub k).year
  people : w'.personYear = w.personYear
  report : w'.report = w.report

theorem leave_only (w : Home N A K) (k : Kind) (f : Alloc (Option A) K) :
    OnlySub w (leave w k f).1 k :=
  ⟨fun k' hk => by simp [leave, put, hk], by simp [leave, put], rfl, rfl⟩

theorem sub_leave (w : Home N A K) (k : Kind) (f : Alloc (Option A) K) :
    (leave w k f).1.sub k = { w.sub k with
        record := f.s.record, called := f.s.called, total := f.s.totalAvailable
        txs := f.txs, withheld := f.withheld } := by
  simp [leave, put]

theorem keys_plan (d : Dict A (Dict K K)) : Dict.keys (plan d) = (Dict.keys d).map some := by
  simp [plan, Dict.keys, List.map_map, Function.comp_def]

theorem wf_plan {d : Dict A (Dict K K)} (h : Dict.WF d) : Dict.WF (plan d) := by
  unfold Dict.WF
  rw [keys_plan]
  exact List.Nodup.map (Option.some_injective _) h

theorem none_plan (d : Dict A (Dict K K)) : none ∉ Dict.keys (plan d) := by
  rw [keys_plan]; simp

theorem due_plan (d : Dict A (Dict K K)) (a : A) : due (plan d) (some a) = due d a := by
  induction d with
  | nil => rfl
  | cons e l ih =>
    rw [due_cons, show plan (e :: l) = (some e.1, e.2) :: plan l from rfl, due_cons, ih]
    by_cases h : e.1 = a <;> simp [h]

theorem sum_due_plan (d : Dict A (Dict K K)) :
    ((Dict.keys (plan d)).map (due (plan d))).sum = ((Dict.keys d).map (due d)).sum := by
  rw [keys_plan, List.map_map]
  congr 1
  apply List.map_congr_left
  intro a _
  simp [due_plan]

theorem planOf_ok {r : Except PyErr (Dict A (Dict K K))} {d : Dict (Option A) (Dict K K)}
    (h : planOf r = .ok d) : ∃ p, r = .ok p ∧ d = plan p := by
  cases r with
  | error e => simp [planOf] at h
  | ok p => simp only [planOf, ok_bind, Except.ok.injEq] at h; exact ⟨p, rfl, h.symm⟩

theorem call_tax {E : Env N A K} {w w' : Home N A K} {av av' : Dict K K} (hb : Books w av)
    (hi : Idle (w.sub .tax)) (h : call E .tax w av = .ok (w', av')) :
    OnlySub w w' .tax ∧ w'.accounts = w.accounts ∧ av' = av ∧ w'.living = w.living := by
  obtain ⟨y, hx, -⟩ := call_first (good_enter (E := E) hb hi) hi.2 none
  simp only [call, finishPlain] at h
  obtain ⟨-, h2⟩ := finish_ok h
  rw [hx] at h2
  simp only [Prod.ext_iff] at h2
  obtain ⟨h3, h4⟩ := h2
  refine ⟨h3 ▸ leave_only _ _ _, ?_, by rw [h4]; rfl, by rw [h3]; rfl⟩
  rw [h3]
  funext a
  simp [leave, accountsAfter, enter, pools]

/-- The five calls, one after the other. -/
theorem calls_parts {E : Env N A K} {s s' : Forecast.FS K (Home N A K)}
    (h : Forecast.callSubforecasts (world E) s = .ok s') :
    ∃ w1 v1 w2 v2 w3 v3 w4 v4,
      call E .income s.w s.available = .ok (w1, v1) ∧ call E .living w1 v1 = .ok (w2, v2) ∧
      call E .saving w2 v2 = .ok (w3, v3) ∧ call E .withdrawal w3 v3 = .ok (w4, v4) ∧
      call E .tax w4 v4 = .ok (s'.w, s'.available) ∧ s'.year = s.year := by
  simp only [Forecast.callSubforecasts, world, List.foldlM_cons, List.foldlM_nil,
    except_pure] at h
  cases h1 : call E .income s.w s.available with
  | error e => rw [h1] at h; simp at h
  | ok r1 =>
    rw [h1] at h; simp only [ok_bind] at h
    cases h2 : call E .living r1.1 r1.2 with
    | error e => rw [h2] at h; simp at h
    | ok r2 =>
      rw [h2] at h; simp only [ok_bind] at h
      cases h3 : call E .saving r2.1 r2.2 with
      | error e => rw [h3] at h; simp at h
      | ok r3 =>
        rw [h3] at h; simp only [ok_bind] at h
        cases h4 : call E .withdrawal r3.1 r3.2 with
        | error e => rw [h4] at h; simp at h
        | ok r4 =>
          rw [h4] at h; simp only [ok_bind] at h
          cases h5 : call E .tax r4.1 r4.2 with
          | error e => rw [h5] at h; simp at h
          | ok r5 =>
            rw [h5] at h; simp only [ok_bind, Except.ok.injEq] at h
            subst h
            exact ⟨_, _, _, _, _, _, _, _, rfl, h2, h3, h4, h5, rfl⟩

/-! ### The four calls that move money -/

theorem call_income {E : Env N A K} {w w' : Home N A K} {av av' : Dict K K} (hb : Books w av)
    (hi : Idle (w.sub .income)) (hd : Dict.total (E.default .income) ≠ 0)
    (hp : PaidProperly (earners E w)) (h : call E .income w av = .ok (w', av')) :
    OnlySub w w' .income ∧ Books w' av' ∧ w'.accounts = w.accounts ∧ w'.living = w.living ∧
      Dict.total av' = Dict.total av + ((earners E w).map Earner.net).sum := by
  simp only [call, finishPlain] at h
  obtain ⟨h1, h2⟩ := finish_ok h
  obtain ⟨s', c1, c2, -, c4, -⟩ := C62_income E.ttv (E.default .income)
    (good_enter (E := E) hb hi) hi.2 (f := true) (d := av) (available := none) rfl hd
    (earners E w) hp
  rw [c1] at h2
  simp only at h2
  obtain ⟨y, -, hl⟩ := legs_income E.ttv (E.default .income) (good_enter (E := E) hb hi) hi.2 c1
  obtain ⟨l1, -, -, l4, -⟩ := leave_spec (f := ⟨s', (w.sub .income).txs, (w.sub .income).withheld⟩)
    hb hi hl
  rw [← h2] at l1 l4
  refine ⟨?_, l1, ?_, ?_, ?_⟩
  · have := leave_only w .income ⟨s', (w.sub .income).txs, (w.sub .income).withheld⟩
    rw [← h2] at this; exact this
  · have e : w' = (leave w .income ⟨s', (w.sub .income).txs, (w.sub .income).withheld⟩).1 := by
      rw [← h2]
    rw [e]
    funext a
    simp [leave, accountsAfter, c4 (some a) (by simp), enter, pools]
  · have e : w' = (leave w .income ⟨s', (w.sub .income).txs, (w.sub .income).withheld⟩).1 := by
      rw [← h2]
    rw [e]; rfl
  · rw [l4, c2]; rfl

theorem living_needs {people : List (Earner (Option A) K)} (hne : people ≠ [])
    {x : Except PyErr K} {reqs : List (Req (Option A) K)}
    (h : livingReqs none people x = .ok reqs) :
    (people.map Earner.net).sum ≠ 0 ∧ ∃ v, x = .ok v := by
  cases people with
  | nil => exact absurd rfl hne
  | cons e l =>
    simp only [livingReqs] at h
    split_ifs at h with h0
    rw [netIncome_eq] at h0
    refine ⟨h0, ?_⟩
    cases x with
    | error e => simp at h
    | ok v => exact ⟨v, rfl⟩

theorem call_living {E : Env N A K} {w w' : Home N A K} {av av' : Dict K K} (hb : Books w av)
    (hi : Idle (w.sub .living)) (hne : E.people ≠ [])
    (hp : PaidProperly (earners E w)) (h : call E .living w av = .ok (w', av')) :
    OnlySub w w' .living ∧ Books w' av' ∧ w'.accounts = w.accounts ∧
      E.expenses (w.sub .living).year w.accounts = .ok w'.living ∧
      ((earners E w).map Earner.net).sum ≠ 0 ∧
      Dict.total av' = Dict.total av - w'.living := by
  have hg := good_enter (E := E) hb hi
  simp only [call, finishPlain] at h
  cases hf : finish w .living
      (⟨(livingCall E.ttv (E.default .living) none (earners E w)
          (E.expenses (w.sub .living).year w.accounts) (enter E w .living av)).1,
        (w.sub .living).txs, (w.sub .living).withheld⟩,
       (livingCall E.ttv (E.default .living) none (earners E w)
          (E.expenses (w.sub .living).year w.accounts) (enter E w .living av)).2) with
  | error e => rw [hf] at h; simp [Except.map] at h
  | ok r =>
    rw [hf] at h
    obtain ⟨h1, h2⟩ := finish_ok hf
    simp only [Prod.mk.injEq, true_and] at h1
    have hne' : earners E w ≠ [] := by simpa [earners] using hne
    have hcall : livingCall E.ttv (E.default .living) none (earners E w)
          (E.expenses (w.sub .living).year w.accounts) (enter E w .living av)
        = ((livingCall E.ttv (E.default .living) none (earners E w)
          (E.expenses (w.sub .living).year w.accounts) (enter E w .living av)).1, none) := by
      rw [← h1]
    obtain ⟨y, hy, hl⟩ := legs_living E.ttv (E.default .living) hg hi.2 hcall
    obtain ⟨hn, v, hv⟩ : ((earners E w).map Earner.net).sum ≠ 0 ∧
        ∃ v, E.expenses (w.sub .living).year w.accounts = .ok v := by
      obtain ⟨y, hx, -⟩ := call_first hg hi.2 none
      have hc := hcall
      unfold livingCall at hc
      rw [hx] at hc
      simp only at hc
      cases hr : livingReqs none (earners E w) (E.expenses (w.sub .living).year w.accounts) with
      | error e => rw [hr] at hc; simp at hc
      | ok reqs => exact living_needs hne' hr
    rw [hv] at h2 hcall hl h
    obtain ⟨s', c1, c2, -, c4⟩ := C63_living_expenses E.ttv (E.default .living) hg hi.2
      (available := none) (f := true) (d := av) rfl (earners E w) hp hn v
    rw [c1] at h2 hl
    simp only at h2
    have e : (w', av') = noteLiving (.ok v)
        (leave w .living ⟨s', (w.sub .living).txs, (w.sub .living).withheld⟩) := by
      rw [← h2]
      simpa [Except.map] using h.symm
    simp only [noteLiving, Prod.mk.injEq] at e
    obtain ⟨e1, e2⟩ := e
    obtain ⟨l1, -, -, l4, -⟩ := leave_spec
      (f := ⟨s', (w.sub .living).txs, (w.sub .living).withheld⟩) hb hi hl
    have lo := leave_only w .living ⟨s', (w.sub .living).txs, (w.sub .living).withheld⟩
    refine ⟨?_, ?_, ?_, ?_, hn, ?_⟩
    · rw [e1]; exact ⟨lo.others, lo.year, lo.people, lo.report⟩
    · rw [e1, e2]; exact ⟨l1.cash, l1.acct⟩
    · rw [e1]
      funext a
      simp [leave, accountsAfter, c4 (some a) (by simp), enter, pools]
    · rw [e1]; exact hv
    · rw [e2, l4, c2, e1]; rfl

theorem call_saving {E : Env N A K} {w w' : Home N A K} {av av' : Dict K K} (hb : Books w av)
    (hi : Idle (w.sub .saving))
    (hs : ∀ p, E.saving (w.sub .saving).year (pools E w av) = .ok p → Dict.WF p)
    (h : call E .saving w av = .ok (w', av')) :
    OnlySub w w' .saving ∧ Books w' av' ∧ SameAccounts w w' ∧ w'.living = w.living ∧
      ∃ p, E.saving (w.sub .saving).year (pools E w av) = .ok p ∧ (w'.sub .saving).txs = plan p ∧
        (∀ a, Dict.total (w'.accounts a).txns = Dict.total (w.accounts a).txns + due p a) ∧
        (∀ a, a ∉ Dict.keys p → w'.accounts a = w.accounts a) ∧
        Dict.total av' = Dict.total av - ((Dict.keys p).map (due p)).sum := by
  have hg := good_enter (E := E) hb hi
  simp only [call] at h
  obtain ⟨h1, h2⟩ := finish_ok h
  set f' := (savingCall E.ttv (E.default .saving) none
        (fun q => planOf (E.saving (w.sub .saving).year q)) (enterAlloc E w .saving av)).1
  obtain ⟨txs, y, c1, -, hl⟩ := legs_saving E.ttv (E.default .saving)
    (f := enterAlloc E w .saving av) hg hi.2 h1
  obtain ⟨p, hp, rfl⟩ := planOf_ok c1
  have hwf := hs _ hp
  obtain ⟨d1, d2, d3, d4, d5⟩ := C64_saving E.ttv (E.default .saving)
    (f := enterAlloc E w .saving av) hg hi.2 c1 (wf_plan hwf) (none_plan p) h1
  obtain ⟨l1, l2, l3, l4, l5, -⟩ := leave_spec (f := f') hb hi hl
  have lo := leave_only w .saving f'
  have ls := sub_leave w .saving f'
  have e1 : w' = (leave w .saving f').1 := by rw [← h2]
  have e2 : av' = (leave w .saving f').2 := by rw [← h2]
  rw [← e1] at l1 l2 l3 l5 lo ls
  rw [← e2] at l1 l4
  refine ⟨lo, l1, l2, by rw [e1]; rfl, p, hp, ?_, fun a => ?_, fun a ha => ?_, ?_⟩
  · rw [ls]; exact d1
  · rw [l3, d2 (some a) (by simp), due_plan]; rfl
  · have h3 := d5 (some a) (by simp) (by rw [keys_plan]; simpa using ha)
    have h4 := l5 a
    rw [h3] at h4
    simp only [enterAlloc, enter, pools, Pool.acct.injEq, true_and] at h4
    exact h4.symm
  · rw [l4, d3, d4, sum_due_plan]; rfl

theorem call_withdrawal {E : Env N A K} {w w' : Home N A K} {av av' : Dict K K} (hb : Books w av)
    (hi : Idle (w.sub .withdrawal))
    (hs : ∀ p, E.withdrawal (w.sub .withdrawal).year (pools E w av) = .ok p →
      Dict.WF p ∧ ∀ e ∈ p, Rescalable e.2)
    (h : call E .withdrawal w av = .ok (w', av')) :
    OnlySub w w' .withdrawal ∧ Books w' av' ∧ SameAccounts w w' ∧ w'.living = w.living ∧
      (w'.sub .withdrawal).total = .fin (Dict.total av) ∧
      ∃ p, E.withdrawal (w.sub .withdrawal).year (pools E w av) = .ok p ∧
        (w'.sub .withdrawal).txs = plan p ∧ (∀ a ∈ Dict.keys p, a ∈ E.assets) ∧
        (∀ a, Dict.total (w'.accounts a).txns = Dict.total (w.accounts a).txns + due p a) ∧
        (∀ a, a ∉ Dict.keys p → w'.accounts a = w.accounts a) ∧
        (w'.sub .withdrawal).withheld = (w.sub .withdrawal).withheld
          + ((Dict.keys p).map fun a =>
              E.accountTax a (w'.accounts a) - E.accountTax a (w.accounts a)).sum ∧
        Dict.total av' = Dict.total av - ((Dict.keys p).map (due p)).sum
          + ((w'.sub .withdrawal).withheld - (w.sub .withdrawal).withheld) := by
  have hg := good_enter (E := E) hb hi
  simp only [call] at h
  obtain ⟨h1, h2⟩ := finish_ok h
  set f' := (withdrawalCall E.ttv (E.default .withdrawal) none
        (fun q => planOf (E.withdrawal (w.sub .withdrawal).year q)) (poolTax E)
        (E.assets.map some) (enterAlloc E w .withdrawal av)).1 with hf'
  obtain ⟨txs, y, c1, -, hl⟩ := legs_withdrawal E.ttv (E.default .withdrawal)
    (f := enterAlloc E w .withdrawal av) hg hi.2 h1
  obtain ⟨p, hp, rfl⟩ := planOf_ok c1
  obtain ⟨hwf, hres⟩ := hs _ hp
  have hres' : ∀ e ∈ plan p, Rescalable e.2 := by
    intro e he
    simp only [plan, List.mem_map] at he
    obtain ⟨e0, h0, rfl⟩ := he
    exact hres e0 h0
  obtain ⟨d1, d2, d3, d4, d5, d6, -⟩ := C65_withdrawal E.ttv (E.default .withdrawal)
    (f := enterAlloc E w .withdrawal av) hg hi.2 c1 (wf_plan hwf) (none_plan p) hres' h1
  obtain ⟨g1, -⟩ := C65_figures E.ttv (E.default .withdrawal)
    (f := enterAlloc E w .withdrawal av) hg hi.2 (b := true) (d := av) rfl c1 (wf_plan hwf)
    (none_plan p) hres' h1
  obtain ⟨l1, l2, l3, l4, l5, -⟩ := leave_spec (f := f') hb hi hl
  have lo := leave_only w .withdrawal f'
  have ls := sub_leave w .withdrawal f'
  have e1 : w' = (leave w .withdrawal f').1 := by rw [← h2]
  have e2 : av' = (leave w .withdrawal f').2 := by rw [← h2]
  rw [← e1] at l1 l2 l3 l5 lo ls
  rw [← e2] at l1 l4
  refine ⟨lo, l1, l2, by rw [e1]; rfl, ?_, p, hp, ?_, fun a ha => ?_, fun a => ?_,
    fun a ha => ?_, ?_, ?_⟩
  · rw [ls]
    simp only
    unfold grossWithdrawals at g1
    cases ht : f'.s.totalAvailable with
    | negInf => rw [ht] at g1; simp [negExt] at g1
    | posInf => rw [ht] at g1; simp [negExt] at g1
    | fin x =>
      rw [ht] at g1
      simp only [negExt, Ext.fin.injEq, neg_inj] at g1
      rw [g1]; rfl
  · rw [ls]; exact d1
  · have := d2 (some a) (by rw [keys_plan]; simpa using ha)
    simpa using this
  · rw [l3, d3 (some a) (by simp), due_plan]; rfl
  · have h3 := d4 (some a) (by simp) (by rw [keys_plan]; simpa using ha)
    have h4 := l5 a
    rw [h3] at h4
    simp only [enterAlloc, enter, pools, Pool.acct.injEq, true_and] at h4
    exact h4.symm
  · rw [ls]
    simp only
    rw [d5, keys_plan, List.map_map]
    congr 1
    congr 1
    apply List.map_congr_left
    intro a _
    simp only [Function.comp_apply, taxAt, l5 a, poolTax]
    rfl
  · rw [l4, d6, sum_due_plan, ls]; rfl

/-! ### Keeping time -/

theorem leave_years {E : Env N A K} {w : Home N A K} {k : Kind} {av : Dict K K}
    {f : Alloc (Option A) K} (h : Kinds (enter E w k av) f.s) (c : Comp N A) :
    yearOf (leave w k f).1 c = yearOf w c := by
  cases c with
  | sub k' =>
    by_cases hk : k' = k
    · subst hk; exact (leave_only w k' f).year
    · simp only [yearOf]; rw [(leave_only w k f).others k' hk]
  | person i => rfl
  | account a =>
    simp only [yearOf, leave, accountsAfter]
    have h1 := h (some a)
    cases hq : f.s.pools (some a) with
    | dict b d => rfl
    | acct L x =>
      rw [hq] at h1
      simp only [enter, pools, SameKind] at h1
      exact (congrArg Acct.year h1.2).symm

theorem finish_years {E : Env N A K} {w : Home N A K} {k : Kind} {av : Dict K K}
    {r : Alloc (Option A) K × Option PyErr} {x : Home N A K × Dict K K}
    (h : finish w k r = .ok x) (hk : Kinds (enter E w k av) r.1.s) (c : Comp N A) :
    yearOf x.1 c = yearOf w c := by
  rw [(finish_ok h).2]
  exact leave_years hk c

theorem call_years {E : Env N A K} {k : Kind} {w : Home N A K} {av : Dict K K}
    {x : Home N A K × Dict K K} (h : call E k w av = .ok x) (c : Comp N A) :
    yearOf x.1 c = yearOf w c := by
  cases k with
  | income => exact finish_years h (kinds_income _ _ _ _ _) c
  | living =>
    simp only [call] at h
    cases hf : finishPlain w .living
      (livingCall E.ttv (E.default .living) none (earners E w)
        (E.expenses (w.sub .living).year w.accounts) (enter E w .living av)) with
    | error e => rw [hf] at h; simp [Except.map] at h
    | ok r =>
      rw [hf] at h
      have h1 := finish_years hf (kinds_living _ _ _ _ _ _) c
      simp only [Except.map, Except.ok.injEq] at h
      rw [← h1, ← h]
      unfold noteLiving
      split <;> cases c <;> rfl
  | saving => exact finish_years h (kinds_saving _ _ _ _ (enterAlloc E w .saving av)) c
  | withdrawal =>
    exact finish_years h (kinds_withdrawal _ _ _ _ _ _ (enterAlloc E w .withdrawal av)) c
  | tax => exact finish_years h (kinds_call _ _) c

end Forecaster.Household
