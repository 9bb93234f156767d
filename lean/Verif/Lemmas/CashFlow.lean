import Verif.Model.CashFlow
import Verif.Props.SubForecast

/-! Helper lemmas for `Verif/Props/CashFlow.lean`. -/

set_option linter.unusedSectionVars false

namespace Forecaster.CashFlow

open Forecaster Forecaster.Timing Forecaster.Account Forecaster.SubForecast

variable {K : Type} [Field K] [LinearOrder K] [IsStrictOrderedRing K]
variable {P : Type} [DecidableEq P]
variable (ttv : Acct K → K → K → Except PyErr (Ext K)) (default : Dict K K)

/-- Nothing but the pools `src` and `dst` (and the record) changed. -/
def Frame (p : P) (s s' : St P K) : Prop :=
  s'.pools p = s.pools p

theorem leg_pools {s s' : St P K} {o : Option P} {w x : K} (h : leg s o w x = .ok s') :
    s'.totalAvailable = s.totalAvailable ∧ ∀ p, o ≠ some p → s'.pools p = s.pools p := by
  cases o with
  | none => cases h; exact ⟨rfl, fun _ _ => rfl⟩
  | some q =>
    simp only [leg] at h
    cases hq : poolAdd (s.pools q) w x with
    | error e => rw [hq] at h; simp at h
    | ok r =>
      rw [hq, ok_bind] at h
      cases h
      refine ⟨rfl, fun p hp => ?_⟩
      have : p ≠ q := fun h => hp (by rw [h])
      simp [setPool, this]

theorem add1_frame (s : St P K) (v w : K) (src dst : Option P) (strict : Bool) {p : P}
    (h1 : src ≠ some p) (h2 : dst ≠ some p) :
    Frame p s (addTransaction1 ttv s v w src dst strict).1 := by
  unfold addTransaction1 Frame
  split
  · rfl
  · split
    · rfl
    · rename_i s1 hs1
      split
      · exact (leg_pools hs1).2 p h1
      · rename_i s2 hs2
        exact ((leg_pools hs2).2 p h2).trans ((leg_pools hs1).2 p h1)

theorem add1_avail (s : St P K) (v w : K) (src dst : Option P) (strict : Bool) :
    (addTransaction1 ttv s v w src dst strict).1.totalAvailable = s.totalAvailable := by
  unfold addTransaction1
  split
  · rfl
  · split
    · rfl
    · rename_i s1 hs1
      split
      · exact (leg_pools hs1).1
      · rename_i s2 hs2
        exact (leg_pools hs2).1.trans (leg_pools hs1).1

theorem request_frame (s : St P K) (q : Req P K) {p : P}
    (h1 : q.src ≠ some p) (h2 : q.dst ≠ some p) :
    Frame p s (addTransaction ttv default s q).1 := by
  unfold SubForecast.addTransaction
  split
  · rfl
  · refine forEach_rel (R := Frame p) (fun _ => rfl) (fun h h' => Eq.trans h' h) (fun s kv => ?_) s _
    split
    · rfl
    · have : (orient q).2.1 ≠ some p ∧ (orient q).2.2 ≠ some p := by
        unfold orient; split
        · exact ⟨h2, h1⟩
        · exact ⟨h1, h2⟩
      exact add1_frame ttv s _ _ _ _ _ this.1 this.2

theorem request_avail (s : St P K) (q : Req P K) :
    (addTransaction ttv default s q).1.totalAvailable = s.totalAvailable := by
  unfold SubForecast.addTransaction
  split
  · rfl
  · refine forEach_rel (R := fun s s' => s'.totalAvailable = s.totalAvailable) (fun _ => rfl)
      (fun h h' => Eq.trans h' h) (fun s kv => ?_) s _
    split
    · rfl
    · exact add1_avail ttv s _ _ _ _ _

/-- Requests with a proper timing. -/
def Proper (q : Req P K) : Prop :=
  ∃ timing, resolve default q.timing = .ok timing ∧ Dict.total timing ≠ 0

theorem requests_effect {qs : List (Req P K)} (hq : ∀ q ∈ qs, Proper default q) {s s' : St P K}
    (hs : Good s) (h : forEach (addTransaction ttv default) s qs = (s', none)) :
    (∀ p, poolTotal s' p
      = poolTotal s p + (qs.map fun q => ((ind q.dst p : K) - ind q.src p) * q.value).sum) ∧
    (∀ o, recTotal s' o = recTotal s o + (qs.map fun q =>
      (if q.dst = o then q.value else 0) - if q.src = o then q.value else 0).sum) ∧
    Good s' ∧ s'.totalAvailable = s.totalAvailable := by
  induction qs generalizing s with
  | nil => cases h; exact ⟨fun p => by simp, fun o => by simp, hs, rfl⟩
  | cons q qs ih =>
    obtain ⟨s1, h1, h2⟩ := forEach_cons_ok h
    obtain ⟨timing, t1, t2⟩ := hq q (List.mem_cons_self ..)
    obtain ⟨_, -, -, e3, e4, -, e6⟩ := request_effect ttv default hs t1 t2 h1
    obtain ⟨i1, i2, i3, i4⟩ := ih (fun q hm => hq q (List.mem_cons_of_mem _ hm)) e6 h2
    refine ⟨fun p => ?_, fun o => ?_, i3, ?_⟩
    · rw [i1, e3, List.map_cons, List.sum_cons]; ring
    · rw [i2, e4, List.map_cons, List.sum_cons]; ring
    · rw [i4]; have := request_avail ttv default s q; rw [h1] at this; exact this

theorem requests_frame (qs : List (Req P K)) (s : St P K) {p : P}
    (h : ∀ q ∈ qs, q.src ≠ some p ∧ q.dst ≠ some p) :
    Frame p s (forEach (addTransaction ttv default) s qs).1 := by
  induction qs generalizing s with
  | nil => rfl
  | cons q qs ih =>
    have hq := h q (List.mem_cons_self ..)
    have h1 := request_frame ttv default s q hq.1 hq.2
    unfold forEach
    rcases hb : addTransaction ttv default s q with ⟨s1, _ | e⟩
    · rw [hb] at h1
      exact Eq.trans (ih s1 (fun q hm => h q (List.mem_cons_of_mem _ hm))) h1
    · rw [hb] at h1; exact h1

/-- The pool is a dict. -/
def IsDict (s : St P K) (o : Option P) : Prop := ∀ p, o = some p → ∃ f d, s.pools p = .dict f d

theorem IsDict.kind {s s' : St P K} {o : Option P} (h : IsDict s o)
    (hk : ∀ p, SameKind (s.pools p) (s'.pools p)) : IsDict s' o := by
  intro p hp
  obtain ⟨f, d, hd⟩ := h p hp
  have := hk p
  rw [hd] at this
  cases hq : s'.pools p with
  | dict f' d' => exact ⟨f', d', rfl⟩
  | acct L a => rw [hq] at this; exact absurd this (by simp [SameKind])

theorem leg_dict_ok {s : St P K} {o : Option P} (h : IsDict s o) (w x : K) :
    ∃ s', leg s o w x = .ok s' := by
  cases o with
  | none => exact ⟨_, rfl⟩
  | some p =>
    obtain ⟨f, d, hd⟩ := h p rfl
    have : ∃ q, poolAdd (s.pools p) w x = .ok q := by
      rw [hd]; unfold poolAdd; simp only; cases Dict.get? d w <;> exact ⟨_, rfl⟩
    obtain ⟨q, hq⟩ := this
    exact ⟨_, by simp only [leg, hq, ok_bind]; rfl⟩

theorem dateFor_dict_ok {s : St P K} {src : Option P} (h : IsDict s src) (v w : K) (strict : Bool) :
    ∃ w', dateFor ttv s v w src strict = .ok w' := by
  unfold dateFor
  cases src with
  | none => exact ⟨_, rfl⟩
  | some p =>
    obtain ⟨f, d, hd⟩ := h p rfl
    simp only [hd, shiftWhen]
    split_ifs <;> exact ⟨_, rfl⟩

theorem add1_dict_ok {s : St P K} (hs : Good s) {src dst : Option P} (h1 : IsDict s src)
    (h2 : IsDict s dst) (v w : K) (strict : Bool) :
    ∃ s', addTransaction1 ttv s v w src dst strict = (s', none) := by
  obtain ⟨w', hw⟩ := dateFor_dict_ok ttv h1 v w strict
  obtain ⟨s1, e1⟩ := leg_dict_ok h1 w' (-v)
  have hk := (leg_effect hs e1).kind
  obtain ⟨s2, e2⟩ := leg_dict_ok (h2.kind hk) w' v
  exact ⟨s2, by simp only [addTransaction1, hw, e1, e2]⟩

theorem request_dict_ok {s : St P K} (hs : Good s) {q : Req P K} (hp : Proper default q)
    (h1 : IsDict s q.src) (h2 : IsDict s q.dst) :
    ∃ s', addTransaction ttv default s q = (s', none) := by
  obtain ⟨timing, t1, t2⟩ := hp
  unfold SubForecast.addTransaction
  rw [t1]
  simp only [t2, if_false]
  have ho : IsDict s (orient q).2.1 ∧ IsDict s (orient q).2.2 := by
    unfold orient; split
    · exact ⟨h2, h1⟩
    · exact ⟨h1, h2⟩
  generalize (orient q) = o at ho
  generalize timing.total = n
  clear t1 t2
  induction timing generalizing s with
  | nil => exact ⟨s, rfl⟩
  | cons kv l ih =>
    obtain ⟨s1, e1⟩ := add1_dict_ok ttv hs ho.1 ho.2 (o.1 * (kv.2 / n)) kv.1 q.strict
    obtain ⟨_, _, _, _, _, _, _, hg, hk⟩ := add1_effect ttv hs e1
    obtain ⟨s', e2⟩ := ih hg (h1.kind hk) (h2.kind hk) ⟨ho.1.kind hk, ho.2.kind hk⟩
    exact ⟨s', by unfold forEach; simp only [e1, e2]⟩

theorem requests_dict_ok {qs : List (Req P K)} {s : St P K} (hs : Good s)
    (h : ∀ q ∈ qs, Proper default q ∧ IsDict s q.src ∧ IsDict s q.dst) :
    ∃ s', forEach (addTransaction ttv default) s qs = (s', none) := by
  induction qs generalizing s with
  | nil => exact ⟨s, rfl⟩
  | cons q qs ih =>
    obtain ⟨hp, h1, h2⟩ := h q (List.mem_cons_self ..)
    obtain ⟨s1, e1⟩ := request_dict_ok ttv default hs hp h1 h2
    have hl : Legs s s1 := by
      have := legs_addTransaction ttv default s q; rw [e1] at this; exact this
    obtain ⟨hg, hk, -⟩ := hl.inv hs
    obtain ⟨s', e2⟩ := ih hg (fun q hm => by
      obtain ⟨a, b, c⟩ := h q (List.mem_cons_of_mem _ hm)
      exact ⟨a, b.kind hk, c.kind hk⟩)
    exact ⟨s', by unfold forEach; simp only [e1, e2]⟩

/-- Money from the outside world arrives exactly at its dates. -/
theorem request_exact {s s' : St P K} (hs : Good s) {q : Req P K} {timing : Dict K K}
    (ht : resolve default q.timing = .ok timing) (hwf : Dict.WF timing)
    (hw : Dict.total timing ≠ 0) (hsrc : q.src = none) (hv : 0 ≤ q.value)
    (h : addTransaction ttv default s q = (s', none)) (p : P) (t : K) :
    amount s' p t = amount s p t
      + ind q.dst p * (q.value * (Dict.val timing t / Dict.total timing)) := by
  unfold SubForecast.addTransaction at h
  rw [ht] at h
  have ho : orient q = (q.value, none, q.dst) := by
    unfold orient; rw [if_neg (not_lt.2 hv), hsrc]
  simp only [ho, hw, if_false] at h
  have key : ∀ (n : K) (l : Dict K K), Dict.WF l → ∀ (s : St P K), Good s →
      forEach (fun s (kv : K × K) => addTransaction1 ttv s (q.value * (kv.2 / n)) kv.1 none q.dst
        q.strict) s l = (s', none) →
      amount s' p t = amount s p t + ind q.dst p * (q.value * (Dict.val l t / n)) := by
    intro n l
    induction l with
    | nil => intro _ s _ h; cases h; simp [Dict.val_nil]
    | cons kv l ih =>
      intro hl s hs h
      obtain ⟨s1, h1, h2⟩ := forEach_cons_ok h
      obtain ⟨w, e1, -, e2, -, -, -, e3, -⟩ := add1_effect ttv hs h1
      rw [Dict.wf_cons] at hl
      have hw' : kv.1 = w := by simpa [dateFor] using e1
      subst hw'
      rw [ih hl.2 s1 e3 h2, e2]
      by_cases hk : kv.1 = t
      · subst hk
        have hv0 : Dict.val l kv.1 = 0 := Dict.val_of_not_mem hl.1
        have hv1 : Dict.val (kv :: l) kv.1 = kv.2 := by
          simp [Dict.val, Dict.get?_cons]
        simp [hv0, hv1, ind]
      · have hv1 : Dict.val (kv :: l) t = Dict.val l t := by
          simp [Dict.val, Dict.get?_cons, hk]
        simp [hk, hv1]
  exact key _ timing hwf s hs h

/-- The base class's call, the first time in a year. -/
theorem call_first {s : St P K} (hs : Good s) (hc : s.called = false) (available : P) :
    ∃ x, call s available = ({ s with called := true, totalAvailable := x }, none) ∧
      totalOf (s.pools available) = .ok x := by
  obtain ⟨x, hx⟩ := totalOf_ok (hs.pools available)
  refine ⟨x, ?_, hx⟩
  unfold call begin
  simp only [hc, Bool.false_eq_true, if_false, hx]

theorem good_begin {s : St P K} (hs : Good s) (x : Ext K) :
    Good ({ s with called := true, totalAvailable := x } : St P K) :=
  ⟨hs.pools, hs.record, hs.entries, hs.present⟩

/-! ### Series of transactions -/

theorem scalar_resolved {w : K} {timing : Dict K K}
    (h : resolve default (some (.scalar (.num w))) = .ok timing) :
    timing = [(w, 1)] ∧ 0 ≤ w ∧ w ≤ 1 := by
  by_cases hw : 0 ≤ w ∧ w ≤ 1
  · rw [resolve_scalar default hw.1 hw.2] at h
    cases h; exact ⟨rfl, hw⟩
  · exfalso
    have hc : whenConv (.num w) = .error .valueError := by
      rw [whenConv_num, if_pos]
      by_contra hn
      push Not at hn
      exact hw ⟨hn.2, hn.1⟩
    simp [resolve, Timing.init, initScalar, hc] at h

theorem series_effect {txs : Dict K K} {src dst : Option P} {strict : Bool} {s s' : St P K}
    (hs : Good s)
    (h : SubForecast.addTransactions ttv default s txs src dst strict = (s', none)) :
    (∀ p, poolTotal s' p = poolTotal s p + ((ind dst p : K) - ind src p) * Dict.total txs) ∧
    Good s' ∧ s'.totalAvailable = s.totalAvailable ∧ (∀ t ∈ Dict.keys txs, 0 ≤ t ∧ t ≤ 1) := by
  unfold SubForecast.addTransactions at h
  induction txs generalizing s with
  | nil => cases h; exact ⟨fun p => by simp, hs, rfl, by simp⟩
  | cons kv l ih =>
    obtain ⟨s1, h1, h2⟩ := forEach_cons_ok h
    cases ht : resolve default (some (.scalar (.num kv.1))) with
    | error e => unfold SubForecast.addTransaction at h1; simp only [ht] at h1; simp at h1
    | ok timing =>
      obtain ⟨rfl, w0, w1⟩ := scalar_resolved default ht
      obtain ⟨_, -, -, e3, -, -, e6⟩ := request_effect ttv default hs
        (q := { value := kv.2, timing := some (.scalar (.num kv.1)), src, dst, strict }) ht
        (by simp) h1
      obtain ⟨i1, i2, i3, i4⟩ := ih e6 h2
      refine ⟨fun p => ?_, i2, ?_, ?_⟩
      · rw [i1, e3, Dict.total_cons]; ring
      · rw [i3]
        have := request_avail ttv default s
          { value := kv.2, timing := some (.scalar (.num kv.1)), src, dst, strict }
        rw [h1] at this; exact this
      · intro t ht'
        rw [Dict.keys_cons, List.mem_cons] at ht'
        rcases ht' with rfl | ht'
        · exact ⟨w0, w1⟩
        · exact i4 t ht'

theorem series_frame (txs : Dict K K) {src dst : Option P} (strict : Bool) (s : St P K) {p : P}
    (h1 : src ≠ some p) (h2 : dst ≠ some p) :
    (SubForecast.addTransactions ttv default s txs src dst strict).1.pools p = s.pools p := by
  unfold SubForecast.addTransactions
  exact forEach_rel (R := Frame p) (fun _ => rfl) (fun h h' => Eq.trans h' h)
    (fun s kv => request_frame ttv default s _ h1 h2) s txs

/-! ### Sums over dicts of schedules -/

/-- What a dict of schedules says for account `p`. -/
def due (txs : Dict P (Dict K K)) (p : P) : K := Dict.total ((Dict.get? txs p).getD [])

theorem due_nil (p : P) : due ([] : Dict P (Dict K K)) p = 0 := rfl

theorem due_cons (e : P × Dict K K) (l : Dict P (Dict K K)) (p : P) :
    due (e :: l) p = if e.1 = p then Dict.total e.2 else due l p := by
  unfold due
  rw [Dict.get?_cons]
  split <;> rfl

theorem due_not_mem {txs : Dict P (Dict K K)} {p : P} (h : p ∉ Dict.keys txs) : due txs p = 0 := by
  unfold due
  rw [Dict.get?_eq_none.2 h]; rfl

theorem sumOver_eq (txs : Dict P (Dict K K)) (accounts : List P) :
    sumOver txs accounts = (accounts.map (due txs)).sum := by
  have key : ∀ (l : List P) (t : K), l.foldl (fun t a => match Dict.get? txs a with
      | some d => t + Dict.total d
      | none => t) t = t + (l.map (due txs)).sum := by
    intro l
    induction l with
    | nil => intro t; simp
    | cons a l ih =>
      intro t
      rw [List.foldl_cons, ih, List.map_cons, List.sum_cons]
      unfold due
      cases Dict.get? txs a with
      | none => simp
      | some d => simp only [Option.getD_some]; ring
  have := key accounts 0
  rw [zero_add] at this
  exact this

theorem sum_due_keys {txs : Dict P (Dict K K)} (h : Dict.WF txs) :
    ((Dict.keys txs).map (due txs)).sum = (txs.map fun e => Dict.total e.2).sum := by
  induction txs with
  | nil => rfl
  | cons e l ih =>
    rw [Dict.wf_cons] at h
    rw [Dict.keys_cons, List.map_cons, List.sum_cons, List.map_cons, List.sum_cons, ← ih h.2,
      due_cons, if_pos rfl]
    congr 2
    apply List.map_congr_left
    intro p hp
    rw [due_cons, if_neg]
    rintro rfl
    exact h.1 hp

end Forecaster.CashFlow
