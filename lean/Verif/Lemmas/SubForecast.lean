import Verif.Model.SubForecast
import Verif.Lemmas.Account
import Mathlib.Logic.Relation
import Mathlib.Algebra.BigOperators.Group.Finset.Basic
import Mathlib.Tactic.LinearCombination

/-! Helper lemmas for `Verif/Props/SubForecast.lean`. -/

set_option linter.unusedSectionVars false

namespace Forecaster.SubForecast

open Forecaster Forecaster.Timing Forecaster.Account

variable {K : Type} [Field K] [LinearOrder K] [IsStrictOrderedRing K]
variable {P : Type} [DecidableEq P]

/-! ### Specification vocabulary -/

/-- Specification: the amount dated `t` in pool `p`. -/
def amount (s : St P K) (p : P) (t : K) : K := Dict.val (s.pools p).txns t

/-- Specification: the net of all transactions of pool `p`. -/
def poolTotal (s : St P K) (p : P) : K := Dict.total (s.pools p).txns

/-- Specification: the amount dated `t` that `transactions` records for `o` (a pool, or
`none` for the outside world). -/
def recorded (s : St P K) (o : Option P) (t : K) : K :=
  Dict.val ((Dict.get? s.record o).getD []) t

/-- Specification: the net of what `transactions` records for `o`. -/
def recTotal (s : St P K) (o : Option P) : K := Dict.total ((Dict.get? s.record o).getD [])

/-- A real pool: a dict with distinct keys, or an account that was constructed and used
through its API. -/
def GoodPool : Pool K → Prop
  | .dict _ d => Dict.WF d
  | .acct _ a => Inv a

/-- A state the program can be in: real pools, a real record, and every recorded date
present in the pool. -/
structure Good (s : St P K) : Prop where
  pools : ∀ p, GoodPool (s.pools p)
  record : Dict.WF s.record
  entries : ∀ o d, Dict.get? s.record o = some d → Dict.WF d
  present : ∀ p d, Dict.get? s.record (some p) = some d →
    ∀ t ∈ Dict.keys d, t ∈ Dict.keys (s.pools p).txns

theorem GoodPool.wf {q : Pool K} (h : GoodPool q) : Dict.WF q.txns := by
  cases q with
  | dict f d => exact h
  | acct L a => exact h.tx.wf

theorem good_fresh {pools : P → Pool K} (h : ∀ p, GoodPool (pools p)) : Good (fresh pools) :=
  ⟨h, Dict.wf_nil, by simp [fresh], by simp [fresh]⟩

/-! ### Accounts as pools -/

theorem val_del {d : Dict K K} (hd : Dict.WF d) (k t : K) :
    Dict.val (Dict.del d k) t = if k = t then 0 else Dict.val d t := by
  unfold Dict.val
  rw [Dict.get?_del hd]
  split <;> simp

theorem total_del {d : Dict K K} (hd : Dict.WF d) (k : K) :
    Dict.total (Dict.del d k) = Dict.total d - Dict.val d k := by
  induction d with
  | nil => simp [Dict.del, Dict.val_nil]
  | cons a d ih =>
    obtain ⟨ka, va⟩ := a
    rw [Dict.wf_cons] at hd
    by_cases h : ka = k
    · simp [Dict.del, h, Dict.val, Dict.get?_cons]
    · simp only [Dict.del, h, if_false, Dict.total_cons, ih hd.2, Dict.val, Dict.get?_cons]
      ring

theorem mem_keys_del {d : Dict K K} (hd : Dict.WF d) {k t : K} :
    t ∈ Dict.keys (Dict.del d k) ↔ k ≠ t ∧ t ∈ Dict.keys d := by
  rw [← Dict.get?_isSome, Dict.get?_del hd, ← Dict.get?_isSome]
  by_cases h : k = t <;> simp [h]

/-- What an assignment `account[x] = v` does. -/
theorem setItem_num {a : Acct K} (ha : Inv a) {x v : K} {a' : Acct K}
    (h : setItem a (.num x) v = .ok a') :
    ∃ T, a' = { a with txns := T } ∧ (∀ t, Dict.val T t = if x = t then v else Dict.val a.txns t) ∧
      Dict.total T = Dict.total a.txns - Dict.val a.txns x + v ∧
      (∀ t, t ∈ Dict.keys T ↔ t = x ∨ t ∈ Dict.keys a.txns) ∧ Inv a' ∧ 0 ≤ x ∧ x ≤ 1 := by
  have hI := inv_setItem ha h
  cases hw : whenConv (.num x) with
  | error e =>
    simp only [setItem, Account.addTransaction, hw, error_bind] at h
    cases h
  | ok w =>
    have hwx : w = x := by
      unfold whenConv at hw
      simp only at hw
      split_ifs at hw
      cases hw; rfl
    subst hwx
    have hr := whenConv_rng hw
    unfold setItem at h
    simp only at h
    have hwf := ha.tx.wf
    split_ifs at h with hx
    · rw [addTransaction_eq hw] at h
      cases h
      refine ⟨_, rfl, fun t => ?_, ?_, fun t => ?_, hI, hr⟩
      · simp only [Dict.val_set, val_del hwf, if_true, zero_add]
        split <;> rfl
      · simp only [Dict.total_set (Dict.wf_del hwf _), total_del hwf, val_del hwf, if_true]
        ring
      · simp only [Dict.mem_keys_set, mem_keys_del hwf]
        by_cases htw : t = w
        · simp [htw]
        · simp [htw, Ne.symm htw]
    · rw [addTransaction_eq hw] at h
      cases h
      refine ⟨_, rfl, fun t => ?_, ?_, fun t => ?_, hI, hr⟩
      · simp only [Dict.val_set, Dict.val_of_not_mem hx, zero_add]
      · simp only [Dict.total_set hwf, Dict.val_of_not_mem hx]
        ring
      · simp only [Dict.mem_keys_set]

theorem setItem_ok (a : Acct K) {x : K} (h0 : 0 ≤ x) (h1 : x ≤ 1) (v : K) :
    ∃ a', setItem a (.num x) v = .ok a' := by
  unfold setItem
  simp only [Account.addTransaction, whenConv_ok h0 h1, ok_bind]
  exact ⟨_, rfl⟩

/-! ### Single updates of a pool -/

/-- What makes two pools the same but for their transactions. -/
def SameKind : Pool K → Pool K → Prop
  | .dict f _, .dict f' _ => f = f'
  | .acct L a, .acct L' a' => L = L' ∧ { a with txns := [] } = { a' with txns := [] }
  | _, _ => False

theorem SameKind.refl (q : Pool K) : SameKind q q := by cases q <;> simp [SameKind]

theorem SameKind.symm {q r : Pool K} (h : SameKind q r) : SameKind r q := by
  cases q <;> cases r <;> simp_all [SameKind]

theorem SameKind.trans {q r u : Pool K} (h : SameKind q r) (h' : SameKind r u) :
    SameKind q u := by
  cases q <;> cases r <;> cases u <;> simp_all [SameKind]

/-- A pool `q'` obtained from `q` by adding `x` to its entry dated `w`. -/
structure Upd (q q' : Pool K) (w x : K) : Prop where
  val : ∀ t, Dict.val q'.txns t = Dict.val q.txns t + if w = t then x else 0
  total : Dict.total q'.txns = Dict.total q.txns + x
  keys : ∀ t, t ∈ Dict.keys q'.txns ↔ t = w ∨ t ∈ Dict.keys q.txns
  good : GoodPool q'
  kind : SameKind q q'

theorem upd_dict {f : Bool} {d : Dict K K} (hd : Dict.WF d) (w x : K) :
    Upd (.dict f d) (.dict f (Dict.set d w (Dict.val d w + x))) w x := by
  refine ⟨fun t => ?_, ?_, fun t => ?_, Dict.wf_set hd _ _, rfl⟩
  · simp only [Pool.txns, Dict.val_set]
    split
    · next h => rw [h]
    · simp
  · simp only [Pool.txns, Dict.total_set hd]; ring
  · simp only [Pool.txns, Dict.mem_keys_set]

theorem upd_acct {L : Limits K} {a a' : Acct K} (ha : Inv a) {w x : K}
    (h : setItem a (.num w) (Dict.val a.txns w + x) = .ok a') :
    Upd (.acct L a) (.acct L a') w x := by
  obtain ⟨T, rfl, hv, ht, hk, hI, -⟩ := setItem_num ha h
  refine ⟨fun t => ?_, ?_, fun t => ?_, hI, by simp [SameKind]⟩
  · simp only [Pool.txns, hv]
    split
    · next h => rw [h]
    · simp
  · simp only [Pool.txns, ht]; ring
  · simp only [Pool.txns, hk]

theorem contains_num {a : Acct K} {w : K} {b : Bool} (h : contains a (.num w) = .ok b) :
    b = decide (w ∈ Dict.keys a.txns) := by
  unfold contains at h
  cases hw : whenConv (.num w) with
  | error e => simp [hw] at h
  | ok v =>
    have : v = w := by
      unfold whenConv at hw; simp only at hw; split_ifs at hw; cases hw; rfl
    subst this
    simp only [hw, ok_bind, Except.ok.injEq] at h
    exact h.symm

theorem poolAdd_acct {L : Limits K} {a : Acct K} {w x : K} {q' : Pool K}
    (h : poolAdd (.acct L a) w x = .ok q') :
    ∃ a', setItem a (.num w) (Dict.val a.txns w + x) = .ok a' ∧ q' = .acct L a' := by
  unfold poolAdd at h
  simp only at h
  cases hc : contains a (.num w) with
  | error e => rw [hc] at h; simp at h
  | ok b =>
    rw [hc, ok_bind] at h
    have hb := contains_num hc
    have hval : (if b then Dict.val a.txns w + x else x) = Dict.val a.txns w + x := by
      by_cases hm : w ∈ Dict.keys a.txns
      · simp [hb, hm]
      · simp [hb, hm, Dict.val_of_not_mem hm]
    rw [hval] at h
    cases hs : setItem a (.num w) (Dict.val a.txns w + x) with
    | error e => rw [hs] at h; simp at h
    | ok a' => rw [hs, ok_bind] at h; cases h; exact ⟨a', rfl, rfl⟩

theorem poolAdd_upd {q q' : Pool K} (hq : GoodPool q) {w x : K} (h : poolAdd q w x = .ok q') :
    Upd q q' w x := by
  cases q with
  | dict f d =>
    have hh : poolAdd (.dict f d) w x = .ok (.dict f (Dict.set d w (Dict.val d w + x))) := by
      unfold poolAdd Dict.val
      simp only
      cases Dict.get? d w <;> simp
    rw [hh] at h
    cases h
    exact upd_dict hq w x
  | acct L a =>
    obtain ⟨a', hs, rfl⟩ := poolAdd_acct h
    exact upd_acct hq hs

theorem poolSub_upd {q q' : Pool K} (hq : GoodPool q) {w x : K} (h : poolSub q w x = .ok q') :
    Upd q q' w (-x) := by
  cases q with
  | dict f d =>
    have hh : q' = .dict f (Dict.set d w (Dict.val d w + -x)) := by
      unfold poolSub at h
      unfold Dict.val
      simp only at h
      cases hg : Dict.get? d w with
      | some y => rw [hg] at h; cases h; simp [sub_eq_add_neg]
      | none =>
        rw [hg] at h
        simp only at h
        split_ifs at h
        cases h; simp
    rw [hh]
    exact upd_dict hq w _
  | acct L a =>
    unfold poolSub at h
    simp only at h
    cases hs : setItem a (.num w) (Dict.val a.txns w - x) with
    | error e => rw [hs] at h; simp at h
    | ok a' =>
      rw [hs, ok_bind] at h
      cases h
      rw [sub_eq_add_neg] at hs
      exact upd_acct hq hs

theorem poolSub_ok {q : Pool K} (hq : GoodPool q) {w : K} (hw : w ∈ Dict.keys q.txns) (x : K) :
    ∃ q', poolSub q w x = .ok q' := by
  cases q with
  | dict f d =>
    obtain ⟨v, hv⟩ := Dict.mem_keys_iff.1 hw
    unfold poolSub
    simp only [Pool.txns] at hv
    simp only [hv]
    exact ⟨_, rfl⟩
  | acct L a =>
    obtain ⟨h0, h1⟩ := Inv.tx (a := a) hq |>.rng w hw
    obtain ⟨a', ha'⟩ := setItem_ok a h0 h1 (Dict.val a.txns w - x)
    unfold poolSub
    simp only [ha', ok_bind]
    exact ⟨_, rfl⟩

/-! ### The record -/

theorem recorded_recAdd (r : Dict (Option P) (Dict K K)) (o : Option P) (w x : K)
    (o' : Option P) (t : K) :
    Dict.val ((Dict.get? (recAdd r o w x) o').getD []) t
      = Dict.val ((Dict.get? r o').getD []) t + if o = o' ∧ w = t then x else 0 := by
  unfold recAdd
  simp only [Dict.get?_set]
  by_cases h : o = o'
  · subst h
    simp only [if_true, Option.getD_some, Dict.val_set, true_and]
    split
    · next h => rw [h]
    · simp
  · simp [h]

theorem recTotal_recAdd {r : Dict (Option P) (Dict K K)}
    (hr : ∀ o d, Dict.get? r o = some d → Dict.WF d) (o : Option P) (w x : K) (o' : Option P) :
    Dict.total ((Dict.get? (recAdd r o w x) o').getD [])
      = Dict.total ((Dict.get? r o').getD []) + if o = o' then x else 0 := by
  have hwf : Dict.WF ((Dict.get? r o).getD []) := by
    cases h : Dict.get? r o with
    | none => simp
    | some d => simpa using hr o d h
  unfold recAdd
  simp only [Dict.get?_set]
  by_cases h : o = o'
  · subst h
    simp only [if_true, Option.getD_some, Dict.total_set hwf]
    ring
  · simp [h]

/-! ### Legs of transactions -/

/-- What one leg does. -/
structure LegEffect (s s' : St P K) (o : Option P) (w x : K) : Prop where
  amount : ∀ p t, amount s' p t = amount s p t + if o = some p ∧ w = t then x else 0
  total : ∀ p, poolTotal s' p = poolTotal s p + if o = some p then x else 0
  recorded : ∀ o' t, recorded s' o' t = recorded s o' t + if o = o' ∧ w = t then x else 0
  recTotal : ∀ o', recTotal s' o' = recTotal s o' + if o = o' then x else 0
  good : Good s'
  kind : ∀ p, SameKind (s.pools p) (s'.pools p)
  called : s'.called = s.called

theorem recAdd_wf {r : Dict (Option P) (Dict K K)} (h : Dict.WF r) (o : Option P) (w x : K) :
    Dict.WF (recAdd r o w x) := Dict.wf_set h _ _

theorem recAdd_entries {r : Dict (Option P) (Dict K K)}
    (hr : ∀ o d, Dict.get? r o = some d → Dict.WF d) (o : Option P) (w x : K) :
    ∀ o' d, Dict.get? (recAdd r o w x) o' = some d → Dict.WF d := by
  intro o' d hd
  have hwf : Dict.WF ((Dict.get? r o).getD []) := by
    cases h : Dict.get? r o with
    | none => simp
    | some d => simpa using hr o d h
  unfold recAdd at hd
  simp only [Dict.get?_set] at hd
  split_ifs at hd with h
  · cases hd; exact Dict.wf_set hwf _ _
  · exact hr _ _ hd

theorem recAdd_keys (r : Dict (Option P) (Dict K K)) (o : Option P) (w x : K) {o' : Option P}
    {d : Dict K K} (hd : Dict.get? (recAdd r o w x) o' = some d) {t : K}
    (ht : t ∈ Dict.keys d) :
    (o = o' ∧ t = w) ∨ ∃ d', Dict.get? r o' = some d' ∧ t ∈ Dict.keys d' := by
  unfold recAdd at hd
  simp only [Dict.get?_set] at hd
  split_ifs at hd with h
  · subst h
    cases hd
    rcases Dict.mem_keys_set.1 ht with rfl | ht
    · exact .inl ⟨rfl, rfl⟩
    · cases hg : Dict.get? r o with
      | none => simp [hg] at ht
      | some d' => right; exact ⟨d', rfl, by simpa [hg] using ht⟩
  · exact .inr ⟨d, hd, ht⟩

theorem leg_effect {s s' : St P K} (hs : Good s) {o : Option P} {w x : K}
    (h : leg s o w x = .ok s') : LegEffect s s' o w x := by
  cases o with
  | none =>
    simp only [leg, Except.ok.injEq] at h
    subst h
    refine ⟨fun p t => by simp [amount], fun p => by simp [poolTotal],
      fun o' t => recorded_recAdd _ _ _ _ _ _, fun o' => recTotal_recAdd hs.entries _ _ _ _,
      ⟨hs.pools, recAdd_wf hs.record _ _ _, recAdd_entries hs.entries _ _ _, ?_⟩,
      fun p => SameKind.refl _, rfl⟩
    intro p d hd t ht
    rcases recAdd_keys _ _ _ _ hd ht with ⟨h, -⟩ | ⟨d', h1, h2⟩
    · cases h
    · exact hs.present p d' h1 t h2
  | some p =>
    simp only [leg] at h
    cases hq : poolAdd (s.pools p) w x with
    | error e => rw [hq] at h; simp at h
    | ok q =>
      rw [hq, ok_bind] at h
      cases h
      have hu := poolAdd_upd (hs.pools p) hq
      refine ⟨fun p' t => ?_, fun p' => ?_, fun o' t => recorded_recAdd _ _ _ _ _ _,
        fun o' => recTotal_recAdd hs.entries _ _ _ _,
        ⟨fun p' => ?_, recAdd_wf hs.record _ _ _, recAdd_entries hs.entries _ _ _, ?_⟩,
        fun p' => ?_, rfl⟩
      · by_cases hp : p' = p
        · subst hp; simp [amount, setPool, hu.val]
        · simp [amount, setPool, hp, Ne.symm hp]
      · by_cases hp : p' = p
        · subst hp; simp [poolTotal, setPool, hu.total]
        · simp [poolTotal, setPool, hp, Ne.symm hp]
      · by_cases hp : p' = p
        · subst hp; simpa [setPool] using hu.good
        · simpa [setPool, hp] using hs.pools p'
      · intro p' d hd t ht
        by_cases hp : p' = p
        · subst hp
          simp only [setPool, if_true, hu.keys]
          rcases recAdd_keys _ _ _ _ hd ht with ⟨-, h⟩ | ⟨d', h1, h2⟩
          · exact .inl h
          · exact .inr (hs.present _ d' h1 t h2)
        · simp only [setPool, hp, if_false]
          rcases recAdd_keys _ _ _ _ hd ht with ⟨h, -⟩ | ⟨d', h1, h2⟩
          · cases h; exact absurd rfl hp
          · exact hs.present _ d' h1 t h2
      · by_cases hp : p' = p
        · subst hp; simpa [setPool] using hu.kind
        · simpa [setPool, hp] using SameKind.refl _

/-- `s'` is reached from `s` by legs of transactions. -/
def Legs : St P K → St P K → Prop :=
  Relation.ReflTransGen fun s s' => ∃ o w x, leg s o w x = .ok s'

theorem forEach_rel {α : Type} {R : St P K → St P K → Prop} (hr : ∀ s, R s s)
    (ht : ∀ {a b c}, R a b → R b c → R a c)
    {body : St P K → α → St P K × Option PyErr} (hb : ∀ s x, R s (body s x).1)
    (s : St P K) (l : List α) : R s (forEach body s l).1 := by
  induction l generalizing s with
  | nil => exact hr s
  | cons x xs ih =>
    have h := hb s x
    unfold forEach
    rcases hx : body s x with ⟨s', _ | e⟩
    · rw [hx] at h; exact ht h (ih s')
    · rw [hx] at h; exact h

theorem legs_one {s s' : St P K} {o : Option P} {w x : K} (h : leg s o w x = .ok s') :
    Legs s s' := .single ⟨o, w, x, h⟩

variable (ttv : Acct K → K → K → Except PyErr (Ext K)) (default : Dict K K)

theorem legs_addTransaction1 (s : St P K) (v w : K) (src dst : Option P) (strict : Bool) :
    Legs s (addTransaction1 ttv s v w src dst strict).1 := by
  unfold addTransaction1
  split
  · exact .refl
  · split
    · exact .refl
    · next h1 =>
      split
      · exact legs_one h1
      · next h2 => exact .trans (legs_one h1) (legs_one h2)

theorem legs_addTransaction (s : St P K) (q : Req P K) :
    Legs s (addTransaction ttv default s q).1 := by
  unfold addTransaction
  split
  · exact .refl
  · apply forEach_rel (R := Legs) (fun s => .refl) (fun h h' => .trans h h')
    intro s x
    split
    · exact .refl
    · exact legs_addTransaction1 _ _ _ _ _ _ _

theorem legs_requests (s : St P K) (qs : List (Req P K)) :
    Legs s (forEach (addTransaction ttv default) s qs).1 :=
  forEach_rel (R := Legs) (fun s => .refl) (fun h h' => .trans h h')
    (fun s q => legs_addTransaction ttv default s q) s qs

theorem Legs.inv {s s' : St P K} (h : Legs s s') (hs : Good s) :
    Good s' ∧ (∀ p, SameKind (s.pools p) (s'.pools p)) ∧ s'.called = s.called ∧
      (∀ p t, amount s' p t - amount s p t
        = recorded s' (some p) t - recorded s (some p) t) ∧
      (∀ p, poolTotal s' p - poolTotal s p = recTotal s' (some p) - recTotal s (some p)) := by
  induction h with
  | refl => exact ⟨hs, fun p => SameKind.refl _, rfl, fun p t => by ring, fun p => by ring⟩
  | tail _ hstep ih =>
    obtain ⟨hg, hk, hc, ha, ht⟩ := ih
    obtain ⟨o, w, x, hl⟩ := hstep
    have he := leg_effect hg hl
    refine ⟨he.good, fun p => (hk p).trans (he.kind p), he.called.trans hc, fun p t => ?_,
      fun p => ?_⟩
    · rw [he.amount, he.recorded]
      linear_combination ha p t
    · rw [he.total, he.recTotal]
      linear_combination ht p

/-! ### Undoing -/

theorem undoPool_loop {s : St P K} (hs : ∀ p, GoodPool (s.pools p)) (p : P) (d : Dict K K)
    (hd : Dict.WF d)
    (hk : ∀ t ∈ Dict.keys d, t ∈ Dict.keys (s.pools p).txns) :
    ∃ s', forEach (fun s kv => undoPool s p kv) s d = (s', none) ∧
      (∀ p', GoodPool (s'.pools p')) ∧
      (∀ p', SameKind (s.pools p') (s'.pools p')) ∧
      (∀ p' t, t ∈ Dict.keys (s.pools p').txns → t ∈ Dict.keys (s'.pools p').txns) ∧
      (∀ p' t, amount s' p' t = amount s p' t - if p' = p then Dict.val d t else 0) ∧
      s'.record = s.record ∧ s'.called = s.called ∧ s'.totalAvailable = s.totalAvailable := by
  induction d generalizing s with
  | nil =>
    exact ⟨s, rfl, hs, fun _ => SameKind.refl _, fun _ _ h => h,
      fun p' t => by simp [Dict.val_nil], rfl, rfl, rfl⟩
  | cons kv d ih =>
    rw [Dict.wf_cons] at hd
    obtain ⟨q, hq⟩ := poolSub_ok (hs p) (hk kv.1 (by simp)) kv.2
    have hu := poolSub_upd (hs p) hq
    have hstep : undoPool s p kv = (setPool s p q, none) := by unfold undoPool; rw [hq]
    have hg : ∀ p', GoodPool ((setPool s p q).pools p') := by
      intro p'
      by_cases hp : p' = p
      · simpa [setPool, hp] using hu.good
      · simpa [setPool, hp] using hs p'
    have hkeys : ∀ p' t, t ∈ Dict.keys (s.pools p').txns →
        t ∈ Dict.keys ((setPool s p q).pools p').txns := by
      intro p' t ht
      by_cases hp : p' = p
      · subst hp; simp only [setPool, if_true, hu.keys]; exact .inr ht
      · simpa [setPool, hp] using ht
    obtain ⟨s', h1, h2, h3, h4, h5, h6, h7, h8⟩ := ih hg hd.2 (by
      intro t ht
      exact hkeys p t (hk t (by simp [ht])))
    refine ⟨s', ?_, h2, fun p' => ?_, fun p' t ht => h4 p' t (hkeys p' t ht), fun p' t => ?_,
      h6, h7, h8⟩
    · simp only [forEach, hstep]; exact h1
    · refine SameKind.trans ?_ (h3 p')
      by_cases hp : p' = p
      · subst hp; simpa [setPool] using hu.kind
      · simpa [setPool, hp] using SameKind.refl _
    · rw [h5 p' t]
      by_cases hp : p' = p
      · subst hp
        simp only [amount, setPool, if_true, hu.val]
        by_cases hkt : kv.1 = t
        · subst hkt
          rw [Dict.val_of_not_mem hd.1]
          simp [Dict.val, Dict.get?_cons, sub_eq_add_neg]
        · simp [Dict.val, Dict.get?_cons, hkt]
      · simp [amount, setPool, hp]

theorem undo_loop {s : St P K} (hs : ∀ p, GoodPool (s.pools p)) (E : Dict (Option P) (Dict K K))
    (hE : Dict.WF E) (hd : ∀ e ∈ E, Dict.WF e.2)
    (hk : ∀ p d, (some p, d) ∈ E → ∀ t ∈ Dict.keys d, t ∈ Dict.keys (s.pools p).txns) :
    ∃ s', forEach undoEntry s E = (s', none) ∧
      (∀ p', GoodPool (s'.pools p')) ∧
      (∀ p', SameKind (s.pools p') (s'.pools p')) ∧
      (∀ p' t, amount s' p' t
        = amount s p' t - Dict.val ((Dict.get? E (some p')).getD []) t) ∧
      (∀ p' t, t ∈ Dict.keys (s.pools p').txns → t ∈ Dict.keys (s'.pools p').txns) ∧
      s'.record = s.record ∧ s'.called = s.called ∧ s'.totalAvailable = s.totalAvailable := by
  induction E generalizing s with
  | nil =>
    exact ⟨s, rfl, hs, fun _ => SameKind.refl _, fun p' t => by simp [Dict.val_nil],
      fun _ _ h => h, rfl, rfl, rfl⟩
  | cons e E ih =>
    obtain ⟨o, d⟩ := e
    rw [Dict.wf_cons] at hE
    cases o with
    | none =>
      obtain ⟨s', h1, h2, h3, h4, h5⟩ := ih hs hE.2 (fun e he => hd e (by simp [he]))
        (fun p d hm => hk p d (by simp [hm]))
      refine ⟨s', ?_, h2, h3, fun p' t => ?_, h5⟩
      · simp only [forEach, undoEntry]; exact h1
      · rw [h4, Dict.get?_cons]; simp
    | some p =>
      obtain ⟨s1, g1, g2, g3, g4, g5, g6, g7, g8⟩ := undoPool_loop hs p d (hd (some p, d) (by simp))
        (hk p d (by simp))
      obtain ⟨s', h1, h2, h3, h4, h4', h5, h6, h7⟩ := ih g2 hE.2 (fun e he => hd e (by simp [he]))
        (fun p' d' hm t ht => g4 p' t (hk p' d' (by simp [hm]) t ht))
      refine ⟨s', ?_, h2, fun p' => (g3 p').trans (h3 p'), fun p' t => ?_,
        fun p' t ht => h4' p' t (g4 p' t ht),
        h5.trans g6, h6.trans g7, h7.trans g8⟩
      · simp only [forEach, undoEntry, g1]; exact h1
      · rw [h4, g5, Dict.get?_cons]
        by_cases hp : p' = p
        · subst hp
          rw [Dict.get?_eq_none.2 hE.1]
          simp [Dict.val_nil]
        · simp [hp, Ne.symm hp]

theorem undo_spec {s : St P K} (hs : Good s) :
    ∃ s', undo s = (s', none) ∧ Good s' ∧
      (∀ p, SameKind (s.pools p) (s'.pools p)) ∧
      (∀ p t, amount s' p t = amount s p t - recorded s (some p) t) ∧
      s'.record = s.record ∧ s'.called = false := by
  obtain ⟨s', h1, h2, h3, h4, h4', h5, h6, h7⟩ := undo_loop hs.pools s.record hs.record
    (fun e he => hs.entries e.1 e.2 (Dict.get?_of_mem hs.record he))
    (fun p d hm => hs.present p d (Dict.get?_of_mem hs.record hm))
  refine ⟨{ s' with called := false }, ?_, ⟨h2, ?_, ?_, ?_⟩, h3, h4, h5, rfl⟩
  · unfold undo; rw [h1]
  · show Dict.WF s'.record
    rw [h5]; exact hs.record
  · intro o d hd
    have : Dict.get? s.record o = some d := by rw [← h5]; exact hd
    exact hs.entries o d this
  · intro p d hd t ht
    have : Dict.get? s.record (some p) = some d := by rw [← h5]; exact hd
    exact h4' p t (hs.present p d this t ht)

/-! ### Shifting -/

theorem sum_keys_eq_cum {d : Dict K K} (hd : Dict.WF d) (t : K) :
    (((Dict.keys d).filter fun r => decide (r ≤ t)).map fun r => Dict.val d r).sum
      = Dict.cum d t := (Dict.cum_eq_sum_keys hd t).symm

theorem min?_getD_spec {l : List K} {w : K} :
    (l = [] ∧ l.min?.getD w = w) ∨ (l.min?.getD w ∈ l ∧ ∀ x ∈ l, l.min?.getD w ≤ x) := by
  cases hm : l.min? with
  | none => left; exact ⟨List.min?_eq_none_iff.1 hm, rfl⟩
  | some m =>
    right
    rw [List.min?_eq_some_iff] at hm
    exact ⟨hm.1, fun x hx => hm.2 x hx⟩

/-- What `_shift_when` computes from a dict of transactions. -/
theorem earliest_dict {d : Dict K K} (hd : Dict.WF d) (value when : K) :
    let t' := earliest (accumDict d when) value when
    when ≤ t' ∧
    ((∃ s, when ≤ s ∧ ∀ r, s ≤ r → value ≤ Dict.cum d r) →
      (∀ r, t' ≤ r → value ≤ Dict.cum d r) ∧
      ∀ s, when ≤ s → (∀ r, s ≤ r → value ≤ Dict.cum d r) → t' ≤ s) ∧
    ((¬ ∃ s, when ≤ s ∧ ∀ r, s ≤ r → value ≤ Dict.cum d r) → t' = when) := by
  intro t'
  set M := materialTimes d when with hM
  have hmem : ∀ t, t ∈ M ↔ (t = when ∨ t ∈ Dict.keys d) ∧ when ≤ t := by
    intro t
    simp only [hM, materialTimes, List.mem_filter, List.mem_cons, decide_eq_true_eq, ge_iff_le]
  have hwM : when ∈ M := (hmem when).2 ⟨.inl rfl, le_refl _⟩
  -- the last material time at or before `s`
  have hlast : ∀ s, when ≤ s → ∃ p ∈ M, p ≤ s ∧ Dict.cum d s = Dict.cum d p ∧
      ∀ r, p ≤ r → r ≤ s → Dict.cum d r = Dict.cum d s := by
    intro s hs
    obtain ⟨p, hp, hps, hl⟩ := exists_last_le (ks := M) (t := s) ⟨when, hwM, hs⟩
    have hwp : when ≤ p := ((hmem p).1 hp).2
    have key : ∀ r, p ≤ r → r ≤ s → Dict.cum d r = Dict.cum d s := by
      intro r hpr hrs
      apply Dict.cum_congr
      intro k hk
      constructor
      · intro h; exact h.trans hrs
      · intro h
        by_cases hwk : when ≤ k
        · exact (hl k ((hmem k).2 ⟨.inr hk, hwk⟩) h).trans hpr
        · exact ((not_le.1 hwk).le.trans hwp).trans hpr
    exact ⟨p, hp, hps, (key p (le_refl _) hps).symm, key⟩
  have hkeys : Dict.keys (accumDict d when) = M := by
    simp [accumDict, Dict.keys, Function.comp_def, hM]
  have helig : ∀ t ∈ M, (∀ kv ∈ accumDict d when, kv.1 ≥ t → kv.2 ≥ Ext.fin value) ↔
      ∀ r, t ≤ r → value ≤ Dict.cum d r := by
    intro t ht
    have hwt : when ≤ t := ((hmem t).1 ht).2
    constructor
    · intro h r hr
      obtain ⟨p, hp, hpr, hc, hall⟩ := hlast r (hwt.trans hr)
      rw [hc]
      by_cases htp : t ≤ p
      · have := h (p, _) (by
          unfold accumDict
          exact List.mem_map.2 ⟨p, hp, rfl⟩) htp
        rw [sum_keys_eq_cum hd] at this
        simpa using this
      · have hpt := (not_le.1 htp).le
        have := h (t, _) (by
          unfold accumDict
          exact List.mem_map.2 ⟨t, ht, rfl⟩) (le_refl _)
        rw [sum_keys_eq_cum hd] at this
        have h2 : Dict.cum d t = Dict.cum d p := by
          rw [hall t hpt hr, hc]
        rw [← h2]; simpa using this
    · intro h kv hkv hge
      unfold accumDict at hkv
      obtain ⟨r, hr, rfl⟩ := List.mem_map.1 hkv
      rw [sum_keys_eq_cum hd]
      simpa using h r hge
  set E := (Dict.keys (accumDict d when)).filter fun t =>
    decide (∀ kv ∈ accumDict d when, kv.1 ≥ t → kv.2 ≥ Ext.fin value) with hE
  have hEmem : ∀ t, t ∈ E ↔ t ∈ M ∧ ∀ r, t ≤ r → value ≤ Dict.cum d r := by
    intro t
    rw [hE, List.mem_filter, hkeys]
    constructor
    · rintro ⟨h1, h2⟩; exact ⟨h1, (helig t h1).1 (by simpa using h2)⟩
    · rintro ⟨h1, h2⟩; exact ⟨h1, by simpa using (helig t h1).2 h2⟩
  have ht' : t' = E.min?.getD when := rfl
  have hexE : ∀ s, when ≤ s → (∀ r, s ≤ r → value ≤ Dict.cum d r) → ∃ p ∈ E, p ≤ s := by
    intro s hs h
    obtain ⟨p, hp, hps, hc, hall⟩ := hlast s hs
    refine ⟨p, (hEmem p).2 ⟨hp, fun r hr => ?_⟩, hps⟩
    by_cases hrs : r ≤ s
    · rw [hall r hr hrs]; exact h s (le_refl _)
    · exact h r (not_le.1 hrs).le
  rcases min?_getD_spec (l := E) (w := when) with ⟨hnil, h⟩ | ⟨hin, hmin⟩
  · rw [← ht'] at h
    refine ⟨h.ge, ?_, fun _ => h⟩
    rintro ⟨s, hs, hr⟩
    obtain ⟨p, hp, -⟩ := hexE s hs hr
    rw [hnil] at hp; simp at hp
  · rw [← ht'] at hin
    rw [← ht'] at hmin
    have h1 := (hEmem t').1 hin
    have hw := ((hmem t').1 h1.1).2
    refine ⟨hw, fun _ => ⟨h1.2, ?_⟩, fun hno => absurd ⟨t', hw, h1.2⟩ hno⟩
    intro s hs hr
    obtain ⟨p, hp, hps⟩ := hexE s hs hr
    exact (hmin p hp).trans hps

/-- The shifted date only depends on the running totals of the source. -/
theorem earliest_dict_congr {d e : Dict K K} (hd : Dict.WF d) (he : Dict.WF e)
    (h : ∀ t, Dict.cum d t = Dict.cum e t) (value when : K) :
    earliest (accumDict d when) value when = earliest (accumDict e when) value when := by
  have h1 := earliest_dict hd value when
  have h2 := earliest_dict he value when
  simp only [h] at h1
  by_cases hex : ∃ s, when ≤ s ∧ ∀ r, s ≤ r → value ≤ Dict.cum e r
  · exact le_antisymm ((h1.2.1 hex).2 _ h2.1 (h2.2.1 hex).1) ((h2.2.1 hex).2 _ h1.1 (h1.2.1 hex).1)
  · rw [h1.2.2 hex, h2.2.2 hex]

theorem cum_congr_val {d e : Dict K K} (hd : Dict.WF d) (he : Dict.WF e)
    (h : ∀ t, Dict.val d t = Dict.val e t) (t : K) : Dict.cum d t = Dict.cum e t := by
  have key : ∀ {d e : Dict K K}, Dict.WF d → Dict.WF e → (∀ t, Dict.val d t = Dict.val e t) →
      Dict.cum d t = ∑ k ∈ ((Dict.keys d ++ Dict.keys e).toFinset.filter (· ≤ t)),
        Dict.val d k := by
    intro d e hd he h
    rw [Dict.cum_eq_sum_keys hd, ← List.sum_toFinset _ (hd.filter _)]
    apply Finset.sum_subset
    · intro k hk
      simp only [List.mem_toFinset, List.mem_filter, decide_eq_true_eq, Finset.mem_filter,
        List.mem_append] at hk ⊢
      exact ⟨.inl hk.1, hk.2⟩
    · intro k hk hk'
      simp only [List.mem_toFinset, List.mem_filter, decide_eq_true_eq, Finset.mem_filter,
        List.mem_append] at hk hk'
      apply Dict.val_of_not_mem
      intro hm
      exact hk' ⟨hm, hk.2⟩
  rw [key hd he h, key he hd (fun t => (h t).symm)]
  apply Finset.sum_congr
  · ext k; simp [or_comm]
  · intro k _; exact h k

end Forecaster.SubForecast
