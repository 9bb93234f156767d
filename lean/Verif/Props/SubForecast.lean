import Verif.Lemmas.SubForecast
import Mathlib.Data.Rat.Floor
import Mathlib.Algebra.Order.Ring.Rat

/-!
# C43, C44: transactions of a sub-forecast

Specification vocabulary (`Verif/Lemmas/SubForecast.lean`): `amount s p t` is the amount
dated `t` in pool `p`, `poolTotal s p` the net of its transactions, `recorded s o t` and
`recTotal s o` the same for the sub-forecast's own record (`o = none`: the outside world),
`Good s` says that the pools are real dicts or accounts and the record is a real dict whose
dates are present in the pools.
-/

set_option linter.unusedSectionVars false

namespace Forecaster.SubForecast

open Forecaster Forecaster.Timing Forecaster.Account

variable {K : Type} [Field K] [LinearOrder K] [IsStrictOrderedRing K]
variable {P : Type} [DecidableEq P]
variable (ttv : Acct K → K → K → Except PyErr (Ext K)) (default : Dict K K)

/-- Specification: `1` for the party that receives, `0` for others. -/
def ind (o : Option P) (p : P) : K := if o = some p then 1 else 0

/-- Specification: the sum of everything the sub-forecast has on record, over all pools and
the outside world. -/
def books (s : St P K) : K := (s.record.map fun e => Dict.total e.2).sum

/-! ### Helper lemmas -/

theorem add1_legs {s s' : St P K} {v w0 : K} {src dst : Option P} {strict : Bool}
    (h : addTransaction1 ttv s v w0 src dst strict = (s', none)) :
    ∃ w s1, dateFor ttv s v w0 src strict = .ok w ∧ leg s src w (-v) = .ok s1 ∧
      leg s1 dst w v = .ok s' := by
  unfold addTransaction1 at h
  cases hd : dateFor ttv s v w0 src strict with
  | error e => rw [hd] at h; simp at h
  | ok w =>
    rw [hd] at h
    simp only at h
    cases h1 : leg s src w (-v) with
    | error e => rw [h1] at h; simp at h
    | ok s1 =>
      rw [h1] at h
      simp only at h
      cases h2 : leg s1 dst w v with
      | error e => rw [h2] at h; simp at h
      | ok s2 => rw [h2] at h; cases h; exact ⟨w, s1, rfl, h1, h2⟩

theorem recAdd_books (r : Dict (Option P) (Dict K K)) (hr : Dict.WF r)
    (hwf : ∀ o d, Dict.get? r o = some d → Dict.WF d) (o : Option P) (w x : K) :
    ((recAdd r o w x).map fun e => Dict.total e.2).sum
      = (r.map fun e => Dict.total e.2).sum + x := by
  have key : ∀ (r : Dict (Option P) (Dict K K)), Dict.WF r → ∀ d : Dict K K,
      ((Dict.set r o d).map fun e => Dict.total e.2).sum
        = (r.map fun e => Dict.total e.2).sum - Dict.total ((Dict.get? r o).getD [])
          + Dict.total d := by
    intro r hr d
    induction r with
    | nil => simp [Dict.set]
    | cons a r ih =>
      obtain ⟨k, v⟩ := a
      rw [Dict.wf_cons] at hr
      by_cases h : k = o
      · simp only [Dict.set, h, if_true, List.map_cons, List.sum_cons, Dict.get?_cons,
          Option.getD_some]
        ring
      · simp only [Dict.set, h, if_false, List.map_cons, List.sum_cons, ih hr.2, Dict.get?_cons]
        ring
  have hw : Dict.WF ((Dict.get? r o).getD []) := by
    cases h : Dict.get? r o with
    | none => simp
    | some d => simpa using hwf o d h
  unfold recAdd
  simp only [key r hr, Dict.total_set hw]
  ring

theorem leg_books {s s' : St P K} (hs : Good s) {o : Option P} {w x : K}
    (h : leg s o w x = .ok s') : books s' = books s + x := by
  cases o with
  | none =>
    simp only [leg, Except.ok.injEq] at h
    subst h
    exact recAdd_books _ hs.record hs.entries _ _ _
  | some p =>
    simp only [leg] at h
    cases hq : poolAdd (s.pools p) w x with
    | error e => rw [hq] at h; simp at h
    | ok q =>
      rw [hq, ok_bind] at h
      cases h
      exact recAdd_books _ hs.record hs.entries _ _ _

theorem interpolate_keys {L : Limits K} {a : Acct K} {value when : K}
    {acc acc' : Dict K (Ext K)} {pr : K × K}
    (h : interpolate ttv L a value acc pr = .ok acc') (hk : ∀ k ∈ Dict.keys acc, when ≤ k)
    (hp : when ≤ pr.1) : ∀ k ∈ Dict.keys acc', when ≤ k := by
  unfold interpolate at h
  cases h1 : look acc pr.1 with
  | error e => rw [h1] at h; simp at h
  | ok x =>
    cases h2 : look acc pr.2 with
    | error e => rw [h1, h2] at h; simp at h
    | ok y =>
      rw [h1, h2] at h
      simp only [ok_bind] at h
      split_ifs at h with hc
      · cases h3 : timeToBalance ttv a value (a.txns.length + 1) pr.1 with
        | error e => rw [h3] at h; simp at h
        | ok time =>
          rw [h3, ok_bind] at h
          cases time with
          | negInf => cases h; exact hk
          | posInf => cases h; exact hk
          | fin t =>
            simp only at h
            split_ifs at h with ht
            · cases h4 : maxOutflows L a { timing := some (.scalar (.num t)) } with
              | error e => rw [h4] at h; simp at h
              | ok m =>
                rw [h4, ok_bind] at h
                cases h
                intro k hk'
                rcases Dict.mem_keys_set.1 hk' with rfl | hk'
                · exact hp.trans ht.1.le
                · exact hk k hk'
            · cases h; exact hk
      · cases h; exact hk

theorem mapM_accumEntry {L : Limits K} {a : Acct K} {ts : List K} {acc : Dict K (Ext K)}
    (h : ts.mapM (accumEntry L a) = .ok acc) :
    Dict.keys acc = ts ∧ ∀ kv ∈ acc, accumEntry L a kv.1 = .ok kv := by
  induction ts generalizing acc with
  | nil =>
    simp only [List.mapM_nil, except_pure, Except.ok.injEq] at h
    subst h; simp
  | cons t ts ih =>
    rw [List.mapM_cons] at h
    cases h1 : accumEntry L a t with
    | error e => rw [h1] at h; simp at h
    | ok kv =>
      rw [h1, ok_bind] at h
      cases h2 : ts.mapM (accumEntry L a) with
      | error e => rw [h2] at h; simp at h
      | ok rest =>
        rw [h2] at h
        simp only [ok_bind, except_pure, Except.ok.injEq] at h
        subst h
        obtain ⟨h3, h4⟩ := ih h2
        have hkv : kv.1 = t := by
          unfold accumEntry at h1
          cases h5 : maxOutflow L a (.num t) with
          | error e => rw [h5] at h1; simp at h1
          | ok m => rw [h5, ok_bind] at h1; cases h1; rfl
        refine ⟨by simp [h3, hkv], ?_⟩
        intro kv' hm
        rcases List.mem_cons.1 hm with rfl | hm
        · rw [hkv]; exact h1
        · exact h4 _ hm

theorem foldlM_interpolate_keys {L : Limits K} {a : Acct K} {value when : K}
    {pairs : List (K × K)} (hpairs : ∀ pr ∈ pairs, when ≤ pr.1)
    {acc acc' : Dict K (Ext K)} (h : pairs.foldlM (interpolate ttv L a value) acc = .ok acc')
    (hk : ∀ k ∈ Dict.keys acc, when ≤ k) : ∀ k ∈ Dict.keys acc', when ≤ k := by
  induction pairs generalizing acc with
  | nil => simp only [List.foldlM_nil, except_pure, Except.ok.injEq] at h; subst h; exact hk
  | cons pr pairs ih =>
    rw [List.foldlM_cons] at h
    cases h1 : interpolate ttv L a value acc pr with
    | error e => rw [h1] at h; simp at h
    | ok acc1 =>
      rw [h1, ok_bind] at h
      exact ih (fun p hp => hpairs p (by simp [hp])) h
        (interpolate_keys ttv h1 hk (hpairs pr (by simp)))

theorem accumAccount_keys {L : Limits K} {a : Acct K} {when value : K} {acc : Dict K (Ext K)}
    (h : accumAccount ttv L a when value = .ok acc) : ∀ k ∈ Dict.keys acc, when ≤ k := by
  unfold accumAccount at h
  cases h1 : (materialTimes a.txns when).dedup.mapM (accumEntry L a) with
  | error e => rw [h1] at h; simp at h
  | ok acc0 =>
    rw [h1] at h
    simp only [ok_bind] at h
    obtain ⟨hk, -⟩ := mapM_accumEntry h1
    have hge : ∀ k ∈ Dict.keys acc0, when ≤ k := by
      intro k hk'
      rw [hk] at hk'
      simpa [materialTimes] using (List.mem_filter.1 (List.mem_dedup.1 hk')).2
    refine foldlM_interpolate_keys ttv ?_ h hge
    intro pr hpr
    have := (List.of_mem_zip hpr).1
    exact hge _ ((List.perm_insertionSort _ _).mem_iff.1 this)

theorem earliest_ge {acc : Dict K (Ext K)} {value when : K}
    (h : ∀ k ∈ Dict.keys acc, when ≤ k) : when ≤ earliest acc value when := by
  unfold earliest
  rcases min?_getD_spec (l := (Dict.keys acc).filter fun t =>
    decide (∀ kv ∈ acc, kv.1 ≥ t → kv.2 ≥ .fin value)) (w := when) with ⟨-, h'⟩ | ⟨h', -⟩
  · exact h'.ge
  · exact h _ (List.mem_filter.1 h').1

theorem dateFor_ge {s : St P K} {v w0 w : K} {src : Option P} {strict : Bool} (hs : Good s)
    (h : dateFor ttv s v w0 src strict = .ok w) : w0 ≤ w := by
  unfold dateFor at h
  cases src with
  | none => cases h; exact le_refl _
  | some p =>
    simp only at h
    split_ifs at h with hst
    · cases h; exact le_refl _
    · unfold shiftWhen at h
      cases hp : s.pools p with
      | dict f d =>
        rw [hp] at h
        cases h
        have : GoodPool (.dict f d) := hp ▸ hs.pools p
        exact (earliest_dict (d := d) this v w0).1
      | acct L a =>
        rw [hp] at h
        simp only at h
        cases h1 : accumAccount ttv L a w0 v with
        | error e => rw [h1] at h; simp at h
        | ok acc =>
          rw [h1, ok_bind] at h
          cases h
          exact earliest_ge (accumAccount_keys ttv h1)

/-- Everything about a single transaction. -/
theorem add1_effect {s s' : St P K} (hs : Good s) {v w0 : K} {src dst : Option P} {strict : Bool}
    (h : addTransaction1 ttv s v w0 src dst strict = (s', none)) :
    ∃ w, dateFor ttv s v w0 src strict = .ok w ∧ w0 ≤ w ∧
      (∀ p t, amount s' p t = amount s p t + if w = t then (ind dst p - ind src p) * v else 0) ∧
      (∀ p, poolTotal s' p = poolTotal s p + (ind dst p - ind src p) * v) ∧
      (∀ o, recTotal s' o = recTotal s o + (if dst = o then v else 0) - if src = o then v else 0) ∧
      books s' = books s ∧ Good s' ∧ (∀ p, SameKind (s.pools p) (s'.pools p)) := by
  obtain ⟨w, s1, hd, h1, h2⟩ := add1_legs ttv h
  have e1 := leg_effect hs h1
  have e2 := leg_effect e1.good h2
  refine ⟨w, hd, dateFor_ge ttv hs hd, fun p t => ?_, fun p => ?_, fun o => ?_, ?_, e2.good,
    fun p => (e1.kind p).trans (e2.kind p)⟩
  · rw [e2.amount, e1.amount]
    by_cases hw : w = t <;> by_cases ha : dst = some p <;> by_cases hb : src = some p <;>
      simp [hw, ha, hb, ind]
  · rw [e2.total, e1.total]
    by_cases ha : dst = some p <;> by_cases hb : src = some p <;> simp [ha, hb, ind]
  · rw [e2.recTotal, e1.recTotal]
    by_cases ha : dst = o <;> by_cases hb : src = o <;> simp [ha, hb, sub_eq_add_neg]
  · rw [leg_books e1.good h2, leg_books hs h1]; ring

theorem forEach_cons_ok {α : Type} {body : St P K → α → St P K × Option PyErr} {s s' : St P K}
    {x : α} {xs : List α} (h : forEach body s (x :: xs) = (s', none)) :
    ∃ s1, body s x = (s1, none) ∧ forEach body s1 xs = (s', none) := by
  unfold forEach at h
  rcases hb : body s x with ⟨s1, _ | e⟩
  · rw [hb] at h; exact ⟨s1, rfl, h⟩
  · rw [hb] at h; simp at h

/-- The loop over the timing. -/
theorem loop_effect {q : Req P K} {n : K} (hn : n ≠ 0) (o : K × Option P × Option P)
    {l : Dict K K} {s s' : St P K} (hs : Good s)
    (h : forEach (fun s (kv : K × K) =>
      if n = 0 then (s, some .zeroDivisionError)
      else addTransaction1 ttv s (o.1 * (kv.2 / n)) kv.1 o.2.1 o.2.2 q.strict) s l = (s', none)) :
    ∃ ws : List K, List.Forall₂ (fun kv w => kv.1 ≤ w) l ws ∧
      (∀ p t, amount s' p t = amount s p t + (ind o.2.2 p - ind o.2.1 p) * o.1 *
        ((l.zip ws).map fun x => if x.2 = t then x.1.2 / n else 0).sum) ∧
      (∀ p, poolTotal s' p
        = poolTotal s p + (ind o.2.2 p - ind o.2.1 p) * o.1 * (Dict.total l / n)) ∧
      (∀ r, recTotal s' r = recTotal s r + ((if o.2.2 = r then o.1 else 0)
        - if o.2.1 = r then o.1 else 0) * (Dict.total l / n)) ∧
      books s' = books s ∧ Good s' := by
  induction l generalizing s with
  | nil =>
    cases h
    exact ⟨[], .nil, fun p t => by simp, fun p => by simp, fun r => by simp, rfl, hs⟩
  | cons kv l ih =>
    obtain ⟨s1, h1, h2⟩ := forEach_cons_ok h
    simp only [hn, if_false] at h1
    obtain ⟨w, -, hw, ha, ht, hr, hb, hg, -⟩ := add1_effect ttv hs h1
    obtain ⟨ws, f1, f2, f3, f4, f5, f6⟩ := ih hg h2
    refine ⟨w :: ws, .cons hw f1, fun p t => ?_, fun p => ?_, fun r => ?_, f5.trans hb, f6⟩
    · rw [f2, ha]
      simp only [List.zip_cons_cons, List.map_cons, List.sum_cons]
      split <;> ring
    · rw [f3, ht, Dict.total_cons]
      ring
    · rw [f4, hr, Dict.total_cons]
      by_cases h3 : o.2.2 = r <;> by_cases h4 : o.2.1 = r <;> simp [h3, h4] <;> ring

theorem ind_orient (q : Req P K) (p : P) :
    ((ind (orient q).2.2 p : K) - ind (orient q).2.1 p) * (orient q).1
      = (ind q.dst p - ind q.src p) * q.value := by
  unfold orient
  split
  · simp only; ring
  · rfl

theorem request_effect {s s' : St P K} (hs : Good s) {q : Req P K} {timing : Dict K K}
    (ht : resolve default q.timing = .ok timing) (hw : Dict.total timing ≠ 0)
    (h : addTransaction ttv default s q = (s', none)) :
    ∃ ws : List K, List.Forall₂ (fun kv w => kv.1 ≤ w) timing ws ∧
      (∀ p t, amount s' p t = amount s p t + (ind q.dst p - ind q.src p) * q.value *
        ((timing.zip ws).map fun x => if x.2 = t then x.1.2 / Dict.total timing else 0).sum) ∧
      (∀ p, poolTotal s' p = poolTotal s p + (ind q.dst p - ind q.src p) * q.value) ∧
      (∀ r, recTotal s' r = recTotal s r + ((if q.dst = r then q.value else 0)
        - if q.src = r then q.value else 0)) ∧
      books s' = books s ∧ Good s' := by
  unfold addTransaction at h
  rw [ht] at h
  simp only at h
  obtain ⟨ws, f1, f2, f3, f4, f5, f6⟩ := loop_effect ttv hw (orient q) hs h
  refine ⟨ws, f1, fun p t => ?_, fun p => ?_, fun r => ?_, f5, f6⟩
  · rw [f2, ind_orient]
  · rw [f3, ind_orient, div_self hw, mul_one]
  · rw [f4, div_self hw, mul_one]
    unfold orient
    split
    · simp only
      by_cases h3 : q.dst = r <;> by_cases h4 : q.src = r <;> simp [h3, h4]
    · rfl

/-- A request on a state, whatever its timing. -/
theorem request_books {s s' : St P K} (hs : Good s) {q : Req P K}
    (h : addTransaction ttv default s q = (s', none)) : books s' = books s ∧ Good s' := by
  cases ht : resolve default q.timing with
  | error e => unfold addTransaction at h; rw [ht] at h; simp at h
  | ok timing =>
    by_cases hw : Dict.total timing = 0
    · unfold addTransaction at h
      rw [ht] at h
      simp only at h
      cases timing with
      | nil => cases h; exact ⟨rfl, hs⟩
      | cons kv l =>
        obtain ⟨s1, h1, -⟩ := forEach_cons_ok h
        simp [hw] at h1
    · obtain ⟨_, -, -, -, -, h5, h6⟩ := request_effect ttv default hs ht hw h
      exact ⟨h5, h6⟩

/-! ### C43 -/

/-- Specification: the dates and weights a request asks for: the sub-forecast's default timing if it
names none, a given `Timing`, or what `Timing(...)` (C01–C08) makes of anything else. -/
def AsksFor (default : Dict K K) (arg : Option (Arg K)) (timing : Dict K K) : Prop :=
  match arg with
  | none => timing = default
  | some (.timing d) => timing = d
  | some x => Timing.init x (.num 1) = .ok timing

theorem AsksFor.resolve {default timing : Dict K K} {arg : Option (Arg K)}
    (h : AsksFor default arg timing) : resolve default arg = .ok timing := by
  rcases arg with _ | _ | _ | _ <;> simp only [AsksFor] at h <;>
    simp only [SubForecast.resolve, h]

/-- **C43** (money moves, none is made). A transaction of `value` takes exactly `value` in
total out of the source and puts exactly `value` into the destination (the other way round
for a negative value), whatever the timing and however the dates are shifted; every other
pool keeps its total; and the sub-forecast's record says the same. -/
theorem C43_transfer {s s' : St P K} (hs : Good s) {q : Req P K} {timing : Dict K K}
    (ht : AsksFor default q.timing timing) (hw : Dict.total timing ≠ 0)
    (h : addTransaction ttv default s q = (s', none)) :
    (∀ p, poolTotal s' p = poolTotal s p + (if q.dst = some p then q.value else 0)
      - (if q.src = some p then q.value else 0)) ∧
    (∀ o, recTotal s' o = recTotal s o + (if q.dst = o then q.value else 0)
      - (if q.src = o then q.value else 0)) := by
  obtain ⟨_, -, -, h3, h4, -, -⟩ := request_effect ttv default hs ht.resolve hw h
  refine ⟨fun p => ?_, fun o => ?_⟩
  · rw [h3]
    by_cases ha : q.dst = some p <;> by_cases hb : q.src = some p <;> simp [ind, ha, hb, sub_eq_add_neg]
  · rw [h4]; ring

/-- **C43** (never early). Each part of the transaction is dated at or after the date the
timing gives it; at each date the destination gains what the source loses, and nothing else
changes. -/
theorem C43_never_early {s s' : St P K} (hs : Good s) {q : Req P K} {timing : Dict K K}
    (ht : AsksFor default q.timing timing) (hw : Dict.total timing ≠ 0)
    (h : addTransaction ttv default s q = (s', none)) :
    ∃ dates : List K, List.Forall₂ (fun kv w => kv.1 ≤ w) timing dates ∧
      ∀ p t, amount s' p t = amount s p t + (ind q.dst p - ind q.src p) *
        (((timing.zip dates).map fun x =>
          if x.2 = t then q.value * (x.1.2 / Dict.total timing) else 0).sum) := by
  obtain ⟨ws, h1, h2, -⟩ := request_effect ttv default hs ht.resolve hw h
  refine ⟨ws, h1, fun p t => ?_⟩
  rw [h2, mul_assoc]
  congr 2
  induction timing.zip ws with
  | nil => simp
  | cons a l ih =>
    simp only [List.map_cons, List.sum_cons, mul_add, ih]
    split <;> ring

/-- **C43** (the books balance). Over any sequence of transactions of a new sub-forecast,
what it has on record for all the pools and the outside world adds up to zero. -/
theorem C43_books_balance {pools : P → Pool K} (hp : ∀ p, GoodPool (pools p))
    {qs : List (Req P K)} {s' : St P K}
    (h : forEach (addTransaction ttv default) (fresh pools) qs = (s', none)) :
    (s'.record.map fun e => Dict.total e.2).sum = 0 := by
  have key : ∀ (s : St P K), Good s → ∀ qs, forEach (addTransaction ttv default) s qs = (s', none) →
      books s' = books s := by
    intro s hs qs
    induction qs generalizing s with
    | nil => intro h; cases h; rfl
    | cons q qs ih =>
      intro h
      obtain ⟨s1, h1, h2⟩ := forEach_cons_ok h
      obtain ⟨h3, h4⟩ := request_books ttv default hs h1
      exact (ih s1 h4 h2).trans h3
  exact key _ (good_fresh hp) qs h

/-- **C43** (the record is the truth). After any sequence of transactions of a new
sub-forecast, even one that ended in an exception, each pool differs from its original
state by exactly what is on record for it, date by date. -/
theorem C43_record_matches {pools : P → Pool K} (hp : ∀ p, GoodPool (pools p))
    (qs : List (Req P K)) (p : P) (t : K) :
    amount (forEach (addTransaction ttv default) (fresh pools) qs).1 p t
      = Dict.val (pools p).txns t
        + recorded (forEach (addTransaction ttv default) (fresh pools) qs).1 (some p) t := by
  have h := ((legs_requests ttv default (fresh pools) qs).inv (good_fresh hp)).2.2.2.1 p t
  have h0 : recorded (fresh pools) (some p) t = 0 := rfl
  have h1 : amount (fresh pools) p t = Dict.val (pools p).txns t := rfl
  rw [h0, h1] at h
  linear_combination h

theorem resolve_scalar {w : K} (h0 : 0 ≤ w) (h1 : w ≤ 1) :
    resolve default (some (.scalar (.num w))) = .ok [(w, 1)] := by
  have hf : frequencyConv (.num 1) = .ok (some 1) := by decide +kernel
  simp [resolve, Timing.init, initScalar, whenConv_ok h0 h1, hf, Dict.set]

theorem cum_of_upd {d e : Dict K K} (hd : Dict.WF d) (he : Dict.WF e) {w x : K}
    (h : ∀ t, Dict.val e t = Dict.val d t + if w = t then x else 0) (r : K) :
    Dict.cum e r = Dict.cum d r + if w ≤ r then x else 0 := by
  rw [cum_congr_val he (Dict.wf_set hd w (Dict.val d w + x)) (fun t => by
    rw [h, Dict.val_set]
    by_cases hw : w = t
    · simp [hw]
    · simp [hw]) r, Dict.cum_set hd]
  congr 2
  ring

/-- **C43** (just in time). Money is taken from a dict of cash flows such as `available`:
`value ≥ 0` requested at `when`.  If there is a date from `when` on at which the source can
spare `value` now and for the rest of the year, the transaction is dated at the *first* such
date, and the source is not overdrawn from then on; if there is none, it is dated `when`. -/
theorem C43_just_in_time {s s' : St P K} (hs : Good s) {p : P} {f : Bool} {d : Dict K K}
    (hp : s.pools p = .dict f d) {dst : Option P} (hdst : dst ≠ some p) {value when : K}
    (hv : 0 ≤ value) (h0 : 0 ≤ when) (h1 : when ≤ 1)
    (h : addTransaction ttv default s
      { value, timing := some (.scalar (.num when)), src := some p, dst } = (s', none)) :
    ∃ w d', when ≤ w ∧ s'.pools p = .dict f d' ∧
      (∀ r, Dict.cum d' r = Dict.cum d r - if w ≤ r then value else 0) ∧
      (∀ p', dst = some p' → ∀ t, amount s' p' t = amount s p' t + if w = t then value else 0) ∧
      ((∃ u, when ≤ u ∧ ∀ r, u ≤ r → value ≤ Dict.cum d r) →
        (∀ r, w ≤ r → 0 ≤ Dict.cum d' r) ∧
        ∀ u, when ≤ u → (∀ r, u ≤ r → value ≤ Dict.cum d r) → w ≤ u) ∧
      ((¬ ∃ u, when ≤ u ∧ ∀ r, u ≤ r → value ≤ Dict.cum d r) → w = when) := by
  have hd : Dict.WF d := by have := hs.pools p; rw [hp] at this; exact this
  unfold addTransaction at h
  rw [resolve_scalar default h0 h1] at h
  have ho : orient ({ value, timing := some (.scalar (.num when)), src := some p, dst } : Req P K)
      = (value, some p, dst) := by
    unfold orient; rw [if_neg (not_lt.2 hv)]
  rw [ho] at h
  obtain ⟨s1, h2, h3⟩ := forEach_cons_ok h
  obtain rfl : s1 = s' := by cases h3; rfl
  simp only [Dict.total_cons, Dict.total_nil, add_zero, one_ne_zero, if_false, div_one,
    mul_one] at h2
  obtain ⟨w, hdate, hge, ha, -, -, -, hg, hk⟩ := add1_effect ttv hs h2
  have hshift : w = earliest (accumDict d when) value when := by
    simp only [dateFor, hp, shiftWhen, Bool.false_eq_true, if_false, Except.ok.injEq] at hdate
    exact hdate.symm
  have hspec := earliest_dict hd value when
  simp only [← hshift] at hspec
  obtain ⟨d', hd'⟩ : ∃ d', s1.pools p = .dict f d' := by
    have := hk p
    rw [hp] at this
    cases hq : s1.pools p with
    | dict f' d' => rw [hq] at this; exact ⟨d', by rw [show f = f' from this]⟩
    | acct L a => rw [hq] at this; exact absurd this id
  have hcum : ∀ r, Dict.cum d' r = Dict.cum d r - if w ≤ r then value else 0 := by
    intro r
    have hwf' : Dict.WF d' := by have := hg.pools p; rw [hd'] at this; exact this
    have := cum_of_upd (d := d) (e := d') hd hwf' (w := w) (x := -value) (fun t => by
      have h4 := ha p t
      simp only [amount, hp, hd', Pool.txns] at h4
      rw [h4]
      simp [ind, hdst]) r
    rw [this]
    split <;> ring
  refine ⟨w, d', hge, hd', hcum, fun p' hp' t => ?_, fun hex => ⟨fun r hr => ?_, ?_⟩, hspec.2.2⟩
  · rw [ha]
    have : some p ≠ some p' := by rintro h5; exact hdst (hp'.trans h5.symm)
    simp [ind, hp', this]
  · rw [hcum, if_pos hr]
    have := (hspec.2.1 hex).1 r hr
    linarith
  · exact (hspec.2.1 hex).2

section C43_examples

/-- Two pools: `true` is a `defaultdict` of cash flows (50 at the start, a bill of 30 at 0.3,
100 at 0.5), `false` an account. -/
def exPools : Bool → Pool ℚ
  | true => .dict true [(0, 50), (3 / 10, -30), (1 / 2, 100)]
  | false => .acct plainLimits (Account.init 2000 1000 (fun _ _ => 1) [(1 / 2, 1)])

def exTtv : Acct ℚ → ℚ → ℚ → Except PyErr (Ext ℚ) := fun _ _ _ => .ok .posInf

theorem exPools_good : ∀ p, GoodPool (exPools p) := by
  intro p
  cases p
  · exact inv_init _ _ _ _
  · show Dict.WF [((0 : ℚ), (50 : ℚ)), (3 / 10, -30), (1 / 2, 100)]
    unfold Dict.WF
    decide +kernel

/-- Moving 40 to the account at 0.1: 50 is available then, but only 20 after the bill, so it
is dated 0.5. -/
def exReq : Req Bool ℚ :=
  { value := 40, timing := some (.scalar (.num (1 / 10))), src := some true, dst := some false }

example : (addTransaction exTtv [] (fresh exPools) exReq).2 = none := by decide +kernel
example : (((addTransaction exTtv [] (fresh exPools) exReq).1.pools true).txns
    = [(0, 50), (3 / 10, -30), (1 / 2, 60)]) := by decide +kernel
example : (((addTransaction exTtv [] (fresh exPools) exReq).1.pools false).txns
    = [(1 / 2, 40)]) := by decide +kernel
/-- The hypotheses of `C43_transfer`, `C43_never_early` are met. -/
example : AsksFor [] exReq.timing [(1 / 10, 1)] ∧ Dict.total ([(1 / 10, 1)] : Dict ℚ ℚ) ≠ 0 :=
  ⟨by show Timing.init _ _ = _; decide +kernel, by decide +kernel⟩
example : AsksFor [(1 / 2, 1)] none [((1 : ℚ) / 2, (1 : ℚ))] := rfl
/-- The hypotheses of `C43_just_in_time` are met, and there is a suitable date. -/
example : ∃ u, (1 / 10 : ℚ) ≤ u ∧ ∀ r, u ≤ r →
    (40 : ℚ) ≤ Dict.cum [((0 : ℚ), (50 : ℚ)), (3 / 10, -30), (1 / 2, 100)] r := by
  refine ⟨1 / 2, by norm_num, fun r hr => ?_⟩
  have h1 : (0 : ℚ) ≤ r := by linarith
  have h2 : (3 / 10 : ℚ) ≤ r := by linarith
  simp only [Dict.cum_cons, h1, h2, hr, if_true, Dict.cum_nil]
  norm_num
/-- A sequence of transactions over a timing, for `C43_books_balance`. -/
example : (forEach (addTransaction exTtv [(1 / 2, 1)]) (fresh exPools)
    [exReq, ⟨-5, none, some true, none, false⟩,
     ⟨12, some (.scalar (.str "M")), none, some false, false⟩]).2 = none := by decide +kernel

end C43_examples

/-! ### C44 -/

/-- **C44** (undo). However the sub-forecast's transactions went, even if they ended in an
exception, undoing them succeeds and gives every pool back its original amounts, date by
date (an absent entry counting as 0). -/
theorem C44_undo {pools : P → Pool K} (hp : ∀ p, GoodPool (pools p)) (qs : List (Req P K)) :
    ∃ s', undo (forEach (addTransaction ttv default) (fresh pools) qs).1 = (s', none) ∧
      ∀ p t, amount s' p t = Dict.val (pools p).txns t := by
  have hl := (legs_requests ttv default (fresh pools) qs).inv (good_fresh hp)
  obtain ⟨s', h1, -, -, h4, -⟩ := undo_spec hl.1
  refine ⟨s', h1, fun p t => ?_⟩
  rw [h4, C43_record_matches ttv default hp]
  ring

/-- The same money in the same pools. -/
def SameMoney (s s' : St P K) : Prop :=
  ∀ p, SameKind (s.pools p) (s'.pools p) ∧ ∀ t, amount s p t = amount s' p t

theorem poolAdd_err_acct {L : Limits K} {a : Acct K} (w x : K) :
    (∃ e, whenConv (.num w) = .error e ∧ poolAdd (.acct L a) w x = .error e) ∨
    ((∃ v, whenConv (.num w) = .ok v) ∧ ∃ q, poolAdd (.acct L a) w x = .ok q) := by
  cases hw : whenConv (.num w) with
  | error e =>
    left
    exact ⟨e, rfl, by simp [poolAdd, contains, hw]⟩
  | ok v =>
    right
    refine ⟨⟨v, rfl⟩, ?_⟩
    have hr := whenConv_rng hw
    have hvw : v = w := by
      unfold whenConv at hw; simp only at hw; split_ifs at hw; cases hw; rfl
    subst hvw
    obtain ⟨a', ha'⟩ := setItem_ok a hr.1 hr.2
      (if decide (v ∈ Dict.keys a.txns) then Dict.val a.txns v + x else x)
    refine ⟨.acct L a', ?_⟩
    simp only [poolAdd, contains, hw, ok_bind, ha']

theorem poolAdd_sim {q r : Pool K} (hk : SameKind q r) (w x : K) :
    (∃ e, poolAdd q w x = .error e ∧ poolAdd r w x = .error e) ∨
    ∃ q' r', poolAdd q w x = .ok q' ∧ poolAdd r w x = .ok r' := by
  cases q with
  | dict f d =>
    cases r with
    | dict f' d' =>
      right
      have : ∀ f (d : Dict K K), ∃ q', poolAdd (.dict f d) w x = .ok q' := by
        intro f d
        simp only [poolAdd]
        cases Dict.get? d w <;> exact ⟨_, rfl⟩
      obtain ⟨q', h1⟩ := this f d
      obtain ⟨r', h2⟩ := this f' d'
      exact ⟨q', r', h1, h2⟩
    | acct L a => exact absurd hk id
  | acct L a =>
    cases r with
    | dict f' d' => exact absurd hk id
    | acct L' a' =>
      rcases poolAdd_err_acct (L := L) (a := a) w x with ⟨e, h1, h2⟩ | ⟨⟨v, h1⟩, q', h2⟩
      · rcases poolAdd_err_acct (L := L') (a := a') w x with ⟨e', h3, h4⟩ | ⟨⟨v, h3⟩, q', h4⟩
        · rw [h1] at h3; cases h3; exact .inl ⟨e, h2, h4⟩
        · rw [h1] at h3; cases h3
      · rcases poolAdd_err_acct (L := L') (a := a') w x with ⟨e', h3, h4⟩ | ⟨-, r', h4⟩
        · rw [h1] at h3; cases h3
        · exact .inr ⟨q', r', h2, h4⟩

theorem leg_sim {s s' : St P K} (hs : Good s) (hs' : Good s') (hm : SameMoney s s')
    (o : Option P) (w x : K) :
    (∃ e, leg s o w x = .error e ∧ leg s' o w x = .error e) ∨
    ∃ u u', leg s o w x = .ok u ∧ leg s' o w x = .ok u' ∧ Good u ∧ Good u' ∧ SameMoney u u' := by
  have main : ∀ u u', leg s o w x = .ok u → leg s' o w x = .ok u' →
      Good u ∧ Good u' ∧ SameMoney u u' := by
    intro u u' h1 h2
    have e1 := leg_effect hs h1
    have e2 := leg_effect hs' h2
    refine ⟨e1.good, e2.good, fun p => ⟨?_, fun t => ?_⟩⟩
    · exact ((e1.kind p).symm.trans (hm p).1).trans (e2.kind p)
    · rw [e1.amount, e2.amount, (hm p).2]
  cases o with
  | none => right; exact ⟨_, _, rfl, rfl, main _ _ rfl rfl⟩
  | some p =>
    rcases poolAdd_sim (hm p).1 w x with ⟨e, h1, h2⟩ | ⟨q, r, h1, h2⟩
    · left; exact ⟨e, by simp [leg, h1], by simp [leg, h2]⟩
    · right
      have k1 : leg s (some p) w x
          = .ok { setPool s p q with record := recAdd s.record (some p) w x } := by
        simp [leg, h1]
      have k2 : leg s' (some p) w x
          = .ok { setPool s' p r with record := recAdd s'.record (some p) w x } := by
        simp [leg, h2]
      exact ⟨_, _, k1, k2, main _ _ k1 k2⟩

/-- The source of a request can be shifted without looking at an account's growth. -/
def EasySource (s : St P K) (src : Option P) (strict : Bool) : Prop :=
  strict = true ∨ ∀ p, src = some p → ∃ f d, s.pools p = .dict f d

theorem EasySource.kind {s s' : St P K} {src : Option P} {strict : Bool}
    (h : EasySource s src strict) (hk : ∀ p, SameKind (s.pools p) (s'.pools p)) :
    EasySource s' src strict := by
  rcases h with h | h
  · exact .inl h
  · right
    intro p hp
    obtain ⟨f, d, hd⟩ := h p hp
    have := hk p
    rw [hd] at this
    cases hq : s'.pools p with
    | dict f' d' => exact ⟨_, _, rfl⟩
    | acct L a => rw [hq] at this; exact absurd this id

theorem dateFor_sim {s s' : St P K} (hs : Good s) (hs' : Good s') (hm : SameMoney s s')
    {src : Option P} {strict : Bool} (he : EasySource s src strict) (v w : K) :
    ∃ t, dateFor ttv s v w src strict = .ok t ∧ dateFor ttv s' v w src strict = .ok t := by
  cases src with
  | none => exact ⟨w, rfl, rfl⟩
  | some p =>
    rcases he with rfl | he
    · exact ⟨w, rfl, rfl⟩
    · cases strict with
      | true => exact ⟨w, rfl, rfl⟩
      | false =>
        obtain ⟨f, d, hd⟩ := he p rfl
        have hk := (hm p).1
        rw [hd] at hk
        cases hq : s'.pools p with
        | acct L a => rw [hq] at hk; exact absurd hk id
        | dict f' d' =>
          have w1 : Dict.WF d := by have := hs.pools p; rw [hd] at this; exact this
          have w2 : Dict.WF d' := by have := hs'.pools p; rw [hq] at this; exact this
          have hv : ∀ t, Dict.val d t = Dict.val d' t := by
            intro t
            have := (hm p).2 t
            simpa [amount, hd, hq, Pool.txns] using this
          refine ⟨earliest (accumDict d w) v w, ?_, ?_⟩
          · simp [dateFor, shiftWhen, hd]
          · simp only [dateFor, shiftWhen, hq, Bool.false_eq_true, if_false]
            rw [earliest_dict_congr w1 w2 (cum_congr_val w1 w2 hv)]

/-- Two results that agree: the same exception (or none) and the same money. -/
structure Agree (r r' : St P K × Option PyErr) : Prop where
  err : r.2 = r'.2
  good : Good r.1
  good' : Good r'.1
  same : SameMoney r.1 r'.1

theorem add1_sim {s s' : St P K} (hs : Good s) (hs' : Good s') (hm : SameMoney s s')
    {src : Option P} {strict : Bool} (he : EasySource s src strict) (v w : K) (dst : Option P) :
    Agree (addTransaction1 ttv s v w src dst strict) (addTransaction1 ttv s' v w src dst strict) := by
  obtain ⟨t, h1, h2⟩ := dateFor_sim ttv hs hs' hm he v w
  unfold addTransaction1
  rw [h1, h2]
  simp only
  rcases leg_sim hs hs' hm src t (-v) with ⟨e, h3, h4⟩ | ⟨u, u', h3, h4, g, g', m⟩
  · rw [h3, h4]; exact ⟨rfl, hs, hs', hm⟩
  · rw [h3, h4]
    simp only
    rcases leg_sim g g' m dst t v with ⟨e, h5, h6⟩ | ⟨x, x', h5, h6, k, k', n⟩
    · rw [h5, h6]; exact ⟨rfl, g, g', m⟩
    · rw [h5, h6]; exact ⟨rfl, k, k', n⟩

theorem forEach_sim {α : Type} {body : St P K → α → St P K × Option PyErr}
    (ok : St P K → α → Prop)
    (hb : ∀ s s' x, Good s → Good s' → SameMoney s s' → ok s x → Agree (body s x) (body s' x))
    (hok : ∀ s x y, Good s → ok s y → ok (body s x).1 y)
    (l : List α) {s s' : St P K} (hs : Good s) (hs' : Good s') (hm : SameMoney s s')
    (hl : ∀ x ∈ l, ok s x) : Agree (forEach body s l) (forEach body s' l) := by
  induction l generalizing s s' with
  | nil => exact ⟨rfl, hs, hs', hm⟩
  | cons x xs ih =>
    have ha := hb s s' x hs hs' hm (hl x (by simp))
    have hok' : ∀ y ∈ xs, ok (body s x).1 y := fun y hy => hok s x y hs (hl y (by simp [hy]))
    unfold forEach
    rcases h1 : body s x with ⟨u, e⟩
    rcases h2 : body s' x with ⟨u', e'⟩
    rw [h1, h2] at ha
    rw [h1] at hok'
    have he : e = e' := ha.err
    subst he
    cases e with
    | some e => exact ha
    | none => exact ih ha.good ha.good' ha.same hok'

theorem kind_of_legs {s s' : St P K} (h : Legs s s') (hs : Good s) :
    ∀ p, SameKind (s.pools p) (s'.pools p) := (h.inv hs).2.1

theorem request_sim {s s' : St P K} (hs : Good s) (hs' : Good s') (hm : SameMoney s s')
    (q : Req P K) (he : EasySource s (orient q).2.1 q.strict) :
    Agree (addTransaction ttv default s q) (addTransaction ttv default s' q) := by
  unfold addTransaction
  cases resolve default q.timing with
  | error e => exact ⟨rfl, hs, hs', hm⟩
  | ok timing =>
    simp only
    apply forEach_sim (ok := fun s _ => EasySource s (orient q).2.1 q.strict) _ _ timing hs hs' hm
      (fun _ _ => he)
    · intro s s' kv h1 h2 h3 h4
      split
      · exact ⟨rfl, h1, h2, h3⟩
      · exact add1_sim ttv h1 h2 h3 h4 _ _ _
    · intro s kv _ h1 h2
      apply h2.kind
      split
      · exact fun _ => SameKind.refl _
      · exact kind_of_legs (legs_addTransaction1 ttv _ _ _ _ _ _) h1

theorem requests_sim {s s' : St P K} (hs : Good s) (hs' : Good s') (hm : SameMoney s s')
    (qs : List (Req P K)) (he : ∀ q ∈ qs, EasySource s (orient q).2.1 q.strict) :
    Agree (forEach (addTransaction ttv default) s qs)
      (forEach (addTransaction ttv default) s' qs) := by
  apply forEach_sim (ok := fun s q => EasySource s (orient q).2.1 q.strict) _ _ qs hs hs' hm he
  · intro s s' q h1 h2 h3 h4
    exact request_sim ttv default h1 h2 h3 q h4
  · intro s q q' h1 h2
    exact h2.kind (kind_of_legs (legs_addTransaction ttv default _ _) h1)

theorem totalOf_ok {q : Pool K} (hq : GoodPool q) : ∃ x, totalOf q = .ok x := by
  cases q with
  | dict f d => exact ⟨_, rfl⟩
  | acct L a =>
    obtain ⟨b, hb⟩ := Inv.balance_ok (a := a) hq
    have := balanceAtTime_eq (a := a) hq hb (t := 1) (by norm_num) none (by simp)
    simp only [totalOf, maxOutflow, this, ok_bind]
    exact ⟨_, rfl⟩

theorem begin_ok {s : St P K} (hs : Good s) (p : P) :
    ∃ x, begin s p = ({ s with called := true, totalAvailable := x }, none) := by
  obtain ⟨x, hx⟩ := totalOf_ok (hs.pools p)
  exact ⟨x, by unfold begin; rw [hx]⟩

/-- **C44** (calling again). A sub-forecast that has not been called yet this year is called
twice with the same transactions to make: the second call ends the same way as the first and
leaves every pool as the first call left it, date by date.  (Any request whose money comes
from an `Account` has strict timing: otherwise the account's growth between the dates left
behind by the first call can matter.) -/
theorem C44_second_call {s : St P K} (hs : Good s) (hc : s.called = false) (hr : s.record = [])
    (available : P) (qs : List (Req P K))
    (he : ∀ q ∈ qs, EasySource s (orient q).2.1 q.strict) :
    let first := callWith ttv default available qs s
    let second := callWith ttv default available qs first.1
    second.2 = first.2 ∧ ∀ p t, amount second.1 p t = amount first.1 p t := by
  intro first second
  obtain ⟨x, hx⟩ := begin_ok hs available
  set s0 : St P K := { s with called := true, totalAvailable := x } with hs0
  have hg0 : Good s0 := ⟨hs.pools, hs.record, hs.entries, hs.present⟩
  have hfirst : first = forEach (addTransaction ttv default) s0 qs := by
    show callWith ttv default available qs s = _
    unfold callWith call
    rw [hc]
    simp only [Bool.false_eq_true, if_false, hx]
  have hlegs : Legs s0 first.1 := by rw [hfirst]; exact legs_requests ttv default s0 qs
  obtain ⟨hg1, hk1, hc1, ha1, -⟩ := hlegs.inv hg0
  obtain ⟨s2, hu, hg2, hk2, ha2, -, -⟩ := undo_spec hg1
  obtain ⟨y, hy⟩ := begin_ok hg2 available
  set s3 : St P K := { s2 with called := true, totalAvailable := y } with hs3
  have hg3 : Good s3 := ⟨hg2.pools, hg2.record, hg2.entries, hg2.present⟩
  have hsecond : second = forEach (addTransaction ttv default) s3 qs := by
    show callWith ttv default available qs first.1 = _
    unfold callWith call
    rw [hc1]
    simp only [hs0, if_true, hu, hy]
  have hm : SameMoney s0 s3 := by
    intro p
    refine ⟨(hk1 p).trans (hk2 p), fun t => ?_⟩
    have h1 := ha1 p t
    have h2 : amount s3 p t = amount s2 p t := rfl
    have h3 : recorded s0 (some p) t = 0 := by
      show Dict.val ((Dict.get? s.record (some p)).getD []) t = 0
      rw [hr]; rfl
    rw [h2, ha2]
    rw [h3] at h1
    linear_combination h1.symm
  have := requests_sim ttv default hg0 hg3 hm qs he
  rw [hfirst, hsecond]
  exact ⟨this.err.symm, fun p t => ((this.same p).2 t).symm⟩

/-- **C44** (new year). `next_year` leaves no transaction on record, so calling the
sub-forecast in the new year never touches last year's transactions. -/
theorem C44_next_year {s : St P K} (hs : Good s) (available : P) :
    ∃ x, call (nextYear s) available
      = ({ nextYear s with called := true, totalAvailable := x }, none) := by
  have hg : Good (nextYear s) := ⟨hs.pools, Dict.wf_nil, by simp [nextYear], by simp [nextYear]⟩
  obtain ⟨x, hx⟩ := begin_ok hg available
  exact ⟨x, by unfold call; simp only [nextYear, Bool.false_eq_true, if_false]; exact hx⟩

/-- Spending 10 out of `available`. -/
def spend10 : List (Req Unit ℚ) :=
  [{ value := 10, timing := some (.scalar (.num 0)), src := some () }]

def exAvail : Unit → Pool ℚ := fun _ => .dict true [(0, 100)]

/-- **C44** (the limit of it). A *third* call in the same year does not leave the pool of a
single call: the record of the first call is not emptied when it is undone, so it is undone
twice, and the money spent reappears (100 instead of 90). -/
theorem C44_third_call_refuted :
    ∃ (s : St Unit ℚ), Good s ∧ s.called = false ∧ s.record = [] ∧
      let c := callWith exTtv [] () spend10
      amount (c s).1 () 0 = 90 ∧ amount (c (c s).1).1 () 0 = 90 ∧
      amount (c (c (c s).1).1).1 () 0 = 100 := by
  refine ⟨fresh exAvail, good_fresh (fun _ => ?_), rfl, rfl, ?_⟩
  · show Dict.WF [((0 : ℚ), (100 : ℚ))]
    unfold Dict.WF
    decide +kernel
  · decide +kernel

/-- A non-trivial case of `C44_undo`: the last transaction raises (date 2). -/
example : (forEach (addTransaction exTtv [(1 / 2, 1)]) (fresh exPools)
    [exReq, ⟨12, some (.timing [(1 / 2, 1), (2, 1)]), none, some false, false⟩]).2
      = some .valueError := by decide +kernel
/-- The hypothesis on the sources in `C44_second_call` is met by `exReq`. -/
example : EasySource (fresh exPools) (orient exReq).2.1 exReq.strict :=
  .inr fun p hp => by
    have : (orient exReq).2.1 = some true := by decide +kernel
    rw [this] at hp
    cases hp
    exact ⟨_, _, rfl⟩

end Forecaster.SubForecast
