import Verif.Model.Mapping
import Verif.Props.Account
import Mathlib.Algebra.BigOperators.Group.Finset.Basic
import Mathlib.Algebra.Order.Ring.Rat
import Mathlib.Data.Rat.Floor

/-!
# C85: an account as a mapping
-/

namespace Forecaster.Mapping

open Forecaster Forecaster.Timing Forecaster.Account

variable {K : Type} [Field K] [LinearOrder K] [IsStrictOrderedRing K]

/-! ### Dicts with the same values -/

theorem sum_eq_finset {d : Dict K K} (hd : Dict.WF d) (f : K → K → K) (hf : ∀ k, f k 0 = 0)
    (S : Finset K) (hS : ∀ k ∈ Dict.keys d, k ∈ S) :
    (d.map fun kv => f kv.1 kv.2).sum = ∑ k ∈ S, f k (Dict.val d k) := by
  induction d generalizing S with
  | nil => simp [Dict.val_nil, hf]
  | cons kv d ih =>
    obtain ⟨h1, h2⟩ := Dict.wf_cons.1 hd
    have hkv : kv.1 ∈ S := hS _ (by simp)
    rw [List.map_cons, List.sum_cons, ih h2 (S.erase kv.1) ?_, ← Finset.add_sum_erase S _ hkv]
    · congr 1
      · simp [Dict.val, Dict.get?_cons]
      · refine Finset.sum_congr rfl fun k hk => ?_
        have : kv.1 ≠ k := (Finset.ne_of_mem_erase hk).symm
        simp [Dict.val, Dict.get?_cons, this]
    · intro k hk
      refine Finset.mem_erase.2 ⟨fun e => h1 (e ▸ hk), hS _ (by simp [hk])⟩

theorem sum_congr_val {d e : Dict K K} (hd : Dict.WF d) (he : Dict.WF e)
    (h : ∀ k, Dict.val d k = Dict.val e k) (f : K → K → K) (hf : ∀ k, f k 0 = 0) :
    (d.map fun kv => f kv.1 kv.2).sum = (e.map fun kv => f kv.1 kv.2).sum := by
  rw [sum_eq_finset hd f hf ((Dict.keys d).toFinset ∪ (Dict.keys e).toFinset)
      (fun k hk => by simp [hk]),
    sum_eq_finset he f hf ((Dict.keys d).toFinset ∪ (Dict.keys e).toFinset) (fun k hk => by simp [hk])]
  exact Finset.sum_congr rfl fun k _ => by rw [h]

theorem grown_sum (A : K → K) (d : Dict K K) (t : K) :
    grown A d t = (d.map fun kv => if kv.1 ≤ t then kv.2 * A (t - kv.1) else 0).sum := by
  induction d with
  | nil => rfl
  | cons kv d ih => rw [grown_cons, ih, List.map_cons, List.sum_cons]

theorem grown_congr {d e : Dict K K} (hd : Dict.WF d) (he : Dict.WF e)
    (h : ∀ k, Dict.val d k = Dict.val e k) (A : K → K) (t : K) : grown A d t = grown A e t := by
  rw [grown_sum, grown_sum]
  exact sum_congr_val hd he h (fun k v => if k ≤ t then v * A (t - k) else 0) (by simp)

/-! ### Iteration and membership -/

/-- **C85** (iteration). Without text keys, iterating over an account yields the dates of its
transactions, each once, in ascending order. -/
theorem C85_iteration (m : MA K) (ha : Reachable m.acct) (ht : m.text = []) :
    ∃ l, iter m = .ok (.nums l) ∧ l.Pairwise (· < ·) ∧ l.length = len m ∧
      ∀ t, t ∈ l ↔ ∃ v, Dict.get? m.acct.txns t = some v := by
  refine ⟨_, by rw [iter, if_pos ht], ?_, ?_, fun t => ?_⟩
  · have h1 : ((Dict.keys m.acct.txns).mergeSort fun x y => decide (x ≤ y)).Pairwise (· ≤ ·) := by
      have := List.pairwise_mergeSort (le := fun x y : K => decide (x ≤ y))
        (fun a b c h h' => by simp only [decide_eq_true_eq] at *; exact le_trans h h')
        (fun a b => by simp only [Bool.or_eq_true, decide_eq_true_eq]; exact le_total a b)
        (Dict.keys m.acct.txns)
      exact this.imp (by simp)
    have h2 : ((Dict.keys m.acct.txns).mergeSort fun x y => decide (x ≤ y)).Nodup :=
      (List.mergeSort_perm _ _).nodup_iff.2 ha.inv.tx.wf
    exact (h1.and h2).imp fun h => lt_of_le_of_ne h.1 h.2
  · simp [len, ht, Dict.keys]
  · rw [List.mem_mergeSort, Dict.mem_keys_iff]

/-- **C85** (membership). A date, 'start' or 'end' is in an account exactly if it has a transaction at
that date. -/
theorem C85_membership (m : MA K) (key : When K) (t : K) (hk : whenConv key = .ok t) :
    contains m key = .ok true ↔ ∃ v, Dict.get? m.acct.txns t = some v := by
  simp [contains, Account.contains, hk, Dict.mem_keys_iff]

/-! ### Looking up a date -/

/-- The same but for zero transactions. -/
structure Same (a b : Acct K) : Prop where
  ia : Inv a
  ib : Inv b
  year : a.year = b.year
  growth : a.growth = b.growth
  bal : a.balHist = b.balHist
  txns : ∀ t, Dict.val a.txns t = Dict.val b.txns t
  past : ∀ y, (Dict.get? a.txHist y = none ↔ Dict.get? b.txHist y = none) ∧
    ∀ d e, Dict.get? a.txHist y = some d → Dict.get? b.txHist y = some e →
      Dated d ∧ Dated e ∧ ∀ t, Dict.val d t = Dict.val e t

theorem Same.A {a b : Acct K} (h : Same a b) : a.A = b.A := by
  simp only [Acct.A, h.growth, h.year]

theorem Same.balance {a b : Acct K} (h : Same a b) : balance a = balance b := by
  cases h0 : Dict.get? a.balHist a.year with
  | some x =>
    have h1 : Dict.get? b.balHist b.year = some x := by rw [← h.bal, ← h.year]; exact h0
    simp only [Account.balance, h0, h1]
  | none =>
    have h1 : Dict.get? b.balHist b.year = none := by rw [← h.bal, ← h.year]; exact h0
    rcases h.ia.opening with ⟨x, hx⟩ | ⟨x, d, hx, hd, -⟩
    · rw [h0] at hx; cases hx
    · have hx' : Dict.get? b.balHist (b.year - 1) = some x := by rw [← h.bal, ← h.year]; exact hx
      obtain ⟨p1, p2⟩ := h.past (a.year - 1)
      cases he : Dict.get? b.txHist (a.year - 1) with
      | none => rw [p1.2 he] at hd; cases hd
      | some e =>
        obtain ⟨q1, q2, q3⟩ := p2 d e hd he
        rw [balance_of_prev h0 hx hd q1,
          balance_of_prev h1 hx' (by rw [← h.year]; exact he) q2, h.A,
          grown_congr q1.wf q2.wf q3]

theorem Same.balanceAtTime {a b : Acct K} (h : Same a b) {t : K} (ht : 0 ≤ t ∧ t ≤ 1) :
    Account.balanceAtTime a (.num t) none = Account.balanceAtTime b (.num t) none := by
  obtain ⟨x, hx⟩ := h.ia.balance_ok
  rw [balanceAtTime_eq h.ia hx ht none (by simp),
    balanceAtTime_eq h.ib (h.balance ▸ hx) ht none (by simp), h.A,
    grown_congr h.ia.tx.wf h.ib.tx.wf h.txns]

theorem returns_sum' {a : Acct K} (ha : Dict.WF a.txns) {b : K} (hb : Account.balance a = .ok b) :
    Account.returns a = .ok (b * (a.A 1 - 1)
      + (a.txns.map fun kv => kv.2 * (a.A (1 - kv.1) - 1)).sum) := by
  simp only [Account.returns, hb, ok_bind]
  congr 1
  have : ∀ (l : Dict K K) (x : K), (∀ kv ∈ l, Dict.val a.txns kv.1 = kv.2) →
      (Dict.keys l).foldl (fun r w => r + Dict.val a.txns w * (a.A (1 - w) - 1)) x
        = x + (l.map fun kv => kv.2 * (a.A (1 - kv.1) - 1)).sum := by
    intro l
    induction l with
    | nil => intro x _; simp
    | cons kv l ih =>
      intro x hl
      simp only [Dict.keys_cons, List.foldl_cons, List.map_cons, List.sum_cons]
      rw [ih _ (fun q hq => hl q (List.mem_cons_of_mem _ hq)), hl kv List.mem_cons_self]
      ring
  exact this a.txns _ fun kv hkv => val_of_mem ha hkv

theorem returns_sum {a : Acct K} (ha : Inv a) {b : K} (hb : Account.balance a = .ok b) :
    Account.returns a = .ok (b * (a.A 1 - 1)
      + (a.txns.map fun kv => kv.2 * (a.A (1 - kv.1) - 1)).sum) := returns_sum' ha.tx.wf hb

theorem Same.returns {a b : Acct K} (h : Same a b) : Account.returns a = Account.returns b := by
  obtain ⟨x, hx⟩ := h.ia.balance_ok
  rw [returns_sum h.ia hx, returns_sum h.ib (h.balance ▸ hx), h.A,
    sum_congr_val h.ia.tx.wf h.ib.tx.wf h.txns (fun k v => v * (b.A (1 - k) - 1)) (by simp)]

theorem Same.flows {a b : Acct K} (h : Same a b) :
    inflows a none = inflows b none ∧ outflows a none = outflows b none := by
  constructor
  · simp only [inflows, posSum_eq]
    rw [sum_congr_val h.ia.tx.wf h.ib.tx.wf h.txns (fun _ v => max v 0) (by simp)]
  · simp only [outflows, negSum_eq]
    rw [sum_congr_val h.ia.tx.wf h.ib.tx.wf h.txns (fun _ v => min v 0) (by simp)]

/-- Replacing the transactions on both sides. -/
theorem Same.withTxns {a b : Acct K} (h : Same a b) {d e : Dict K K} (hd : Dated d) (he : Dated e)
    (hv : ∀ t, Dict.val d t = Dict.val e t) : Same { a with txns := d } { b with txns := e } :=
  ⟨⟨hd, h.ia.future, h.ia.opening⟩, ⟨he, h.ib.future, h.ib.opening⟩, h.year, h.growth, h.bal, hv,
    h.past⟩

theorem val_del {d : Dict K K} (hd : Dict.WF d) (k t : K) :
    Dict.val (Dict.del d k) t = if k = t then 0 else Dict.val d t := by
  simp only [Dict.val, Dict.get?_del hd]
  split <;> simp

/-- The transactions after `account[x] = v`, for a valid date. -/
theorem setItem_txns {a : Acct K} (ha : Inv a) {x v : K} (hx : 0 ≤ x ∧ x ≤ 1) :
    ∃ d, Account.setItem a (.num x) v = .ok { a with txns := d } ∧ Dated d ∧
      ∀ t, Dict.val d t = if x = t then v else Dict.val a.txns t := by
  have hw : whenConv (.num x) = .ok x := whenConv_ok hx.1 hx.2
  unfold Account.setItem
  simp only
  split_ifs with h
  · refine ⟨_, addTransaction_eq hw, dated_set (dated_del ha.tx x) hx.1 hx.2 _, fun t => ?_⟩
    simp only [Dict.val_set, val_del ha.tx.wf, if_true, zero_add]
    split <;> rfl
  · refine ⟨_, addTransaction_eq hw, dated_set ha.tx hx.1 hx.2 _, fun t => ?_⟩
    simp only [Dict.val_set, Dict.val_of_not_mem h, zero_add]

theorem Same.step {a b : Acct K} (h : Same a b) (op : Account.Op K) :
    Same (match Account.step a op with | .ok a' => a' | .error _ => a)
      (match Account.step b op with | .ok b' => b' | .error _ => b) := by
  have hadd : ∀ v w, Same (match addTransaction a v w with | .ok a' => a' | .error _ => a)
      (match addTransaction b v w with | .ok b' => b' | .error _ => b) := by
    intro v w
    cases hw : whenConv w with
    | error e => simp only [addTransaction, hw]; exact h
    | ok t =>
      rw [addTransaction_eq hw, addTransaction_eq hw]
      have ht := whenConv_rng hw
      refine h.withTxns (dated_set h.ia.tx ht.1 ht.2 _) (dated_set h.ib.tx ht.1 ht.2 _) fun k => ?_
      simp only [Dict.val_set, h.txns]
  cases op with
  | add v w => exact hadd v w
  | setItem k v =>
    cases k with
    | str s => exact hadd v (.str s)
    | num x =>
      by_cases hx : 0 ≤ x ∧ x ≤ 1
      · obtain ⟨d, h1, h2, h3⟩ := setItem_txns h.ia (v := v) hx
        obtain ⟨e, g1, g2, g3⟩ := setItem_txns h.ib (v := v) hx
        simp only [Account.step, h1, g1]
        exact h.withTxns h2 g2 fun t => by rw [h3, g3, h.txns]
      · have hw : ∃ e, whenConv (.num x : When K) = .error e := by
          refine ⟨.valueError, ?_⟩
          simp only [whenConv]
          rw [if_pos]
          by_contra hc
          push Not at hc
          exact hx ⟨hc.2, hc.1⟩
        obtain ⟨e, he⟩ := hw
        have ha' : x ∉ Dict.keys a.txns := fun hm => hx (h.ia.tx.rng x hm)
        have hb' : x ∉ Dict.keys b.txns := fun hm => hx (h.ib.tx.rng x hm)
        simp only [Account.step, Account.setItem, if_neg ha', if_neg hb', addTransaction, he]
        exact h
  | delItem k =>
    cases k with
    | str s => exact h
    | num x =>
      have key : ∀ c : Acct K, Inv c → ∃ d,
          (match Account.step c (.delItem (.num x)) with | .ok a' => a' | .error _ => c)
            = { c with txns := d } ∧ Dated d ∧
          ∀ t, Dict.val d t = if x = t then 0 else Dict.val c.txns t := by
        intro c hc
        simp only [Account.step, Account.delItem]
        by_cases hm : x ∈ Dict.keys c.txns
        · exact ⟨Dict.del c.txns x, by simp only [if_pos hm], dated_del hc.tx x,
            fun t => val_del hc.tx.wf x t⟩
        · refine ⟨c.txns, by simp only [if_neg hm], hc.tx, fun t => ?_⟩
          split
          · rename_i e; subst e; exact Dict.val_of_not_mem hm
          · rfl
      obtain ⟨d, h1, h2, h3⟩ := key a h.ia
      obtain ⟨e, g1, g2, g3⟩ := key b h.ib
      rw [h1, g1]
      exact h.withTxns h2 g2 fun t => by rw [h3, g3, h.txns]
  | clear => exact h.withTxns dated_nil dated_nil fun _ => rfl
  | nextYear =>
    obtain ⟨x, hx⟩ := h.ia.balance_ok
    have hx' : Account.balance b = .ok x := h.balance ▸ hx
    have e1 : Account.step a .nextYear = _ := nextYear_eq hx
    have e2 : Account.step b .nextYear = _ := nextYear_eq hx'
    have i1 := inv_nextYear h.ia (nextYear_eq hx)
    have i2 := inv_nextYear h.ib (nextYear_eq hx')
    rw [e1, e2]
    refine ⟨i1, i2, by simp [h.year], h.growth, by simp [h.bal, h.year], fun _ => rfl, fun y => ?_⟩
    simp only [h.year]
    by_cases hy : b.year = y
    · subst hy
      simp only [Dict.get?_set_self]
      refine ⟨by simp, ?_⟩
      rintro d e ⟨⟩ ⟨⟩
      exact ⟨h.ia.tx, h.ib.tx, h.txns⟩
    · rw [Dict.get?_set_ne _ _ hy, Dict.get?_set_ne _ _ hy]
      exact h.past y

/-- Lookups of numbers in `[0,1]` only. -/
def Dates : Op K → Prop
  | .look (.num x) => 0 ≤ x ∧ x ≤ 1
  | .look (.str _) => False
  | .other _ => True

/-- The program without the lookups. -/
def strip (ops : List (Op K)) : List (Account.Op K) :=
  ops.filterMap fun | .look _ => none | .other op => some op

theorem step_other {m : MA K} (ht : m.text = []) (op : Account.Op K)
    (hr : ∃ x, Account.returns m.acct = .ok x) :
    (step m (.other op)).text = [] ∧ (step m (.other op)).acct
      = match Account.step m.acct op with | .ok a' => a' | .error _ => m.acct := by
  cases op with
  | add v w =>
    simp only [step, add, Account.step]
    cases addTransaction m.acct v w <;> exact ⟨ht, rfl⟩
  | setItem k v =>
    cases k with
    | num x =>
      simp only [step, setItem, Account.step]
      cases Account.setItem m.acct (.num x) v <;> exact ⟨ht, rfl⟩
    | str s =>
      simp only [step, setItem, Account.step, Account.setItem, ht, Dict.del]
      cases addTransaction m.acct v (.str s) <;> exact ⟨rfl, rfl⟩
  | delItem k =>
    cases k with
    | num x =>
      simp only [step, delItem, Account.step]
      cases Account.delItem m.acct (.num x) <;> exact ⟨ht, rfl⟩
    | str s =>
      simp [step, delItem, Account.step, Account.delItem, ht]
  | clear => exact ⟨rfl, rfl⟩
  | nextYear =>
    obtain ⟨x, hx⟩ := hr
    simp only [step, nextYear, returns, hx, ok_bind, ht, if_true, Account.step]
    cases Account.nextYear m.acct <;> exact ⟨by simp [ht], rfl⟩

theorem addTransaction_txHist {a a' : Acct K} {v : K} {w : When K}
    (h : addTransaction a v w = .ok a') : a'.txHist = a.txHist := by
  cases hw : whenConv w with
  | error e => simp only [addTransaction, hw] at h; cases h
  | ok t => rw [addTransaction_eq hw] at h; cases h; rfl

/-- The transactions of closed years all have valid dates. -/
theorem txHist_dated {a : Acct K} (ha : Reachable a) :
    ∀ y d, Dict.get? a.txHist y = some d → Dated d := by
  obtain ⟨y, b, g, dt, ops, rfl⟩ := ha
  have : ∀ (ops : List (Account.Op K)) (a : Acct K), Inv a →
      (∀ y d, Dict.get? a.txHist y = some d → Dated d) →
      ∀ y d, Dict.get? (Account.run a ops).txHist y = some d → Dated d := by
    intro ops
    induction ops with
    | nil => intro a _ h; exact h
    | cons op ops ih =>
      intro a hi h
      refine ih _ (by simpa [Account.run] using inv_run hi [op]) ?_
      cases hs : Account.step a op with
      | error e => simp only [hs]; exact h
      | ok a' =>
        intro y d hd
        simp only [hs] at hd
        cases op with
        | add v w => rw [(addTransaction_txHist hs)] at hd; exact h y d hd
        | setItem k v =>
          simp only [Account.step, Account.setItem] at hs
          rw [addTransaction_txHist hs] at hd
          cases k with
          | str s => exact h y d hd
          | num x =>
            simp only at hd
            split at hd <;> exact h y d hd
        | delItem k =>
          cases k with
          | str s => cases hs
          | num x =>
            simp only [Account.step, Account.delItem] at hs
            split at hs
            · cases hs; exact h y d hd
            · cases hs
        | clear => cases hs; exact h y d hd
        | nextYear =>
          obtain ⟨b, hb⟩ := hi.balance_ok
          rw [show Account.step a .nextYear = _ from nextYear_eq hb] at hs
          cases hs
          simp only [Dict.get?_set] at hd
          split at hd
          · cases hd; exact hi.tx
          · exact h y d hd
  exact this ops _ (inv_init ..) (by simp [Account.init])

/-- **C85** (looking up dates does no harm). A program may look up `account[t]` for dates `t` whenever
it likes: the transaction at `t`, or 0, is returned; and though a missing entry is inserted, balances
(now, at any time and in all closed years), returns, inflows and outflows are what they are without the
lookups. -/
theorem C85_lookups_harmless (a : Acct K) (ha : Reachable a) (ops : List (Op K))
    (hops : ∀ op ∈ ops, Dates op) :
    let m := run ⟨a, []⟩ ops
    let b := Account.run a (strip ops)
    m.text = [] ∧ m.acct.year = b.year ∧ m.acct.balHist = b.balHist ∧
    (∀ t, 0 ≤ t → t ≤ 1 → balanceAtTime m (.num t) = Account.balanceAtTime b (.num t) none ∧
      (getItem m (.num t)).1 = Dict.val b.txns t) ∧
    Account.balance m.acct = Account.balance b ∧ returns m = Account.returns b ∧
    inflows m.acct none = inflows b none ∧ outflows m.acct none = outflows b none := by
  have key : ∀ (ops : List (Op K)) (m : MA K) (b : Acct K), m.text = [] → Same m.acct b →
      (∀ op ∈ ops, Dates op) →
      (run m ops).text = [] ∧ Same (run m ops).acct (Account.run b (strip ops)) := by
    intro ops
    induction ops with
    | nil => intro m b h1 h2 _; exact ⟨h1, h2⟩
    | cons op ops ih =>
      intro m b h1 h2 h3
      have hop := h3 op List.mem_cons_self
      have hrest := fun o ho => h3 o (List.mem_cons_of_mem op ho)
      cases op with
      | look k =>
        cases k with
        | str s => exact absurd hop id
        | num x =>
          refine ih _ b ?_ ?_ hrest
          · simp only [step, getItem]
            split <;> exact h1
          · simp only [step, getItem]
            cases hx : Dict.get? m.acct.txns x with
            | some v => exact h2
            | none =>
              refine h2.withTxns (e := b.txns) (dated_set h2.ia.tx hop.1 hop.2 _) h2.ib.tx fun t => ?_
              rw [Dict.val_set]
              split
              · rename_i e; subst e
                rw [← h2.txns, Dict.val, hx]; rfl
              · exact h2.txns t
      | other op =>
        have hr : ∃ x, Account.returns m.acct = .ok x := by
          obtain ⟨x, hx⟩ := h2.ia.balance_ok
          exact ⟨_, returns_sum h2.ia hx⟩
        obtain ⟨g1, g2⟩ := step_other h1 op hr
        have := ih (step m (.other op)) _ g1 (g2 ▸ h2.step op) hrest
        exact this
  have hs : Same a a := by
    refine ⟨ha.inv, ha.inv, rfl, rfl, rfl, fun _ => rfl, fun y => ⟨Iff.rfl, ?_⟩⟩
    intro d e hd he
    rw [hd] at he
    cases he
    have : Dated d := txHist_dated ha y d hd
    exact ⟨this, this, fun _ => rfl⟩
  intro m b
  obtain ⟨h1, h2⟩ := key ops ⟨a, []⟩ a rfl hs hops
  refine ⟨h1, h2.year, h2.bal, ?_, h2.balance, ?_, h2.flows.1, h2.flows.2⟩
  · intro t h0 h1'
    constructor
    · rw [balanceAtTime, if_pos h1]
      exact h2.balanceAtTime ⟨h0, h1'⟩
    · rw [← h2.txns]
      simp only [getItem, Dict.val]
      split <;> rename_i hx <;> simp only [m, hx] <;> rfl
  · simp only [returns]
    rw [h2.returns]
    cases Account.returns (Account.run a (strip ops)) with
    | error e => rfl
    | ok x => simp only [ok_bind]; rw [if_pos h1]

/-! ### Looking up text -/

/-- **C85** (looking up text). `account['start']` is 0 even if there is a transaction at the start of the
year (of which `'start' in account` still tells), and it breaks the account: iterating over its dates,
its balance at any time, its returns and `next_year()` raise TypeError. Deleting the key or clearing the
account mends it. -/
theorem C85_text_key (m : MA K) (ha : Reachable m.acct) (ht : m.text = []) (s : String) :
    (getItem m (.str s)).1 = 0 ∧
    let m' := (getItem m (.str s)).2
    (∀ key, contains m' key = contains m key) ∧ len m' = len m + 1 ∧
    (m.acct.txns ≠ [] → iter m' = .error .typeError) ∧
    (∀ t, 0 ≤ t → t ≤ 1 → balanceAtTime m' (.num t) = .error .typeError) ∧
    returns m' = .error .typeError ∧ nextYear m' = (some .typeError, m') ∧
    delItem m' (.str s) = (none, m) ∧ clear m' = clear m := by
  obtain ⟨b, hb⟩ := ha.inv.balance_ok
  obtain ⟨a, tx⟩ := m
  simp only at ht ha hb
  subst ht
  have hg : getItem (⟨a, []⟩ : MA K) (.str s) = (0, ⟨a, [(s, 0)]⟩) := rfl
  have hr : returns (⟨a, [(s, 0)]⟩ : MA K) = .error .typeError := by
    simp only [returns, returns_sum ha.inv hb, ok_bind]; simp
  rw [hg]
  refine ⟨rfl, fun _ => rfl, rfl, fun hne => ?_, fun t h0 h1 => ?_, hr, ?_, ?_, rfl⟩
  · simp only at hne
    simp [iter, hne]
  · simp only [balanceAtTime, whenConv_ok h0 h1, hb, ok_bind]; simp
  · simp only [nextYear, hr]
  · simp [delItem, Dict.del]

/-- The operations that may remove the text key `s`. -/
def Removes (s : String) : Op K → Prop
  | .other (.setItem (.str t) _) => t = s
  | .other (.delItem (.str t)) => t = s
  | .other .clear => True
  | _ => False

theorem mem_keys_del_ne {d : Dict String K} {s t : String} (h : s ∈ Dict.keys d) (hts : t ≠ s) :
    s ∈ Dict.keys (Dict.del d t) := by
  induction d with
  | nil => cases h
  | cons kv d ih =>
    obtain ⟨k, v⟩ := kv
    simp only [Dict.del]
    simp only [Dict.keys_cons, List.mem_cons] at h
    split
    · rename_i e
      rcases h with h | h
      · exact absurd (e.symm.trans h.symm) hts
      · exact h
    · rcases h with h | h
      · simp [h]
      · simp [ih h]

theorem returns_typeError {m : MA K} (h : m.text ≠ []) : ∃ e, returns m = .error e := by
  simp only [returns, if_neg h]
  cases Account.returns m.acct <;> exact ⟨_, rfl⟩

/-- **C85** (text keeps the year from ending). Once a text key has been looked up, no program leads into
the next year before it has deleted or assigned that key, or cleared the account. -/
theorem C85_text_stuck (m : MA K) (s : String) (ops : List (Op K)) (hops : ∀ op ∈ ops, ¬ Removes s op) :
    (run (getItem m (.str s)).2 ops).acct.year = m.acct.year := by
  have key : ∀ (ops : List (Op K)) (m : MA K), s ∈ Dict.keys m.text → (∀ op ∈ ops, ¬ Removes s op) →
      (run m ops).acct.year = m.acct.year := by
    intro ops
    induction ops with
    | nil => intro m _ _; rfl
    | cons op ops ih =>
      intro m hm h
      have hop := h op List.mem_cons_self
      have hadd : ∀ (a : Acct K) (v : K) (w : When K) (a' : Acct K), addTransaction a v w = .ok a' →
          a'.year = a.year := by
        intro a v w a' h
        cases hw : whenConv w with
        | error e => simp only [addTransaction, hw] at h; cases h
        | ok t => rw [addTransaction_eq hw] at h; cases h; rfl
      have one : s ∈ Dict.keys (step m op).text ∧ (step m op).acct.year = m.acct.year := by
        cases op with
        | look k =>
          cases k with
          | num x => simp only [step, getItem]; split <;> exact ⟨hm, rfl⟩
          | str t =>
            simp only [step, getItem]
            split
            · exact ⟨hm, rfl⟩
            · exact ⟨by simp [Dict.mem_keys_set, hm], rfl⟩
        | other op =>
          cases op with
          | add v w =>
            simp only [step, add]
            split
            · exact ⟨hm, hadd _ _ _ _ ‹_›⟩
            · exact ⟨hm, rfl⟩
          | setItem k v =>
            cases k with
            | num x =>
              simp only [step, setItem]
              split
              · rename_i a' e
                refine ⟨hm, ?_⟩
                simp only [Account.setItem] at e
                rw [hadd _ _ _ _ e]
                split <;> rfl
              · exact ⟨hm, rfl⟩
            | str t =>
              have hts : t ≠ s := hop
              have hd : s ∈ Dict.keys (Dict.del m.text t) := mem_keys_del_ne hm hts
              simp only [step, setItem]
              split
              · exact ⟨hd, hadd _ _ _ _ ‹_›⟩
              · exact ⟨hd, rfl⟩
          | delItem k =>
            cases k with
            | num x =>
              simp only [step, delItem]
              split
              · rename_i a' e
                refine ⟨hm, ?_⟩
                simp only [Account.delItem] at e
                split at e
                · cases e; rfl
                · cases e
              · exact ⟨hm, rfl⟩
            | str t =>
              have hts : t ≠ s := hop
              simp only [step, delItem]
              split
              · exact ⟨mem_keys_del_ne hm hts, rfl⟩
              · exact ⟨hm, rfl⟩
          | clear => exact absurd trivial hop
          | nextYear =>
            obtain ⟨e, he⟩ := returns_typeError (m := m) (by intro h; simp [h] at hm)
            simp only [step, nextYear, he]
            exact ⟨hm, trivial⟩
      have := ih (step m op) one.1 fun o ho => h o (List.mem_cons_of_mem op ho)
      exact this.trans one.2
  have h0 : s ∈ Dict.keys (getItem m (.str s)).2.text ∧
      (getItem m (.str s)).2.acct.year = m.acct.year := by
    simp only [getItem]
    cases hx : Dict.get? m.text s with
    | some v => exact ⟨(Dict.mem_keys_iff ..).2 ⟨v, hx⟩, rfl⟩
    | none => exact ⟨by simp [Dict.mem_keys_set], rfl⟩
  rw [key ops _ h0.1 hops, h0.2]

/-! ### Looking up a number that is no date -/

theorem foldlM_valueError (A : K → K) (l : List (K × K)) (x : K × K) (hx : x ∈ l)
    (hr : ¬ (0 ≤ x.1 ∧ x.1 ≤ 1)) (b : K) :
    (l.foldlM (fun b kv => do
      let v ← valueAtTime A kv.2 (.num kv.1) (.str "end")
      .ok (b + v)) b) = (.error .valueError : Except PyErr K) := by
  have bad : ∀ k v : K, ¬ (0 ≤ k ∧ k ≤ 1) →
      valueAtTime A v (.num k) (.str "end") = .error .valueError := by
    intro k v h
    have : whenConv (.num k : When K) = .error .valueError := by
      simp only [whenConv]
      rw [if_pos]
      by_contra hc
      push Not at hc
      exact h ⟨hc.2, hc.1⟩
    simp only [valueAtTime, this, whenConv_end, ok_bind]; rfl
  induction l generalizing b with
  | nil => cases hx
  | cons kv l ih =>
    rw [List.foldlM_cons]
    by_cases h : 0 ≤ kv.1 ∧ kv.1 ≤ 1
    · have hne : x ∈ l := by
        rcases List.mem_cons.1 hx with e | e
        · exact absurd (e ▸ h) hr
        · exact e
      simp only [valueAtTime, whenConv_ok h.1 h.2, whenConv_end, ok_bind]
      exact ih hne _
    · simp only [bad _ _ h]; rfl

/-- Only `next_year()` moves the year and touches what is on record. -/
theorem step_keeps (m : MA K) (op : Op K) (h : op ≠ .other .nextYear) :
    (step m op).acct.year = m.acct.year ∧ (step m op).acct.balHist = m.acct.balHist ∧
    (step m op).acct.txHist = m.acct.txHist := by
  have hadd : ∀ (a : Acct K) (v : K) (w : When K) (a' : Acct K), addTransaction a v w = .ok a' →
      a'.year = a.year ∧ a'.balHist = a.balHist ∧ a'.txHist = a.txHist := by
    intro a v w a' h
    cases hw : whenConv w with
    | error e => simp only [addTransaction, hw] at h; cases h
    | ok t => rw [addTransaction_eq hw] at h; cases h; exact ⟨rfl, rfl, rfl⟩
  cases op with
  | look k =>
    cases k <;> simp only [step, getItem] <;> split <;> exact ⟨rfl, rfl, rfl⟩
  | other op =>
    cases op with
    | add v w =>
      simp only [step, add]
      split
      · exact hadd _ _ _ _ ‹_›
      · exact ⟨rfl, rfl, rfl⟩
    | setItem k v =>
      cases k with
      | num x =>
        simp only [step, setItem]
        split
        · rename_i a' e
          simp only [Account.setItem] at e
          have := hadd _ _ _ _ e
          split at this <;> exact this
        · exact ⟨rfl, rfl, rfl⟩
      | str t =>
        simp only [step, setItem]
        split
        · exact hadd _ _ _ _ ‹_›
        · exact ⟨rfl, rfl, rfl⟩
    | delItem k =>
      cases k with
      | num x =>
        simp only [step, delItem]
        split
        · rename_i a' e
          simp only [Account.delItem] at e
          split at e
          · cases e; exact ⟨rfl, rfl, rfl⟩
          · cases e
        · exact ⟨rfl, rfl, rfl⟩
      | str t => simp only [step, delItem]; split <;> exact ⟨rfl, rfl, rfl⟩
    | clear => exact ⟨rfl, rfl, rfl⟩
    | nextYear => exact absurd rfl h

/-- **C85** (looking up a number that is no date). `account[x]` with `x` outside `[0, 1]` is 0. The year
still ends as it would have, but then the account has no balance any more: in the new year `balance`
raises ValueError whatever program follows, and the year after is never reached. -/
theorem C85_out_of_range (m : MA K) (ha : Reachable m.acct) (ht : m.text = []) (x : K)
    (hx : ¬ (0 ≤ x ∧ x ≤ 1)) :
    (getItem m (.num x)).1 = 0 ∧
    let m' := (getItem m (.num x)).2
    returns m' = returns m ∧ (nextYear m').1 = none ∧
    ∀ ops, let n := run (nextYear m').2 ops
      n.acct.year = m.acct.year + 1 ∧ Account.balance n.acct = .error .valueError := by
  obtain ⟨b, hb⟩ := ha.inv.balance_ok
  obtain ⟨a, tx⟩ := m
  simp only at ht ha hb
  subst ht
  have hm : x ∉ Dict.keys a.txns := fun h => hx (ha.inv.tx.rng x h)
  have hg0 : Dict.get? a.txns x = none := by
    cases h : Dict.get? a.txns x with
    | none => rfl
    | some v => exact absurd ((Dict.mem_keys_iff ..).2 ⟨v, h⟩) hm
  have hg : getItem (⟨a, []⟩ : MA K) (.num x)
      = (0, ⟨{ a with txns := Dict.set a.txns x 0 }, []⟩) := by simp only [getItem, hg0]
  have hb' : Account.balance { a with txns := Dict.set a.txns x 0 } = .ok b := by
    rw [balance_txns_irrel]; exact hb
  have hset : Dict.set a.txns x 0 = a.txns ++ [(x, 0)] := Dict.set_of_not_mem 0 hm
  have hr : Account.returns { a with txns := Dict.set a.txns x 0 } = Account.returns a := by
    rw [returns_sum' (Dict.wf_set ha.inv.tx.wf x 0) hb', returns_sum ha.inv hb]
    simp [hset, Acct.A]
  have hn : nextYear (⟨{ a with txns := Dict.set a.txns x 0 }, []⟩ : MA K)
      = (none, MA.mk { a with
          year := a.year + 1
          balHist := Dict.set a.balHist a.year b
          txHist := Dict.set a.txHist a.year (Dict.set a.txns x 0)
          txns := [] } []) := by
    simp only [nextYear, returns, hr, returns_sum ha.inv hb, ok_bind, if_true,
      Account.nextYear, hb']
  rw [hg]
  refine ⟨rfl, by simp only [returns, hr], by rw [hn], fun ops => ?_⟩
  rw [hn]
  have key : ∀ (ops : List (Op K)) (m : MA K), m.acct.year = a.year + 1 →
      m.acct.balHist = Dict.set a.balHist a.year b →
      m.acct.txHist = Dict.set a.txHist a.year (Dict.set a.txns x 0) →
      (run m ops).acct.year = a.year + 1 ∧ Account.balance (run m ops).acct = .error .valueError := by
    intro ops
    have hbal : ∀ m : MA K, m.acct.year = a.year + 1 →
        m.acct.balHist = Dict.set a.balHist a.year b →
        m.acct.txHist = Dict.set a.txHist a.year (Dict.set a.txns x 0) →
        Account.balance m.acct = .error .valueError := by
      intro m h1 h2 h3
      have e1 : Dict.get? (Dict.set a.balHist a.year b) (a.year + 1) = none := by
        rw [Dict.get?_set_ne _ _ (by omega)]
        exact ha.inv.future _ (by omega)
      simp only [Account.balance, h1, h2, h3, e1, Account.look, add_sub_cancel_right,
        Dict.get?_set_self, ok_bind, valueAtTime, whenConv_start, whenConv_end]
      exact foldlM_valueError m.acct.A _ (x, 0) (by simp [hset]) hx _
    induction ops with
    | nil => intro m h1 h2 h3; exact ⟨h1, hbal m h1 h2 h3⟩
    | cons op ops ih =>
      intro m h1 h2 h3
      by_cases hop : op = .other .nextYear
      · have : step m op = m := by
          subst hop
          have : Account.returns m.acct = .error .valueError := by
            simp only [Account.returns, hbal m h1 h2 h3]; rfl
          simp only [step, nextYear, returns, this]; rfl
        have e : run m (op :: ops) = run m ops := by simp only [run, List.foldl_cons, this]
        rw [e]
        exact ih m h1 h2 h3
      · obtain ⟨k1, k2, k3⟩ := step_keeps m op hop
        exact ih (step m op) (k1.trans h1) (k2.trans h2) (k3.trans h3)
  exact key ops _ rfl rfl rfl

/-! ### A concrete account -/

/-- The sample account of `Verif/Props/Account.lean` as a mapping: 50 at 1/4 and -20 at the end. -/
def sampleMap : MA ℚ := ⟨sample, []⟩

example : Reachable sampleMap.acct ∧ sampleMap.text = [] := ⟨sample_reachable, rfl⟩
example : iter sampleMap = .ok (.nums [1 / 4, 1]) ∧ len sampleMap = 2 := by
  rw [iter, if_pos (show sampleMap.text = [] from rfl),
    List.mergeSort_of_pairwise (by decide +kernel)]
  decide +kernel
example : contains sampleMap (.str "end") = .ok true ∧ contains sampleMap (.str "start") = .ok false := by
  decide +kernel
example : (getItem sampleMap (.str "end")).1 = 0 ∧ (getItem sampleMap (.num 1)).1 = -20 := by
  decide +kernel
example : balanceAtTime sampleMap (.str "end") = .ok 130 ∧
    balanceAtTime (getItem sampleMap (.str "end")).2 (.str "end") = .error .typeError := by
  decide +kernel
/-- Lookups in between other operations. -/
def lookups : List (Op ℚ) :=
  [.look (.num 0), .other (.add 10 (.num (1 / 2))), .look (.num (1 / 3)), .other .nextYear,
    .look (.num (1 / 4)), .other (.add 5 (.str "start"))]
example : ∀ op ∈ lookups, Dates op := by
  simp only [lookups, List.forall_mem_cons, List.not_mem_nil, false_implies, implies_true, Dates,
    and_true, true_and]
  norm_num
example : len (run sampleMap lookups) = 2 ∧
    (run sampleMap lookups).acct.txns = [(1 / 4, 0), (0, 5)] ∧
    Account.balance (run sampleMap lookups).acct = .ok 140 := by decide +kernel
example : ¬ ((0 : ℚ) ≤ 2 ∧ (2 : ℚ) ≤ 1) := by norm_num
example : Account.balance (run sampleMap [.look (.num 2), .other .nextYear]).acct = .error .valueError := by
  decide +kernel
/-- Through lookups of text, the year no longer ends, and then it does again. -/
example : (run sampleMap [.look (.str "start"), .other .nextYear, .other .nextYear]).acct.year = 2000 ∧
    (run sampleMap [.look (.str "start"), .other .nextYear, .other (.delItem (.str "start")),
      .other .nextYear]).acct.year = 2001 := by decide +kernel

end Forecaster.Mapping
