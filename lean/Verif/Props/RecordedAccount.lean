import Verif.Props.RecordedHousehold
import Verif.Props.Account

/-!
# C82: without inputs and assignments, an account is the account of `Verif/Model/Account.lean`

So what C18–C24 say about accounts holds of accounts with caches and owners among people and other
accounts.
-/

namespace Forecaster.Recorded

open Forecaster

variable {N A K : Type} [DecidableEq N] [DecidableEq A] [Field K] [LinearOrder K]
  [IsStrictOrderedRing K]

/-- Account `a` in state `s` and the account `c`: same year, transactions and histories, and what is
cached is right. -/
structure Like (G : K → K → K) (r : ℤ → K) (a : A) (s : HSt N A K) (c : Account.Acct K) : Prop where
  reach : Account.Reachable c
  year : c.year = s.year (.account a)
  growth : c.growth = fun y => G (r y)
  txns : c.txns = s.world.txns a
  rates : s.world.rates a = fun y => .ok (r y)
  wgrowth : s.world.growth a = G
  rules : s.world.rules a = none
  wf : ∀ k, Dict.WF (s.hist k)
  noInput : ∀ p, s.inputs (.account a p) = none
  bal : ∀ y, y < s.year (.account a) →
    Dict.get? (s.hist (.account a .balance)) y = (Dict.get? c.balHist y).map .num
  tx : ∀ y, y < s.year (.account a) →
    Dict.get? (s.hist (.account a .transactions)) y = (Dict.get? c.txHist y).map .txns
  first : ∀ b, Dict.get? c.balHist c.year = some b →
    s.now household (.account a .balance) = some (.num b)
  nowBal : ∀ v, s.now household (.account a .balance) = some v →
    ∃ b, Account.balance c = .ok b ∧ v = .num b
  nowRate : ∀ v, s.now household (.account a .rate) = some v → v = .num (r (s.year (.account a)))
  nowOther : ∀ p, p ≠ .balance → p ≠ .rate → s.now household (.account a p) = none
  future : ∀ p y, s.year (.account a) < y → Dict.get? (s.hist (.account a p)) y = none

theorem grown_eq_sum (G : K → K) (b : K) {d : Dict K K} (hd : Account.Dated d) :
    grown G b d = b * G 1 + Account.grown G d 1 := by
  have h : d.filter (fun kv => decide (kv.1 ≤ 1)) = d := by
    apply List.filter_eq_self.2
    intro kv hkv
    simpa using (hd.rng _ (Dict.mem_keys_of_mem hkv)).2
  simp only [grown, Account.grown, h]
  generalize b * G 1 = x
  clear h hd
  induction d generalizing x with
  | nil => simp
  | cons kv d ih =>
    simp only [List.foldl_cons, List.map_cons, List.sum_cons]
    rw [ih]; ring

theorem foldl_keys (d e : Dict K K) (he : ∀ kv ∈ e, Dict.val d kv.1 = kv.2) (f : K → K) (x : K) :
    (Dict.keys e).foldl (fun r w => r + Dict.val d w * f w) x
      = e.foldl (fun r kv => r + kv.2 * f kv.1) x := by
  induction e generalizing x with
  | nil => rfl
  | cons kv e ih =>
    have h1 := he kv List.mem_cons_self
    simp only [Dict.keys, List.map_cons, List.foldl_cons, h1] at ih ⊢
    exact ih (fun q hq => he q (List.mem_cons_of_mem _ hq)) _

/-! ### Values -/

variable {G : K → K → K} {r : ℤ → K} {a : A} {s : HSt N A K} {c : Account.Acct K}

theorem Like.acc (h : Like G r a s c) : c.A = G (r (s.year (.account a))) := by
  simp only [Account.Acct.A, h.growth, h.year]

theorem Like.rate (h : Like G r a s c) :
    hval s (.account a .rate) = .ok (.num (r (s.year (.account a)))) := by
  cases hn : s.now household (.account a .rate) with
  | some v => rw [hval, (val_some hn).1, h.nowRate v hn]
  | none =>
    rw [hval_none hn]
    simp only [getter, accountGet, evProg, h.rates]
    rfl

theorem Like.transactions (h : Like G r a s c) :
    hval s (.account a .transactions) = .ok (.txns c.txns) := by
  rw [hval_none (h.nowOther .transactions (by simp) (by simp))]
  simp only [getter, accountGet, evProg, h.txns]

theorem Like.balance (h : Like G r a s c) :
    hval s (.account a .balance) = (Account.balance c).map .num := by
  cases hn : s.now household (.account a .balance) with
  | some v =>
    obtain ⟨b, h1, rfl⟩ := h.nowBal v hn
    rw [hval, (val_some hn).1, h1]; rfl
  | none =>
    have h0 : Dict.get? c.balHist c.year = none := by
      cases hb : Dict.get? c.balHist c.year with
      | none => rfl
      | some b => rw [h.first b hb] at hn; cases hn
    rcases h.reach.inv.opening with ⟨b, hb⟩ | ⟨b, tx, h1, h2, h3⟩
    · rw [h0] at hb; cases hb
    · rw [Account.balance_of_prev h0 h1 h2 h3, hval_none hn]
      have e1 := h.bal (s.year (.account a) - 1) (by omega)
      have e2 := h.tx (s.year (.account a) - 1) (by omega)
      rw [← h.year, h1] at e1
      rw [← h.year, h2] at e2
      have hr := h.rate
      simp only [getter, accountGet, pastNum, evProg, askNum, pastTxns, ← h.year, e1, e2, Option.map,
        ret] at hr ⊢
      rw [hr]
      simp only [evProg, e2, Option.map, h.wgrowth]
      rw [grown_eq_sum _ _ h3, h.acc, h.year]
      rfl

theorem Like.returns (h : Like G r a s c) :
    hval s (.account a .returns) = (Account.returns c).map .num := by
  obtain ⟨b, hb⟩ := h.reach.inv.balance_ok
  have h1 := h.balance
  rw [hb] at h1
  rw [hval_none (h.nowOther .returns (by simp) (by simp))]
  have h1' : val household hrank s (.account a .balance) = .ok (.num b) := h1
  have h2 := h.rate
  have h3 := h.transactions
  simp only [getter, accountGet, evProg, askNum, askTxns, h1', h2, h3, ret]
  have : Account.returns c = .ok ((Dict.keys c.txns).foldl
    (fun r w => r + Dict.val c.txns w * (c.A (1 - w) - 1)) (b * (c.A 1 - 1))) := by
    simp only [Account.returns, hb]; rfl
  rw [this, foldl_keys c.txns c.txns
    (fun kv hkv => Account.val_of_mem h.reach.inv.tx.wf hkv) (fun w => c.A (1 - w) - 1), h.acc, h.wgrowth]
  rfl

theorem Like.taxable (h : Like G r a s c) :
    hval s (.account a .taxableIncome) = (Account.taxableIncome c).map .num := by
  obtain ⟨_, x, _, hx, _⟩ := Account.C18_returns_reconcile c h.reach
  have h1 := h.returns
  rw [hx] at h1
  have h1' : val household hrank s (.account a .returns) = .ok (.num x) := h1
  rw [hval_none (h.nowOther .taxableIncome (by simp) (by simp))]
  simp only [getter, accountGet, ruled, h.rules, evProg, askNum, h1', ret, Account.taxableIncome, hx]
  rfl

theorem Like.values (h : Like G r a s c) (p : AProp) : ∃ v, hval s (.account a p) = .ok v := by
  have zero : ∀ p, (p = .taxWithheld ∨ p = .taxCredit ∨ p = .taxDeduction) →
      hval s (.account a p) = .ok (.num 0) := by
    rintro p (rfl | rfl | rfl) <;>
    · rw [hval_none (h.nowOther _ (by simp) (by simp))]
      simp only [getter, accountGet, ruled, h.rules, evProg, ret]
  obtain ⟨b, hb⟩ := h.reach.inv.balance_ok
  obtain ⟨_, x, _, hx, _⟩ := Account.C18_returns_reconcile c h.reach
  cases p with
  | balance => exact ⟨.num b, by rw [h.balance, hb]; rfl⟩
  | rate => exact ⟨_, h.rate⟩
  | transactions => exact ⟨_, h.transactions⟩
  | returns => exact ⟨.num x, by rw [h.returns, hx]; rfl⟩
  | taxableIncome => exact ⟨.num (max x 0), by rw [h.taxable, Account.taxableIncome, hx]; rfl⟩
  | taxWithheld => exact ⟨_, zero _ (by simp)⟩
  | taxCredit => exact ⟨_, zero _ (by simp)⟩
  | taxDeduction => exact ⟨_, zero _ (by simp)⟩

/-! ### Steps -/

/-- Nothing about the account changes. -/
theorem Like.same {t : HSt N A K} (h : Like G r a s c)
    (hy : t.year (.account a) = s.year (.account a))
    (hwf : ∀ k, Dict.WF (t.hist k)) (hi : ∀ p, t.inputs (.account a p) = s.inputs (.account a p))
    (hg : t.world.growth a = s.world.growth a) (hr : t.world.rates a = s.world.rates a)
    (hx : t.world.txns a = s.world.txns a) (hu : t.world.rules a = s.world.rules a)
    (hh : ∀ p, t.hist (.account a p) = s.hist (.account a p)) : Like G r a t c := by
  have hnow : ∀ p, t.now household (.account a p) = s.now household (.account a p) := by
    intro p
    simp only [St.now, hh]
    show Dict.get? _ (t.year (.account a)) = Dict.get? _ (s.year (.account a))
    rw [hy]
  refine ⟨h.reach, h.year.trans hy.symm, h.growth, h.txns.trans hx.symm, hr.trans h.rates,
    hg.trans h.wgrowth, hu.trans h.rules, hwf, fun p => (hi p).trans (h.noInput p), ?_, ?_, ?_, ?_, ?_, ?_, ?_⟩
  · intro y hlt; rw [hh]; exact h.bal y (by rw [← hy]; exact hlt)
  · intro y hlt; rw [hh]; exact h.tx y (by rw [← hy]; exact hlt)
  · intro b hb; rw [hnow]; exact h.first b hb
  · intro v hv; rw [hnow] at hv; exact h.nowBal v hv
  · intro v hv; rw [hnow] at hv; rw [hy]; exact h.nowRate v hv
  · intro p h1 h2; rw [hnow]; exact h.nowOther p h1 h2
  · intro p y hlt; rw [hh]; exact h.future p y (by rw [← hy]; exact hlt)

theorem Like.read (h : Like G r a s c) {n : ℕ} (hn : 5 ≤ n) (k : Key N A) :
    Like G r a (read household n k s).2 c := by
  have g := (read_grows household n k s).1
  have e : (Recorded.read household n k s).2
      = grow household hrank s (fills household hrank s k) := by rw [read_val hn]
  have hnew : ∀ q v, (Recorded.read household n k s).2.now household q = some v →
      hval s q = .ok v ∧ (household (N := N) (A := A) (K := K)).cached q = true ∨
        s.now household q = some v := by
    intro q v hv
    rw [e] at hv
    obtain ⟨g1, g2, g3, g4⟩ := now_grow household hrank s (fills household hrank s k) q
    cases hnow : s.now household q with
    | some w => rw [g1 w hnow] at hv; cases hv; exact .inr rfl
    | none =>
      have hin : q ∈ fills household hrank s k := by
        by_contra hcon; rw [g2 hnow hcon] at hv; cases hv
      refine .inl ⟨?_, hin.2⟩
      cases hx : val household hrank s q with
      | ok w => rw [g3 hnow hin w hx] at hv; cases hv; exact hx
      | error e => rw [g4 hnow e hx] at hv; cases hv
  refine ⟨h.reach, by rw [g.year]; exact h.year, h.growth, by rw [g.world]; exact h.txns,
    by rw [g.world]; exact h.rates, by rw [g.world]; exact h.wgrowth, by rw [g.world]; exact h.rules,
    g.wf h.wf, fun p => by rw [g.inputs]; exact h.noInput p, ?_, ?_, ?_, ?_, ?_, ?_, ?_⟩
  · intro y hy
    rw [g.year] at hy
    rw [g.past (.account a .balance) y (by show y ≠ s.year (.account a); omega)]
    exact h.bal y hy
  · intro y hy
    rw [g.year] at hy
    rw [g.past (.account a .transactions) y (by show y ≠ s.year (.account a); omega)]
    exact h.tx y hy
  · intro b hb; exact g.stays _ _ (h.first b hb)
  · intro v hv
    rcases hnew _ v hv with ⟨h1, _⟩ | h1
    · obtain ⟨b, hb⟩ := h.reach.inv.balance_ok
      rw [h.balance, hb] at h1
      cases h1
      exact ⟨b, hb, rfl⟩
    · exact h.nowBal v h1
  · intro v hv
    rw [g.year]
    rcases hnew _ v hv with ⟨h1, _⟩ | h1
    · rw [h.rate] at h1; cases h1; rfl
    · exact h.nowRate v h1
  · intro p h1 h2
    cases hnow : (Recorded.read household n k s).2.now household (.account a p) with
    | none => rfl
    | some v =>
      rcases hnew _ v hnow with ⟨_, h3⟩ | h3
      · cases p <;> simp_all [household, Key.isCached]
      · rw [h.nowOther p h1 h2] at h3; cases h3
  · intro p y hy
    rw [g.year] at hy
    rw [g.past (.account a p) y (by show y ≠ s.year (.account a); omega)]
    exact h.future p y hy

/-- Recording a property of something else. -/
theorem Like.record (h : Like G r a s c) {k : Key N A} (v : Val K) (hk : k.who ≠ .account a) :
    Like G r a (s.record household k v) c := by
  refine h.same rfl ?_ (fun _ => rfl) rfl rfl rfl rfl ?_
  · intro q
    simp only [St.record]
    split
    · exact Dict.wf_set (h.wf _) _ _
    · exact h.wf q
  · intro p
    simp only [St.record]
    rw [if_neg]
    rintro rfl
    exact hk rfl

theorem Like.recordAll {n : ℕ} (hn : 5 ≤ n) (ks : List (Key N A)) : ∀ {s : HSt N A K},
    Like G r a s c → (∀ k ∈ ks, k.who ≠ .account a) → Like G r a (recordAll household n ks s).2 c := by
  induction ks with
  | nil => intro s h _; exact h
  | cons k ks ih =>
    intro s h hks
    have one : Like G r a (recordOne household n k s).2 c := by
      simp only [recordOne]
      cases hnow : s.now household k with
      | some v => exact h
      | none =>
        have h1 := h.read hn k
        simp only
        cases hr : Recorded.read household n k s with
        | mk x t =>
          rw [hr] at h1
          cases x with
          | error e => exact h1
          | ok v => exact Like.record h1 v (hks k List.mem_cons_self)
    simp only [Recorded.recordAll]
    cases hr : recordOne household n k s with
    | mk x t =>
      rw [hr] at one
      cases x with
      | some e => exact one
      | none => exact ih one fun q hq => hks q (List.mem_cons_of_mem _ hq)

theorem Like.nextOther {n : ℕ} (hn : 5 ≤ n) (h : Like G r a s c) {o : Who N A}
    (ho : o ≠ .account a) : Like G r a (nextYear household n o s).2 c := by
  have h1 := h.recordAll hn ((household (N := N) (A := A) (K := K)).props o) (by
    intro k hk e
    exact ho ((household_owned (K := K) o k hk).symm.trans e))
  simp only [Recorded.nextYear]
  cases hr : Recorded.recordAll household n ((household (N := N) (A := A) (K := K)).props o) s with
  | mk x t =>
    rw [hr] at h1
    cases x with
    | some e => exact h1
    | none =>
      replace h1 : Like G r a t c := h1
      exact h1.same (by simp only [St.advance]; rw [if_neg (Ne.symm ho)]) h1.wf (fun _ => rfl) rfl rfl rfl
        rfl (fun _ => rfl)

theorem reachable_step {c c' : Account.Acct K} (h : Account.Reachable c) {op : Account.Op K}
    (e : Account.step c op = .ok c') : Account.Reachable c' := by
  obtain ⟨y, b, g, dt, ops, rfl⟩ := h
  refine ⟨y, b, g, dt, ops ++ [op], ?_⟩
  simp only [Account.run, List.foldl_append, List.foldl_cons, List.foldl_nil] at e ⊢
  rw [e]

/-- Closing the account's year. -/
theorem Like.close {n : ℕ} (hn : 5 ≤ n) (h : Like G r a s c) :
    ∃ c', Account.nextYear c = .ok c' ∧ (closeAccount n a s).1 = none ∧
      Like G r a (closeAccount n a s).2 c' := by
  obtain ⟨b, hb⟩ := h.reach.inv.balance_ok
  refine ⟨_, Account.nextYear_eq hb, ?_⟩
  have hlt : ∀ k : Key N A, hrank k < n := fun k => lt_of_lt_of_le (hrank_lt k) hn
  have hall : ∀ k ∈ (household (N := N) (A := A) (K := K)).props (.account a),
      ∃ v, (Recorded.read household n k s).1 = .ok v := by
    intro k hk
    obtain ⟨p, _, rfl⟩ := List.mem_map.1 (show k ∈ List.map _ _ from hk)
    rw [read_val hn]
    exact h.values p
  have e1 := (recordAll_eq household_acyclic hlt s _).1 hall
  set S := recordsAll household hrank s
    ((household (N := N) (A := A) (K := K)).props (.account a)) with hS
  have hmem : ∀ p, Key.account a p ∈ S := fun p =>
    ⟨.account a p, mem_props (K := K) (Key.account (N := N) a p), .inl rfl⟩
  have ec : closeAccount n a s = (none, { (grow household hrank s S).advance (.account a) with
      world := clearTx a s.world }) := by
    simp only [closeAccount, Recorded.nextYear, e1]
    rfl
  rw [ec]
  refine ⟨rfl, ?_⟩
  set t : HSt N A K := { (grow household hrank s S).advance (.account a) with
      world := clearTx a s.world } with ht
  have hyr : t.year (.account a) = s.year (.account a) + 1 := by
    simp [ht, St.advance, grow]
  have hgw : ∀ k, Dict.WF (t.hist k) := by
    intro k
    show Dict.WF ((grow household hrank s S).hist k)
    simp only [grow]
    split
    · split
      · exact Dict.wf_set (h.wf k) _ _
      · exact h.wf k
    · exact h.wf k
  have hcur : ∀ p v, hval s (.account a p) = .ok v →
      Dict.get? (t.hist (.account a p)) (s.year (.account a)) = some v := by
    intro p v hv
    obtain ⟨g1, _, g3, _⟩ := now_grow household hrank s S (.account a p)
    show (grow household hrank s S).now household (.account a p) = some v
    cases hnow : s.now household (.account a p) with
    | some w =>
      have := (val_some (rank := hrank) hnow).1
      have := this.symm.trans hv
      cases this
      exact g1 v hnow
    | none => exact g3 hnow (hmem p) v hv
  have hpast : ∀ p y, y ≠ s.year (.account a) →
      Dict.get? (t.hist (.account a p)) y = Dict.get? (s.hist (.account a p)) y :=
    fun p y hy => past_grow household hrank s S (.account a p) hy
  have hfut : ∀ p, t.now household (.account a p) = none := by
    intro p
    show Dict.get? (t.hist (.account a p)) (t.year (.account a)) = none
    rw [hyr, hpast p _ (by omega)]
    exact h.future p _ (by omega)
  refine ⟨reachable_step (op := .nextYear) h.reach (Account.nextYear_eq hb), ?_, h.growth, ?_, h.rates,
    h.wgrowth, h.rules, hgw, h.noInput, ?_, ?_, ?_, ?_, ?_, fun p _ _ => hfut p, ?_⟩
  · simp only [hyr, h.year]
  · simp [ht, clearTx]
  · intro y hy
    rw [hyr] at hy
    by_cases hlt : y = s.year (.account a)
    · subst hlt
      rw [hcur .balance (.num b) (by rw [h.balance, hb]; rfl), h.year, Dict.get?_set_self]
      rfl
    · rw [hpast _ _ hlt, Dict.get?_set_ne _ _ (by rw [h.year]; omega)]
      exact h.bal y (by omega)
  · intro y hy
    rw [hyr] at hy
    by_cases hlt : y = s.year (.account a)
    · subst hlt
      rw [hcur .transactions (.txns c.txns) h.transactions, h.year, Dict.get?_set_self]
      rfl
    · rw [hpast _ _ hlt, Dict.get?_set_ne _ _ (by rw [h.year]; omega)]
      exact h.tx y (by omega)
  · intro x hx
    simp only at hx
    rw [Dict.get?_set_ne _ _ (by omega), h.reach.inv.future _ (by omega)] at hx
    cases hx
  · intro v hv; rw [hfut] at hv; cases hv
  · intro v hv; rw [hfut] at hv; cases hv
  · intro p y hy
    rw [hyr] at hy
    rw [hpast _ _ (by omega)]
    exact h.future p y (by omega)

theorem Like.catchUp {n : ℕ} (hn : 5 ≤ n) (i : N) : ∀ (m : ℕ) {s : HSt N A K}, Like G r a s c →
    Like G r a (catchUp n i m s).2 c := by
  intro m
  induction m with
  | zero => intro s h; exact h
  | succ m ih =>
    intro s h
    have h1 := h.nextOther hn (o := .person i) (by simp)
    simp only [Recorded.catchUp]
    cases hr : Recorded.nextYear household n (.person i) s with
    | mk x t =>
      rw [hr] at h1
      cases x with
      | some e => exact h1
      | none => exact ih h1

theorem Like.closeOther {n : ℕ} (hn : 5 ≤ n) (h : Like G r a s c) {b : A} (hb : b ≠ a) :
    Like G r a (closeAccount n b s).2 c := by
  have h1 := h.nextOther hn (o := .account b) (by simpa using hb)
  simp only [closeAccount]
  cases hr : Recorded.nextYear household n (.account b) s with
  | mk x t =>
    rw [hr] at h1
    cases x with
    | some e => exact h1
    | none =>
      replace h1 : Like G r a t c := h1
      exact h1.same rfl h1.wf (fun _ => rfl) rfl rfl (by simp [clearTx, Ne.symm hb]) rfl (fun _ => rfl)

/-- Operations that leave the account's own properties, its transactions (except through
`add_transaction` and `next_year`), rates, compounding and class alone. -/
def Ordinary (a : A) : HOp N A K → Prop
  | .set k _ => k.who ≠ .account a
  | .delete k => k.who ≠ .account a
  | .clearCache o => o ≠ .account a
  | .other f => ∀ w, (f w).growth a = w.growth a ∧ (f w).rates a = w.rates a ∧
      (f w).txns a = w.txns a ∧ (f w).rules a = w.rules a
  | _ => True

theorem Like.edit (h : Like G r a s c) {t : HSt N A K} {k : Key N A} (hk : k.who ≠ .account a)
    (hw : t.world = s.world) (g : t = s ∨ Edits household s t k) : Like G r a t c := by
  rcases g with rfl | g
  · exact h
  · refine h.same (by rw [g.year]) ?_ (fun p => by rw [g.inputs]) (by rw [hw]) (by rw [hw]) (by rw [hw])
      (by rw [hw]) fun p => g.others _ ?_
    · intro q
      by_cases hq : q = k
      · subst hq; exact g.wf
      · rw [g.others q hq]; exact h.wf q
    · rintro rfl; exact hk rfl

theorem Like.step {n : ℕ} (hn : 5 ≤ n) (h : Like G r a s c) (op : HOp N A K) (hop : Ordinary a op) :
    ∃ c', Like G r a (hstep n s op) c' := by
  cases op with
  | read k => exact ⟨c, h.read hn k⟩
  | personNextYear i => exact ⟨c, h.nextOther hn (by simp)⟩
  | accountNextYear b =>
    have fin : ∀ t : HSt N A K, Like G r a t c → ∃ c', Like G r a (closeAccount n b t).2 c' := by
      intro t ht
      by_cases hb : b = a
      · subst hb
        obtain ⟨c', _, _, h3⟩ := ht.close hn
        exact ⟨c', h3⟩
      · exact ⟨c, ht.closeOther hn hb⟩
    simp only [hstep, accountNextYear]
    cases s.world.owner b with
    | none => exact fin s h
    | some i =>
      have h1 := h.catchUp hn i (s.year (.account b) - s.year (.person i)).toNat
      simp only
      cases hr : Recorded.catchUp n i (s.year (.account b) - s.year (.person i)).toNat s with
      | mk x t =>
        rw [hr] at h1
        cases x with
        | some e => exact ⟨c, h1⟩
        | none => exact fin t h1
  | addTransaction b v t =>
    simp only [hstep, addTransaction]
    cases hw : Timing.whenConv t with
    | error e => exact ⟨c, h⟩
    | ok t' =>
      simp only
      by_cases hb : b = a
      · subst hb
        rw [h.nowOther .transactions (by simp) (by simp)]
        have e := Account.addTransaction_eq (a := c) (v := v) hw
        refine ⟨_, ⟨reachable_step (op := .add v t) h.reach e, h.year, h.growth, ?_, h.rates, h.wgrowth,
          h.rules, h.wf, h.noInput, h.bal, h.tx, h.first, ?_, h.nowRate, h.nowOther, h.future⟩⟩
        · simp only [addTx, if_true, h.txns]
        · intro x hx
          rw [Account.balance_txns_irrel]
          exact h.nowBal x hx
      · refine ⟨c, ?_⟩
        cases hnow : s.now household (.account b .transactions) with
        | none =>
          exact h.same rfl h.wf (fun _ => rfl) rfl rfl (by simp [addTx, Ne.symm hb]) rfl (fun _ => rfl)
        | some w =>
          cases w with
          | num x => exact h
          | txns d =>
            simp only
            cases Dict.get? d t' with
            | none => exact h
            | some x =>
              have h1 := Like.record h (k := .account b .transactions)
                (.txns (Dict.set d t' (x + v))) (by simpa [Key.who] using hb)
              simp only [putTx]
              split
              · refine h1.same rfl h1.wf (fun p => ?_) rfl rfl rfl rfl (fun _ => rfl)
                simp [St.record, Ne.symm hb]
              · exact h1
  | set k v =>
    refine ⟨c, h.edit hop ?_ (set_edits household h.wf k v)⟩
    simp only [hstep, Recorded.set]; split <;> rfl
  | delete k =>
    refine ⟨c, h.edit hop ?_ (delete_edits household h.wf k)⟩
    simp only [hstep, Recorded.delete]; split <;> rfl
  | clearCache o =>
    obtain ⟨b1, b2, b3, b4, _, b6, _, _⟩ := deletes_hist household
      (((household (N := N) (A := A) (K := K)).props o).filter fun k =>
        (household (N := N) (A := A) (K := K)).cached k) s h.wf
    have hno : ∀ p, Key.account a p ∉ ((household (N := N) (A := A) (K := K)).props o).filter fun k =>
        (household (N := N) (A := A) (K := K)).cached k := by
      intro p hm
      exact hop (household_owned (K := K) o _ (List.mem_filter.1 hm).1).symm
    refine ⟨c, h.same ?_ b4 (fun p => ?_) ?_ ?_ ?_ ?_ (fun p => b6 _ (hno p))⟩
    all_goals simp only [hstep, clearCache, b1, b2, b3]
  | other f =>
    obtain ⟨h1, h2, h3, h4⟩ := hop s.world
    exact ⟨c, h.same rfl h.wf (fun _ => rfl) h1 h2 h3 h4 (fun _ => rfl)⟩

theorem Like.run {n : ℕ} (hn : 5 ≤ n) (ops : List (HOp N A K)) : ∀ {s : HSt N A K}
    {c : Account.Acct K}, Like G r a s c → (∀ op ∈ ops, Ordinary a op) →
    ∃ c', Like G r a (hrun n s ops) c' := by
  induction ops with
  | nil => intro s c h _; exact ⟨c, h⟩
  | cons op ops ih =>
    intro s c h hops
    obtain ⟨c', h'⟩ := h.step hn op (hops op List.mem_cons_self)
    exact ih h' fun o ho => hops o (List.mem_cons_of_mem _ ho)

/-- **C82** (accounts without inputs). A plain account with no inputs, whose own properties nobody
assigns or deletes, behaves, whatever happens around it (reading in any order, closing the years of
people and other accounts, ...), like an account of `Verif/Model/Account.lean`, one without caches:
there is one, reached by a program of transactions and closed years, that has the same year,
transactions, balance, returns, taxable income and histories. -/
theorem C82_without_inputs (n : ℕ) (hn : 5 ≤ n) (years : Who N A → ℤ)
    (inputs : Key N A → Option (Dict ℤ (Val K))) (hin : ∀ k d, inputs k = some d → Dict.WF d)
    (w : World N A K) (a : A) (opening : K) (r : ℤ → K) (hr : w.rates a = fun y => .ok (r y))
    (hrules : w.rules a = none) (htx : w.txns a = []) (hno : ∀ p, inputs (.account a p) = none)
    (ops : List (HOp N A K)) (hops : ∀ op ∈ ops, Ordinary a op) :
    let s := hrun n (accountInit a opening (init years inputs w)) ops
    ∃ c, Account.Reachable c ∧ c.year = s.year (.account a) ∧
      (c.growth = fun y => w.growth a (r y)) ∧ c.txns = s.world.txns a ∧
      (read household n (.account a .transactions) s).1 = .ok (.txns c.txns) ∧
      (read household n (.account a .balance) s).1 = (Account.balance c).map .num ∧
      (read household n (.account a .returns) s).1 = (Account.returns c).map .num ∧
      (read household n (.account a .taxableIncome) s).1 = (Account.taxableIncome c).map .num ∧
      (∀ y, y < c.year →
        Dict.get? (s.hist (.account a .balance)) y = (Dict.get? c.balHist y).map .num ∧
        Dict.get? (s.hist (.account a .transactions)) y = (Dict.get? c.txHist y).map .txns) := by
  intro s
  have hi := inv_init household years inputs hin w
  have hfree : (init years inputs w : HSt N A K).isInput household (.account a .balance) = false := by
    simp only [St.isInput, init, hno]
  have hset : accountInit a opening (init years inputs w)
      = (init years inputs w).record household (.account a .balance) (.num opening) := by
    simp only [accountInit, set, hfree, Bool.false_eq_true, if_false]
  have hempty : ∀ p, (init years inputs w : HSt N A K).hist (.account a p) = [] := by
    intro p; simp only [init, hno]
  have hh : ((init years inputs w).record household (.account a .balance) (.num opening)).hist
      (Key.account (N := N) a .balance) = [(years (.account a), Val.num opening)] := by
    simp only [St.record, if_true, hempty]
    rfl
  have h0 : Like (w.growth a) r a (accountInit a opening (init years inputs w))
      (Account.init (years (.account a)) opening (fun y => w.growth a (r y)) []) := by
    rw [hset]
    refine ⟨⟨_, _, _, _, [], rfl⟩, rfl, rfl, htx.symm, hr, rfl, hrules, ?_, hno, ?_, ?_, ?_, ?_, ?_, ?_, ?_⟩
    · intro q
      simp only [St.record]
      split
      · exact Dict.wf_set (hi.wf _) _ _
      · exact hi.wf q
    · intro y hy
      have hy' : y < years (.account a) := hy
      have : years (.account a) ≠ y := by omega
      rw [hh]
      simp [Account.init, Dict.get?, this]
    · intro y hy
      simp [St.record, hempty, Account.init, Dict.get?]
    · intro b hb
      simp only [Account.init, Dict.get?, if_true, Option.some.injEq] at hb
      subst hb
      exact now_record household _ _ _
    · intro v hv
      rw [now_record] at hv
      cases hv
      exact ⟨opening, by simp [Account.balance, Account.init, Dict.get?], rfl⟩
    · intro v hv
      simp [St.now, St.record, hempty, Dict.get?] at hv
    · intro p h1 _
      simp [St.now, St.record, hempty, Dict.get?, h1]
    · intro p y hy
      have hy' : years (.account a) < y := hy
      have : years (.account a) ≠ y := by omega
      by_cases hp : p = .balance
      · subst hp
        rw [hh]
        simp [Dict.get?, this]
      · simp [St.record, hempty, Dict.get?, hp]
  obtain ⟨c, h⟩ := h0.run hn ops hops
  refine ⟨c, h.reach, h.year, h.growth, h.txns, ?_, ?_, ?_, ?_, ?_⟩
  · rw [read_val hn]; exact h.transactions
  · rw [read_val hn]; exact h.balance
  · rw [read_val hn]; exact h.returns
  · rw [read_val hn]; exact h.taxable
  · intro y hy
    rw [h.year] at hy
    exact ⟨h.bal y hy, h.tx y hy⟩

/-- A plain account without inputs, in a household: it behaves like one that is given 100, loses 10 in
the middle of the year, and goes on by two years. -/
example :
    let w : World Unit Bool ℚ := home
    let ops : List (HOp Unit Bool ℚ) := [.set (.person () .grossIncome) (.num 1000),
      .addTransaction false (-10) (.num (1 / 2)), .read (.person () .taxableIncome),
      .accountNextYear false, .clearCache (.account true), .accountNextYear false]
    (w.rates false = fun y => .ok ((fun _ => 1 / 20 : ℤ → ℚ) y)) ∧ w.rules false = none ∧
    w.txns false = [] ∧ (∀ op ∈ ops, Ordinary false op) ∧
    let s := hrun 5 (accountInit false 100 (init (fun _ => 2020) (fun _ => none) w)) ops
    s.year (.account false) = 2022 ∧
    (read household 5 (.account false .balance) s).1 = .ok (.num (7959 / 80)) ∧
    (read household 5 (.account false .returns) s).1 = .ok (.num (7959 / 1600)) := by
  refine ⟨rfl, rfl, rfl, ?_, by decide +kernel, by decide +kernel, by decide +kernel⟩
  intro op hop
  simp only [List.mem_cons, List.not_mem_nil, or_false] at hop
  rcases hop with rfl | rfl | rfl | rfl | rfl | rfl <;> simp [Ordinary, Key.who]

end Forecaster.Recorded
