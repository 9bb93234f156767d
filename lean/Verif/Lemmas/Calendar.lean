import Verif.Lemmas.Units

/-!
# The same household in another year

Every function of a household's forecast commutes with moving all years by a constant: lemmas for
`Props/Calendar.lean`.
-/

namespace Forecaster.Calendar

open Forecaster Forecaster.Timing Forecaster.Account Forecaster.SubForecast Forecaster.CashFlow
open Forecaster.Household
open Forecaster.Units (foldlM_map foldlM_map' mapM_map)

variable {K : Type} [Field K] [LinearOrder K] [IsStrictOrderedRing K]

/-! ## The change of year -/

/-- A dict keyed by years. -/
def years {V : Type} (k : ℤ) (d : Dict ℤ V) : Dict ℤ V := d.map fun e => (e.1 + k, e.2)

/-- An account: its year, and the years of its rates and of its records. -/
def acct (k : ℤ) (a : Acct K) : Acct K :=
  { a with
    year := a.year + k
    growth := fun y => a.growth (y - k)
    balHist := years k a.balHist
    txHist := years k a.txHist }

/-- A pool of money. -/
def pool (k : ℤ) : Pool K → Pool K
  | .dict f d => .dict f d
  | .acct L a => .acct L (acct k a)

/-! ## Accounts -/

section Accounts

variable {k : ℤ}

omit [Field K] [LinearOrder K] [IsStrictOrderedRing K] in
@[simp] theorem acct_A (a : Acct K) : (acct k a).A = a.A := by simp [acct, Acct.A]
omit [Field K] [LinearOrder K] [IsStrictOrderedRing K] in
@[simp] theorem acct_year (a : Acct K) : (acct k a).year = a.year + k := rfl
omit [Field K] [LinearOrder K] [IsStrictOrderedRing K] in
@[simp] theorem acct_txns (a : Acct K) : (acct k a).txns = a.txns := rfl

theorem get?_years {V : Type} (d : Dict ℤ V) (y : ℤ) : Dict.get? (years k d) (y + k) = Dict.get? d y := by
  induction d with
  | nil => rfl
  | cons e d ih =>
    show Dict.get? ((e.1 + k, e.2) :: years k d) (y + k) = _
    rw [Dict.get?_cons, Dict.get?_cons, ih]
    simp only [add_left_inj]

theorem set_years {V : Type} (d : Dict ℤ V) (y : ℤ) (v : V) :
    Dict.set (years k d) (y + k) v = years k (Dict.set d y v) := by
  induction d with
  | nil => rfl
  | cons e d ih =>
    show Dict.set ((e.1 + k, e.2) :: years k d) (y + k) v = _
    simp only [Dict.set, add_left_inj]
    split_ifs
    · rfl
    · exact congrArg _ ih

theorem look_years {V : Type} (d : Dict ℤ V) (y : ℤ) : look (years k d) (y + k) = look d y := by
  unfold look
  rw [get?_years]

theorem balance_acct (a : Acct K) : balance (acct k a) = balance a := by
  unfold balance
  have h1 : (acct k a).balHist = years k a.balHist := rfl
  have h2 : (acct k a).txHist = years k a.txHist := rfl
  have h3 : a.year + k - 1 = (a.year - 1) + k := by ring
  rw [h1, h2, acct_year, acct_A, get?_years, h3, look_years, look_years]

theorem addTransaction_acct (a : Acct K) (v : K) (w : When K) :
    Account.addTransaction (acct k a) v w = (Account.addTransaction a v w).map (acct k) := by
  unfold Account.addTransaction
  cases whenConv w <;> rfl

theorem nextYear_acct (a : Acct K) :
    Account.nextYear (acct k a) = (Account.nextYear a).map (acct k) := by
  unfold Account.nextYear
  rw [balance_acct]
  cases balance a with
  | error e => rfl
  | ok b =>
    have h1 : (acct k a).balHist = years k a.balHist := rfl
    have h2 : (acct k a).txHist = years k a.txHist := rfl
    simp only [Except.map, ok_bind, h1, h2, acct_txns, acct_year, set_years, Except.ok.injEq]
    unfold acct
    simp only [Acct.mk.injEq, true_and, and_true]
    ring

omit [IsStrictOrderedRing K] in
theorem inflows_acct (a : Acct K) : inflows (acct k a) none = inflows a none := rfl

omit [IsStrictOrderedRing K] in
theorem outflows_acct (a : Acct K) : outflows (acct k a) none = outflows a none := rfl

theorem balanceAtTime_acct (a : Acct K) (t : When K) :
    balanceAtTime (acct k a) t none = balanceAtTime a t none := by
  unfold balanceAtTime
  rw [balance_acct, acct_A]
  rfl

theorem maxOutflow_acct (L : Limits K) (a : Acct K) (t : When K) :
    maxOutflow L (acct k a) t = maxOutflow L a t := by
  unfold maxOutflow
  rw [balanceAtTime_acct]

theorem maxOutflows_acct (L : Limits K) (a : Acct K) (timing : Option (Arg K)) :
    maxOutflows L (acct k a) { timing := timing } = maxOutflows L a { timing := timing } := by
  unfold maxOutflows transactionsToBalance
  rw [balanceAtTime_acct, acct_A]
  rfl

theorem setItem_acct (a : Acct K) (x : When K) (v : K) :
    setItem (acct k a) x v = (setItem a x v).map (acct k) := by
  unfold setItem
  cases x with
  | str s => exact addTransaction_acct a v _
  | num x =>
    simp only [acct_txns]
    by_cases h : x ∈ Dict.keys a.txns
    · simp only [h, if_true]
      exact addTransaction_acct { a with txns := Dict.del a.txns x } v (.num x)
    · simp only [h, if_false]
      exact addTransaction_acct a v _

end Accounts

/-! ## Sub-forecasts -/

section Sub

variable {P : Type} [DecidableEq P] {k : ℤ}

/-- A sub-forecast's state. -/
def st (k : ℤ) (s : St P K) : St P K := { s with pools := fun p => pool k (s.pools p) }

/-- A state together with an exception. -/
def res (k : ℤ) (r : St P K × Option PyErr) : St P K × Option PyErr := (st k r.1, r.2)

theorem poolAdd_pool (q : Pool K) (w d : K) : poolAdd (pool k q) w d = (poolAdd q w d).map (pool k) := by
  cases q with
  | dict f l =>
    simp only [poolAdd, pool]
    cases Dict.get? l w <;> rfl
  | acct L a =>
    simp only [poolAdd, pool]
    have hcn : contains (acct k a) (.num w) = contains a (.num w) := rfl
    rw [hcn]
    cases contains a (.num w) with
    | error e => rfl
    | ok b =>
      simp only [ok_bind, acct_txns, setItem_acct]
      cases setItem a (.num w) (if b = true then Dict.val a.txns w + d else d) <;> rfl

omit [Field K] [LinearOrder K] [IsStrictOrderedRing K] in
theorem setPool_st (s : St P K) (p : P) (q : Pool K) : setPool (st k s) p (pool k q) = st k (setPool s p q) := by
  unfold setPool st
  simp only [St.mk.injEq, and_true]
  funext p'
  split_ifs <;> rfl

theorem leg_st (s : St P K) (o : Option P) (w d : K) : leg (st k s) o w d = (leg s o w d).map (st k) := by
  cases o with
  | none => rfl
  | some p =>
    simp only [leg]
    have : (st k s).pools p = pool k (s.pools p) := rfl
    rw [this, poolAdd_pool]
    cases poolAdd (s.pools p) w d with
    | error e => rfl
    | ok q =>
      simp only [Except.map, ok_bind, setPool_st]
      rfl

section Dates

variable {ttv ttv' : Acct K → K → K → Except PyErr (Ext K)}
variable (ht : ∀ a b v, ttv' (acct k a) b v = ttv a b v)
include ht

theorem timeToBalance_acct (a : Acct K) (v : K) (n : ℕ) (w : K) :
    timeToBalance ttv' (acct k a) v n w = timeToBalance ttv a v n w := by
  induction n generalizing w with
  | zero => rfl
  | succ n ih =>
    rw [timeToBalance, timeToBalance]
    cases whenConv (.num w) with
    | error e => rfl
    | ok w =>
      simp only [ok_bind, balanceAtTime_acct]
      cases balanceAtTime a (.num w) none with
      | error e => rfl
      | ok b =>
        simp only [ok_bind, ht]
        cases ttv a b v with
        | error e => rfl
        | ok dt => simp only [ok_bind, acct_txns, ih]

theorem interpolate_acct (L : Limits K) (a : Acct K) (v : K) (acc : Dict K (Ext K)) (pr : K × K) :
    interpolate ttv' L (acct k a) v acc pr = interpolate ttv L a v acc pr := by
  unfold interpolate
  simp only [timeToBalance_acct ht, acct_txns, maxOutflows_acct]

theorem accumAccount_acct (L : Limits K) (a : Acct K) (w v : K) :
    accumAccount ttv' L (acct k a) w v = accumAccount ttv L a w v := by
  unfold accumAccount
  have h1 : accumEntry L (acct k a) = accumEntry L a := by
    funext t
    unfold accumEntry
    rw [maxOutflow_acct]
  have h2 : interpolate ttv' L (acct k a) v = interpolate ttv L a v := by
    funext acc pr
    exact interpolate_acct ht L a v acc pr
  rw [acct_txns, h1, h2]

theorem shiftWhen_pool (q : Pool K) (v w : K) :
    shiftWhen ttv' (pool k q) v w = shiftWhen ttv q v w := by
  cases q with
  | dict f d => rfl
  | acct L a => simp only [shiftWhen, pool, accumAccount_acct ht]

theorem dateFor_st (s : St P K) (v w : K) (src : Option P) (strict : Bool) :
    dateFor ttv' (st k s) v w src strict = dateFor ttv s v w src strict := by
  cases src with
  | none => rfl
  | some p =>
    simp only [dateFor]
    split_ifs
    · rfl
    · exact shiftWhen_pool ht (s.pools p) v w

theorem addTransaction1_st (s : St P K) (v w : K) (src dst : Option P) (strict : Bool) :
    addTransaction1 ttv' (st k s) v w src dst strict =
      res k (addTransaction1 ttv s v w src dst strict) := by
  unfold addTransaction1
  rw [dateFor_st ht]
  cases dateFor ttv s v w src strict with
  | error e => rfl
  | ok t =>
    simp only [leg_st]
    cases leg s src t (-v) with
    | error e => rfl
    | ok s1 =>
      simp only [Except.map, leg_st]
      cases leg s1 dst t v with
      | error e => rfl
      | ok s2 => rfl

omit ht [DecidableEq P] [Field K] [LinearOrder K] [IsStrictOrderedRing K] in
theorem forEach_st {α : Type} {body body' : St P K → α → St P K × Option PyErr} (l : List α)
    (h : ∀ s, ∀ x ∈ l, body' (st k s) x = res k (body s x)) (s : St P K) :
    forEach body' (st k s) l = res k (forEach body s l) := by
  induction l generalizing s with
  | nil => rfl
  | cons x l ih =>
    rw [forEach, forEach, h s x (by simp)]
    cases hb : body s x with
    | mk s' o =>
      cases o with
      | none => exact ih (fun s y hy => h s y (by simp [hy])) s'
      | some e => rfl

theorem addTransaction_st (default : Dict K K) (s : St P K) (q : Req P K) :
    SubForecast.addTransaction ttv' default (st k s) q =
      res k (SubForecast.addTransaction ttv default s q) := by
  unfold SubForecast.addTransaction
  cases resolve default q.timing with
  | error e => rfl
  | ok timing =>
    simp only
    refine forEach_st timing (fun s kv _ => ?_) s
    by_cases h0 : Dict.total timing = 0
    · simp only [h0, if_true]; rfl
    · simp only [h0, if_false]
      exact addTransaction1_st ht s _ _ _ _ _

theorem addTransactions_st (default : Dict K K) (s : St P K) (txs : Dict K K)
    (src dst : Option P) (strict : Bool) :
    SubForecast.addTransactions ttv' default (st k s) txs src dst strict =
      res k (SubForecast.addTransactions ttv default s txs src dst strict) := by
  unfold SubForecast.addTransactions
  exact forEach_st txs (fun s kv _ => addTransaction_st ht default s
    { value := kv.2, timing := some (.scalar (.num kv.1)), src, dst, strict }) s

end Dates

theorem poolSub_pool (q : Pool K) (w d : K) : poolSub (pool k q) w d = (poolSub q w d).map (pool k) := by
  cases q with
  | dict f l =>
    simp only [poolSub, pool]
    cases Dict.get? l w with
    | none => cases f <;> rfl
    | some x => rfl
  | acct L a =>
    simp only [poolSub, pool, acct_txns, setItem_acct]
    cases setItem a (.num w) (Dict.val a.txns w - d) <;> rfl

theorem undoPool_st (s : St P K) (p : P) (kv : K × K) :
    undoPool (st k s) p kv = res k (undoPool s p kv) := by
  unfold undoPool
  have : (st k s).pools p = pool k (s.pools p) := rfl
  simp only [this, poolSub_pool]
  cases poolSub (s.pools p) kv.1 kv.2 with
  | error e => rfl
  | ok q => simp only [Except.map, setPool_st]; rfl

theorem undoEntry_st (s : St P K) (e : Option P × Dict K K) :
    undoEntry (st k s) e = res k (undoEntry s e) := by
  obtain ⟨o, d⟩ := e
  cases o with
  | none => rfl
  | some p =>
    simp only [undoEntry]
    exact forEach_st d (fun s kv _ => undoPool_st s p kv) s

theorem undo_st (s : St P K) : undo (st k s) = res k (undo s) := by
  unfold undo
  have h := forEach_st (k := k) s.record (fun s e _ => undoEntry_st s e) s
  have hr : (st k s).record = s.record := rfl
  rw [hr, h]
  cases forEach undoEntry s s.record with
  | mk s' o => cases o <;> rfl

theorem totalOf_pool (q : Pool K) : totalOf (pool k q) = totalOf q := by
  cases q with
  | dict f d => rfl
  | acct L a => exact maxOutflow_acct L a _

omit [DecidableEq P] in
theorem begin_st (s : St P K) (p : P) : begin (st k s) p = res k (begin s p) := by
  unfold begin
  have : (st k s).pools p = pool k (s.pools p) := rfl
  rw [this, totalOf_pool]
  cases totalOf (s.pools p) <;> rfl

theorem call_st (s : St P K) (p : P) :
    SubForecast.call (st k s) p = res k (SubForecast.call s p) := by
  unfold SubForecast.call
  have : (st k s).called = s.called := rfl
  rw [this, undo_st]
  by_cases h : s.called = true
  · simp only [h, if_true]
    cases undo s with
    | mk s' o =>
      cases o with
      | none => exact begin_st s' p
      | some e => rfl
  · simp only [h, if_false]
    exact begin_st s p

theorem callWith_st {ttv ttv' : Acct K → K → K → Except PyErr (Ext K)}
    (ht : ∀ a b v, ttv' (acct k a) b v = ttv a b v) (default : Dict K K) (p : P)
    (reqs : List (Req P K)) (s : St P K) :
    callWith ttv' default p reqs (st k s) = res k (callWith ttv default p reqs s) := by
  unfold callWith
  rw [call_st]
  cases SubForecast.call s p with
  | mk s' o =>
    cases o with
    | some e => rfl
    | none => exact forEach_st reqs (fun s q _ => addTransaction_st ht default s q) s'

end Sub

/-! ## The five sub-forecasts -/

section Five

variable {P : Type} [DecidableEq P] {k : ℤ}
variable {ttv ttv' : Acct K → K → K → Except PyErr (Ext K)}

/-- A sub-forecast with a plan. -/
def alloc (k : ℤ) (f : Alloc P K) : Alloc P K := { f with s := st k f.s }

/-- The same with an exception. -/
def ares (k : ℤ) (r : Alloc P K × Option PyErr) : Alloc P K × Option PyErr := (alloc k r.1, r.2)

theorem livingCall_st (ht : ∀ a b v, ttv' (acct k a) b v = ttv a b v)
    (default : Dict K K) (p : P) (people : List (Earner P K)) (x : Except PyErr K) (s : St P K) :
    livingCall ttv' default p people x (st k s) = res k (livingCall ttv default p people x s) := by
  unfold livingCall
  rw [call_st]
  cases SubForecast.call s p with
  | mk s' o =>
    cases o with
    | some e => rfl
    | none =>
      simp only [res]
      cases livingReqs p people x with
      | error e => rfl
      | ok reqs => exact forEach_st reqs (fun s q _ => addTransaction_st ht default s q) s'

theorem savingCall_alloc (ht : ∀ a b v, ttv' (acct k a) b v = ttv a b v)
    (default : Dict K K) (p : P) {strategy strategy' : (P → Pool K) → Except PyErr (Dict P (Dict K K))}
    (hs : ∀ q, strategy' (fun p => pool k (q p)) = strategy q) (f : Alloc P K) :
    savingCall ttv' default p strategy' (alloc k f) = ares k (savingCall ttv default p strategy f) := by
  unfold savingCall
  have : (alloc k f).s = st k f.s := rfl
  rw [this, call_st]
  cases SubForecast.call f.s p with
  | mk s' o =>
    cases o with
    | some e => rfl
    | none =>
      have h1 : (res k (s', (none : Option PyErr))) = (st k s', none) := rfl
      have h2 : (st k s').pools = fun p => pool k (s'.pools p) := rfl
      simp only [h1, h2, hs]
      cases strategy s'.pools with
      | error e => rfl
      | ok txs =>
        have h3 : moveAll ttv' default p (st k s') txs = res k (moveAll ttv default p s' txs) := by
          unfold moveAll
          exact forEach_st txs (fun s e _ => addTransactions_st ht default s e.2 _ _ _) s'
        simp only [h3]
        rfl

theorem updateTaxWithheld_alloc (ht : ∀ a b v, ttv' (acct k a) b v = ttv a b v)
    (default : Dict K K) (p : P) {tax tax' : P → Pool K → Except PyErr K}
    (hx : ∀ p q, tax' p (pool k q) = tax p q) (f : Alloc P K) (a : P) (d : Dict K K) (old : K) :
    updateTaxWithheld ttv' default p tax' (alloc k f) a d old =
      ares k (updateTaxWithheld ttv default p tax f a d old) := by
  unfold updateTaxWithheld
  have : (alloc k f).s = st k f.s := rfl
  have h2 : (st k f.s).pools a = pool k (f.s.pools a) := rfl
  rw [this, h2, hx]
  cases tax a (f.s.pools a) with
  | error e => rfl
  | ok x =>
    by_cases h : x = old
    · simp only [h, if_true]
      rfl
    · simp only [h, if_false]
      cases transactionsFromArg (.dict d) (x - old) with
      | error e => rfl
      | ok t =>
        simp only [addTransactions_st ht]
        cases SubForecast.addTransactions ttv default f.s t none (some p) false with
        | mk s' o => cases o <;> rfl

theorem withdrawAll_alloc (ht : ∀ a b v, ttv' (acct k a) b v = ttv a b v)
    (default : Dict K K) (p : P) {tax tax' : P → Pool K → Except PyErr K}
    (hx : ∀ p q, tax' p (pool k q) = tax p q) (old : Dict P K) (f : Alloc P K)
    (txs : Dict P (Dict K K)) :
    withdrawAll ttv' default p tax' old (alloc k f) txs =
      ares k (withdrawAll ttv default p tax old f txs) := by
  induction txs generalizing f with
  | nil => rfl
  | cons e txs ih =>
    have : (alloc k f).s = st k f.s := rfl
    rw [withdrawAll, withdrawAll, this]
    simp only [addTransactions_st ht]
    cases SubForecast.addTransactions ttv default f.s e.2 (some p) (some e.1) false with
    | mk s' o =>
      cases o with
      | some err => rfl
      | none =>
        simp only [res]
        cases Dict.get? old e.1 with
        | none => rfl
        | some o =>
          simp only
          have h1 := updateTaxWithheld_alloc ht default p hx { f with s := s' } e.1 e.2 o
          have h2 : ({ alloc k f with s := st k s' } : Alloc P K) = alloc k { f with s := s' } := rfl
          rw [h2, h1]
          cases updateTaxWithheld ttv default p tax { f with s := s' } e.1 e.2 o with
          | mk f' o' =>
            cases o' with
            | some err => rfl
            | none => exact ih f'

theorem taxSnapshot_pool {tax tax' : P → Pool K → Except PyErr K}
    (hx : ∀ p q, tax' p (pool k q) = tax p q) (pools : P → Pool K) (l : List P) :
    taxSnapshot tax' (fun p => pool k (pools p)) l = taxSnapshot tax pools l := by
  unfold taxSnapshot
  simp only [hx]

theorem withdrawalCall_alloc (ht : ∀ a b v, ttv' (acct k a) b v = ttv a b v)
    (default : Dict K K) (p : P) {strategy strategy' : (P → Pool K) → Except PyErr (Dict P (Dict K K))}
    (hs : ∀ q, strategy' (fun p => pool k (q p)) = strategy q)
    {tax tax' : P → Pool K → Except PyErr K} (hx : ∀ p q, tax' p (pool k q) = tax p q)
    (accounts : List P) (f : Alloc P K) :
    withdrawalCall ttv' default p strategy' tax' accounts (alloc k f) =
      ares k (withdrawalCall ttv default p strategy tax accounts f) := by
  unfold withdrawalCall
  have : (alloc k f).s = st k f.s := rfl
  have hcalled : (st k f.s).called = f.s.called := rfl
  have hw : (alloc k f).withheld = f.withheld := rfl
  rw [this, call_st]
  simp only [hcalled, hw, undo_st]
  cases SubForecast.call f.s p with
  | mk s' o =>
    cases o with
    | some e => rfl
    | none =>
      have h1 : (res k (s', (none : Option PyErr))) = (st k s', none) := rfl
      have h2 : (st k s').pools = fun p => pool k (s'.pools p) := rfl
      simp only [h1, h2, hs]
      cases strategy s'.pools with
      | error e => rfl
      | ok txs =>
        simp only [taxSnapshot_pool hx]
        cases taxSnapshot tax s'.pools accounts with
        | error e => rfl
        | ok old =>
          exact withdrawAll_alloc ht default p hx old
            ⟨s', txs, if f.s.called = true then 0 else f.withheld⟩ txs

end Five

/-! ## The `Forecast` -/

section Whole

variable {W C : Type} {k : ℤ}

/-- The state of a `Forecast`. -/
def fs (k : ℤ) (g : W → W) (s : Forecast.FS K W) : Forecast.FS K W := ⟨s.year + k, s.available, g s.w⟩

/-- `V'` is `V`, `k` years later. -/
structure Later (k : ℤ) (g : W → W) (V V' : Forecast.World K W C) : Prop where
  forecasts : V'.forecasts = V.forecasts
  people : V'.people = V.people
  accounts : V'.accounts = V.accounts
  year : ∀ x w, V'.year x (g w) = V.year x w + k
  advance : ∀ x w, V'.advance x (g w) = (V.advance x w).map g
  call : ∀ x w d, V'.call x (g w) d = (V.call x w d).map fun r => (g r.1, r.2)
  taxAdjustment : ∀ w, V'.taxAdjustment (g w) = (V.taxAdjustment w).map fun r => (r.1, g r.2)
  refundTiming : ∀ w, V'.refundTiming (g w) = V.refundTiming w
  paymentTiming : ∀ w, V'.paymentTiming (g w) = V.paymentTiming w
  record : ∀ w d, V'.record (g w) d = (V.record w d).map g

variable {g : W → W} {V V' : Forecast.World K W C}

omit [LinearOrder K] [IsStrictOrderedRing K] [Field K] in
theorem callSubforecasts_fs (h : Later k g V V') (s : Forecast.FS K W) :
    Forecast.callSubforecasts V' (fs k g s) = (Forecast.callSubforecasts V s).map (fs k g) := by
  unfold Forecast.callSubforecasts
  rw [h.forecasts]
  refine foldlM_map (g := fs k g) _ (fun s x _ => ?_) s
  have h2 : (fs k g s).w = g s.w := rfl
  have h3 : (fs k g s).available = s.available := rfl
  rw [h2, h3, h.call]
  cases V.call x s.w s.available <;> rfl

omit [LinearOrder K] [IsStrictOrderedRing K] [Field K] in
theorem catchUp_fs (h : Later k g V V') (year : ℤ) (x : C) (n : ℕ) (w : W) :
    Forecast.catchUp V' (year + k) x n (g w) = (Forecast.catchUp V year x n w).map g := by
  induction n generalizing w with
  | zero =>
    rw [Forecast.catchUp, Forecast.catchUp, h.year]
    by_cases hy : V.year x w < year
    · rw [if_pos hy, if_pos (by omega)]; rfl
    · rw [if_neg hy, if_neg (by omega)]; rfl
  | succ n ih =>
    rw [Forecast.catchUp, Forecast.catchUp, h.year]
    by_cases hy : V.year x w < year
    · rw [if_pos hy, if_pos (by omega)]
      simp only [h.advance]
      cases V.advance x w with
      | error e => rfl
      | ok w' => exact ih w'
    · rw [if_neg hy, if_neg (by omega)]; rfl

theorem carryoverTax_fs (h : Later k g V V') (w : W) (d : Dict K K) (adj : Option K) :
    Forecast.carryoverTax V' (g w) d adj = Forecast.carryoverTax V w d adj := by
  cases adj with
  | none => rfl
  | some x => simp only [Forecast.carryoverTax, h.refundTiming, h.paymentTiming]

theorem nextYear_fs (h : Later k g V V') (s : Forecast.FS K W) :
    Forecast.nextYear V' (fs k g s) = (Forecast.nextYear V s).map (fs k g) := by
  unfold Forecast.nextYear
  have h2 : (fs k g s).w = g s.w := rfl
  have h3 : (fs k g s).available = s.available := rfl
  have h4 : (fs k g s).year + 1 = s.year + 1 + k := by simp only [fs]; ring
  rw [h2, h3, h4, h.taxAdjustment, h.forecasts, h.people, h.accounts]
  cases V.taxAdjustment s.w with
  | error e => rfl
  | ok r =>
    simp only [Except.map, ok_bind, h.record]
    cases V.record r.2 s.available with
    | error e => rfl
    | ok w1 =>
      simp only [Except.map, ok_bind]
      rw [foldlM_map (f := Forecast.bring V (s.year + 1)) (g := g) _ (fun w x _ => by
        unfold Forecast.bring
        have : s.year + 1 + k - (V.year x w + k) = s.year + 1 - V.year x w := by ring
        rw [h.year, catchUp_fs h, this]) w1]
      cases List.foldlM (Forecast.bring V (s.year + 1)) w1 (V.forecasts ++ V.people ++ V.accounts) with
      | error e => rfl
      | ok w2 =>
        simp only [Except.map, ok_bind, carryoverTax_fs h]
        cases Forecast.carryoverTax V w2 [(0, 0 + Dict.total s.available)] r.1 <;> rfl

theorem runYears_fs (h : Later k g V V') (last : ℤ) (n : ℕ) (s : Forecast.FS K W) :
    Forecast.runYears V' (last + k) n (fs k g s) = (Forecast.runYears V last n s).map (fs k g) := by
  have h4 : ∀ s : Forecast.FS K W, (fs k g s).year = s.year + k := fun _ => rfl
  induction n generalizing s with
  | zero =>
    rw [Forecast.runYears, Forecast.runYears, h4]
    by_cases hy : s.year < last
    · rw [if_pos hy, if_pos (by omega)]; rfl
    · rw [if_neg hy, if_neg (by omega)]; rfl
  | succ n ih =>
    rw [Forecast.runYears, Forecast.runYears, h4]
    by_cases hy : s.year < last
    · rw [if_pos hy, if_pos (by omega)]
      simp only [callSubforecasts_fs h]
      cases Forecast.callSubforecasts V s with
      | error e => rfl
      | ok s1 =>
        simp only [Except.map, ok_bind, nextYear_fs h]
        cases Forecast.nextYear V s1 with
        | error e => rfl
        | ok s2 => exact ih s2
    · rw [if_neg hy, if_neg (by omega)]; rfl

theorem max?_years (l : List ℤ) : (l.map (· + k)).max? = l.max?.map (· + k) := by
  cases l with
  | nil => rfl
  | cons x l =>
    simp only [List.map_cons, List.max?_cons', Option.map_some, Option.some.injEq]
    induction l generalizing x with
    | nil => rfl
    | cons y l ih =>
      simp only [List.map_cons, List.foldl_cons]
      rw [← ih, max_add_add_right]

theorem init_fs (h : Later k g V V') (initial : ℤ) (years : List ℤ) (w : W) :
    Forecast.init V' (initial + k) (years.map (· + k)) (g w) =
      (Forecast.init V initial years w).map (fs k g) := by
  unfold Forecast.init
  rw [max?_years]
  cases years.max? with
  | none => rfl
  | some last =>
    have h1 : (⟨initial + k, [], g w⟩ : Forecast.FS K W) = fs k g ⟨initial, [], w⟩ := rfl
    have h2 : last + k - (initial + k) = last - initial := by ring
    simp only [Option.map_some, h1, h2, runYears_fs h]
    cases Forecast.runYears V last (last - initial).toNat ⟨initial, [], w⟩ with
    | error e => rfl
    | ok s => exact callSubforecasts_fs h s

end Whole

/-! ## A household -/

section Home

variable {N A : Type} [DecidableEq N] [DecidableEq A] {k : ℤ}

/-- A household. -/
def home (k : ℤ) (w : Home N A K) : Home N A K :=
  { w with
    accounts := fun a => acct k (w.accounts a)
    personYear := fun i => w.personYear i + k
    sub := fun j => { w.sub j with year := (w.sub j).year + k } }

/-- Two households that differ only in the years things happen: the second lives `k` years later. -/
structure SameLater (k : ℤ) (E E' : Env N A K) : Prop where
  people : E'.people = E.people
  assets : E'.assets = E.assets
  debts : E'.debts = E.debts
  owner : E'.owner = E.owner
  default : E'.default = E.default
  refund : E'.refund = E.refund
  payment : E'.payment = E.payment
  earner : ∀ i y, E'.earner i (y + k) = E.earner i y
  limits : ∀ a x, E'.limits a (acct k x) = E.limits a x
  ttv : ∀ x b v, E'.ttv (acct k x) b v = E.ttv x b v
  expenses : ∀ y x, E'.expenses (y + k) (fun a => acct k (x a)) = E.expenses y x
  saving : ∀ y q, E'.saving (y + k) (fun p => pool k (q p)) = E.saving y q
  withdrawal : ∀ y q, E'.withdrawal (y + k) (fun p => pool k (q p)) = E.withdrawal y q
  accountTax : ∀ a x, E'.accountTax a (acct k x) = E.accountTax a x
  owing : ∀ y x, E'.owing (y + k) (fun a => acct k (x a)) = E.owing y x

variable {E E' : Env N A K}

omit [DecidableEq N] [DecidableEq A] [Field K] [LinearOrder K] [IsStrictOrderedRing K] in
theorem earners_home (h : SameLater k E E') (w : Home N A K) :
    earners E' (home k w) = earners E w := by
  unfold earners
  rw [h.people]
  apply List.map_congr_left
  intro i _
  exact h.earner i _

omit [DecidableEq N] [DecidableEq A] [Field K] [LinearOrder K] [IsStrictOrderedRing K] in
theorem enter_home (h : SameLater k E E') (w : Home N A K) (j : Kind) (d : Dict K K) :
    enter E' (home k w) j d = st k (enter E w j d) := by
  unfold enter st
  have : pools E' (home k w) d = fun p => pool k (pools E w d p) := by
    funext p
    cases p with
    | none => rfl
    | some a =>
      show Pool.acct (E'.limits a (acct k (w.accounts a))) (acct k (w.accounts a)) = _
      rw [h.limits]
      rfl
  rw [this]
  rfl

omit [DecidableEq N] [DecidableEq A] [Field K] [LinearOrder K] [IsStrictOrderedRing K] in
theorem enterAlloc_home (h : SameLater k E E') (w : Home N A K) (j : Kind) (d : Dict K K) :
    enterAlloc E' (home k w) j d = alloc k (enterAlloc E w j d) := by
  unfold enterAlloc alloc
  rw [enter_home h]
  rfl

/-- What a call gives back. -/
def out (k : ℤ) (r : Home N A K × Dict K K) : Home N A K × Dict K K := (home k r.1, r.2)

omit [DecidableEq N] [DecidableEq A] [Field K] [LinearOrder K] [IsStrictOrderedRing K] in
theorem leave_home (w : Home N A K) (j : Kind) (f : Alloc (Option A) K) :
    leave (home k w) j (alloc k f) = out k (leave w j f) := by
  unfold leave out
  simp only [Prod.mk.injEq]
  constructor
  · unfold home
    simp only [Home.mk.injEq, true_and, and_true]
    constructor
    · funext a
      unfold accountsAfter
      show (match pool k (f.s.pools (some a)) with | .acct _ x => x | .dict _ _ => acct k (w.accounts a)) = _
      cases f.s.pools (some a) <;> rfl
    · funext j'
      unfold put
      by_cases hj : j' = j
      · simp only [hj, if_true]; rfl
      · simp only [hj, if_false]
  · show (pool k (f.s.pools none)).txns = _
    cases f.s.pools none <;> rfl

omit [DecidableEq N] [DecidableEq A] [Field K] [LinearOrder K] [IsStrictOrderedRing K] in
theorem finish_home (w : Home N A K) (j : Kind) (r : Alloc (Option A) K × Option PyErr) :
    finish (home k w) j (ares k r) = (finish w j r).map (out k) := by
  obtain ⟨f, o⟩ := r
  cases o with
  | some e => rfl
  | none =>
    show Except.ok (leave (home k w) j (alloc k f)) = _
    rw [leave_home]
    rfl

omit [DecidableEq N] [DecidableEq A] [Field K] [LinearOrder K] [IsStrictOrderedRing K] in
theorem finishPlain_home (w : Home N A K) (j : Kind) (r : St (Option A) K × Option PyErr) :
    finishPlain (home k w) j (res k r) = (finishPlain w j r).map (out k) := by
  unfold finishPlain
  rw [← finish_home]
  rfl

omit [DecidableEq N] [DecidableEq A] [Field K] [LinearOrder K] [IsStrictOrderedRing K] in
theorem poolTax_home (h : SameLater k E E') (p : Option A) (q : Pool K) :
    poolTax E' p (pool k q) = poolTax E p q := by
  cases p with
  | none => rfl
  | some a =>
    cases q with
    | dict b d => rfl
    | acct L x =>
      show Except.ok (E'.accountTax a (acct k x)) = _
      rw [h.accountTax]
      rfl

theorem call_home (h : SameLater k E E') (j : Kind) (w : Home N A K) (d : Dict K K) :
    Household.call E' j (home k w) d = (Household.call E j w d).map (out k) := by
  cases j with
  | income =>
    simp only [Household.call, incomeCall]
    rw [earners_home h, enter_home h, h.default, callWith_st h.ttv, finishPlain_home]
  | living =>
    simp only [Household.call]
    have h1 : E'.expenses ((home k w).sub .living).year (home k w).accounts =
        E.expenses (w.sub .living).year w.accounts := h.expenses _ _
    rw [h1, earners_home h, enter_home h, h.default, livingCall_st h.ttv, finishPlain_home]
    cases finishPlain w .living (livingCall E.ttv (E.default .living) none (earners E w)
        (E.expenses (w.sub .living).year w.accounts) (enter E w .living d)) with
    | error e => rfl
    | ok r =>
      simp only [Except.map, Except.ok.injEq]
      cases E.expenses (w.sub .living).year w.accounts <;> rfl
  | saving =>
    simp only [Household.call]
    rw [enterAlloc_home h, h.default]
    rw [savingCall_alloc (strategy := fun q => planOf (E.saving (w.sub .saving).year q))
      (strategy' := fun q => planOf (E'.saving ((home k w).sub .saving).year q)) h.ttv
      (E.default .saving) none (fun q => by
        show planOf (E'.saving ((w.sub .saving).year + k) fun p => pool k (q p)) = _
        rw [h.saving]), finish_home]
  | withdrawal =>
    simp only [Household.call]
    rw [enterAlloc_home h, h.default, h.assets]
    rw [withdrawalCall_alloc (strategy := fun q => planOf (E.withdrawal (w.sub .withdrawal).year q))
      (strategy' := fun q => planOf (E'.withdrawal ((home k w).sub .withdrawal).year q)) h.ttv
      (E.default .withdrawal) none (fun q => by
        show planOf (E'.withdrawal ((w.sub .withdrawal).year + k) fun p => pool k (q p)) = _
        rw [h.withdrawal]) (poolTax_home h), finish_home]
  | tax =>
    simp only [Household.call]
    rw [enter_home h, call_st, finishPlain_home]

theorem advance_home (h : SameLater k E E') (x : Comp N A) (w : Home N A K) :
    advance E' x (home k w) = (advance E x w).map (home k) := by
  cases x with
  | sub j =>
    simp only [advance, Except.map, Except.ok.injEq]
    unfold home
    simp only [Home.mk.injEq, true_and, and_true]
    funext j'
    unfold put
    by_cases hj : j' = j
    · simp only [hj, if_true, Sub.next, Sub.mk.injEq, and_true, true_and]
      ring
    · simp only [hj, if_false]
  | person i =>
    simp only [advance, Except.map, Except.ok.injEq]
    unfold home
    simp only [Home.mk.injEq, true_and, and_true]
    funext i'
    unfold put
    by_cases hi : i' = i
    · simp only [hi, if_true]; ring
    · simp only [hi, if_false]
  | account a =>
    simp only [advance]
    have h1 : (home k w).accounts a = acct k (w.accounts a) := rfl
    rw [h1, nextYear_acct]
    cases Account.nextYear (w.accounts a) with
    | error e => rfl
    | ok x =>
      simp only [Except.map, ok_bind, Except.ok.injEq]
      have h2 : bringOwner E' (home k w) a = fun i => bringOwner E w a i + k := by
        unfold bringOwner
        rw [h.owner]
        cases E.owner a with
        | none => rfl
        | some i =>
          funext i'
          unfold put
          by_cases hi : i' = i
          · simp only [hi, if_true, h1, acct_year]
            exact max_add_add_right _ _ _
          · simp only [hi, if_false]
            rfl
      rw [h2]
      unfold home
      simp only [Home.mk.injEq, true_and, and_true]
      funext a'
      unfold put
      by_cases hk : a' = a
      · simp only [hk, if_true]
      · simp only [hk, if_false]

omit [DecidableEq N] in
theorem adjustment_home (h : SameLater k E E') (w : Home N A K) :
    adjustment E' (home k w) = adjustment E w := by
  unfold adjustment
  have h1 : taxOf E' (home k w) = taxOf E w := by
    funext p
    cases p with
    | none => rfl
    | some a => exact h.accountTax a _
  have h2 : E'.owing ((home k w).sub .tax).year (home k w).accounts =
      E.owing (w.sub .tax).year w.accounts := h.owing _ _
  rw [h1, h2, earners_home h]

omit [DecidableEq N] [DecidableEq A] in
theorem row_home (h : SameLater k E E') (w : Home N A K) :
    Household.row E' (home k w) = Household.row E w := by
  unfold Household.row
  have h1 : (fun a => balance ((home k w).accounts a)) = fun a => balance (w.accounts a) :=
    funext fun a => balance_acct _
  have h2 : E'.owing ((home k w).sub .tax).year (home k w).accounts =
      E.owing (w.sub .tax).year w.accounts := h.owing _ _
  rw [h1, h2, h.assets, earners_home h]
  rfl

theorem later (h : SameLater k E E') : Later k (home k) (world E) (world E') where
  forecasts := rfl
  people := by simp only [world, h.people]
  accounts := by simp only [world, h.assets, h.debts]
  year x w := by cases x <;> rfl
  advance x w := by
    show advance E' x (home k w) = _
    rw [advance_home h]
    rfl
  call x w d := by
    cases x with
    | sub j =>
      show Household.call E' j (home k w) d = _
      rw [call_home h]
      rfl
    | person i => rfl
    | account a => rfl
  taxAdjustment w := by
    show Household.taxAdjustment E' (home k w) = (Household.taxAdjustment E w).map _
    unfold Household.taxAdjustment
    rw [adjustment_home h]
    cases adjustment E w <;> rfl
  refundTiming w := by simp only [world, h.refund]
  paymentTiming w := by simp only [world, h.payment]
  record w d := by
    show Household.record E' (home k w) d = (Household.record E w d).map _
    unfold Household.record
    rw [row_home h]
    cases Household.row E w <;> rfl

theorem forecast_home (h : SameLater k E E') (initial : ℤ) (years : List ℤ) (accounts : A → Acct K) :
    forecast E' (initial + k) (years.map (· + k)) (fun a => acct k (accounts a)) =
      (forecast E initial years accounts).map (fs k (home k)) := by
  unfold forecast
  rw [← init_fs (later h)]
  rfl

end Home

end Forecaster.Calendar
