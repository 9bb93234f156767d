import Verif.Model.Household
import Verif.Lemmas.Dict
import Verif.Lemmas.Account

/-!
# Amounts in another unit of money

Every function of a household's forecast commutes with multiplying all amounts by a positive
constant: lemmas for `Props/Units.lean`.
-/

namespace Forecaster.Units

open Forecaster Forecaster.Timing Forecaster.Account Forecaster.SubForecast Forecaster.CashFlow
open Forecaster.Household

variable {K : Type} [Field K] [LinearOrder K] [IsStrictOrderedRing K]

/-! ## The change of unit -/

/-- All values of a dict. -/
def dict {κ : Type} (c : K) (d : Dict κ K) : Dict κ K := Dict.mapVals (fun x => c * x) d

/-- All values of a dict of dicts. -/
def dict2 {κ : Type} (c : K) (d : Dict κ (Dict K K)) : Dict κ (Dict K K) := Dict.mapVals (dict c) d

/-- An amount that may be infinite. -/
def ext (c : K) : Ext K → Ext K
  | .fin x => .fin (c * x)
  | .negInf => .negInf
  | .posInf => .posInf

/-- An account: its balances and transactions. -/
def acct (c : K) (a : Acct K) : Acct K :=
  { a with
    balHist := dict c a.balHist
    txns := dict c a.txns
    txHist := dict2 c a.txHist }

/-- Limits. -/
def limits (c : K) (L : Limits K) : Limits K :=
  ⟨ext c L.maxOut, ext c L.maxIn, ext c L.minOut, ext c L.minIn⟩

/-- A pool of money. -/
def pool (c : K) : Pool K → Pool K
  | .dict f d => .dict f (dict c d)
  | .acct L a => .acct (limits c L) (acct c a)

/-! ## Generic lemmas -/

theorem foldlM_map {σ σ' α : Type} {f : σ → α → Except PyErr σ} {f' : σ' → α → Except PyErr σ'}
    {g : σ → σ'} (l : List α) (h : ∀ s, ∀ x ∈ l, f' (g s) x = (f s x).map g) (s : σ) :
    l.foldlM f' (g s) = (l.foldlM f s).map g := by
  induction l generalizing s with
  | nil => rfl
  | cons x l ih =>
    rw [List.foldlM_cons, List.foldlM_cons, h s x (by simp)]
    cases hf : f s x with
    | error e => rfl
    | ok s' =>
      show l.foldlM f' (g s') = _
      rw [ih (fun s y hy => h s y (by simp [hy]))]
      rfl

theorem foldlM_map' {σ σ' α α' : Type} {f : σ → α → Except PyErr σ} {f' : σ' → α' → Except PyErr σ'}
    {g : σ → σ'} {k : α → α'} (l : List α)
    (h : ∀ s, ∀ x ∈ l, f' (g s) (k x) = (f s x).map g) (s : σ) :
    (l.map k).foldlM f' (g s) = (l.foldlM f s).map g := by
  induction l generalizing s with
  | nil => rfl
  | cons x l ih =>
    rw [List.map_cons, List.foldlM_cons, List.foldlM_cons, h s x (by simp)]
    cases hf : f s x with
    | error e => rfl
    | ok s' =>
      show (l.map k).foldlM f' (g s') = _
      rw [ih (fun s y hy => h s y (by simp [hy]))]
      rfl

theorem mapM_map {α β β' : Type} {f : α → Except PyErr β} {f' : α → Except PyErr β'} {g : β → β'}
    (l : List α) (h : ∀ x ∈ l, f' x = (f x).map g) :
    l.mapM f' = (l.mapM f).map (List.map g) := by
  induction l with
  | nil => rfl
  | cons x l ih =>
    rw [List.mapM_cons, List.mapM_cons, h x (by simp), ih (fun y hy => h y (by simp [hy]))]
    cases f x with
    | error e => rfl
    | ok y =>
      cases l.mapM f with
      | error e => rfl
      | ok ys => rfl

theorem map_bind {α β γ : Type} (x : Except PyErr α) (f : α → Except PyErr β) (g : β → γ) :
    (x >>= f).map g = x >>= fun a => (f a).map g := by
  cases x <;> rfl

theorem bind_map {α β γ : Type} (x : Except PyErr α) (g : α → β) (f : β → Except PyErr γ) :
    (x.map g) >>= f = x >>= fun a => f (g a) := by
  cases x <;> rfl

/-! ## Dicts -/

section Dicts

variable {κ : Type} (c : K)

@[simp] theorem keys_dict (d : Dict κ K) : Dict.keys (dict c d) = Dict.keys d := by simp [dict]
@[simp] theorem dict_nil : dict c ([] : Dict κ K) = [] := rfl
@[simp] theorem dict_cons (e : κ × K) (d : Dict κ K) : dict c (e :: d) = (e.1, c * e.2) :: dict c d := rfl
theorem vals_dict (d : Dict κ K) : Dict.vals (dict c d) = (Dict.vals d).map (c * ·) := by
  simp [dict, Dict.mapVals, Dict.vals]

variable [DecidableEq κ]

theorem get?_dict (d : Dict κ K) (k : κ) : Dict.get? (dict c d) k = (Dict.get? d k).map (c * ·) :=
  Dict.get?_mapVals _ _ _

theorem val_dict (d : Dict κ K) (k : κ) : Dict.val (dict c d) k = c * Dict.val d k := by
  unfold Dict.val
  rw [get?_dict]
  cases Dict.get? d k <;> simp

theorem set_mapVals {ν μ : Type} (f : ν → μ) (d : Dict κ ν) (k : κ) (v : ν) :
    Dict.set (Dict.mapVals f d) k (f v) = Dict.mapVals f (Dict.set d k v) := by
  induction d with
  | nil => rfl
  | cons e d ih =>
    obtain ⟨k', v'⟩ := e
    have : Dict.mapVals f ((k', v') :: d) = (k', f v') :: Dict.mapVals f d := rfl
    rw [this]
    by_cases h : k' = k
    · simp only [Dict.set, h, if_true]; rfl
    · simp only [Dict.set, h, if_false]
      rw [ih]; rfl

theorem set_dict (d : Dict κ K) (k : κ) (v : K) :
    Dict.set (dict c d) k (c * v) = dict c (Dict.set d k v) := set_mapVals _ _ _ _

theorem del_dict (d : Dict κ K) (k : κ) : Dict.del (dict c d) k = dict c (Dict.del d k) := by
  induction d with
  | nil => rfl
  | cons e d ih =>
    obtain ⟨k', v'⟩ := e
    rw [dict_cons]
    by_cases h : k' = k
    · simp [Dict.del, h]
    · simp [Dict.del, h, ih]

end Dicts

theorem total_dict {κ : Type} (c : K) (d : Dict κ K) : Dict.total (dict c d) = c * Dict.total d := by
  unfold Dict.total
  rw [vals_dict]
  induction Dict.vals d with
  | nil => simp
  | cons x l ih => simp [ih, mul_add]

theorem posSum_dict {c : K} (hc : 0 < c) (d : Dict K K) : posSum (dict c d) = c * posSum d := by
  induction d with
  | nil => simp [posSum, Dict.vals]
  | cons e d ih =>
    unfold posSum at ih ⊢
    simp only [dict_cons, Dict.vals, List.map_cons, List.filter_cons] at ih ⊢
    by_cases h : e.2 > 0
    · have h' : c * e.2 > 0 := mul_pos hc h
      simp only [h, h', decide_true, if_true, List.sum_cons, ih]
      ring
    · have h' : ¬ c * e.2 > 0 := by
        intro h'
        exact h ((mul_pos_iff_of_pos_left hc).1 h')
      simp only [h, h', decide_false, Bool.false_eq_true, if_false, ih]

theorem negSum_dict {c : K} (hc : 0 < c) (d : Dict K K) : negSum (dict c d) = c * negSum d := by
  induction d with
  | nil => simp [negSum, Dict.vals]
  | cons e d ih =>
    unfold negSum at ih ⊢
    simp only [dict_cons, Dict.vals, List.map_cons, List.filter_cons] at ih ⊢
    by_cases h : e.2 < 0
    · have h' : c * e.2 < 0 := mul_neg_of_pos_of_neg hc h
      simp only [h, h', decide_true, if_true, List.sum_cons, ih]
      ring
    · have h' : ¬ c * e.2 < 0 := by
        intro h'
        exact h (neg_of_mul_neg_right h' hc.le)
      simp only [h, h', decide_false, Bool.false_eq_true, if_false, ih]

/-! ## Infinite amounts -/

section Exts

variable {c : K} (hc : 0 < c)
include hc

theorem ext_le {x y : Ext K} : ext c x ≤ ext c y ↔ x ≤ y := by
  cases x <;> cases y <;> simp [ext, hc]

theorem ext_lt {x y : Ext K} : ext c x < ext c y ↔ x < y := by
  rw [← not_le, ← not_le, ext_le hc]

theorem ext_max (x y : Ext K) : max (ext c x) (ext c y) = ext c (max x y) := by
  rcases le_total x y with h | h
  · rw [max_eq_right h, max_eq_right ((ext_le hc).2 h)]
  · rw [max_eq_left h, max_eq_left ((ext_le hc).2 h)]

theorem ext_min (x y : Ext K) : min (ext c x) (ext c y) = ext c (min x y) := by
  rcases le_total x y with h | h
  · rw [min_eq_left h, min_eq_left ((ext_le hc).2 h)]
  · rw [min_eq_right h, min_eq_right ((ext_le hc).2 h)]

omit hc in
theorem ext_subFin (x : Ext K) (y : K) : (ext c x).subFin (c * y) = ext c (x.subFin y) := by
  cases x <;> simp [ext, Ext.subFin, mul_sub]

omit hc in
theorem ext_mulFin (x : Ext K) (w : K) : (ext c x).mulFin w = ext c (x.mulFin w) := by
  cases x with
  | fin a => simp [ext, Ext.mulFin, mul_assoc]
  | negInf => simp only [ext, Ext.mulFin]; split_ifs <;> rfl
  | posInf => simp only [ext, Ext.mulFin]; split_ifs <;> rfl

omit hc in
theorem ext_add (x y : Ext K) : Ext.add (ext c x) (ext c y) = ext c (Ext.add x y) := by
  cases x <;> cases y <;> simp [ext, Ext.add, mul_add]

omit hc in
theorem ext_neg (x : Ext K) : negExt (ext c x) = ext c (negExt x) := by
  cases x <;> simp [ext, negExt]

omit hc in
theorem ext_zero : ext c (.fin 0) = .fin 0 := by simp [ext]

end Exts

/-! ## Accounts -/

section Accounts

variable {c : K}

@[simp] theorem acct_A (a : Acct K) : (acct c a).A = a.A := rfl
@[simp] theorem acct_year (a : Acct K) : (acct c a).year = a.year := rfl
@[simp] theorem acct_txns (a : Acct K) : (acct c a).txns = dict c a.txns := rfl

theorem valueAtTime_mul (A : K → K) (v : K) (s t : When K) :
    valueAtTime A (c * v) s t = (valueAtTime A v s t).map (c * ·) := by
  unfold valueAtTime
  cases whenConv t with
  | error e => rfl
  | ok t' =>
    cases whenConv s with
    | error e => rfl
    | ok s' => simp [Except.map, mul_assoc]

theorem look_mapVals {κ ν μ : Type} [DecidableEq κ] (f : ν → μ) (d : Dict κ ν) (k : κ) :
    look (Dict.mapVals f d) k = (look d k).map f := by
  unfold look
  rw [Dict.get?_mapVals]
  cases Dict.get? d k <;> rfl

theorem balance_acct (a : Acct K) : balance (acct c a) = (balance a).map (c * ·) := by
  unfold balance
  have h1 : (acct c a).balHist = dict c a.balHist := rfl
  have h2 : (acct c a).txHist = dict2 c a.txHist := rfl
  rw [h1, h2, get?_dict, acct_year, acct_A]
  cases Dict.get? a.balHist a.year with
  | some b => rfl
  | none =>
    simp only [Option.map_none]
    unfold dict dict2
    rw [look_mapVals, look_mapVals]
    cases look a.balHist (a.year - 1) with
    | error e => rfl
    | ok b0 =>
      simp only [Except.map, ok_bind]
      rw [valueAtTime_mul]
      cases valueAtTime a.A b0 (.str "start") (.str "end") with
      | error e => rfl
      | ok b1 =>
        simp only [Except.map, ok_bind]
        cases look a.txHist (a.year - 1) with
        | error e => rfl
        | ok tx =>
          simp only [ok_bind]
          refine foldlM_map' (g := (c * ·)) (k := fun kv => (kv.1, c * kv.2)) tx (fun s x _ => ?_) b1
          simp only [valueAtTime_mul]
          cases valueAtTime a.A x.2 (.num x.1) (.str "end") with
          | error e => rfl
          | ok v => simp [Except.map, mul_add]

theorem addTransaction_acct (a : Acct K) (v : K) (w : When K) :
    Account.addTransaction (acct c a) (c * v) w = (Account.addTransaction a v w).map (acct c) := by
  unfold Account.addTransaction
  cases whenConv w with
  | error e => rfl
  | ok t =>
    simp only [ok_bind, acct_txns, val_dict, ← mul_add, set_dict, Except.map]
    rfl

theorem nextYear_acct (a : Acct K) :
    Account.nextYear (acct c a) = (Account.nextYear a).map (acct c) := by
  unfold Account.nextYear
  rw [balance_acct]
  cases balance a with
  | error e => rfl
  | ok b =>
    have h1 : (acct c a).balHist = dict c a.balHist := rfl
    have h2 : (acct c a).txHist = dict2 c a.txHist := rfl
    simp only [Except.map, ok_bind, h1, h2, acct_txns, acct_year, set_dict]
    unfold dict2
    rw [set_mapVals]
    rfl

theorem inflows_acct (hc : 0 < c) (a : Acct K) : inflows (acct c a) none = c * inflows a none := by
  simp [inflows, posSum_dict hc]

theorem outflows_acct (hc : 0 < c) (a : Acct K) : outflows (acct c a) none = c * outflows a none := by
  simp [outflows, negSum_dict hc]

theorem balanceAtTime_acct (a : Acct K) (t : When K) :
    balanceAtTime (acct c a) t none = (balanceAtTime a t none).map (c * ·) := by
  unfold balanceAtTime
  cases whenConv t with
  | error e => rfl
  | ok t =>
    simp only [ok_bind, balance_acct, acct_A, acct_txns, keys_dict]
    cases balance a with
    | error e => rfl
    | ok b =>
      simp only [Except.map, ok_bind, valueAtTime_mul]
      cases valueAtTime a.A b (.str "start") (.num t) with
      | error e => rfl
      | ok b1 =>
        simp only [Except.map, ok_bind]
        refine foldlM_map (g := (c * ·)) _ (fun s x _ => ?_) b1
        simp only [val_dict, valueAtTime_mul]
        cases valueAtTime a.A (Dict.val a.txns x) (.num x) (.num t) with
        | error e => rfl
        | ok v => simp [Except.map, mul_add]

theorem maxOutflow_acct (hc : 0 < c) (L : Limits K) (a : Acct K) (t : When K) :
    maxOutflow (limits c L) (acct c a) t = (maxOutflow L a t).map (ext c) := by
  unfold maxOutflow
  rw [balanceAtTime_acct]
  cases balanceAtTime a t none with
  | error e => rfl
  | ok b =>
    simp only [Except.map, ok_bind]
    rw [← ext_max hc, ← ext_min hc]
    simp [limits, ext]

theorem outCap_ext (hc : 0 < c) (m : Ext K) (x : K) :
    outCap (ext c m) (c * x) none = ext c (outCap m x none) := by
  simp only [outCap]
  rw [← ext_min hc, ext_subFin, ext_zero]

theorem transactionsToBalance_acct (hc : 0 < c) (a : Acct K) (target : Ext K) (timing : Option (Arg K))
    (hi lo : Ext K) :
    transactionsToBalance (acct c a) (ext c target) timing (some (ext c hi)) (some (ext c lo)) none =
      (transactionsToBalance a target timing (some hi) (some lo) none).map (Dict.mapVals (ext c)) := by
  unfold transactionsToBalance
  rw [balanceAtTime_acct]
  cases balanceAtTime a (.str "end") none with
  | error e => rfl
  | ok ref =>
    simp only [Except.map, ok_bind]
    have hr : resolveTiming (acct c a) timing = resolveTiming a timing := by
      cases timing with
      | none => rfl
      | some arg => cases arg <;> rfl
    rw [hr]
    cases resolveTiming a timing with
    | error e => rfl
    | ok tm =>
      simp only [ok_bind]
      cases normalizedWeights tm with
      | error e => rfl
      | ok nt =>
        simp only [ok_bind, acct_A]
        have hd : divExt ((ext c target).subFin (c * ref)) (weightedAccum a.A nt) =
            (divExt (target.subFin ref) (weightedAccum a.A nt)).map (ext c) := by
          unfold divExt
          split_ifs with h
          · rfl
          · rw [ext_subFin, ext_mulFin]
            rfl
        rw [hd]
        cases divExt (target.subFin ref) (weightedAccum a.A nt) with
        | error e => rfl
        | ok total =>
          simp only [Except.map, ok_bind, ext_min hc, ext_max hc, Except.ok.injEq]
          unfold Dict.mapVals
          rw [List.map_map]
          apply List.map_congr_left
          intro e _
          simp [ext_mulFin]

theorem maxOutflows_acct (hc : 0 < c) (L : Limits K) (a : Acct K) (timing : Option (Arg K)) :
    maxOutflows (limits c L) (acct c a) { timing := timing } =
      (maxOutflows L a { timing := timing }).map (Dict.mapVals (ext c)) := by
  unfold maxOutflows
  have h := transactionsToBalance_acct hc a (.fin 0) timing (.fin 0)
    (outCap L.maxOut (outflows a none) none)
  rw [← outCap_ext hc, ← outflows_acct hc, ext_zero] at h
  exact h

theorem setItem_acct (a : Acct K) (k : When K) (v : K) :
    setItem (acct c a) k (c * v) = (setItem a k v).map (acct c) := by
  unfold setItem
  cases k with
  | str s => exact addTransaction_acct a v _
  | num x =>
    simp only [acct_txns, keys_dict]
    by_cases h : x ∈ Dict.keys a.txns
    · simp only [h, if_true, del_dict]
      exact addTransaction_acct { a with txns := Dict.del a.txns x } v (.num x)
    · simp only [h, if_false]
      exact addTransaction_acct a v _

theorem contains_acct (a : Acct K) (k : When K) : contains (acct c a) k = contains a k := by
  unfold contains
  simp

end Accounts

/-! ## Sub-forecasts -/

section Sub

variable {P : Type} [DecidableEq P] {c : K}

/-- A sub-forecast's state. -/
def st (c : K) (s : St P K) : St P K :=
  ⟨fun p => pool c (s.pools p), dict2 c s.record, s.called, ext c s.totalAvailable⟩

/-- A state together with an exception. -/
def res (c : K) (r : St P K × Option PyErr) : St P K × Option PyErr := (st c r.1, r.2)

/-- A transaction. -/
def req (c : K) (q : Req P K) : Req P K := { q with value := c * q.value }

theorem poolAdd_pool (q : Pool K) (w d : K) : poolAdd (pool c q) w (c * d) = (poolAdd q w d).map (pool c) := by
  cases q with
  | dict f l =>
    simp only [poolAdd, pool, get?_dict]
    cases Dict.get? l w with
    | none => simp only [Option.map_none, set_dict]; rfl
    | some x => simp only [Option.map_some, ← mul_add, set_dict]; rfl
  | acct L a =>
    simp only [poolAdd, pool, contains_acct]
    cases contains a (.num w) with
    | error e => rfl
    | ok b =>
      simp only [ok_bind, acct_txns, val_dict]
      have : (if b = true then c * Dict.val a.txns w + c * d else c * d) =
          c * (if b = true then Dict.val a.txns w + d else d) := by
        split_ifs
        · rw [mul_add]
        · rfl
      rw [this, setItem_acct]
      cases setItem a (.num w) (if b = true then Dict.val a.txns w + d else d) <;> rfl

theorem recAdd_dict2 {Q : Type} [DecidableEq Q] (r : Dict (Option Q) (Dict K K)) (o : Option Q) (w d : K) :
    recAdd (dict2 c r) o w (c * d) = dict2 c (recAdd r o w d) := by
  unfold recAdd
  have : (Dict.get? (dict2 c r) o).getD [] = dict c ((Dict.get? r o).getD []) := by
    unfold dict2
    rw [Dict.get?_mapVals]
    cases Dict.get? r o <;> rfl
  simp only [this, val_dict, ← mul_add, set_dict]
  exact set_mapVals _ _ _ _

theorem setPool_st (s : St P K) (p : P) (q : Pool K) : setPool (st c s) p (pool c q) = st c (setPool s p q) := by
  unfold setPool st
  simp only [St.mk.injEq, and_true]
  funext p'
  split_ifs <;> rfl

theorem leg_st (s : St P K) (o : Option P) (w d : K) : leg (st c s) o w (c * d) = (leg s o w d).map (st c) := by
  cases o with
  | none =>
    simp only [leg, Except.map]
    have : (st c s).record = dict2 c s.record := rfl
    rw [this, recAdd_dict2]
    rfl
  | some p =>
    simp only [leg]
    have : (st c s).pools p = pool c (s.pools p) := rfl
    rw [this, poolAdd_pool]
    cases poolAdd (s.pools p) w d with
    | error e => rfl
    | ok q =>
      simp only [Except.map, ok_bind, setPool_st]
      have : (st c s).record = dict2 c s.record := rfl
      rw [this, recAdd_dict2]
      rfl

theorem materialTimes_dict (d : Dict K K) (w : K) : materialTimes (dict c d) w = materialTimes d w := by
  simp [materialTimes]

theorem accumDict_dict (d : Dict K K) (w : K) :
    accumDict (dict c d) w = Dict.mapVals (ext c) (accumDict d w) := by
  unfold accumDict Dict.mapVals
  rw [materialTimes_dict, List.map_map]
  apply List.map_congr_left
  intro t _
  simp only [Function.comp, ext, keys_dict, val_dict]
  congr 2
  induction (Dict.keys d).filter fun r => decide (r ≤ t) with
  | nil => simp
  | cons x l ih => simp [ih, mul_add]

section Dates

variable {ttv ttv' : Acct K → K → K → Except PyErr (Ext K)}
variable (ht : ∀ a b v, ttv' (acct c a) (c * b) (c * v) = ttv a b v)
include ht

theorem timeToBalance_acct (a : Acct K) (v : K) (n : ℕ) (w : K) :
    timeToBalance ttv' (acct c a) (c * v) n w = timeToBalance ttv a v n w := by
  induction n generalizing w with
  | zero => rfl
  | succ n ih =>
    rw [timeToBalance, timeToBalance]
    cases whenConv (.num w) with
    | error e => rfl
    | ok w =>
      simp only [ok_bind, balanceAtTime_acct]
      cases balanceAtTime a (.num w) none with
      | error e => rfl
      | ok b =>
        simp only [Except.map, ok_bind, ht]
        cases ttv a b v with
        | error e => rfl
        | ok dt => simp only [ok_bind, acct_txns, keys_dict, ih]

theorem interpolate_acct (hc : 0 < c) (L : Limits K) (a : Acct K) (v : K) (acc : Dict K (Ext K)) (pr : K × K) :
    interpolate ttv' (limits c L) (acct c a) (c * v) (Dict.mapVals (ext c) acc) pr =
      (interpolate ttv L a v acc pr).map (Dict.mapVals (ext c)) := by
  unfold interpolate
  rw [look_mapVals, look_mapVals]
  cases look acc pr.1 with
  | error e => rfl
  | ok x =>
    cases look acc pr.2 with
    | error e => rfl
    | ok y =>
      have hv : Ext.fin (c * v) = ext c (.fin v) := rfl
      simp only [Except.map, ok_bind, hv, gt_iff_lt, ext_lt hc, timeToBalance_acct ht, acct_txns]
      have hl : (dict c a.txns).length = a.txns.length := by simp [dict, Dict.mapVals]
      rw [hl]
      by_cases hcond : Ext.fin v < y ∧ x < Ext.fin v ∨ y < Ext.fin v ∧ Ext.fin v < x
      · simp only [hcond, if_true]
        cases timeToBalance ttv a v (a.txns.length + 1) pr.1 with
        | error e => rfl
        | ok time =>
          cases time with
          | negInf => rfl
          | posInf => rfl
          | fin t =>
            simp only [ok_bind]
            by_cases hr : pr.1 < t ∧ t < pr.2
            · simp only [hr, and_self, if_true, maxOutflows_acct hc]
              cases maxOutflows L a { timing := some (.scalar (.num t)) } with
              | error e => rfl
              | ok m =>
                simp only [Except.map, ok_bind, Except.ok.injEq]
                rw [← set_mapVals, ← ext_neg]
                congr 2
                have key : ∀ (l : List (K × Ext K)) (z : Ext K),
                    (Dict.vals (Dict.mapVals (ext c) l)).foldl Ext.add (ext c z) =
                      ext c ((Dict.vals l).foldl Ext.add z) := by
                  intro l
                  induction l with
                  | nil => intro z; rfl
                  | cons e l ih =>
                    intro z
                    show (Dict.vals (Dict.mapVals (ext c) l)).foldl Ext.add (Ext.add (ext c z) (ext c e.2)) = _
                    rw [ext_add, ih]
                    rfl
                have := key m (.fin 0)
                rwa [ext_zero] at this
            · simp only [hr, if_false]
      · simp only [hcond, if_false]

theorem accumAccount_acct (hc : 0 < c) (L : Limits K) (a : Acct K) (w v : K) :
    accumAccount ttv' (limits c L) (acct c a) w (c * v) =
      (accumAccount ttv L a w v).map (Dict.mapVals (ext c)) := by
  unfold accumAccount
  rw [acct_txns, materialTimes_dict, mapM_map (f := accumEntry L a)
    (g := fun e : K × Ext K => (e.1, ext c e.2))]
  · cases (materialTimes a.txns w).dedup.mapM (accumEntry L a) with
    | error e => rfl
    | ok accum =>
      have hk : Dict.keys (accum.map fun e : K × Ext K => (e.1, ext c e.2)) = Dict.keys accum := by
        simp [Dict.keys]
      simp only [Except.map, ok_bind, hk]
      exact foldlM_map (g := Dict.mapVals (ext c)) _
        (fun s x _ => interpolate_acct ht hc L a v s x) accum
  · intro t _
    unfold accumEntry
    rw [maxOutflow_acct hc]
    cases maxOutflow L a (.num t) with
    | error e => rfl
    | ok m => simp [Except.map, ext_neg]

omit ht in
theorem earliest_ext (hc : 0 < c) (acc : Dict K (Ext K)) (v w : K) :
    earliest (Dict.mapVals (ext c) acc) (c * v) w = earliest acc v w := by
  unfold earliest
  rw [Dict.keys_mapVals]
  congr 2
  apply List.filter_congr
  intro t _
  rw [decide_eq_decide]
  have hv : Ext.fin (c * v) = ext c (.fin v) := rfl
  constructor
  · intro h kv hkv hge
    have := h (kv.1, ext c kv.2) (List.mem_map_of_mem (f := fun kv : K × Ext K => (kv.1, ext c kv.2)) hkv) hge
    rw [hv] at this
    exact (ext_le hc).1 this
  · intro h kv hkv hge
    obtain ⟨e, he, rfl⟩ := List.mem_map.1 hkv
    rw [hv]
    exact (ext_le hc).2 (h e he hge)

theorem shiftWhen_pool (hc : 0 < c) (q : Pool K) (v w : K) :
    shiftWhen ttv' (pool c q) (c * v) w = shiftWhen ttv q v w := by
  cases q with
  | dict f d => simp only [shiftWhen, pool, accumDict_dict, earliest_ext hc]
  | acct L a =>
    simp only [shiftWhen, pool, accumAccount_acct ht hc]
    cases accumAccount ttv L a w v with
    | error e => rfl
    | ok acc => simp only [Except.map, ok_bind, earliest_ext hc]

theorem dateFor_st (hc : 0 < c) (s : St P K) (v w : K) (src : Option P) (strict : Bool) :
    dateFor ttv' (st c s) (c * v) w src strict = dateFor ttv s v w src strict := by
  cases src with
  | none => rfl
  | some p =>
    simp only [dateFor]
    split_ifs
    · rfl
    · exact shiftWhen_pool ht hc (s.pools p) v w

theorem addTransaction1_st (hc : 0 < c) (s : St P K) (v w : K) (src dst : Option P) (strict : Bool) :
    addTransaction1 ttv' (st c s) (c * v) w src dst strict =
      res c (addTransaction1 ttv s v w src dst strict) := by
  unfold addTransaction1
  rw [dateFor_st ht hc]
  cases dateFor ttv s v w src strict with
  | error e => rfl
  | ok t =>
    have : -(c * v) = c * (-v) := by ring
    simp only [this, leg_st]
    cases leg s src t (-v) with
    | error e => rfl
    | ok s1 =>
      simp only [Except.map, leg_st]
      cases leg s1 dst t v with
      | error e => rfl
      | ok s2 => rfl

omit ht in
theorem forEach_st {α α' : Type} {body : St P K → α → St P K × Option PyErr}
    {body' : St P K → α' → St P K × Option PyErr} {k : α → α'} (l : List α)
    (h : ∀ s, ∀ x ∈ l, body' (st c s) (k x) = res c (body s x)) (s : St P K) :
    forEach body' (st c s) (l.map k) = res c (forEach body s l) := by
  induction l generalizing s with
  | nil => rfl
  | cons x l ih =>
    rw [List.map_cons, forEach, forEach, h s x (by simp)]
    cases hb : body s x with
    | mk s' o =>
      cases o with
      | none => exact ih (fun s y hy => h s y (by simp [hy])) s'
      | some e => rfl

omit ht in
theorem orient_req (hc : 0 < c) (q : Req P K) :
    orient (req c q) = (c * (orient q).1, (orient q).2.1, (orient q).2.2) := by
  unfold orient req
  by_cases h : q.value < 0
  · have h' : c * q.value < 0 := mul_neg_of_pos_of_neg hc h
    simp [h, h']
  · have h' : ¬ c * q.value < 0 := fun h' => h (neg_of_mul_neg_right h' hc.le)
    simp [h, h']

theorem addTransaction_st (hc : 0 < c) (default : Dict K K) (s : St P K) (q : Req P K) :
    SubForecast.addTransaction ttv' default (st c s) (req c q) =
      res c (SubForecast.addTransaction ttv default s q) := by
  unfold SubForecast.addTransaction
  have e1 : (req c q).timing = q.timing := rfl
  have e2 : (req c q).strict = q.strict := rfl
  rw [e1, e2, orient_req hc]
  cases resolve default q.timing with
  | error e => rfl
  | ok timing =>
    simp only
    have := forEach_st (c := c) (k := id) (body := fun (s : St P K) (kv : K × K) =>
        if Dict.total timing = 0 then (s, some .zeroDivisionError)
        else addTransaction1 ttv s ((orient q).1 * (kv.2 / Dict.total timing)) kv.1 (orient q).2.1
          (orient q).2.2 q.strict)
      (body' := fun (s : St P K) (kv : K × K) =>
        if Dict.total timing = 0 then (s, some .zeroDivisionError)
        else addTransaction1 ttv' s (c * (orient q).1 * (kv.2 / Dict.total timing)) kv.1 (orient q).2.1
          (orient q).2.2 q.strict) timing ?_ s
    · rwa [List.map_id] at this
    · intro s kv _
      by_cases h0 : Dict.total timing = 0
      · simp only [h0, if_true]; rfl
      · simp only [h0, if_false, id_eq, mul_assoc]
        exact addTransaction1_st ht hc s _ _ _ _ _

theorem addTransactions_st (hc : 0 < c) (default : Dict K K) (s : St P K) (txs : Dict K K)
    (src dst : Option P) (strict : Bool) :
    SubForecast.addTransactions ttv' default (st c s) (dict c txs) src dst strict =
      res c (SubForecast.addTransactions ttv default s txs src dst strict) := by
  unfold SubForecast.addTransactions
  exact forEach_st (c := c) (k := fun kv : K × K => (kv.1, c * kv.2)) txs
    (fun s kv _ => addTransaction_st ht hc default s
      { value := kv.2, timing := some (.scalar (.num kv.1)), src, dst, strict }) s

end Dates

theorem poolSub_pool (q : Pool K) (w d : K) : poolSub (pool c q) w (c * d) = (poolSub q w d).map (pool c) := by
  cases q with
  | dict f l =>
    simp only [poolSub, pool, get?_dict]
    cases Dict.get? l w with
    | none =>
      cases f with
      | false => rfl
      | true =>
        have : 0 - c * d = c * (0 - d) := by ring
        simp only [Option.map_none, if_true, this, set_dict]
        rfl
    | some x => simp only [Option.map_some, ← mul_sub, set_dict]; rfl
  | acct L a =>
    simp only [poolSub, pool, acct_txns, val_dict, ← mul_sub, setItem_acct]
    cases setItem a (.num w) (Dict.val a.txns w - d) <;> rfl

theorem undoPool_st (s : St P K) (p : P) (kv : K × K) :
    undoPool (st c s) p (kv.1, c * kv.2) = res c (undoPool s p kv) := by
  unfold undoPool
  have : (st c s).pools p = pool c (s.pools p) := rfl
  simp only [this, poolSub_pool]
  cases poolSub (s.pools p) kv.1 kv.2 with
  | error e => rfl
  | ok q => simp only [Except.map, setPool_st]; rfl

theorem undoEntry_st (s : St P K) (e : Option P × Dict K K) :
    undoEntry (st c s) (e.1, dict c e.2) = res c (undoEntry s e) := by
  obtain ⟨o, d⟩ := e
  cases o with
  | none => rfl
  | some p =>
    simp only [undoEntry]
    exact forEach_st (c := c) (k := fun kv : K × K => (kv.1, c * kv.2)) d
      (fun s kv _ => undoPool_st s p kv) s

theorem undo_st (s : St P K) : undo (st c s) = res c (undo s) := by
  unfold undo
  have h := forEach_st (c := c) (k := fun e : Option P × Dict K K => (e.1, dict c e.2)) s.record
    (fun s e _ => undoEntry_st s e) s
  have hr : (st c s).record = s.record.map fun e => (e.1, dict c e.2) := rfl
  rw [hr, h]
  cases forEach undoEntry s s.record with
  | mk s' o => cases o <;> rfl

theorem totalOf_pool (hc : 0 < c) (q : Pool K) : totalOf (pool c q) = (totalOf q).map (ext c) := by
  cases q with
  | dict f d => simp only [totalOf, pool, total_dict]; rfl
  | acct L a => exact maxOutflow_acct hc L a _

theorem begin_st (hc : 0 < c) (s : St P K) (p : P) : begin (st c s) p = res c (begin s p) := by
  unfold begin
  have : (st c s).pools p = pool c (s.pools p) := rfl
  rw [this, totalOf_pool hc]
  cases totalOf (s.pools p) <;> rfl

theorem call_st (hc : 0 < c) (s : St P K) (p : P) :
    SubForecast.call (st c s) p = res c (SubForecast.call s p) := by
  unfold SubForecast.call
  have : (st c s).called = s.called := rfl
  rw [this, undo_st]
  by_cases h : s.called = true
  · simp only [h, if_true]
    cases undo s with
    | mk s' o =>
      cases o with
      | none => exact begin_st hc s' p
      | some e => rfl
  · simp only [h, if_false]
    exact begin_st hc s p

theorem callWith_st {ttv ttv' : Acct K → K → K → Except PyErr (Ext K)}
    (ht : ∀ a b v, ttv' (acct c a) (c * b) (c * v) = ttv a b v) (hc : 0 < c) (default : Dict K K) (p : P)
    (reqs : List (Req P K)) (s : St P K) :
    callWith ttv' default p (reqs.map (req c)) (st c s) = res c (callWith ttv default p reqs s) := by
  unfold callWith
  rw [call_st hc]
  cases SubForecast.call s p with
  | mk s' o =>
    cases o with
    | some e => rfl
    | none => exact forEach_st reqs (fun s q _ => addTransaction_st ht hc default s q) s'

end Sub

/-! ## Timings made from amounts -/

section FromAmounts

variable {c : K}

theorem min?_mul (hc : 0 < c) (l : List K) : (l.map (c * ·)).min? = l.min?.map (c * ·) := by
  cases l with
  | nil => rfl
  | cons x l =>
    simp only [List.map_cons, List.min?_cons', Option.map_some, Option.some.injEq]
    induction l generalizing x with
    | nil => rfl
    | cons y l ih =>
      simp only [List.map_cons, List.foldl_cons]
      have : min (c * x) (c * y) = c * min x y := (mul_min_of_nonneg x y hc.le).symm
      rw [this, ih]

theorem filter_dict (d : Dict K K) (p : K → Bool) :
    (dict c d).filter (fun kv => p kv.1) = dict c (d.filter fun kv => p kv.1) := by
  induction d with
  | nil => rfl
  | cons e d ih =>
    simp only [dict_cons, List.filter_cons, ih]
    by_cases h : p e.1 = true
    · simp only [h, if_true]; rfl
    · simp only [h]; rfl

theorem inflowStep_dict (hc : 0 < c) (x : Dict K K × Dict K K × K) (t : K) :
    inflowStep (dict c x.1, dict c x.2.1, c * x.2.2) t =
      (inflowStep x t).map fun y => (dict c y.1, dict c y.2.1, c * y.2.2) := by
  unfold inflowStep
  have hf := filter_dict (c := c) x.2.1 (fun k => decide (k ≥ t))
  simp only [hf, vals_dict, min?_mul hc]
  cases (Dict.vals (x.2.1.filter fun kv => decide (kv.1 ≥ t))).min? with
  | none => rfl
  | some m =>
    simp only [Option.map_some]
    by_cases h : m > 0
    · have h' : c * m > 0 := mul_pos hc h
      simp only [h, h', if_true, Except.map, Except.ok.injEq, set_dict, Prod.mk.injEq, true_and, mul_add, and_true]
      induction x.2.1 with
      | nil => rfl
      | cons e d ih =>
        simp only [dict_cons, List.map_cons, ih]
        by_cases hk : e.1 ≥ t
        · simp only [hk, if_true, mul_sub]
        · simp only [hk, if_false]
    · have h' : ¬ c * m > 0 := fun h' => h ((mul_pos_iff_of_pos_left hc).1 h')
      simp only [h, h', if_false, Except.map]

theorem accumInflows_dict (hc : 0 < c) (w : Dict K K) :
    accumInflows (dict c w) = (accumInflows w).map (dict c) := by
  unfold accumInflows
  have h1 : ∀ (ks : List K) (x : Dict K K × K),
      ks.foldl (Timing.accumStep (dict c w)) (dict c x.1, c * x.2) =
        (dict c (ks.foldl (Timing.accumStep w) x).1, c * (ks.foldl (Timing.accumStep w) x).2) := by
    intro ks
    induction ks with
    | nil => intro x; rfl
    | cons k ks ih =>
      intro x
      simp only [List.foldl_cons]
      have : Timing.accumStep (dict c w) (dict c x.1, c * x.2) k =
          (dict c (Timing.accumStep w x k).1, c * (Timing.accumStep w x k).2) := by
        simp only [Timing.accumStep, val_dict, ← mul_add, set_dict]
      rw [this, ih]
  have h2 := h1 ((Dict.keys w).insertionSort (· ≤ ·)) ([], 0)
  simp only [dict_nil, mul_zero] at h2
  simp only [keys_dict, h2]
  have h3 := foldlM_map (f := inflowStep (K := K)) (f' := inflowStep)
    (g := fun y : Dict K K × Dict K K × K => (dict c y.1, dict c y.2.1, c * y.2.2))
    ((Dict.keys w).insertionSort (· ≤ ·)) (fun x t _ => inflowStep_dict hc x t)
    ([], (((Dict.keys w).insertionSort (· ≤ ·)).foldl (Timing.accumStep w) ([], 0)).1, 0)
  simp only [dict_nil, mul_zero] at h3
  rw [h3]
  cases ((Dict.keys w).insertionSort (· ≤ ·)).foldlM inflowStep
    (([], (((Dict.keys w).insertionSort (· ≤ ·)).foldl (Timing.accumStep w) ([], 0)).1, 0) :
      Dict K K × Dict K K × K) <;> rfl

theorem accumOutflows_dict (hc : 0 < c) (w : Dict K K) :
    accumOutflows (dict c w) = dict c (accumOutflows w) := by
  unfold accumOutflows
  have h1 : ∀ (ks : List K) (x : K × Dict K K),
      ks.foldl (outflowStep (dict c w)) (c * x.1, dict c x.2) =
        (c * (ks.foldl (outflowStep w) x).1, dict c (ks.foldl (outflowStep w) x).2) := by
    intro ks
    induction ks with
    | nil => intro x; rfl
    | cons k ks ih =>
      intro x
      simp only [List.foldl_cons]
      have : outflowStep (dict c w) (c * x.1, dict c x.2) k =
          (c * (outflowStep w x k).1, dict c (outflowStep w x k).2) := by
        simp only [outflowStep, val_dict, ← mul_add]
        by_cases h : x.1 + Dict.val w k < 0
        · have h' : c * (x.1 + Dict.val w k) < 0 := mul_neg_of_pos_of_neg hc h
          have : -(c * (x.1 + Dict.val w k)) = c * -(x.1 + Dict.val w k) := by ring
          simp only [h, h', if_true, this, set_dict, mul_zero]
        · have h' : ¬ c * (x.1 + Dict.val w k) < 0 := fun h' => h (neg_of_mul_neg_right h' hc.le)
          simp only [h, h', if_false]
      rw [this, ih]
  have h2 := h1 ((Dict.keys w).insertionSort (· ≤ ·)) (0, [])
  simp only [dict_nil, mul_zero] at h2
  simp only [keys_dict, h2]

theorem convertDict_dict (hc : 0 < c) (w : Dict K K) :
    ∃ k : K, 0 < k ∧ convertDict (dict c w) = (convertDict w).map (dict k) := by
  have one : ∀ d : Dict K K, dict 1 d = d := by
    intro d
    induction d with
    | nil => rfl
    | cons e d ih => simp [ih]
  unfold convertDict
  by_cases h0 : w = []
  · subst h0
    exact ⟨1, one_pos, rfl⟩
  have h0' : dict c w ≠ [] := by
    cases w with
    | nil => exact absurd rfl h0
    | cons e w => simp
  simp only [h0, h0', if_false, vals_dict, List.forall_mem_map]
  have z : ∀ v : K, c * v = 0 ↔ v = 0 := fun v => by simp [hc.ne']
  have p : ∀ v : K, c * v ≥ 0 ↔ v ≥ 0 := fun v => by
    show 0 ≤ c * v ↔ 0 ≤ v
    exact mul_nonneg_iff_of_pos_left hc
  have n : ∀ v : K, c * v ≤ 0 ↔ v ≤ 0 := fun v => by
    rw [← not_lt, ← not_lt, mul_pos_iff_of_pos_left hc]
  simp only [z, p, n]
  by_cases h1 : ∀ v ∈ Dict.vals w, v = 0
  · refine ⟨1, one_pos, ?_⟩
    rw [if_pos h1, if_pos h1]
    simp only [Except.map, one]
    simp [dict, Dict.mapVals]
  refine ⟨c, hc, ?_⟩
  rw [if_neg h1, if_neg h1]
  by_cases h2 : ∀ v ∈ Dict.vals w, v ≥ 0
  · rw [if_pos h2, if_pos h2]; rfl
  rw [if_neg h2, if_neg h2]
  by_cases h3 : ∀ v ∈ Dict.vals w, v ≤ 0
  · rw [if_pos h3, if_pos h3]
    simp [dict, Dict.mapVals, Except.map]
  rw [if_neg h3, if_neg h3]
  simp only [total_dict, z]
  by_cases h4 : Dict.total w = 0
  · rw [if_pos h4, if_pos h4]; rfl
  rw [if_neg h4, if_neg h4]
  have q : c * Dict.total w > 0 ↔ Dict.total w > 0 := mul_pos_iff_of_pos_left hc
  simp only [q]
  by_cases h5 : Dict.total w > 0
  · rw [if_pos h5, if_pos h5, accumInflows_dict hc]
  · rw [if_neg h5, if_neg h5, accumOutflows_dict hc]; rfl

theorem update_dict (k : K) (t : Dict K K) : Dict.update [] (dict k t) = dict k (Dict.update [] t) := by
  unfold Dict.update
  have : ∀ (t acc : Dict K K), (dict k t).foldl (fun acc kv => Dict.set acc kv.1 kv.2) (dict k acc) =
      dict k (t.foldl (fun acc kv => Dict.set acc kv.1 kv.2) acc) := by
    intro t
    induction t with
    | nil => intro acc; rfl
    | cons e t ih =>
      intro acc
      simp only [dict_cons, List.foldl_cons, set_dict, ih]
  exact this t []

theorem transactionsFromArg_dict (hc : 0 < c) (d : Dict K K) (x : K) :
    transactionsFromArg (.dict (dict c d)) (c * x) =
      (transactionsFromArg (.dict d) x).map (dict c) := by
  unfold transactionsFromArg Timing.init
  obtain ⟨k, hk, h⟩ := convertDict_dict hc d
  simp only [h]
  cases convertDict d with
  | error e => rfl
  | ok t =>
    simp only [Except.map, ok_bind, update_dict]
    generalize Dict.update [] t = u
    unfold transactionsFromTiming
    simp only [total_dict]
    have hz : k * Dict.total u = 0 ↔ Dict.total u = 0 := by simp [hk.ne']
    have hn : dict k u ≠ [] ↔ u ≠ [] := by
      cases u <;> simp
    simp only [hz, hn]
    by_cases h1 : Dict.total u = 0 ∧ u ≠ []
    · rw [if_pos h1, if_pos h1]
    · rw [if_neg h1, if_neg h1]
      simp only [Except.ok.injEq]
      unfold dict Dict.mapVals
      rw [List.map_map, List.map_map]
      apply List.map_congr_left
      intro e _
      simp only [Function.comp, Prod.mk.injEq, true_and]
      rw [mul_div_mul_left _ _ hk.ne', mul_assoc]

theorem timeSeries_mul (d : Dict K K) (x : K) :
    timeSeries d (c * x) none = (timeSeries d x none).map (dict c) := by
  unfold timeSeries
  cases normalizedCore d none with
  | error e => rfl
  | ok t =>
    simp only [ok_bind, Except.map, Except.ok.injEq]
    unfold dict Dict.mapVals
    rw [List.map_map]
    apply List.map_congr_left
    intro e _
    simp only [Function.comp, Prod.mk.injEq, true_and]
    ring

theorem addTransactions_dict (b a : Dict K K) :
    Timing.addTransactions (dict c b) (dict c a) = dict c (Timing.addTransactions b a) := by
  unfold Timing.addTransactions
  induction a generalizing b with
  | nil => rfl
  | cons e a ih =>
    simp only [dict_cons, List.foldl_cons]
    rw [← ih]
    congr 1
    unfold addOne
    simp only [get?_dict]
    cases Dict.get? b e.1 with
    | none => simp only [Option.map_none, set_dict]
    | some x => simp only [Option.map_some, ← mul_add, set_dict]

end FromAmounts

/-! ## The five sub-forecasts -/

section Five

variable {P : Type} [DecidableEq P] {c : K}
variable {ttv ttv' : Acct K → K → K → Except PyErr (Ext K)}

/-- What somebody earns. -/
def earner (c : K) (e : Earner P K) : Earner P K :=
  { e with
    gross := c * e.gross
    withheld := c * e.withheld
    net := c * e.net }

/-- A sub-forecast with a plan. -/
def alloc (c : K) (f : Alloc P K) : Alloc P K := ⟨st c f.s, dict2 c f.txs, c * f.withheld⟩

/-- The same with an exception. -/
def ares (c : K) (r : Alloc P K × Option PyErr) : Alloc P K × Option PyErr := (alloc c r.1, r.2)

omit [DecidableEq P] in
theorem foldl_mul {α : Type} (l : List α) (f : α → K) (z : K) :
    l.foldl (fun a e => a + c * f e) (c * z) = c * l.foldl (fun a e => a + f e) z := by
  induction l generalizing z with
  | nil => rfl
  | cons e l ih => simp only [List.foldl_cons, ← mul_add, ih]

omit [DecidableEq P] in
theorem netIncome_earner (l : List (Earner P K)) : netIncome (l.map (earner c)) = c * netIncome l := by
  unfold netIncome
  rw [List.foldl_map]
  have := foldl_mul (c := c) l Earner.net 0
  rw [mul_zero] at this
  exact this

theorem incomeCall_st (ht : ∀ a b v, ttv' (acct c a) (c * b) (c * v) = ttv a b v) (hc : 0 < c)
    (default : Dict K K) (p : P) (people : List (Earner P K)) (s : St P K) :
    incomeCall ttv' default p (people.map (earner c)) (st c s) =
      res c (incomeCall ttv default p people s) := by
  unfold incomeCall
  rw [← callWith_st ht hc]
  congr 1
  unfold incomeReqs
  simp only [List.map_cons, List.map_map, req, mul_zero]
  rfl

theorem livingReqs_req (hc : 0 < c) (p : P) (people : List (Earner P K)) (x : Except PyErr K) :
    livingReqs p (people.map (earner c)) (x.map (c * ·)) =
      (livingReqs p people x).map (List.map (req c)) := by
  cases people with
  | nil => rfl
  | cons e l =>
    unfold livingReqs
    rw [netIncome_earner]
    simp only [List.map_cons]
    have hz : c * netIncome (e :: l) = 0 ↔ netIncome (e :: l) = 0 := by simp [hc.ne']
    simp only [hz]
    by_cases h : netIncome (e :: l) = 0
    · rw [if_pos h, if_pos h]; rfl
    · rw [if_neg h, if_neg h]
      cases x with
      | error e => rfl
      | ok x =>
        simp only [Except.map, ok_bind, Except.ok.injEq, List.map_cons, List.map_map]
        have key : ∀ y : K, c * x * (c * y / (c * netIncome (e :: l))) =
            c * (x * (y / netIncome (e :: l))) := by
          intro y
          rw [mul_div_mul_left _ _ hc.ne', mul_assoc]
        congr 1
        · simp only [req, earner, key]
        · apply List.map_congr_left
          intro e' _
          simp only [Function.comp, req, earner, key]

theorem livingCall_st (ht : ∀ a b v, ttv' (acct c a) (c * b) (c * v) = ttv a b v) (hc : 0 < c)
    (default : Dict K K) (p : P) (people : List (Earner P K)) (x : Except PyErr K) (s : St P K) :
    livingCall ttv' default p (people.map (earner c)) (x.map (c * ·)) (st c s) =
      res c (livingCall ttv default p people x s) := by
  unfold livingCall
  rw [call_st hc, livingReqs_req hc]
  cases SubForecast.call s p with
  | mk s' o =>
    cases o with
    | some e => rfl
    | none =>
      cases livingReqs p people x with
      | error e => rfl
      | ok reqs => exact forEach_st reqs (fun s q _ => addTransaction_st ht hc default s q) s'

theorem savingCall_alloc (ht : ∀ a b v, ttv' (acct c a) (c * b) (c * v) = ttv a b v) (hc : 0 < c)
    (default : Dict K K) (p : P) {strategy strategy' : (P → Pool K) → Except PyErr (Dict P (Dict K K))}
    (hs : ∀ q, strategy' (fun p => pool c (q p)) = (strategy q).map (dict2 c)) (f : Alloc P K) :
    savingCall ttv' default p strategy' (alloc c f) = ares c (savingCall ttv default p strategy f) := by
  unfold savingCall
  have : (alloc c f).s = st c f.s := rfl
  rw [this, call_st hc]
  cases SubForecast.call f.s p with
  | mk s' o =>
    cases o with
    | some e => rfl
    | none =>
      have h1 : (res c (s', (none : Option PyErr))) = (st c s', none) := rfl
      have h2 : (st c s').pools = fun p => pool c (s'.pools p) := rfl
      simp only [h1, h2, hs]
      cases strategy s'.pools with
      | error e => rfl
      | ok txs =>
        have h3 : moveAll ttv' default p (st c s') (dict2 c txs) = res c (moveAll ttv default p s' txs) := by
          unfold moveAll
          exact forEach_st (c := c) (k := fun e : P × Dict K K => (e.1, dict c e.2)) txs
            (fun s e _ => addTransactions_st ht hc default s e.2 _ _ _) s'
        simp only [Except.map, h3]
        rfl

theorem updateTaxWithheld_alloc (ht : ∀ a b v, ttv' (acct c a) (c * b) (c * v) = ttv a b v) (hc : 0 < c)
    (default : Dict K K) (p : P) {tax tax' : P → Pool K → Except PyErr K}
    (hx : ∀ p q, tax' p (pool c q) = (tax p q).map (c * ·)) (f : Alloc P K) (a : P) (d : Dict K K) (old : K) :
    updateTaxWithheld ttv' default p tax' (alloc c f) a (dict c d) (c * old) =
      ares c (updateTaxWithheld ttv default p tax f a d old) := by
  unfold updateTaxWithheld
  have : (alloc c f).s = st c f.s := rfl
  have h2 : (st c f.s).pools a = pool c (f.s.pools a) := rfl
  rw [this, h2, hx]
  cases tax a (f.s.pools a) with
  | error e => rfl
  | ok x =>
    simp only [Except.map]
    by_cases h : x = old
    · subst h
      simp only [if_true]
      rfl
    · have h' : ¬ c * x = c * old := fun h' => h (mul_left_cancel₀ hc.ne' h')
      simp only [h, h', if_false, ← mul_sub, transactionsFromArg_dict hc]
      cases transactionsFromArg (.dict d) (x - old) with
      | error e => rfl
      | ok t =>
        simp only [Except.map, addTransactions_st ht hc]
        cases SubForecast.addTransactions ttv default f.s t none (some p) false with
        | mk s' o =>
          cases o with
          | some e => rfl
          | none =>
            simp only [res, ares, alloc, mul_add]

theorem withdrawAll_alloc (ht : ∀ a b v, ttv' (acct c a) (c * b) (c * v) = ttv a b v) (hc : 0 < c)
    (default : Dict K K) (p : P) {tax tax' : P → Pool K → Except PyErr K}
    (hx : ∀ p q, tax' p (pool c q) = (tax p q).map (c * ·)) (old : Dict P K) (f : Alloc P K)
    (txs : Dict P (Dict K K)) :
    withdrawAll ttv' default p tax' (dict c old) (alloc c f) (dict2 c txs) =
      ares c (withdrawAll ttv default p tax old f txs) := by
  induction txs generalizing f with
  | nil => rfl
  | cons e txs ih =>
    have h0 : dict2 c (e :: txs) = (e.1, dict c e.2) :: dict2 c txs := rfl
    have : (alloc c f).s = st c f.s := rfl
    rw [h0, withdrawAll, withdrawAll, this]
    simp only [addTransactions_st ht hc]
    cases SubForecast.addTransactions ttv default f.s e.2 (some p) (some e.1) false with
    | mk s' o =>
      cases o with
      | some err => rfl
      | none =>
        simp only [res, get?_dict]
        cases Dict.get? old e.1 with
        | none => rfl
        | some o =>
          simp only [Option.map_some]
          have h1 := updateTaxWithheld_alloc ht hc default p hx { f with s := s' } e.1 e.2 o
          have h2 : ({ alloc c f with s := st c s' } : Alloc P K) = alloc c { f with s := s' } := rfl
          rw [h2, h1]
          cases updateTaxWithheld ttv default p tax { f with s := s' } e.1 e.2 o with
          | mk f' o' =>
            cases o' with
            | some err => rfl
            | none => exact ih f'

theorem taxSnapshot_dict {tax tax' : P → Pool K → Except PyErr K}
    (hx : ∀ p q, tax' p (pool c q) = (tax p q).map (c * ·)) (pools : P → Pool K) (l : List P) :
    taxSnapshot tax' (fun p => pool c (pools p)) l = (taxSnapshot tax pools l).map (dict c) := by
  unfold taxSnapshot
  refine foldlM_map (g := dict c) l (fun d a _ => ?_) []
  simp only [hx]
  cases tax a (pools a) with
  | error e => rfl
  | ok x => simp only [Except.map, ok_bind, set_dict]

theorem withdrawalCall_alloc (ht : ∀ a b v, ttv' (acct c a) (c * b) (c * v) = ttv a b v) (hc : 0 < c)
    (default : Dict K K) (p : P) {strategy strategy' : (P → Pool K) → Except PyErr (Dict P (Dict K K))}
    (hs : ∀ q, strategy' (fun p => pool c (q p)) = (strategy q).map (dict2 c))
    {tax tax' : P → Pool K → Except PyErr K} (hx : ∀ p q, tax' p (pool c q) = (tax p q).map (c * ·))
    (accounts : List P) (f : Alloc P K) :
    withdrawalCall ttv' default p strategy' tax' accounts (alloc c f) =
      ares c (withdrawalCall ttv default p strategy tax accounts f) := by
  unfold withdrawalCall
  have : (alloc c f).s = st c f.s := rfl
  have hcalled : (st c f.s).called = f.s.called := rfl
  have hw : (alloc c f).withheld = c * f.withheld := rfl
  have hif : ∀ q : Prop, [Decidable q] → (if q then (0 : K) else c * f.withheld) =
      c * (if q then 0 else f.withheld) := by
    intro q _
    split_ifs
    · rw [mul_zero]
    · rfl
  rw [this, call_st hc]
  simp only [hcalled, hw, hif, undo_st]
  cases SubForecast.call f.s p with
  | mk s' o =>
    cases o with
    | some e => rfl
    | none =>
      have h1 : (res c (s', (none : Option PyErr))) = (st c s', none) := rfl
      have h2 : (st c s').pools = fun p => pool c (s'.pools p) := rfl
      simp only [h1, h2, hs]
      cases strategy s'.pools with
      | error e => rfl
      | ok txs =>
        simp only [Except.map, taxSnapshot_dict hx]
        cases taxSnapshot tax s'.pools accounts with
        | error e => rfl
        | ok old =>
          exact withdrawAll_alloc ht hc default p hx old
            ⟨s', txs, if f.s.called = true then 0 else f.withheld⟩ txs

theorem taxWithheld_earner (people : List (Earner P K)) (t : P → K) :
    taxWithheld (people.map (earner c)) (fun p => c * t p) = (taxWithheld people t).map (c * ·) := by
  cases people with
  | nil => rfl
  | cons e l =>
    unfold taxWithheld
    simp only [List.map_cons, Except.map, Except.ok.injEq]
    have h1 : (earner c e :: l.map (earner c)).flatMap Earner.accounts =
        (e :: l).flatMap Earner.accounts := by
      simp only [List.flatMap_cons, List.flatMap_map]
      rfl
    have h2 : (earner c e :: l.map (earner c)).foldl (fun a e => a + e.withheld) 0 =
        c * (e :: l).foldl (fun a e => a + e.withheld) 0 := by
      have := foldl_mul (c := c) (e :: l) Earner.withheld 0
      rw [mul_zero] at this
      rw [← this, ← List.map_cons, List.foldl_map]
      rfl
    rw [h1, h2, foldl_mul]

theorem taxAdjustment_earner (people : List (Earner P K)) (t : P → K) (o : Except PyErr K) :
    CashFlow.taxAdjustment (people.map (earner c)) (fun p => c * t p) (o.map (c * ·)) =
      (CashFlow.taxAdjustment people t o).map (c * ·) := by
  unfold CashFlow.taxAdjustment
  rw [taxWithheld_earner]
  cases taxWithheld people t with
  | error e => rfl
  | ok w =>
    cases o with
    | error e => rfl
    | ok o => simp [Except.map, mul_sub]

end Five

/-! ## The `Forecast` -/

section Whole

variable {W C : Type} {c : K}

/-- The state of a `Forecast`. -/
def fs (c : K) (g : W → W) (s : Forecast.FS K W) : Forecast.FS K W :=
  ⟨s.year, dict c s.available, g s.w⟩

/-- `V'` is `V` with its money in another unit. -/
structure Scales (c : K) (g : W → W) (V V' : Forecast.World K W C) : Prop where
  forecasts : V'.forecasts = V.forecasts
  people : V'.people = V.people
  accounts : V'.accounts = V.accounts
  year : ∀ x w, V'.year x (g w) = V.year x w
  advance : ∀ x w, V'.advance x (g w) = (V.advance x w).map g
  call : ∀ x w d, V'.call x (g w) (dict c d) = (V.call x w d).map fun r => (g r.1, dict c r.2)
  taxAdjustment : ∀ w, V'.taxAdjustment (g w) =
    (V.taxAdjustment w).map fun r => (r.1.map (c * ·), g r.2)
  refundTiming : ∀ w, V'.refundTiming (g w) = V.refundTiming w
  paymentTiming : ∀ w, V'.paymentTiming (g w) = V.paymentTiming w
  record : ∀ w d, V'.record (g w) (dict c d) = (V.record w d).map g

variable {g : W → W} {V V' : Forecast.World K W C}

theorem callSubforecasts_fs (h : Scales c g V V') (s : Forecast.FS K W) :
    Forecast.callSubforecasts V' (fs c g s) = (Forecast.callSubforecasts V s).map (fs c g) := by
  unfold Forecast.callSubforecasts
  rw [h.forecasts]
  refine foldlM_map (g := fs c g) _ (fun s x _ => ?_) s
  have h1 := h.call x s.w s.available
  have h2 : (fs c g s).w = g s.w := rfl
  have h3 : (fs c g s).available = dict c s.available := rfl
  rw [h2, h3, h1]
  cases V.call x s.w s.available <;> rfl

theorem catchUp_fs (h : Scales c g V V') (year : ℤ) (x : C) (n : ℕ) (w : W) :
    Forecast.catchUp V' year x n (g w) = (Forecast.catchUp V year x n w).map g := by
  induction n generalizing w with
  | zero =>
    rw [Forecast.catchUp, Forecast.catchUp, h.year]
    by_cases hy : V.year x w < year
    · rw [if_pos hy, if_pos hy]; rfl
    · rw [if_neg hy, if_neg hy]; rfl
  | succ n ih =>
    rw [Forecast.catchUp, Forecast.catchUp, h.year]
    by_cases hy : V.year x w < year
    · rw [if_pos hy, if_pos hy]
      simp only [h.advance]
      cases V.advance x w with
      | error e => rfl
      | ok w' => exact ih w'
    · rw [if_neg hy, if_neg hy]; rfl

theorem carryoverTax_fs (hc : 0 < c) (h : Scales c g V V') (w : W) (d : Dict K K) (adj : Option K) :
    Forecast.carryoverTax V' (g w) (dict c d) (adj.map (c * ·)) =
      (Forecast.carryoverTax V w d adj).map (dict c) := by
  cases adj with
  | none => rfl
  | some x =>
    simp only [Forecast.carryoverTax, Option.map_some, h.refundTiming, h.paymentTiming]
    have h1 : c * x > 0 ↔ x > 0 := mul_pos_iff_of_pos_left hc
    have h2 : c * x < 0 ↔ x < 0 := ⟨fun h' => (pos_iff_neg_of_mul_neg h').1 hc, fun h' => mul_neg_of_pos_of_neg hc h'⟩
    simp only [h1, h2, timeSeries_mul]
    by_cases hp : x > 0
    · simp only [hp, if_true]
      cases timeSeries ((V.refundTiming w).getD [(0, 1)]) x none with
      | error e => rfl
      | ok t => simp only [Except.map, ok_bind, addTransactions_dict]
    · by_cases hn : x < 0
      · simp only [hp, hn, if_true, if_false]
        cases timeSeries ((V.paymentTiming w).getD [(0, 1)]) x none with
        | error e => rfl
        | ok t => simp only [Except.map, ok_bind, addTransactions_dict]
      · simp only [hp, hn, if_false, Except.map]

theorem nextYear_fs (hc : 0 < c) (h : Scales c g V V') (s : Forecast.FS K W) :
    Forecast.nextYear V' (fs c g s) = (Forecast.nextYear V s).map (fs c g) := by
  unfold Forecast.nextYear
  have h2 : (fs c g s).w = g s.w := rfl
  have h3 : (fs c g s).available = dict c s.available := rfl
  have h4 : (fs c g s).year = s.year := rfl
  rw [h2, h3, h4, h.taxAdjustment, h.forecasts, h.people, h.accounts]
  cases V.taxAdjustment s.w with
  | error e => rfl
  | ok r =>
    simp only [Except.map, ok_bind, h.record]
    cases V.record r.2 s.available with
    | error e => rfl
    | ok w1 =>
      simp only [Except.map, ok_bind]
      rw [foldlM_map (f := Forecast.bring V (s.year + 1)) (g := g) _ (fun w x _ => by
        unfold Forecast.bring
        rw [h.year, catchUp_fs h]) w1]
      cases List.foldlM (Forecast.bring V (s.year + 1)) w1 (V.forecasts ++ V.people ++ V.accounts) with
      | error e => rfl
      | ok w2 =>
        simp only [Except.map, ok_bind]
        have h5 : [(0, 0 + Dict.total (dict c s.available))] =
            dict c [((0 : K), 0 + Dict.total s.available)] := by
          rw [total_dict, zero_add, zero_add]; rfl
        rw [h5, carryoverTax_fs hc h]
        cases Forecast.carryoverTax V w2 [(0, 0 + Dict.total s.available)] r.1 <;> rfl

theorem runYears_fs (hc : 0 < c) (h : Scales c g V V') (last : ℤ) (n : ℕ) (s : Forecast.FS K W) :
    Forecast.runYears V' last n (fs c g s) = (Forecast.runYears V last n s).map (fs c g) := by
  induction n generalizing s with
  | zero =>
    rw [Forecast.runYears, Forecast.runYears]
    have h4 : (fs c g s).year = s.year := rfl
    rw [h4]
    by_cases hy : s.year < last
    · rw [if_pos hy, if_pos hy]; rfl
    · rw [if_neg hy, if_neg hy]; rfl
  | succ n ih =>
    rw [Forecast.runYears, Forecast.runYears]
    have h4 : (fs c g s).year = s.year := rfl
    rw [h4]
    by_cases hy : s.year < last
    · rw [if_pos hy, if_pos hy]
      simp only [callSubforecasts_fs h]
      cases Forecast.callSubforecasts V s with
      | error e => rfl
      | ok s1 =>
        simp only [Except.map, ok_bind, nextYear_fs hc h]
        cases Forecast.nextYear V s1 with
        | error e => rfl
        | ok s2 => exact ih s2
    · rw [if_neg hy, if_neg hy]; rfl

theorem init_fs (hc : 0 < c) (h : Scales c g V V') (initial : ℤ) (years : List ℤ) (w : W) :
    Forecast.init V' initial years (g w) = (Forecast.init V initial years w).map (fs c g) := by
  unfold Forecast.init
  cases years.max? with
  | none => rfl
  | some last =>
    have h1 : (⟨initial, [], g w⟩ : Forecast.FS K W) = fs c g ⟨initial, [], w⟩ := rfl
    simp only [h1, runYears_fs hc h]
    cases Forecast.runYears V last (last - initial).toNat ⟨initial, [], w⟩ with
    | error e => rfl
    | ok s => exact callSubforecasts_fs h s

end Whole

/-! ## A household -/

section Home

open Forecaster.Household

variable {N A : Type} [DecidableEq N] [DecidableEq A] {c : K}

/-- A sub-forecast. -/
def sub (c : K) (s : Sub A K) : Sub A K :=
  { s with
    record := dict2 c s.record
    total := ext c s.total
    txs := dict2 c s.txs
    withheld := c * s.withheld }

/-- A year of the report: every figure in the other unit. -/
def row (c : K) (r : Row K) : Row K :=
  ⟨c * r.income, c * r.livingExpenses, c * r.savings, c * r.principal, ext c r.withdrawals, c * r.tax⟩

/-- A household. -/
def home (c : K) (w : Home N A K) : Home N A K :=
  { w with
    accounts := fun a => acct c (w.accounts a)
    sub := fun k => sub c (w.sub k)
    living := c * w.living
    report := w.report.map (row c) }

/-- Two households that differ only in the unit their money is counted in: `c` of the second's units
are worth one of the first's. -/
structure SameInUnits (c : K) (E E' : Env N A K) : Prop where
  people : E'.people = E.people
  assets : E'.assets = E.assets
  debts : E'.debts = E.debts
  owner : E'.owner = E.owner
  default : E'.default = E.default
  refund : E'.refund = E.refund
  payment : E'.payment = E.payment
  earner : ∀ i y, E'.earner i y = earner c (E.earner i y)
  limits : ∀ a x, E'.limits a (acct c x) = limits c (E.limits a x)
  ttv : ∀ x b v, E'.ttv (acct c x) (c * b) (c * v) = E.ttv x b v
  expenses : ∀ y x, E'.expenses y (fun a => acct c (x a)) = (E.expenses y x).map (c * ·)
  saving : ∀ y q, E'.saving y (fun p => pool c (q p)) = (E.saving y q).map (dict2 c)
  withdrawal : ∀ y q, E'.withdrawal y (fun p => pool c (q p)) = (E.withdrawal y q).map (dict2 c)
  accountTax : ∀ a x, E'.accountTax a (acct c x) = c * E.accountTax a x
  owing : ∀ y x, E'.owing y (fun a => acct c (x a)) = (E.owing y x).map (c * ·)

variable {E E' : Env N A K}

omit [DecidableEq N] [DecidableEq A] in
theorem earners_home (h : SameInUnits c E E') (w : Home N A K) :
    earners E' (home c w) = (earners E w).map (earner c) := by
  unfold earners
  rw [h.people, List.map_map]
  apply List.map_congr_left
  intro i _
  exact h.earner i _

omit [DecidableEq N] [DecidableEq A] in
theorem enter_home (h : SameInUnits c E E') (w : Home N A K) (k : Kind) (d : Dict K K) :
    enter E' (home c w) k (dict c d) = st c (enter E w k d) := by
  unfold enter st
  have : pools E' (home c w) (dict c d) = fun p => pool c (pools E w d p) := by
    funext p
    cases p with
    | none => rfl
    | some a =>
      show Pool.acct (E'.limits a (acct c (w.accounts a))) (acct c (w.accounts a)) = _
      rw [h.limits]
      rfl
  rw [this]
  rfl

omit [DecidableEq N] [DecidableEq A] in
theorem enterAlloc_home (h : SameInUnits c E E') (w : Home N A K) (k : Kind) (d : Dict K K) :
    enterAlloc E' (home c w) k (dict c d) = alloc c (enterAlloc E w k d) := by
  unfold enterAlloc alloc
  rw [enter_home h]
  rfl

/-- What a call gives back. -/
def out (c : K) (r : Home N A K × Dict K K) : Home N A K × Dict K K := (home c r.1, dict c r.2)

omit [DecidableEq N] [DecidableEq A] in
theorem leave_home (w : Home N A K) (k : Kind) (f : Alloc (Option A) K) :
    leave (home c w) k (alloc c f) = out c (leave w k f) := by
  unfold leave out
  simp only [Prod.mk.injEq]
  constructor
  · unfold home
    simp only [Home.mk.injEq, true_and, and_true]
    constructor
    · funext a
      unfold accountsAfter
      show (match pool c (f.s.pools (some a)) with | .acct _ x => x | .dict _ _ => acct c (w.accounts a)) = _
      cases f.s.pools (some a) <;> rfl
    · funext k'
      unfold put
      by_cases hk : k' = k
      · simp only [hk, if_true]; rfl
      · simp only [hk, if_false]
  · show (pool c (f.s.pools none)).txns = _
    cases f.s.pools none <;> rfl

omit [DecidableEq N] [DecidableEq A] in
theorem finish_home (w : Home N A K) (k : Kind) (r : Alloc (Option A) K × Option PyErr) :
    finish (home c w) k (ares c r) = (finish w k r).map (out c) := by
  obtain ⟨f, o⟩ := r
  cases o with
  | some e => rfl
  | none =>
    show Except.ok (leave (home c w) k (alloc c f)) = _
    rw [leave_home]
    rfl

omit [DecidableEq N] [DecidableEq A] in
theorem finishPlain_home (w : Home N A K) (k : Kind) (r : St (Option A) K × Option PyErr) :
    finishPlain (home c w) k (res c r) = (finishPlain w k r).map (out c) := by
  unfold finishPlain
  rw [← finish_home]
  rfl

omit [DecidableEq A] in
theorem planOf_map (r : Except PyErr (Dict A (Dict K K))) :
    planOf (r.map (dict2 c)) = (planOf r).map (dict2 c) := by
  cases r with
  | error e => rfl
  | ok d =>
    show Except.ok (plan (dict2 c d)) = Except.ok (dict2 c (plan d))
    unfold plan dict2 Dict.mapVals
    simp only [List.map_map]
    rfl

omit [DecidableEq N] [DecidableEq A] in
theorem poolTax_home (h : SameInUnits c E E') (p : Option A) (q : Pool K) :
    poolTax E' p (pool c q) = (poolTax E p q).map (c * ·) := by
  cases p with
  | none => rfl
  | some a =>
    cases q with
    | dict b d => rfl
    | acct L x =>
      show Except.ok (E'.accountTax a (acct c x)) = _
      rw [h.accountTax]
      rfl

theorem call_home (hc : 0 < c) (h : SameInUnits c E E') (k : Kind) (w : Home N A K) (d : Dict K K) :
    Household.call E' k (home c w) (dict c d) = (Household.call E k w d).map (out c) := by
  cases k with
  | income =>
    simp only [Household.call]
    rw [earners_home h, enter_home h, h.default, incomeCall_st h.ttv hc, finishPlain_home]
  | living =>
    simp only [Household.call]
    have h1 : E'.expenses ((home c w).sub .living).year (home c w).accounts =
        (E.expenses (w.sub .living).year w.accounts).map (c * ·) := h.expenses _ _
    rw [h1, earners_home h, enter_home h, h.default, livingCall_st h.ttv hc, finishPlain_home]
    cases finishPlain w .living (livingCall E.ttv (E.default .living) none (earners E w)
        (E.expenses (w.sub .living).year w.accounts) (enter E w .living d)) with
    | error e => rfl
    | ok r =>
      simp only [Except.map, Except.ok.injEq]
      cases E.expenses (w.sub .living).year w.accounts <;> rfl
  | saving =>
    simp only [Household.call]
    rw [enterAlloc_home h, h.default]
    rw [savingCall_alloc (strategy := fun q => planOf (E.saving (w.sub .saving).year q))
      (strategy' := fun q => planOf (E'.saving ((home c w).sub .saving).year q)) h.ttv hc
      (E.default .saving) none (fun q => by
        show planOf (E'.saving (w.sub .saving).year fun p => pool c (q p)) = _
        rw [h.saving, planOf_map]), finish_home]
  | withdrawal =>
    simp only [Household.call]
    rw [enterAlloc_home h, h.default, h.assets]
    rw [withdrawalCall_alloc (strategy := fun q => planOf (E.withdrawal (w.sub .withdrawal).year q))
      (strategy' := fun q => planOf (E'.withdrawal ((home c w).sub .withdrawal).year q)) h.ttv hc
      (E.default .withdrawal) none (fun q => by
        show planOf (E'.withdrawal (w.sub .withdrawal).year fun p => pool c (q p)) = _
        rw [h.withdrawal, planOf_map]) (poolTax_home h), finish_home]
  | tax =>
    simp only [Household.call]
    rw [enter_home h, call_st hc, finishPlain_home]

theorem advance_home (h : SameInUnits c E E') (x : Comp N A) (w : Home N A K) :
    advance E' x (home c w) = (advance E x w).map (home c) := by
  cases x with
  | sub k =>
    simp only [advance, Except.map, Except.ok.injEq]
    unfold home
    simp only [Home.mk.injEq, true_and, and_true]
    funext k'
    unfold put
    by_cases hk : k' = k
    · simp only [hk, if_true]; rfl
    · simp only [hk, if_false]
  | person i => rfl
  | account a =>
    simp only [advance]
    have h1 : (home c w).accounts a = acct c (w.accounts a) := rfl
    rw [h1, nextYear_acct]
    cases Account.nextYear (w.accounts a) with
    | error e => rfl
    | ok x =>
      simp only [Except.map, ok_bind, Except.ok.injEq]
      have h2 : bringOwner E' (home c w) a = bringOwner E w a := by
        unfold bringOwner
        rw [h.owner]
        rfl
      rw [h2]
      unfold home
      simp only [Home.mk.injEq, true_and, and_true]
      funext a'
      unfold put
      by_cases hk : a' = a
      · simp only [hk, if_true]
      · simp only [hk, if_false]

omit [DecidableEq N] in
theorem adjustment_home (h : SameInUnits c E E') (w : Home N A K) :
    adjustment E' (home c w) = (adjustment E w).map (c * ·) := by
  unfold adjustment
  have h1 : taxOf E' (home c w) = fun p => c * taxOf E w p := by
    funext p
    cases p with
    | none => exact (mul_zero c).symm
    | some a => exact h.accountTax a _
  have h2 : E'.owing ((home c w).sub .tax).year (home c w).accounts =
      (E.owing (w.sub .tax).year w.accounts).map (c * ·) := h.owing _ _
  rw [h1, h2, earners_home h, taxAdjustment_earner]

omit [DecidableEq N] [DecidableEq A] in
theorem row_home (hc : 0 < c) (h : SameInUnits c E E') (w : Home N A K) :
    Household.row E' (home c w) = (Household.row E w).map (row c) := by
  unfold Household.row
  have h1 : E'.assets.mapM (fun a => balance ((home c w).accounts a)) =
      (E.assets.mapM fun a => balance (w.accounts a)).map (List.map (c * ·)) := by
    rw [h.assets]
    exact mapM_map _ fun a _ => balance_acct _
  have h2 : E'.owing ((home c w).sub .tax).year (home c w).accounts =
      (E.owing (w.sub .tax).year w.accounts).map (c * ·) := h.owing _ _
  rw [h1, h2]
  cases E.assets.mapM fun a => balance (w.accounts a) with
  | error e => rfl
  | ok bs =>
    cases E.owing (w.sub .tax).year w.accounts with
    | error e => rfl
    | ok t =>
      simp only [Except.map, ok_bind, Except.ok.injEq, earners_home h, netIncome_earner]
      unfold row
      have h3 : (home c w).living = c * w.living := rfl
      have h4 : ((home c w).sub .withdrawal).total = ext c (w.sub .withdrawal).total := rfl
      simp only [Row.mk.injEq, true_and, and_true, h3, h4, ext_neg]
      refine ⟨?_, ?_⟩
      · unfold Forecast.savings
        rw [← mul_sub, mul_max_of_nonneg _ _ hc.le, mul_zero]
      · unfold Forecast.principal
        have := foldl_mul (c := c) bs id 0
        rw [mul_zero] at this
        rw [List.foldl_map]
        exact this

theorem scales (hc : 0 < c) (h : SameInUnits c E E') : Scales c (home c) (world E) (world E') where
  forecasts := rfl
  people := by simp only [world, h.people]
  accounts := by simp only [world, h.assets, h.debts]
  year x w := by cases x <;> rfl
  advance x w := by
    show advance E' x (home c w) = _
    rw [advance_home h]
    rfl
  call x w d := by
    cases x with
    | sub k =>
      show Household.call E' k (home c w) (dict c d) = _
      rw [call_home hc h]
      rfl
    | person i => rfl
    | account a => rfl
  taxAdjustment w := by
    show Household.taxAdjustment E' (home c w) = (Household.taxAdjustment E w).map _
    unfold Household.taxAdjustment
    rw [adjustment_home h]
    cases adjustment E w <;> rfl
  refundTiming w := by simp only [world, h.refund]
  paymentTiming w := by simp only [world, h.payment]
  record w d := by
    show Household.record E' (home c w) (dict c d) = (Household.record E w d).map _
    unfold Household.record
    rw [row_home hc h]
    cases Household.row E w with
    | error e => rfl
    | ok r =>
      simp only [Except.map, ok_bind, Except.ok.injEq]
      unfold home
      simp only [Home.mk.injEq, true_and, List.map_append, List.map_cons, List.map_nil]

theorem forecast_home (hc : 0 < c) (h : SameInUnits c E E') (initial : ℤ) (years : List ℤ)
    (accounts : A → Acct K) :
    forecast E' initial years (fun a => acct c (accounts a)) =
      (forecast E initial years accounts).map (fs c (home c)) := by
  unfold forecast
  rw [← init_fs hc (scales hc h)]
  congr 1
  unfold home Home.new
  simp only [Home.mk.injEq, true_and, List.map_nil, and_true, mul_zero]
  funext k
  unfold sub Sub.new
  simp only [Sub.mk.injEq, true_and, ext_zero, mul_zero, and_true]
  exact ⟨rfl, rfl⟩

end Home

end Forecaster.Units
