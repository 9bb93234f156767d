import Verif.Model.Account
import Verif.Lemmas.Timing
import Mathlib.Tactic.Ring
import Mathlib.Tactic.FieldSimp
import Mathlib.Tactic.Linarith

/-! Helper lemmas for `Verif/Props/Account.lean`. -/

set_option linter.unusedSectionVars false

namespace Forecaster.Account

open Forecaster Forecaster.Timing

variable {K : Type} [Field K] [LinearOrder K] [IsStrictOrderedRing K]

/-- Specification: what a growth function has to satisfy (C16 proves it of
`accumulation_function`). -/
structure IsGrowth (A : K → K) : Prop where
  zero : A 0 = 1
  add : ∀ s t, A (s + t) = A s * A t
  pos : ∀ t, 0 < A t

/-- Specification: a dict of transactions or a timing, with real dates in `[0,1]`. -/
structure Dated (d : Dict K K) : Prop where
  wf : Dict.WF d
  rng : ∀ k ∈ Dict.keys d, 0 ≤ k ∧ k ≤ 1

/-- Specification: the value at time `t` of all transactions dated at or before `t`. -/
def grown (A : K → K) (d : Dict K K) (t : K) : K :=
  ((d.filter fun kv => decide (kv.1 ≤ t)).map fun kv => kv.2 * A (t - kv.1)).sum

theorem dated_nil : Dated ([] : Dict K K) := ⟨Dict.wf_nil, by simp⟩

theorem dated_set {d : Dict K K} (h : Dated d) {k : K} (h0 : 0 ≤ k) (h1 : k ≤ 1) (v : K) :
    Dated (Dict.set d k v) := by
  refine ⟨Dict.wf_set h.wf _ _, fun j hj => ?_⟩
  rcases Dict.mem_keys_set.1 hj with rfl | hj
  · exact ⟨h0, h1⟩
  · exact h.rng j hj

theorem dated_add {d e : Dict K K} (h : Dated d) (h' : Dated e) :
    Dated (addTransactions d e) := by
  refine ⟨wf_add h.wf _, fun j hj => ?_⟩
  rcases (mem_keys_add _ _ _).1 hj with hj | hj
  · exact h.rng j hj
  · exact h'.rng j hj

@[simp] theorem grown_nil (A : K → K) (t : K) : grown A [] t = 0 := rfl

theorem grown_cons (A : K → K) (a : K × K) (d : Dict K K) (t : K) :
    grown A (a :: d) t = (if a.1 ≤ t then a.2 * A (t - a.1) else 0) + grown A d t := by
  unfold grown
  by_cases h : a.1 ≤ t <;> simp [h]

theorem grown_set (A : K → K) {d : Dict K K} (hd : Dict.WF d) (k v t : K) :
    grown A (Dict.set d k v) t
      = grown A d t + if k ≤ t then (v - Dict.val d k) * A (t - k) else 0 := by
  induction d with
  | nil => simp [Dict.set, grown_cons, Dict.val_nil]
  | cons a d ih =>
    obtain ⟨hna, hd'⟩ := Dict.wf_cons.1 hd
    by_cases h : a.1 = k
    · simp only [Dict.set, h, if_true, grown_cons, Dict.val, Dict.get?_cons, Option.getD_some]
      split <;> ring
    · simp only [Dict.set, h, if_false, grown_cons, ih hd', Dict.val, Dict.get?_cons]
      ring

theorem grown_add (A : K → K) {d : Dict K K} (hd : Dict.WF d) (e : Dict K K) (t : K) :
    grown A (addTransactions d e) t = grown A d t + grown A e t := by
  unfold addTransactions
  induction e generalizing d with
  | nil => simp
  | cons a e ih =>
    rw [List.foldl_cons, addOne_eq, ih (Dict.wf_set hd _ _), grown_set A hd, grown_cons]
    split <;> ring

theorem grown_map_mul (A : K → K) (d : Dict K K) (c t : K) :
    grown A (Dict.mapVals (fun v => c * v) d) t = c * grown A d t := by
  induction d with
  | nil => simp [Dict.mapVals]
  | cons a d ih =>
    have : Dict.mapVals (fun v => c * v) (a :: d) = (a.1, c * a.2) ::
      Dict.mapVals (fun v => c * v) d := rfl
    rw [this, grown_cons, ih, grown_cons]
    split <;> ring

theorem val_of_mem {d : Dict K K} (hd : Dict.WF d) {kv : K × K} (h : kv ∈ d) :
    Dict.val d kv.1 = kv.2 := by
  unfold Dict.val; rw [Dict.get?_of_mem hd h]; rfl

theorem grown_eq_keys (A : K → K) {d : Dict K K} (hd : Dict.WF d) (t : K) :
    grown A d t = (((Dict.keys d).filter fun w => decide (w ≤ t)).map
      fun w => Dict.val d w * A (t - w)).sum := by
  unfold grown Dict.keys
  rw [List.filter_map, List.map_map]
  congr 1
  apply List.map_congr_left
  intro a ha
  have ha' := (List.mem_filter.1 ha).1
  simp [Function.comp_def, val_of_mem hd ha']

theorem foldlM_sum {α : Type} (f : α → Except PyErr K) (g : α → K) (l : List α) (b : K)
    (h : ∀ x ∈ l, f x = .ok (g x)) :
    l.foldlM (fun b x => do let v ← f x; .ok (b + v)) b = .ok (b + (l.map g).sum) := by
  induction l generalizing b with
  | nil => simp
  | cons x l ih =>
    rw [List.foldlM_cons, h x (by simp), ok_bind, ok_bind, ih _ fun y hy => h y (by simp [hy])]
    simp only [List.map_cons, List.sum_cons]
    congr 1; ring

theorem whenConv_start : whenConv (.str "start" : When K) = .ok 0 := rfl
theorem whenConv_end : whenConv (.str "end" : When K) = .ok 1 := rfl

theorem valueAtTime_num (A : K → K) (v : K) {s t : K} (hs : 0 ≤ s ∧ s ≤ 1) (ht : 0 ≤ t ∧ t ≤ 1) :
    valueAtTime A v (.num s) (.num t) = .ok (v * A (t - s)) := by
  simp [valueAtTime, whenConv_ok hs.1 hs.2, whenConv_ok ht.1 ht.2]

/-- What holds of every account that was constructed and then used. -/
structure Inv (a : Acct K) : Prop where
  tx : Dated a.txns
  future : ∀ y, a.year < y → Dict.get? a.balHist y = none
  opening : (∃ b, Dict.get? a.balHist a.year = some b) ∨
    ∃ b tx, Dict.get? a.balHist (a.year - 1) = some b ∧
      Dict.get? a.txHist (a.year - 1) = some tx ∧ Dated tx

theorem balance_of_prev {a : Acct K} {b : K} {tx : Dict K K}
    (h0 : Dict.get? a.balHist a.year = none)
    (h1 : Dict.get? a.balHist (a.year - 1) = some b)
    (h2 : Dict.get? a.txHist (a.year - 1) = some tx) (h3 : Dated tx) :
    balance a = .ok (b * a.A 1 + grown a.A tx 1) := by
  unfold balance look
  rw [h0, h1, h2]
  simp only [ok_bind, valueAtTime, whenConv_start, whenConv_end, sub_zero]
  rw [foldlM_sum (fun kv : K × K => (do
      let s ← whenConv (.num kv.1)
      Except.ok (kv.2 * a.A (1 - s)) : Except PyErr K)) (fun kv => kv.2 * a.A (1 - kv.1))]
  · unfold grown
    rw [List.filter_eq_self.2]
    intro kv hkv
    simpa using (h3.rng _ (Dict.mem_keys_of_mem hkv)).2
  · intro kv hkv
    have := h3.rng _ (Dict.mem_keys_of_mem hkv)
    rw [whenConv_ok this.1 this.2, ok_bind]

theorem Inv.balance_ok {a : Acct K} (h : Inv a) : ∃ b, balance a = .ok b := by
  cases h0 : Dict.get? a.balHist a.year with
  | some b => exact ⟨b, by unfold balance; rw [h0]⟩
  | none =>
    rcases h.opening with ⟨b, hb⟩ | ⟨b, tx, hb, ht, hd⟩
    · rw [h0] at hb; cases hb
    · exact ⟨_, balance_of_prev h0 hb ht hd⟩

theorem balanceAtTime_eq {a : Acct K} (ha : Inv a) {b t : K} (hb : balance a = .ok b)
    (ht : 0 ≤ t ∧ t ≤ 1) (txs : Option (Dict K K)) (htx : ∀ d ∈ txs, Dated d) :
    balanceAtTime a (.num t) txs
      = .ok (b * a.A t + grown a.A (txs.getD []) t + grown a.A a.txns t) := by
  have key : ∀ d : Dict K K, Dated d →
      ((Dict.keys d).filter fun w => decide (w ≤ t)).foldlM (fun b w => do
        let v ← valueAtTime a.A (Dict.val d w) (.num w) (.num t)
        Except.ok (b + v)) (b * a.A t) = (.ok (b * a.A t + grown a.A d t) : Except PyErr K) := by
    intro d hd
    rw [foldlM_sum (fun w => valueAtTime a.A (Dict.val d w) (.num w) (.num t))
      (fun w => Dict.val d w * a.A (t - w)), grown_eq_keys _ hd.wf]
    intro w hw
    exact valueAtTime_num _ _ (hd.rng w (List.mem_filter.1 hw).1) ht
  have h1 : valueAtTime a.A b (.str "start") (.num t) = .ok (b * a.A t) := by
    simp [valueAtTime, whenConv_start, whenConv_ok ht.1 ht.2]
  unfold balanceAtTime
  rw [whenConv_ok ht.1 ht.2, hb]
  simp only [ok_bind, h1]
  cases txs with
  | none => simp only [key _ ha.tx, Option.getD_none, grown_nil, add_zero]
  | some d =>
    have hd := htx d rfl
    simp only [key _ (dated_add hd ha.tx), grown_add a.A hd.wf, Option.getD_some, add_assoc]

theorem balanceAtTime_end (a : Acct K) (txs : Option (Dict K K)) :
    balanceAtTime a (.str "end") txs = balanceAtTime a (.num 1) txs := by
  unfold balanceAtTime
  rw [whenConv_end, whenConv_ok zero_le_one le_rfl]

theorem balanceAtTime_start (a : Acct K) (txs : Option (Dict K K)) :
    balanceAtTime a (.str "start") txs = balanceAtTime a (.num 0) txs := by
  unfold balanceAtTime
  rw [whenConv_start, whenConv_ok le_rfl zero_le_one]

/-! ### Preservation of the invariant -/

theorem inv_init (y : ℤ) (b : K) (g : ℤ → K → K) (dt : Dict K K) : Inv (init y b g dt) := by
  refine ⟨dated_nil, fun y' hy => ?_, Or.inl ⟨b, ?_⟩⟩
  · have : y ≠ y' := by intro h; simp [init, h] at hy
    simp [init, Dict.get?_cons, this]
  · simp [init, Dict.get?_cons]

theorem addTransaction_eq {a : Acct K} {v : K} {w : When K} {t : K} (h : whenConv w = .ok t) :
    addTransaction a v w = .ok { a with txns := Dict.set a.txns t (Dict.val a.txns t + v) } := by
  simp [addTransaction, h]

theorem whenConv_rng {w : When K} {t : K} (h : whenConv w = .ok t) : 0 ≤ t ∧ t ≤ 1 := by
  unfold whenConv at h
  cases w with
  | str s =>
    simp only at h
    split_ifs at h <;> cases h <;> simp
  | num x =>
    simp only at h
    split_ifs at h with hx
    cases h
    push Not at hx
    exact ⟨hx.2, hx.1⟩

theorem inv_addTransaction {a a' : Acct K} (ha : Inv a) {v : K} {w : When K}
    (h : addTransaction a v w = .ok a') : Inv a' := by
  cases hw : whenConv w with
  | error e => simp [addTransaction, hw] at h
  | ok t =>
    rw [addTransaction_eq hw] at h
    cases h
    exact ⟨dated_set ha.tx (whenConv_rng hw).1 (whenConv_rng hw).2 _, ha.future, ha.opening⟩

theorem dated_del {d : Dict K K} (h : Dated d) (k : K) : Dated (Dict.del d k) := by
  refine ⟨Dict.wf_del h.wf k, fun j hj => h.rng j ?_⟩
  have := (Dict.del_sublist d k).map Prod.fst
  exact this.subset hj

theorem inv_setItem {a a' : Acct K} (ha : Inv a) {v : K} {w : When K}
    (h : setItem a w v = .ok a') : Inv a' := by
  unfold setItem at h
  cases w with
  | str s => exact inv_addTransaction ha h
  | num x =>
    simp only at h
    split_ifs at h with hx
    · exact inv_addTransaction (a := { a with txns := Dict.del a.txns x })
        ⟨dated_del ha.tx x, ha.future, ha.opening⟩ h
    · exact inv_addTransaction ha h

theorem inv_delItem {a a' : Acct K} (ha : Inv a) {w : When K}
    (h : delItem a w = .ok a') : Inv a' := by
  unfold delItem at h
  cases w with
  | str s => cases h
  | num x =>
    simp only at h
    split_ifs at h with hx
    cases h
    exact ⟨dated_del ha.tx x, ha.future, ha.opening⟩

theorem inv_clear {a : Acct K} (ha : Inv a) : Inv (clear a) := ⟨dated_nil, ha.future, ha.opening⟩

theorem delItem_const {a a' : Acct K} {w : When K} (h : delItem a w = .ok a') :
    ∃ d, a' = { a with txns := d } := by
  unfold delItem at h
  cases w with
  | str s => cases h
  | num x =>
    simp only at h
    split_ifs at h with hx
    cases h
    exact ⟨_, rfl⟩

theorem nextYear_eq {a : Acct K} {b : K} (hb : balance a = .ok b) :
    nextYear a = .ok { a with
      year := a.year + 1
      balHist := Dict.set a.balHist a.year b
      txHist := Dict.set a.txHist a.year a.txns
      txns := [] } := by
  simp [nextYear, hb]

theorem inv_nextYear {a a' : Acct K} (ha : Inv a) (h : nextYear a = .ok a') : Inv a' := by
  obtain ⟨b, hb⟩ := ha.balance_ok
  rw [nextYear_eq hb] at h
  cases h
  refine ⟨dated_nil, fun y hy => ?_, Or.inr ⟨b, a.txns, ?_, ?_, ha.tx⟩⟩
  · have h1 : a.year < y := by simp only at hy; omega
    simp only
    rw [Dict.get?_set_ne _ _ (by omega)]
    exact ha.future y h1
  · simp [Dict.get?_set]
  · simp [Dict.get?_set]

theorem inv_run {a : Acct K} (ha : Inv a) (ops : List (Op K)) : Inv (run a ops) := by
  unfold run
  induction ops generalizing a with
  | nil => exact ha
  | cons op ops ih =>
    rw [List.foldl_cons]
    apply ih
    cases h : step a op with
    | error e => exact ha
    | ok a' =>
      cases op with
      | add v w => exact inv_addTransaction ha h
      | setItem k v => exact inv_setItem ha h
      | delItem k => exact inv_delItem ha h
      | clear => cases h; exact inv_clear ha
      | nextYear => exact inv_nextYear ha h

theorem addTransaction_const {a a' : Acct K} {v : K} {w : When K}
    (h : addTransaction a v w = .ok a') :
    a'.growth = a.growth ∧ a'.defaultTiming = a.defaultTiming := by
  unfold addTransaction at h
  cases hw : whenConv w with
  | error e => simp [hw] at h
  | ok t => simp only [hw, ok_bind, Except.ok.injEq] at h; subst h; exact ⟨rfl, rfl⟩

theorem step_const {a a' : Acct K} {op : Op K} (h : step a op = .ok a') :
    a'.growth = a.growth ∧ a'.defaultTiming = a.defaultTiming := by
  cases op with
  | add v w => exact addTransaction_const h
  | setItem k v =>
    simp only [step, setItem] at h
    cases k with
    | str s => exact addTransaction_const h
    | num x =>
      simp only at h
      split_ifs at h with hx
      · have := addTransaction_const h; exact this
      · exact addTransaction_const h
  | delItem k => obtain ⟨d, rfl⟩ := delItem_const h; exact ⟨rfl, rfl⟩
  | clear => cases h; exact ⟨rfl, rfl⟩
  | nextYear =>
    simp only [step, nextYear] at h
    cases hb : balance a with
    | error e => simp [hb] at h
    | ok b => simp only [hb, ok_bind, Except.ok.injEq] at h; subst h; exact ⟨rfl, rfl⟩

theorem run_const (a : Acct K) (ops : List (Op K)) :
    (run a ops).growth = a.growth ∧ (run a ops).defaultTiming = a.defaultTiming := by
  unfold run
  induction ops generalizing a with
  | nil => exact ⟨rfl, rfl⟩
  | cons op ops ih =>
    rw [List.foldl_cons]
    cases h : step a op with
    | error e => exact ih a
    | ok a' =>
      obtain ⟨h1, h2⟩ := step_const h
      have := ih a'
      exact ⟨this.1.trans h1, this.2.trans h2⟩

/-! ### Signed sums -/

theorem posSum_nonneg (d : Dict K K) : 0 ≤ posSum d := by
  apply List.sum_nonneg
  intro v hv
  have := (List.mem_filter.1 hv).2
  simpa using le_of_lt (by simpa using this : (0 : K) < v)

theorem negSum_nonpos (d : Dict K K) : negSum d ≤ 0 := by
  unfold negSum
  induction Dict.vals d with
  | nil => simp
  | cons v l ih =>
    rw [List.filter_cons]
    split
    · rename_i h
      have : v < 0 := by simpa using h
      rw [List.sum_cons]; linarith
    · exact ih

theorem pos_add_neg (d : Dict K K) : posSum d + negSum d = Dict.total d := by
  unfold posSum negSum Dict.total
  induction Dict.vals d with
  | nil => simp
  | cons v l ih =>
    rw [List.filter_cons, List.filter_cons, List.sum_cons, ← ih]
    rcases lt_trichotomy v 0 with h | h | h
    · simp [h, not_lt.2 h.le]; ring
    · simp [h]
    · simp [h, not_lt.2 h.le]; ring

/-! ### Weights -/

/-- Specification: a usable timing: dates in `[0,1]`, non-negative weights, at least one
date. -/
structure GoodTiming (tm : Dict K K) : Prop extends Dated tm where
  nonneg : ∀ kv ∈ tm, 0 ≤ kv.2
  nonempty : tm ≠ []

theorem total_map_div (l : Dict K K) (n : K) :
    Dict.total (l.map fun kv => (kv.1, kv.2 / n)) = Dict.total l / n := by
  induction l with
  | nil => simp
  | cons a l ih => simp only [List.map_cons, Dict.total_cons, ih]; ring

theorem total_filter_ne (l : Dict K K) :
    Dict.total (l.filter fun kv => decide (kv.2 ≠ 0)) = Dict.total l := by
  induction l with
  | nil => rfl
  | cons a l ih =>
    by_cases h : a.2 = 0
    · rw [List.filter_cons_of_neg (by simp [h]), ih]; simp [h]
    · rw [List.filter_cons_of_pos (by simp [h]), Dict.total_cons, ih, Dict.total_cons]

theorem keys_map_div (l : Dict K K) (n : K) :
    Dict.keys (l.map fun kv => (kv.1, kv.2 / n)) = Dict.keys l := by
  simp [Dict.keys, Function.comp_def]

theorem mem_filter_keys {l : Dict K K} {p : K × K → Bool} {k : K}
    (h : k ∈ Dict.keys (l.filter p)) : k ∈ Dict.keys l := by
  obtain ⟨kv, hkv, rfl⟩ := List.mem_map.1 h
  exact Dict.mem_keys_of_mem (List.mem_filter.1 hkv).1

theorem total_eq_zero_all {tm : Dict K K} (h : ∀ kv ∈ tm, 0 ≤ kv.2) (h0 : Dict.total tm = 0) :
    ∀ kv ∈ tm, kv.2 = 0 := by
  induction tm with
  | nil => simp
  | cons a l ih =>
    have h1 := h a (by simp)
    have h2 := Dict.total_nonneg (d := l) fun x hx => h x (by simp [hx])
    rw [Dict.total_cons] at h0
    have : Dict.total l = 0 := by linarith
    intro kv hkv
    rcases List.mem_cons.1 hkv with rfl | hkv
    · linarith
    · exact ih (fun x hx => h x (by simp [hx])) this kv hkv

/-- The effective (normalised) weights: positive, sum to one, at dates of the timing. -/
structure Weights (nt : Dict K K) : Prop extends Dated nt where
  pos : ∀ kv ∈ nt, 0 < kv.2
  total : Dict.total nt = 1

theorem weights_of {l : Dict K K} {n : K} (hd : Dated l) (hnn : ∀ kv ∈ l, 0 ≤ kv.2)
    (hn : Dict.total l = n) (hpos : 0 < n) :
    Weights ((l.filter fun kv => decide (kv.2 ≠ 0)).map fun kv => (kv.1, kv.2 / n)) := by
  refine ⟨⟨?_, ?_⟩, ?_, ?_⟩
  · unfold Dict.WF; rw [keys_map_div]; exact Dict.wf_filter hd.wf
  · intro k hk; rw [keys_map_div] at hk; exact hd.rng k (mem_filter_keys hk)
  · intro kv hkv
    obtain ⟨x, hx, rfl⟩ := List.mem_map.1 hkv
    obtain ⟨hx1, hx2⟩ := List.mem_filter.1 hx
    have : x.2 ≠ 0 := by simpa using hx2
    exact div_pos (lt_of_le_of_ne (hnn x hx1) (Ne.symm this)) hpos
  · rw [total_map_div, total_filter_ne, hn, div_self hpos.ne']

theorem dated_ones {tm : Dict K K} (h : Dated tm) : Dated (tm.map fun kv => (kv.1, (1 : K))) := by
  have : Dict.keys (tm.map fun kv => (kv.1, (1 : K))) = Dict.keys tm := by
    simp [Dict.keys, Function.comp_def]
  exact ⟨by unfold Dict.WF; rw [this]; exact h.wf, by rw [this]; exact h.rng⟩

theorem total_ones (tm : Dict K K) :
    Dict.total (tm.map fun kv => (kv.1, (1 : K))) = (tm.length : K) := by
  induction tm with
  | nil => simp
  | cons a l ih => simp only [List.map_cons, Dict.total_cons, ih, List.length_cons]; push_cast; ring

theorem init_ones {tm : Dict K K} (h : Dated tm) (hne : tm ≠ []) :
    Timing.init (.dict (tm.map fun kv => (kv.1, (1 : K)))) (.num 1)
      = .ok (tm.map fun kv => (kv.1, (1 : K))) := by
  apply init_dict _ _ (dated_ones h).wf
  unfold convertDict
  obtain ⟨a, l, rfl⟩ := List.exists_cons_of_ne_nil hne
  have hv : ∀ v ∈ Dict.vals ((a :: l).map fun kv => (kv.1, (1 : K))), v = 1 := by
    intro v hv
    obtain ⟨kv, hkv, rfl⟩ := List.mem_map.1 hv
    obtain ⟨x, -, rfl⟩ := List.mem_map.1 hkv
    rfl
  rw [if_neg (by simp), if_neg, if_pos]
  · intro v h; rw [hv v h]; exact zero_le_one
  · intro h
    have := h 1 (by simp [Dict.vals])
    exact one_ne_zero this

/-- The documented weights: proportional to the timing's weights, uniform if these are all
zero. -/
theorem normalizedWeights_spec {tm : Dict K K} (h : GoodTiming tm) :
    ∃ nt, normalizedWeights tm = .ok nt ∧ Weights nt ∧
      (∀ k, Dict.val nt k = if Dict.total tm = 0 then
        (if k ∈ Dict.keys tm then 1 / (tm.length : K) else 0)
        else Dict.val tm k / Dict.total tm) := by
  unfold normalizedWeights
  by_cases h0 : Dict.total tm = 0
  · have hlen : (0 : K) < tm.length := by
      have := List.length_pos_iff.2 h.nonempty
      exact_mod_cast this
    simp only [h0, if_true, init_ones h.toDated h.nonempty, ok_bind, List.length_map]
    refine ⟨_, rfl, weights_of (dated_ones h.toDated) ?_ (total_ones tm) hlen, ?_⟩
    · intro kv hkv
      obtain ⟨x, -, rfl⟩ := List.mem_map.1 hkv
      exact zero_le_one
    · intro k
      rw [List.filter_eq_self.2 (by
        intro kv hkv
        obtain ⟨x, -, rfl⟩ := List.mem_map.1 hkv
        simp)]
      rw [List.map_map]
      by_cases hk : k ∈ Dict.keys tm
      · rw [if_pos hk]
        obtain ⟨kv, hkv, rfl⟩ := List.mem_map.1 hk
        have hwf : Dict.WF (tm.map ((fun kv : K × K => (kv.1, kv.2 / (tm.length : K))) ∘
            fun kv => (kv.1, (1 : K)))) := by
          have : Dict.keys (tm.map ((fun kv : K × K => (kv.1, kv.2 / (tm.length : K))) ∘
            fun kv => (kv.1, (1 : K)))) = Dict.keys tm := by
              simp [Dict.keys, Function.comp_def]
          unfold Dict.WF; rw [this]; exact h.wf
        have hm : (kv.1, 1 / (tm.length : K)) ∈ (tm.map ((fun kv : K × K =>
            (kv.1, kv.2 / (tm.length : K))) ∘ fun kv => (kv.1, (1 : K)))) :=
          List.mem_map.2 ⟨kv, hkv, rfl⟩
        exact val_of_mem hwf hm
      · rw [if_neg hk]
        apply Dict.val_of_not_mem
        simpa [Dict.keys, Function.comp_def] using hk
  · have hpos : 0 < Dict.total tm :=
      lt_of_le_of_ne (Dict.total_nonneg h.nonneg) (Ne.symm h0)
    simp only [h0, if_false]
    refine ⟨_, rfl, weights_of h.toDated h.nonneg rfl hpos, fun k => ?_⟩
    by_cases hk : k ∈ Dict.keys tm
    · obtain ⟨kv, hkv, rfl⟩ := List.mem_map.1 hk
      rw [val_of_mem h.wf hkv]
      have hw := (weights_of h.toDated h.nonneg rfl hpos).wf
      by_cases hv : kv.2 = 0
      · rw [hv, zero_div]
        apply Dict.val_of_not_mem
        rw [keys_map_div]
        intro hmem
        obtain ⟨x, hx, hxe⟩ := List.mem_map.1 hmem
        obtain ⟨hx1, hx2⟩ := List.mem_filter.1 hx
        have : x.2 = kv.2 := by
          rw [← val_of_mem h.wf hx1, ← val_of_mem h.wf hkv, hxe]
        simp [this, hv] at hx2
      · exact val_of_mem hw (kv := (kv.1, kv.2 / Dict.total tm)) (List.mem_map.2 ⟨kv, by simp [hkv, hv], rfl⟩)
    · rw [Dict.val_of_not_mem hk, zero_div]
      apply Dict.val_of_not_mem
      rw [keys_map_div]
      exact fun h => hk (mem_filter_keys h)

theorem weightedAccum_eq (A : K → K) {nt : Dict K K} (h : Dated nt) :
    weightedAccum A nt = grown A nt 1 := by
  have : ∀ s, nt.foldl (fun s kv => s + kv.2 * A (1 - kv.1)) s
      = s + (nt.map fun kv => kv.2 * A (1 - kv.1)).sum := by
    intro s
    induction nt generalizing s with
    | nil => simp
    | cons a l ih =>
      obtain ⟨h1, h2⟩ := Dict.wf_cons.1 h.wf
      rw [List.foldl_cons, ih ⟨h2, fun k hk => h.rng k (by simp [hk])⟩]
      simp only [List.map_cons, List.sum_cons]; ring
  unfold weightedAccum grown
  rw [this, zero_add, List.filter_eq_self.2]
  intro kv hkv
  simpa using (h.rng _ (Dict.mem_keys_of_mem hkv)).2

theorem weightedAccum_pos {A : K → K} (hA : IsGrowth A) {nt : Dict K K} (h : Weights nt) :
    0 < weightedAccum A nt := by
  rw [weightedAccum_eq A h.toDated]
  have hne : nt ≠ [] := by
    rintro rfl; have := h.total; simp at this
  obtain ⟨a, l, rfl⟩ := List.exists_cons_of_ne_nil hne
  have hle : a.1 ≤ 1 := (h.rng a.1 (by simp)).2
  rw [grown_cons, if_pos hle]
  have h1 : 0 < a.2 * A (1 - a.1) := mul_pos (h.pos a (by simp)) (hA.pos _)
  have h2 : 0 ≤ grown A l 1 := by
    unfold grown
    apply List.sum_nonneg
    intro x hx
    obtain ⟨kv, hkv, rfl⟩ := List.mem_map.1 hx
    exact (mul_pos (h.pos kv (by simp [(List.mem_filter.1 hkv).1])) (hA.pos _)).le
  linarith

/-! ### Applying transactions -/

/-- Specification: record every `{when: value}` pair with `add_transaction`. -/
def applyAll (a : Acct K) (d : Dict K K) : Except PyErr (Acct K) :=
  d.foldlM (fun a kv => addTransaction a kv.2 (.num kv.1)) a

theorem applyAll_eq (a : Acct K) {d : Dict K K} (hd : ∀ k ∈ Dict.keys d, 0 ≤ k ∧ k ≤ 1) :
    applyAll a d = .ok { a with txns := addTransactions a.txns d } := by
  unfold applyAll addTransactions
  induction d generalizing a with
  | nil => rfl
  | cons x d ih =>
    have hx := hd x.1 (by simp)
    rw [List.foldlM_cons, addTransaction_eq (whenConv_ok hx.1 hx.2), ok_bind,
      ih _ fun k hk => hd k (by simp [hk])]
    simp only [List.foldl_cons, addOne_eq]

theorem balance_txns_irrel (a : Acct K) (t : Dict K K) :
    balance { a with txns := t } = balance a := rfl

/-- Applying dated transactions moves the balance at time `t` by their grown value. -/
theorem balanceAtTime_apply {a : Acct K} (ha : Inv a) {d : Dict K K} (hd : Dated d) {b t : K}
    (hb : balance a = .ok b)
    (ht : 0 ≤ t ∧ t ≤ 1) (txs : Option (Dict K K)) (htx : ∀ d ∈ txs, Dated d) :
    ∃ a', applyAll a d = .ok a' ∧ Inv a' ∧ balanceAtTime a' (.num t) txs
      = .ok (b * a.A t + grown a.A (txs.getD []) t + grown a.A a.txns t + grown a.A d t) := by
  have hinv : Inv { a with txns := addTransactions a.txns d } :=
    ⟨dated_add ha.tx hd, ha.future, ha.opening⟩
  refine ⟨_, applyAll_eq a hd.rng, hinv, ?_⟩
  rw [balanceAtTime_eq hinv (b := b) (by rw [balance_txns_irrel]; exact hb) ht txs htx]
  have : Acct.A { a with txns := addTransactions a.txns d } = a.A := rfl
  simp only [this, grown_add a.A ha.tx.wf]
  congr 1; ring

/-! ### The core of `transactions_to_balance` -/

theorem mulFin_fin (x w : K) : (Ext.fin x).mulFin w = .fin (x * w) := rfl

/-- Closed form of `transactions_to_balance` for good timings. -/
theorem ttb_eq {a : Acct K} {ref : K} {target : Ext K} {timing : Option (Arg K)} {tm nt : Dict K K}
    {M m : Option (Ext K)} {txs : Option (Dict K K)}
    (href : balanceAtTime a (.str "end") txs = .ok ref)
    (htm : resolveTiming a timing = .ok tm) (hnt : normalizedWeights tm = .ok nt)
    (hA : IsGrowth a.A) (hw : Weights nt) :
    transactionsToBalance a target timing M m txs = .ok (Dict.mapVals
      (fun w => (match m with
        | some m => max (match M with
          | some M => min ((target.subFin ref).mulFin (weightedAccum a.A nt)⁻¹) M
          | none => (target.subFin ref).mulFin (weightedAccum a.A nt)⁻¹) m
        | none => (match M with
          | some M => min ((target.subFin ref).mulFin (weightedAccum a.A nt)⁻¹) M
          | none => (target.subFin ref).mulFin (weightedAccum a.A nt)⁻¹)).mulFin w) nt) := by
  unfold transactionsToBalance divExt
  rw [href, ok_bind, htm, ok_bind, hnt, ok_bind, if_neg (weightedAccum_pos hA hw).ne', ok_bind]
  cases M <;> cases m <;> rfl

theorem mapVals_fin (c : K) (nt : Dict K K) :
    Dict.mapVals (fun w => (Ext.fin c).mulFin w) nt
      = Dict.mapVals Ext.fin (Dict.mapVals (fun w => c * w) nt) := by
  simp [Dict.mapVals, Ext.mulFin]

theorem total_mapVals_mul' (d : Dict K K) (c : K) :
    Dict.total (Dict.mapVals (fun v => c * v) d) = c * Dict.total d := by
  have := total_mapVals_mul d c
  simp only [mul_comm c]
  rw [this]

theorem dated_mapVals {d : Dict K K} (h : Dated d) (f : K → K) : Dated (Dict.mapVals f d) :=
  ⟨Dict.wf_mapVals f h.wf, by rw [Dict.keys_mapVals]; exact h.rng⟩

theorem val_mapVals_mul (d : Dict K K) (c k : K) :
    Dict.val (Dict.mapVals (fun v => c * v) d) k = c * Dict.val d k := by
  unfold Dict.val
  rw [Dict.get?_mapVals]
  cases Dict.get? d k <;> simp

end Forecaster.Account
