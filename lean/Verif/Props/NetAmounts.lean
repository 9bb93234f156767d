import Verif.Props.Account
import Mathlib.Algebra.BigOperators.Group.Finset.Basic

/-!
# An account depends only on the net amount of every date (C128)

The property: it makes no difference to an account in which order the transactions of a year are
entered, whether an amount is entered at once or in parts, or whether amounts are entered that
cancel: if in every year the transactions of every date add up to the same amount, then all
balances, returns, inflows, outflows and limits are the same, in that year and in all years that
follow.
-/

set_option linter.unusedSectionVars false

namespace Forecaster.Account

open Forecaster Forecaster.Timing

variable {K : Type} [Field K] [LinearOrder K] [IsStrictOrderedRing K]

/-! ## Specification -/

/-- The amount entered for the date `t` by a list of transactions `(value, when)`. -/
def netAt (l : List (K × When K)) (t : K) : K :=
  (l.map fun x => if whenConv x.2 = .ok t then x.1 else 0).sum

/-- Two lists of transactions with usable dates that add up to the same amount at every date. -/
structure SameNet (l l' : List (K × When K)) : Prop where
  left : ∀ x ∈ l, ∃ t, whenConv x.2 = .ok t
  right : ∀ x ∈ l', ∃ t, whenConv x.2 = .ok t
  net : ∀ t, netAt l t = netAt l' t

/-- `add_transaction` for each of a list. -/
def enter (a : Acct K) (l : List (K × When K)) : Except PyErr (Acct K) :=
  l.foldlM (fun a x => addTransaction a x.1 x.2) a

/-- Years of an account: the transactions of a year are entered, then the next year begins. -/
def live (a : Acct K) : List (List (K × When K)) → Except PyErr (Acct K)
  | [] => .ok a
  | l :: ls => do
    let a ← enter a l
    let a ← nextYear a
    live a ls

/-- Everything two accounts can be asked about this year is answered alike. -/
structure SameFigures (a b : Acct K) : Prop where
  year : b.year = a.year
  balance : balance b = balance a
  balanceAtTime : ∀ t (txs : Option (Dict K K)), (∀ d ∈ txs, Dated d) →
    balanceAtTime b t txs = balanceAtTime a t txs
  returns : returns b = returns a
  taxableIncome : taxableIncome b = taxableIncome a
  inflows : ∀ txs, inflows b txs = inflows a txs
  outflows : ∀ txs, outflows b txs = outflows a txs
  maxOutflow : ∀ L t, maxOutflow L b t = maxOutflow L a t
  maxPayment : ∀ L t, debtMaxInflow L b t = debtMaxInflow L a t
  maxOutflows : ∀ L (f : FlowArgs K), (∀ d ∈ f.transactions, Dated d) → maxOutflows L b f = maxOutflows L a f
  maxInflows : ∀ L (f : FlowArgs K), (∀ d ∈ f.transactions, Dated d) → maxInflows L b f = maxInflows L a f
  minOutflows : ∀ L (f : FlowArgs K), (∀ d ∈ f.transactions, Dated d) → minOutflows L b f = minOutflows L a f
  minInflows : ∀ L (f : FlowArgs K), (∀ d ∈ f.transactions, Dated d) → minInflows L b f = minInflows L a f

/-! ## Sums over dicts with the same values -/

theorem sum_eq_finset {d : Dict K K} (hd : Dict.WF d) (f : K → K → K) :
    (d.map fun e => f e.1 e.2).sum = ∑ t ∈ (Dict.keys d).toFinset, f t (Dict.val d t) := by
  rw [List.sum_toFinset _ hd]
  unfold Dict.keys
  rw [List.map_map]
  congr 1
  apply List.map_congr_left
  intro e he
  simp only [Function.comp, val_of_mem hd he]

theorem sum_vals {d e : Dict K K} (hd : Dict.WF d) (he : Dict.WF e)
    (h : ∀ t, Dict.val e t = Dict.val d t) {f : K → K → K} (hf : ∀ t, f t 0 = 0) :
    (e.map fun x => f x.1 x.2).sum = (d.map fun x => f x.1 x.2).sum := by
  have key : ∀ (d e : Dict K K), Dict.WF d → Dict.WF e → (d.map fun x => f x.1 x.2).sum =
      ∑ t ∈ (Dict.keys d).toFinset ∪ (Dict.keys e).toFinset, f t (Dict.val d t) := by
    intro d e hd he
    rw [sum_eq_finset hd]
    apply Finset.sum_subset Finset.subset_union_left
    intro t _ ht
    rw [Dict.val_of_not_mem (fun hm => ht (List.mem_toFinset.2 hm)), hf]
  rw [key e d he hd, key d e hd he, Finset.union_comm]
  apply Finset.sum_congr rfl
  intro t _
  rw [h]

theorem grown_map (A : K → K) (d : Dict K K) (t : K) :
    grown A d t = (d.map fun x => if x.1 ≤ t then x.2 * A (t - x.1) else 0).sum := by
  induction d with
  | nil => rfl
  | cons x d ih => rw [grown_cons, ih, List.map_cons, List.sum_cons]

theorem grown_vals (A : K → K) {d e : Dict K K} (hd : Dict.WF d) (he : Dict.WF e)
    (h : ∀ t, Dict.val e t = Dict.val d t) (t : K) : grown A e t = grown A d t := by
  rw [grown_map, grown_map]
  exact sum_vals hd he h (f := fun k v => if k ≤ t then v * A (t - k) else 0) (fun k => by simp)

theorem posSum_map (d : Dict K K) : posSum d = (d.map fun x => max x.2 0).sum := by
  unfold posSum Dict.vals
  induction d with
  | nil => rfl
  | cons x d ih =>
    rw [List.map_cons, List.filter_cons, List.map_cons, List.sum_cons, ← ih]
    by_cases h : x.2 > 0
    · simp [h, max_eq_left h.le]
    · simp [h, max_eq_right (not_lt.1 h)]

theorem negSum_map (d : Dict K K) : negSum d = (d.map fun x => min x.2 0).sum := by
  unfold negSum Dict.vals
  induction d with
  | nil => rfl
  | cons x d ih =>
    rw [List.map_cons, List.filter_cons, List.map_cons, List.sum_cons, ← ih]
    by_cases h : x.2 < 0
    · simp [h, min_eq_left h.le]
    · simp [h, min_eq_right (not_lt.1 h)]

/-! ## The invariant -/

/-- Two accounts with the same balance whose transactions of this year have the same net amounts. -/
structure Alike (a b : Acct K) : Prop where
  year : b.year = a.year
  growth : b.growth = a.growth
  timing : b.defaultTiming = a.defaultTiming
  inva : Inv a
  invb : Inv b
  bal : balance b = balance a
  net : ∀ t, Dict.val b.txns t = Dict.val a.txns t

theorem Alike.balanceAtTime {a b : Acct K} (h : Alike a b) (w : When K) (txs : Option (Dict K K))
    (htx : ∀ d ∈ txs, Dated d) : Account.balanceAtTime b w txs = Account.balanceAtTime a w txs := by
  cases hw : whenConv w with
  | error e => simp [Account.balanceAtTime, hw]
  | ok t =>
    have ht := whenConv_rng hw
    have hnum : ∀ a : Acct K, Account.balanceAtTime a w txs = Account.balanceAtTime a (.num t) txs := by
      intro a
      unfold Account.balanceAtTime
      rw [hw, whenConv_ok ht.1 ht.2]
    obtain ⟨x, hx⟩ := h.inva.balance_ok
    have hA : b.A = a.A := by unfold Acct.A; rw [h.growth, h.year]
    rw [hnum, hnum, balanceAtTime_eq h.inva hx ht txs htx,
      balanceAtTime_eq h.invb (h.bal.trans hx) ht txs htx, hA,
      grown_vals a.A h.inva.tx.wf h.invb.tx.wf h.net]

theorem Alike.figures {a b : Acct K} (h : Alike a b) : SameFigures a b := by
  have hp : posSum b.txns = posSum a.txns := by
    rw [posSum_map, posSum_map]
    exact sum_vals h.inva.tx.wf h.invb.tx.wf h.net (f := fun _ v => max v 0) (fun _ => max_self 0)
  have hn : negSum b.txns = negSum a.txns := by
    rw [negSum_map, negSum_map]
    exact sum_vals h.inva.tx.wf h.invb.tx.wf h.net (f := fun _ v => min v 0) (fun _ => min_self 0)
  have hi : ∀ txs, inflows b txs = inflows a txs := fun txs => by unfold inflows; rw [hp]
  have ho : ∀ txs, outflows b txs = outflows a txs := fun txs => by unfold outflows; rw [hn]
  have hr : returns b = returns a := by
    obtain ⟨x, r, h1, h2, h3⟩ := returns_reconcile h.inva
    obtain ⟨x', r', h1', h2', h3'⟩ := returns_reconcile h.invb
    rw [h.bal, h1] at h1'
    cases h1'
    rw [h.balanceAtTime _ none (by simp), h3, hi, ho] at h3'
    have h4 := Except.ok.inj h3'
    rw [h2, h2']
    have h5 : r' = r := by linarith
    rw [h5]
  have hT : ∀ target timing mx mn (txs : Option (Dict K K)), (∀ d ∈ txs, Dated d) →
      transactionsToBalance b target timing mx mn txs = transactionsToBalance a target timing mx mn txs := by
    intro target timing mx mn txs htx
    have hA : b.A = a.A := by unfold Acct.A; rw [h.growth, h.year]
    have hres : resolveTiming b timing = resolveTiming a timing := by
      unfold resolveTiming
      rw [h.timing]
    unfold transactionsToBalance
    rw [h.balanceAtTime _ txs htx, hA, hres]
  refine ⟨h.year, h.bal, h.balanceAtTime, hr, ?_, hi, ho, ?_, ?_, ?_, ?_, ?_, ?_⟩
  · unfold taxableIncome; rw [hr]
  · intro L t; unfold maxOutflow; rw [h.balanceAtTime _ none (by simp)]
  · intro L t; unfold debtMaxInflow; rw [h.balanceAtTime _ none (by simp)]
  · intro L f hf; unfold maxOutflows; rw [hT _ _ _ _ _ hf, ho]
  · intro L f hf; unfold maxInflows; rw [hT _ _ _ _ _ hf, hi]
  · intro L f hf; unfold minOutflows; rw [hT _ _ _ _ _ hf, ho]
  · intro L f hf; unfold minInflows; rw [hT _ _ _ _ _ hf, hi]

/-! ## Entering transactions, and the next year -/

theorem enter_ok {l : List (K × When K)} (hl : ∀ x ∈ l, ∃ t, whenConv x.2 = .ok t) {a : Acct K}
    (ha : Inv a) : ∃ b, enter a l = .ok b ∧ Inv b ∧ b = { a with txns := b.txns } ∧
      ∀ t, Dict.val b.txns t = Dict.val a.txns t + netAt l t := by
  induction l generalizing a with
  | nil => exact ⟨a, rfl, ha, rfl, fun t => by simp [netAt]⟩
  | cons x l ih =>
    obtain ⟨s, hs⟩ := hl x (by simp)
    have h1 := addTransaction_eq (a := a) (v := x.1) hs
    obtain ⟨b, h2, h3, h4, h5⟩ := ih (fun y hy => hl y (by simp [hy])) (inv_addTransaction ha h1)
    refine ⟨b, ?_, h3, h4, fun t => ?_⟩
    · unfold enter at h2 ⊢
      rw [List.foldlM_cons, h1, ok_bind]
      exact h2
    · rw [h5]
      unfold netAt
      simp only [Dict.val_set, List.map_cons, List.sum_cons, hs, Except.ok.injEq]
      by_cases hst : s = t
      · simp only [hst, if_true]; ring
      · simp only [hst, if_false]; ring

theorem Alike.enter {a b : Acct K} (h : Alike a b) {l l' : List (K × When K)} (hl : SameNet l l') :
    ∃ a' b', enter a l = .ok a' ∧ enter b l' = .ok b' ∧ Alike a' b' := by
  obtain ⟨a', e1, i1, r1, n1⟩ := enter_ok hl.left h.inva
  obtain ⟨b', e2, i2, r2, n2⟩ := enter_ok hl.right h.invb
  refine ⟨a', b', e1, e2, ?_, ?_, ?_, i1, i2, ?_, fun t => ?_⟩
  · rw [r1, r2]; exact h.year
  · rw [r1, r2]; exact h.growth
  · rw [r1, r2]; exact h.timing
  · rw [r1, r2, balance_txns_irrel, balance_txns_irrel]; exact h.bal
  · rw [n1, n2, h.net, hl.net]

theorem balance_next {a a' : Acct K} {x : K} (ha : Inv a) (hx : balance a = .ok x)
    (h : nextYear a = .ok a') :
    balance a' = .ok (x * a'.A 1 + grown a'.A a.txns 1) := by
  rw [nextYear_eq hx] at h
  cases h
  refine balance_of_prev ?_ ?_ ?_ ha.tx
  · show Dict.get? (Dict.set a.balHist a.year x) (a.year + 1) = none
    rw [Dict.get?_set, if_neg (by omega)]
    exact ha.future _ (by omega)
  · show Dict.get? (Dict.set a.balHist a.year x) (a.year + 1 - 1) = some x
    rw [Dict.get?_set, if_pos (by omega)]
  · show Dict.get? (Dict.set a.txHist a.year a.txns) (a.year + 1 - 1) = some a.txns
    rw [Dict.get?_set, if_pos (by omega)]

theorem Alike.nextYear {a b : Acct K} (h : Alike a b) :
    ∃ a' b', nextYear a = .ok a' ∧ nextYear b = .ok b' ∧ Alike a' b' := by
  obtain ⟨x, hx⟩ := h.inva.balance_ok
  have hx' := h.bal.trans hx
  have ea := nextYear_eq hx
  have eb := nextYear_eq hx'
  refine ⟨_, _, ea, eb, ?_, h.growth, h.timing, inv_nextYear h.inva ea, inv_nextYear h.invb eb, ?_,
    fun t => rfl⟩
  · show b.year + 1 = a.year + 1
    rw [h.year]
  · rw [balance_next h.inva hx ea, balance_next h.invb hx' eb]
    have hA : b.growth (b.year + 1) = a.growth (a.year + 1) := by rw [h.growth, h.year]
    show Except.ok (x * b.growth (b.year + 1) 1 + grown (b.growth (b.year + 1)) b.txns 1) =
      Except.ok (x * a.growth (a.year + 1) 1 + grown (a.growth (a.year + 1)) a.txns 1)
    rw [hA, grown_vals _ h.inva.tx.wf h.invb.tx.wf h.net]

theorem Alike.live {a b : Acct K} (h : Alike a b) {p p' : List (List (K × When K))}
    (hp : List.Forall₂ SameNet p p') :
    ∃ a' b', live a p = .ok a' ∧ live b p' = .ok b' ∧ Alike a' b' := by
  induction hp generalizing a b with
  | nil => exact ⟨a, b, rfl, rfl, h⟩
  | cons hl _ ih =>
    obtain ⟨a1, b1, e1, e2, h1⟩ := h.enter hl
    obtain ⟨a2, b2, e3, e4, h2⟩ := h1.nextYear
    obtain ⟨a3, b3, e5, e6, h3⟩ := ih h2
    refine ⟨a3, b3, ?_, ?_, h3⟩
    · simp only [Account.live, e1, e3, ok_bind, e5]
    · simp only [Account.live, e2, e4, ok_bind, e6]

theorem Alike.refl {a : Acct K} (ha : Inv a) : Alike a a :=
  ⟨rfl, rfl, rfl, ha, ha, rfl, fun _ => rfl⟩

/-! ## C128 -/

/-- **C128.** From any state an account can be in, after any number of years and then some transactions
of the year that has come: if in each of the years the transactions of every date add up to the same,
everything the account can be asked is the same. -/
theorem C128_only_net_amounts (a : Acct K) (ha : Reachable a) (past past' : List (List (K × When K)))
    (hp : List.Forall₂ SameNet past past') (now now' : List (K × When K)) (hn : SameNet now now') :
    ∃ b1 b1' b b', live a past = .ok b1 ∧ enter b1 now = .ok b ∧
      live a past' = .ok b1' ∧ enter b1' now' = .ok b' ∧ SameFigures b b' := by
  obtain ⟨b1, b1', e1, e2, h1⟩ := (Alike.refl ha.inv).live hp
  obtain ⟨b, b', e3, e4, h2⟩ := h1.enter hn
  exact ⟨b1, b1', b, b', e1, e3, e2, e4, h2.figures⟩

/-- The same transactions in another order have the same net amounts. -/
theorem C128_order (l l' : List (K × When K)) (hp : l.Perm l')
    (hl : ∀ x ∈ l, ∃ t, whenConv x.2 = .ok t) : SameNet l l' :=
  ⟨hl, fun x hx => hl x (hp.mem_iff.2 hx), fun _ => (hp.map _).sum_eq⟩

/-- An amount entered in two parts, anywhere among other transactions, whether the dates are given as
numbers or as `'start'` and `'end'`. -/
theorem C128_parts (l : List (K × When K)) (hl : ∀ x ∈ l, ∃ t, whenConv x.2 = .ok t) (v v' t : K)
    (w w' w'' : When K) (hw : whenConv w = .ok t) (hw' : whenConv w' = .ok t)
    (hw'' : whenConv w'' = .ok t) :
    SameNet ((v + v', w) :: l) ((v, w') :: (v', w'') :: l) := by
  refine ⟨?_, ?_, fun s => ?_⟩
  · intro x hx
    rcases List.mem_cons.1 hx with rfl | hx
    · exact ⟨t, hw⟩
    · exact hl x hx
  · intro x hx
    rcases List.mem_cons.1 hx with rfl | hx
    · exact ⟨t, hw'⟩
    rcases List.mem_cons.1 hx with rfl | hx
    · exact ⟨t, hw''⟩
    · exact hl x hx
  · unfold netAt
    simp only [List.map_cons, List.sum_cons, hw, hw', hw'', Except.ok.injEq]
    split_ifs <;> ring

/-- An amount entered and taken back on the same date leaves no trace. -/
theorem C128_taken_back (l : List (K × When K)) (hl : ∀ x ∈ l, ∃ t, whenConv x.2 = .ok t) (v t : K)
    (w : When K) (hw : whenConv w = .ok t) : SameNet ((v, w) :: (-v, w) :: l) l := by
  refine ⟨?_, hl, fun s => ?_⟩
  · intro x hx
    rcases List.mem_cons.1 hx with rfl | hx
    · exact ⟨t, hw⟩
    rcases List.mem_cons.1 hx with rfl | hx
    · exact ⟨t, hw⟩
    · exact hl x hx
  · unfold netAt
    simp only [List.map_cons, List.sum_cons, hw, Except.ok.injEq]
    split_ifs <;> ring

/-- Rearrangements can be chained, undone, and made to parts of a plan. -/
theorem C128_rearrangements {l l' l'' m m' : List (K × When K)} :
    ((∀ x ∈ l, ∃ t, whenConv x.2 = .ok t) → SameNet l l) ∧
    (SameNet l l' → SameNet l' l) ∧
    (SameNet l l' → SameNet l' l'' → SameNet l l'') ∧
    (SameNet l l' → SameNet m m' → SameNet (l ++ m) (l' ++ m')) := by
  refine ⟨fun h => ⟨h, h, fun _ => rfl⟩, fun h => ⟨h.right, h.left, fun t => (h.net t).symm⟩,
    fun h k => ⟨h.left, k.right, fun t => (h.net t).trans (k.net t)⟩, fun h k => ⟨?_, ?_, fun t => ?_⟩⟩
  · intro x hx
    rcases List.mem_append.1 hx with hx | hx
    · exact h.left x hx
    · exact k.left x hx
  · intro x hx
    rcases List.mem_append.1 hx with hx | hx
    · exact h.right x hx
    · exact k.right x hx
  · have e : ∀ a b : List (K × When K), netAt (a ++ b) t = netAt a t + netAt b t := fun a b => by
      simp [netAt]
    rw [e, e, h.net, k.net]

/-- The net amounts matter date by date: 100 put in at the start and taken out at the end is not
nothing, if there is interest. -/
theorem C128_dates_matter : ∃ (a b : Acct ℚ), Reachable a ∧
    enter a [(100, .str "start"), (-100, .str "end")] = .ok b ∧
    balanceAtTime b (.str "end") none ≠ balanceAtTime a (.str "end") none := by
  refine ⟨init 2000 0 (fun _ t => 1 + t / 10) [], _, ⟨_, _, _, _, [], rfl⟩, rfl, ?_⟩
  decide +kernel

/-- Concrete plans that meet the hypotheses of `C128_only_net_amounts`. -/
example : List.Forall₂ SameNet
    [[((30 : ℚ), .num 0), (-10, .num (1 / 2))], [(5, .str "end")]]
    [[(-10, .num (1 / 2)), (20, .num 0), (10, .str "start")], [(5, .num 1), (7, .num 0), (-7, .str "start")]] := by
  refine .cons ⟨?_, ?_, fun t => ?_⟩ (.cons ⟨?_, ?_, fun t => ?_⟩ .nil)
  · intro x hx
    fin_cases hx
    exacts [⟨0, by decide +kernel⟩, ⟨1 / 2, by decide +kernel⟩]
  · intro x hx
    fin_cases hx
    exacts [⟨1 / 2, by decide +kernel⟩, ⟨0, by decide +kernel⟩, ⟨0, by decide +kernel⟩]
  · have h1 : whenConv (.num (0 : ℚ)) = .ok 0 := by decide +kernel
    have h2 : whenConv (.num (1 / 2 : ℚ)) = .ok (1 / 2) := by decide +kernel
    have h3 : whenConv (.str "start" : When ℚ) = .ok 0 := by decide +kernel
    unfold netAt
    simp only [List.map_cons, List.map_nil, List.sum_cons, List.sum_nil, h1, h2, h3, Except.ok.injEq]
    split_ifs <;> norm_num
  · intro x hx
    fin_cases hx
    exact ⟨1, by decide +kernel⟩
  · intro x hx
    fin_cases hx
    exacts [⟨1, by decide +kernel⟩, ⟨0, by decide +kernel⟩, ⟨0, by decide +kernel⟩]
  · have h1 : whenConv (.num (0 : ℚ)) = .ok 0 := by decide +kernel
    have h2 : whenConv (.num (1 : ℚ)) = .ok 1 := by decide +kernel
    have h3 : whenConv (.str "start" : When ℚ) = .ok 0 := by decide +kernel
    have h4 : whenConv (.str "end" : When ℚ) = .ok 1 := by decide +kernel
    unfold netAt
    simp only [List.map_cons, List.map_nil, List.sum_cons, List.sum_nil, h1, h2, h3, h4, Except.ok.injEq]
    split_ifs <;> norm_num

end Forecaster.Account
