import Verif.Props.Link

/-!
# Linked accounts: withdrawals and minimum flows (C78)
-/

set_option linter.unusedSectionVars false

namespace Forecaster.Link

open Forecaster Forecaster.Timing Forecaster.Account

variable {K : Type} [Field K] [LinearOrder K] [IsStrictOrderedRing K]

/-- **Specification.** `m` pools transactions: on every date, the account's own hypothetical ones (the
argument `transactions`, or else the account's entry in `group_transactions`) and, of every other
linked account, the recorded ones and the entry in `group_transactions`. -/
structure Pooled (transactions own : Option (Dict K K)) (others : List (Dict K K × Option (Dict K K)))
    (m : Dict K K) : Prop where
  wf : Dict.WF m
  val : ∀ t, Dict.val m t = Dict.val (transactions.getD (own.getD [])) t
    + (others.map fun o => Dict.val o.1 t + Dict.val (o.2.getD []) t).sum

/-- **C78.** For all four flow limits, a linked account answers as an ordinary account with the same
limits would with the pooled transactions of the group as hypothetical transactions. -/
theorem C78_as_if_pooled (L : Limits K) (a : Acct K) (k : FlowArgs K) (own : Option (Dict K K))
    (others : List (Dict K K × Option (Dict K K)))
    (h0 : ∀ t ∈ k.transactions, Dict.WF t) (h1 : ∀ t ∈ own, Dict.WF t)
    (h2 : ∀ o ∈ others, Dict.WF o.1 ∧ ∀ e ∈ o.2, Dict.WF e) :
    ∃ m, Pooled k.transactions own others m ∧
      linkedMaxInflows L a k own (some others) = maxInflows L a { k with transactions := some m } ∧
      linkedMaxOutflows L a k own (some others) = maxOutflows L a { k with transactions := some m } ∧
      linkedMinInflows L a k own (some others) = minInflows L a { k with transactions := some m } ∧
      linkedMinOutflows L a k own (some others)
        = minOutflows L a { k with transactions := some m } :=
  ⟨mergeTransactions k.transactions own (some others),
    ⟨(C26_merge_transactions _ _ _ h0 h1 h2 0).1,
      fun t => (C26_merge_transactions _ _ _ h0 h1 h2 t).2.1⟩, rfl, rfl, rfl, rfl⟩

/-- **C78.** An account that is not linked answers as an ordinary account. -/
theorem C78_unlinked (L : Limits K) (a : Acct K) (k : FlowArgs K) (own : Option (Dict K K)) :
    let k' := { k with transactions := some (k.transactions.getD (own.getD [])) }
    linkedMaxInflows L a k own none = maxInflows L a k' ∧
    linkedMaxOutflows L a k own none = maxOutflows L a k' ∧
    linkedMinInflows L a k own none = minInflows L a k' ∧
    linkedMinOutflows L a k own none = minOutflows L a k' := by
  have h : mergeTransactions k.transactions own none = k.transactions.getD (own.getD []) := by
    unfold mergeTransactions
    cases k.transactions <;> rfl
  simp only [linkedMaxInflows, linkedMaxOutflows, linkedMinInflows, linkedMinOutflows, h, and_self]

/-- Hypotheses on the group, the mirror image of `Unmixed`. -/
structure UnmixedOut (as : List (Acct K)) : Prop where
  sameSign : ∀ k, (∀ a ∈ as, 0 ≤ Dict.val a.txns k) ∨ (∀ a ∈ as, Dict.val a.txns k ≤ 0)
  dates : ∀ a ∈ as, ∀ k ∈ Dict.keys a.defaultTiming, ∀ b ∈ as, Dict.val b.txns k ≤ 0

/-- Total withdrawals of the group this year (a negative number or zero). -/
def groupOut (as : List (Acct K)) : K := (as.map fun a => outflows a none).sum

theorem negSum_eq_neg (d : Dict K K) : negSum d = -posSum (Dict.mapVals (fun x => -x) d) := by
  unfold negSum posSum Dict.vals Dict.mapVals
  induction d with
  | nil => simp
  | cons x d ih =>
    simp only [List.map_cons, List.filter_cons] at ih ⊢
    by_cases h : x.2 < 0
    · simp only [h, decide_true, if_true, List.sum_cons, ih]
      rw [if_pos (by simpa using h), List.sum_cons]
      ring
    · simp only [h, decide_false, Bool.false_eq_true, if_false, ih]
      rw [if_neg (by simpa using h)]

theorem negSum_date {d : Dict K K} (hd : Dict.WF d) (F : Finset K) (hF : ∀ k ∈ Dict.keys d, k ∈ F) :
    negSum d = ∑ k ∈ F, min (Dict.val d k) 0 := by
  have hk : Dict.keys (Dict.mapVals (fun x : K => -x) d) = Dict.keys d := by
    simp [Dict.keys, Dict.mapVals]
  rw [negSum_eq_neg, posSum_eq (by unfold Dict.WF; rw [hk]; exact hd) F (by rw [hk]; exact hF),
    ← Finset.sum_neg_distrib]
  apply Finset.sum_congr rfl
  intro k _
  have : Dict.val (Dict.mapVals (fun x : K => -x) d) k = -Dict.val d k := by
    have := val_mapVals_mul d (-1 : K) k
    simpa using this
  rw [this]
  rcases le_total (Dict.val d k) 0 with h | h
  · rw [max_eq_left (by linarith), min_eq_left h, neg_neg]
  · rw [max_eq_right (by linarith), min_eq_right h, neg_zero]

theorem min_sum {l : List K} (h : (∀ x ∈ l, 0 ≤ x) ∨ (∀ x ∈ l, x ≤ 0)) :
    min l.sum 0 = (l.map fun x => min x 0).sum := by
  rcases h with h | h
  · rw [min_eq_right (List.sum_nonneg h)]
    symm
    apply List.sum_eq_zero
    intro y hy
    obtain ⟨x, hx, rfl⟩ := List.mem_map.1 hy
    exact min_eq_right (h x hx)
  · have h1 : l.sum ≤ 0 := by
      induction l with
      | nil => simp
      | cons x l ih =>
        rw [List.sum_cons]
        exact add_nonpos (h x (by simp)) (ih fun y hy => h y (by simp [hy]))
    rw [min_eq_left h1]
    congr 1
    conv_lhs => rw [← List.map_id l]
    exact List.map_congr_left fun x hx => (min_eq_left (h x hx)).symm

theorem val_nonpos {d : Dict K K} (h : ∀ kv ∈ d, kv.2 ≤ 0) (k : K) : Dict.val d k ≤ 0 := by
  unfold Dict.val
  cases hg : Dict.get? d k with
  | none => simp
  | some v => exact h _ (Dict.mem_of_get? hg)

theorem total_nonpos' {d : Dict K K} (h : ∀ kv ∈ d, kv.2 ≤ 0) : Dict.total d ≤ 0 := by
  induction d with
  | nil => simp
  | cons x l ih =>
    rw [Dict.total_cons]
    exact add_nonpos (h x (by simp)) (ih fun y hy => h y (by simp [hy]))

/-- The schedule of `max_outflows` has dates within the year. -/
theorem maxOutflows_dated {L : Limits K} {a : Acct K} {k : FlowArgs K} {tm : Dict K K}
    (h : Ready a k.timing k.transactions tm) {d : Dict K K}
    (hd : maxOutflows L a k = .ok (Dict.mapVals Ext.fin d)) : Dated d := by
  obtain ⟨nt, ref, hnt, hw, -, href, -⟩ := core h.fit
  unfold maxOutflows at hd
  rw [ttb_eq href h.resolves hnt h.growth hw] at hd
  have hk : Dict.keys d = Dict.keys nt := by
    have := congrArg (fun r => match r with | Except.ok d => Dict.keys d | .error _ => []) hd
    simpa using this.symm
  exact ⟨by unfold Dict.WF; rw [hk]; exact hw.wf, by rw [hk]; exact hw.rng⟩

theorem mergeOthers_dated {bs : List (Acct K)} (h : ∀ b ∈ bs, Usable b) :
    Dated (mergeTransactions none none
      (some (bs.map fun b => (b.txns, (none : Option (Dict K K)))))) := by
  have gen : ∀ (os : List (Dict K K × Option (Dict K K))) (t : Dict K K), Dated t →
      (∀ o ∈ os, Dated o.1 ∧ o.2 = none) → Dated (os.foldl mergeOne t) := by
    intro os
    induction os with
    | nil => intro t ht _; exact ht
    | cons o os ih =>
      intro t ht ho
      obtain ⟨h1, h2⟩ := ho o (by simp)
      apply ih _ _ fun x hx => ho x (by simp [hx])
      unfold mergeOne; rw [h2]
      exact dated_add ht h1
  refine gen _ [] dated_nil ?_
  intro o ho
  obtain ⟨b, hb, rfl⟩ := List.mem_map.1 ho
  exact ⟨(h b hb).reach.inv.tx, rfl⟩

/-- One withdrawal respects the shared limit. -/
theorem withdraw_step (lim : K) (as : List (Acct K)) (hc : ∀ a ∈ as, Usable a)
    (hu : UnmixedOut as) (i : ℕ) (hi : i < as.length) :
    ∃ as', withdraw lim as i = .ok as' ∧ as'.length = as.length ∧ (∀ a ∈ as', Usable a) ∧
      UnmixedOut as' ∧ min lim (groupOut as) ≤ groupOut as' ∧ groupOut as' ≤ groupOut as := by
  obtain ⟨a, ha⟩ : ∃ a, as[i]? = some a := ⟨as[i], by simp [hi]⟩
  have ham : a ∈ as := List.mem_of_getElem? ha
  have hca := hc a ham
  set others := (as.eraseIdx i).map fun b => (b.txns, (none : Option (Dict K K))) with hoth
  set mg := mergeTransactions none none (some others) with hmg
  have hoc : ∀ b ∈ as.eraseIdx i, Usable b := fun b hb => hc b (List.mem_of_mem_eraseIdx hb)
  have hmdated : Dated mg := mergeOthers_dated hoc
  have hmval : ∀ k, Dict.val mg k = ((as.eraseIdx i).map fun b => Dict.val b.txns k).sum := by
    intro k
    have := (C26_merge_transactions none none others (by simp) (by simp)
      (by
        intro o ho
        obtain ⟨b, hb, rfl⟩ := List.mem_map.1 ho
        exact ⟨(hoc b hb).reach.inv.tx.wf, by simp⟩) k).2.1
    rw [hmg, this, hoth, List.map_map]
    simp [Function.comp_def, Dict.val_nil]
  have hready : Ready a none (some mg) a.defaultTiming :=
    ⟨hca.reach, hca.growth, rfl, hca.timing, by
      intro d hd; simp only [Option.mem_def, Option.some.injEq] at hd; subst hd; exact hmdated⟩
  obtain ⟨d, a', ref, e, hd1, hd2, hd3, -, -, -, -, -, hd4, -⟩ := C22_max_outflows
    { plainLimits with maxOut := .fin lim } a { transactions := some mg } a.defaultTiming hready 0 rfl
  have hdd : Dated d := maxOutflows_dated hready hd1
  have happ := applyAll_eq a hdd.rng
  have hfin : withdraw lim as i = .ok (as.set i { a with txns := addTransactions a.txns d }) := by
    unfold withdraw linkedMaxOutflows
    rw [ha]
    simp only [← hoth, ← hmg, hd1, ok_bind, finVals_map]
    unfold applyAll at happ
    rw [happ, ok_bind]
  have hnew : Usable { a with txns := addTransactions a.txns d } :=
    ⟨reachable_apply hca.reach hdd.rng happ, hca.growth, hca.timing⟩
  have hdk : ∀ k, Dict.val d k ≤ 0 ∧ (Dict.val d k ≠ 0 → ∀ b ∈ as, Dict.val b.txns k ≤ 0) := by
    intro k
    refine ⟨val_nonpos hd3 k, fun hne => hu.dates a ham k ?_⟩
    by_contra hk
    apply hne
    rw [hd2 k, if_neg hk, Dict.val_of_not_mem hk]
    simp
  have hval : ∀ k, Dict.val (addTransactions a.txns d) k = Dict.val a.txns k + Dict.val d k :=
    fun k => val_add _ hdd.wf k
  refine ⟨_, hfin, by simp, ?_, ⟨?_, ?_⟩, ?_⟩
  · intro x hx
    rcases List.mem_or_eq_of_mem_set hx with h | h
    · exact hc x h
    · rw [h]; exact hnew
  · intro k
    by_cases h0 : Dict.val d k = 0
    · have hsame : ∀ x ∈ as.set i { a with txns := addTransactions a.txns d }, ∃ y ∈ as,
          Dict.val x.txns k = Dict.val y.txns k := by
        intro x hx
        rcases List.mem_or_eq_of_mem_set hx with h | h
        · exact ⟨x, h, rfl⟩
        · subst h; exact ⟨a, ham, by simp only; rw [hval, h0, add_zero]⟩
      rcases hu.sameSign k with h | h
      · left; intro x hx; obtain ⟨y, hy, e⟩ := hsame x hx; rw [e]; exact h y hy
      · right; intro x hx; obtain ⟨y, hy, e⟩ := hsame x hx; rw [e]; exact h y hy
    · right
      intro x hx
      rcases List.mem_or_eq_of_mem_set hx with h | h
      · exact (hdk k).2 h0 x h
      · subst h; simp only; rw [hval]; exact add_nonpos ((hdk k).2 h0 a ham) (hdk k).1
  · intro x hx k hk
    have hx' : ∃ y ∈ as, y.defaultTiming = x.defaultTiming := by
      rcases List.mem_or_eq_of_mem_set hx with h | h
      · exact ⟨x, h, rfl⟩
      · subst h; exact ⟨a, ham, rfl⟩
    obtain ⟨y, hy, e⟩ := hx'
    have hall := hu.dates y hy k (by rw [e]; exact hk)
    intro b hb
    rcases List.mem_or_eq_of_mem_set hb with h | h
    · exact hall b h
    · subst h; simp only; rw [hval]; exact add_nonpos (hall a ham) (hdk k).1
  · obtain ⟨hs1, hs2⟩ := sum_set_eq (a' := { a with txns := addTransactions a.txns d }) ha
      (fun a : Acct K => outflows a none)
    have hin : ∀ x : Acct K, outflows x none = negSum x.txns := by intro x; simp [outflows]
    let F : Finset K := (Dict.keys mg).toFinset ∪ (Dict.keys d).toFinset ∪
      (Dict.keys (addTransactions a.txns d)).toFinset ∪
      (as.flatMap fun b => Dict.keys b.txns).toFinset
    have hFas : ∀ b ∈ as, ∀ k ∈ Dict.keys b.txns, k ∈ F := by
      intro b hb k hk
      simp only [F, Finset.mem_union, List.mem_toFinset, List.mem_flatMap]
      exact .inr ⟨b, hb, hk⟩
    have hmt : negSum mg = ((as.eraseIdx i).map fun a => outflows a none).sum := by
      rw [negSum_date hmdated.wf F (by intro k hk; simp [F, hk])]
      have h1 : ∀ k, min (Dict.val mg k) 0 =
          ((as.eraseIdx i).map fun b => min (Dict.val b.txns k) 0).sum := by
        intro k
        rw [hmval, min_sum, List.map_map]
        · rfl
        · rcases hu.sameSign k with h | h
          · left
            intro x hx
            obtain ⟨b, hb, rfl⟩ := List.mem_map.1 hx
            exact h b (List.mem_of_mem_eraseIdx hb)
          · right
            intro x hx
            obtain ⟨b, hb, rfl⟩ := List.mem_map.1 hx
            exact h b (List.mem_of_mem_eraseIdx hb)
      simp only [h1]
      rw [sum_list_swap]
      congr 1
      apply List.map_congr_left
      intro b hb
      have hb' := List.mem_of_mem_eraseIdx hb
      rw [hin, negSum_date (hc b hb').reach.inv.tx.wf F (hFas b hb')]
    have hia : outflows a (some mg) = groupOut as := by
      unfold groupOut
      rw [hs2, ← hmt, hin a]
      simp only [outflows]
      ring
    have hadd : negSum (addTransactions a.txns d) = negSum a.txns + Dict.total d := by
      rw [negSum_date (wf_add hca.reach.inv.tx.wf d) F (by intro k hk; simp [F, hk]),
        negSum_date hca.reach.inv.tx.wf F (hFas a ham),
        total_eq_sum hdd.wf F (by intro k hk; simp [F, hk]), ← Finset.sum_add_distrib]
      apply Finset.sum_congr rfl
      intro k _
      rw [hval]
      by_cases h0 : Dict.val d k = 0
      · rw [h0, add_zero, add_zero]
      · have h1 := (hdk k).2 h0 a ham
        rw [min_eq_left h1, min_eq_left (add_nonpos h1 (hdk k).1)]
    have ht0 : Dict.total d ≤ 0 := total_nonpos' hd3
    have hg : groupOut (as.set i { a with txns := addTransactions a.txns d })
        = groupOut as + Dict.total d := by
      unfold groupOut
      rw [hs1, hin a, hin]
      simp only
      rw [hadd]
      ring
    rw [hg]
    refine ⟨?_, by linarith⟩
    rw [← outflows_eq, hia] at hd4
    rcases hd4 with h | h
    · rw [h, add_zero]; exact min_le_right _ _
    · exact (min_le_left _ _).trans (by simpa using h)

/-- **C78.** However the linked accounts take turns in withdrawing all that `max_outflows()` allows,
the group's withdrawals never exceed the shared limit (or what had been withdrawn before, if that was
already more) - unless contributions and withdrawals are on the same date. (Withdrawals are negative
numbers.) -/
theorem C78_shared_limit_not_exceeded (lim : K) (as : List (Acct K))
    (hc : ∀ a ∈ as, Usable a) (hu : UnmixedOut as) (turns : List ℕ)
    (hi : ∀ i ∈ turns, i < as.length) :
    ∃ as', turns.foldlM (withdraw lim) as = .ok as' ∧
      min lim (groupOut as) ≤ groupOut as' ∧ groupOut as' ≤ groupOut as := by
  induction turns generalizing as with
  | nil => exact ⟨as, rfl, min_le_right _ _, le_rfl⟩
  | cons i turns ih =>
    obtain ⟨as1, h1, h2, h3, hu1, h4, h5⟩ := withdraw_step lim as hc hu i (hi i (by simp))
    obtain ⟨as2, h6, h7, h8⟩ := ih as1 h3 hu1 fun j hj => by rw [h2]; exact hi j (by simp [hj])
    refine ⟨as2, by rw [List.foldlM_cons, h1, ok_bind, h6], ?_, h8.trans h5⟩
    exact le_trans (le_min (min_le_left _ _) h4) h7

/-- Account with the given balance and transactions. -/
def richAcct (b : ℚ) (ops : List (Account.Op ℚ)) : Acct ℚ :=
  Account.run (init 2000 b (fun _ _ => 1) [(1 / 2, 1)]) ops

theorem rich_usable (b : ℚ) (ops : List (Account.Op ℚ)) : Usable (richAcct b ops) := by
  have hg : (richAcct b ops).growth = fun _ _ => 1 := by
    unfold richAcct; rw [(run_const _ _).1]; rfl
  have hd : (richAcct b ops).defaultTiming = [(1 / 2, 1)] := by
    unfold richAcct; rw [(run_const _ _).2]; rfl
  refine ⟨⟨_, _, _, _, _, rfl⟩, ?_, ?_⟩
  · unfold Acct.A; rw [hg]
    exact ⟨rfl, fun _ _ => (one_mul _).symm, fun _ => zero_lt_one⟩
  · rw [hd]
    exact ⟨⟨by unfold Dict.WF; decide +kernel, by decide +kernel⟩, by decide +kernel,
      by decide +kernel⟩

/-- Two accounts with 30 and 1000, together allowed to withdraw 100. -/
example : ∃ as : List (Acct ℚ), as = [richAcct 30 [], richAcct 1000 []] ∧ (∀ a ∈ as, Usable a) ∧
    UnmixedOut as ∧
    ([0, 1].foldlM (withdraw (-100)) as).map (List.map (·.txns)) = .ok [[(1 / 2, -30)], [(1 / 2, -70)]] := by
  refine ⟨_, rfl, ?_, ⟨fun k => .inr ?_, fun a _ k _ => ?_⟩, by decide +kernel⟩
  · intro a ha
    simp only [List.mem_cons, List.not_mem_nil, or_false] at ha
    rcases ha with rfl | rfl <;> exact rich_usable _ _
  all_goals
    intro a ha
    have h1 : ∀ b, (richAcct b []).txns = [] := fun _ => rfl
    simp only [List.mem_cons, List.not_mem_nil, or_false] at ha
    rcases ha with rfl | rfl <;> rw [h1] <;> exact (Dict.val_nil k).le

/-- **C78 is false for balances**: an empty account whose withdrawal limit is linked to that of an
account that has received 100 may withdraw these 100: its own balance becomes -100. -/
theorem C78_linked_account_overdrawn :
    ∃ as : List (Acct ℚ), (∀ a ∈ as, Usable a) ∧
      as.map (fun a => balanceAtTime a (.str "end") none) = [.ok 100, .ok 0] ∧
      (withdraw (-500) as 1).map (List.map fun a => balanceAtTime a (.str "end") none)
        = .ok [.ok 100, .ok (-100)] := by
  refine ⟨[richAcct 0 [.add 100 (.num (1 / 4))], richAcct 0 []], ?_, by decide +kernel,
    by decide +kernel⟩
  intro a ha
  simp only [List.mem_cons, List.not_mem_nil, or_false] at ha
  rcases ha with rfl | rfl <;> exact rich_usable _ _

/-- **C78 is false for balances**, the other way: when a linked account has withdrawn all of its
100, another one that still holds 100 may not withdraw anything, although the shared limit of 500 is
far away. -/
theorem C78_linked_account_blocked :
    ∃ as : List (Acct ℚ), (∀ a ∈ as, Usable a) ∧ groupOut as = -100 ∧
      as.map (fun a => balanceAtTime a (.str "end") none) = [.ok 0, .ok 100] ∧
      (withdraw (-500) as 1).map (List.map fun a => balanceAtTime a (.str "end") none)
        = .ok [.ok 0, .ok 100] := by
  refine ⟨[richAcct 100 [.add (-100) (.num (1 / 4))], richAcct 100 []], ?_, by decide +kernel,
    by decide +kernel, by decide +kernel⟩
  intro a ha
  simp only [List.mem_cons, List.not_mem_nil, or_false] at ha
  rcases ha with rfl | rfl <;> exact rich_usable _ _

/-- A linked account with a minimum withdrawal: the withdrawals of the others count towards it. -/
example : linkedMinOutflows { (plainLimits : Limits ℚ) with minOut := .fin (-50) } (richAcct 1000 []) {}
    none (some [([(1 / 4, -30)], some [(3 / 4, -5)])]) = .ok [(1 / 2, .fin (-15))] := by decide +kernel

end Forecaster.Link
