import Verif.Props.NetAmounts
import Verif.Props.Taxable

/-!
# A taxable account depends only on the net amount of every date (C128, continued)

Cost base, capital gains and taxable income too are the same if in every year the transactions of
every date add up to the same amount; and if one of the two histories fails (for want of anything to
sell), so does the other.
-/

set_option linter.unusedSectionVars false

namespace Forecaster.Taxable

open Forecaster Forecaster.Timing Forecaster.Account

variable {K : Type} [Field K] [LinearOrder K] [IsStrictOrderedRing K]

/-! ## Specification -/

/-- Years of a taxable account: the transactions of a year are entered, then the next year begins. -/
def liveT (a : TA K) : List (List (K × When K)) → Except PyErr (TA K)
  | [] => .ok a
  | l :: ls => do
    let a ← addAll a l
    let a ← nextYear a
    liveT a ls

/-- Everything two taxable accounts can be asked about this year is answered alike; what raises an
error in one raises the same error in the other. -/
structure SameTaxFigures (a b : TA K) : Prop where
  account : SameFigures a.acct b.acct
  costBase : acb b = acb a
  gain : (capitalGain b).map Prod.fst = (capitalGain a).map Prod.fst
  income : (taxableIncome b).map Prod.fst = (taxableIncome a).map Prod.fst

/-! ## The gain -/

theorem step_zero {a : Acct K} {s : K × K} {w : K} (h : Dict.val a.txns w = 0) :
    gainStep a s w = .ok s := by
  rw [gainStep_inflow h.ge, h, add_zero]

theorem fold_nonzero {a : Acct K} (l : List K) (s : K × K) :
    l.foldlM (gainStep a) s = (l.filter fun w => Dict.val a.txns w ≠ 0).foldlM (gainStep a) s := by
  induction l generalizing s with
  | nil => rfl
  | cons w l ih =>
    by_cases h : Dict.val a.txns w = 0
    · rw [List.filter_cons_of_neg (by simpa using h), List.foldlM_cons, step_zero h, ok_bind, ih]
    · rw [List.filter_cons_of_pos (by simpa using h), List.foldlM_cons, List.foldlM_cons]
      congr 1
      funext s'
      exact ih s'

theorem compute_alike {a b : Acct K} (h : Alike a b) (c : K) : computeGain b c = computeGain a c := by
  have hk : ∀ {d : Acct K}, Inv d → ∀ w, (w ∈ ((Dict.keys d.txns).insertionSort (· ≤ ·)).filter
      fun w => Dict.val d.txns w ≠ 0) ↔ Dict.val d.txns w ≠ 0 := by
    intro d _ w
    rw [List.mem_filter, List.mem_insertionSort]
    refine ⟨fun hw => by simpa using hw.2, fun hw => ⟨?_, by simpa using hw⟩⟩
    by_contra hm
    exact hw (Dict.val_of_not_mem hm)
  have hnd : ∀ {d : Acct K}, Inv d → (((Dict.keys d.txns).insertionSort (· ≤ ·)).filter
      fun w => Dict.val d.txns w ≠ 0).Nodup := fun hd =>
    List.Nodup.filter _ ((List.perm_insertionSort _ _).nodup_iff.2 hd.tx.wf)
  have hlist : (((Dict.keys b.txns).insertionSort (· ≤ ·)).filter fun w => Dict.val b.txns w ≠ 0) =
      ((Dict.keys a.txns).insertionSort (· ≤ ·)).filter fun w => Dict.val a.txns w ≠ 0 := by
    refine List.Perm.eq_of_pairwise' ((List.pairwise_insertionSort _ _).filter _)
      ((List.pairwise_insertionSort _ _).filter _) ?_
    refine (List.perm_ext_iff_of_nodup (hnd h.invb) (hnd h.inva)).2 fun w => ?_
    rw [hk h.invb, hk h.inva, h.net]
  unfold computeGain
  rw [fold_nonzero (a := b), fold_nonzero (a := a), hlist]
  refine foldlM_congr _ (fun w hw s => ?_) _
  unfold gainStep
  rw [h.net, h.balanceAtTime _ none (by simp)]

/-- Two taxable accounts with the same cost base and balance and the same net amounts this year. -/
structure AlikeT (a b : TA K) : Prop where
  acct : Alike a.acct b.acct
  inva : ∃ y, TInv y a
  invb : ∃ y, TInv y b
  acb : acb b = acb a

theorem gain_value {y0 : ℤ} {a : TA K} (hi : TInv y0 a) {c : K} (hc : acb a = .ok c) :
    (capitalGain a).map Prod.fst = (computeGain a.acct c).map Prod.snd := by
  rcases Option.eq_none_or_eq_some (Dict.get? a.gainHist a.acct.year) with h0 | ⟨g0, h0⟩
  · unfold capitalGain
    rw [h0]
    simp only [hc, ok_bind]
    cases computeGain a.acct c <;> rfl
  · obtain ⟨d, d', h1, h2, -⟩ := hi.cache _ h0
    have : d = c := by simpa [Taxable.acb, look, h1] using hc
    subst this
    rw [h2]
    unfold capitalGain
    rw [h0]
    rfl

theorem AlikeT.gain {a b : TA K} (h : AlikeT a b) :
    (capitalGain b).map Prod.fst = (capitalGain a).map Prod.fst := by
  obtain ⟨y, hi⟩ := h.inva
  obtain ⟨y', hi'⟩ := h.invb
  obtain ⟨c, hc⟩ := hi.now
  have e : Taxable.acb a = .ok c := by simp [Taxable.acb, look, hc]
  rw [gain_value hi e, gain_value hi' (h.acb.trans e), compute_alike h.acct]

theorem AlikeT.figures {a b : TA K} (h : AlikeT a b) : SameTaxFigures a b := by
  refine ⟨h.acct.figures, h.acb, h.gain, ?_⟩
  have e : ∀ a : TA K, (taxableIncome a).map Prod.fst = ((capitalGain a).map Prod.fst).map (· / 2) := by
    intro a
    unfold taxableIncome
    cases capitalGain a <;> rfl
  rw [e, e, h.gain]

/-! ## Entering transactions, and the next year -/

theorem addAll_ok {l : List (K × When K)} (hl : ∀ x ∈ l, ∃ t, whenConv x.2 = .ok t) (a : TA K) :
    ∃ b, addAll a l = .ok b := by
  induction l generalizing a with
  | nil => exact ⟨a, rfl⟩
  | cons x l ih =>
    obtain ⟨t, ht⟩ := hl x (by simp)
    have e : ∃ a1, addTransaction a x.1 x.2 = .ok a1 := by
      unfold addTransaction
      rw [addTransaction_eq ht]
      exact ⟨_, rfl⟩
    obtain ⟨a1, e⟩ := e
    obtain ⟨b, h⟩ := ih (fun y hy => hl y (by simp [hy])) a1
    refine ⟨b, ?_⟩
    unfold addAll at h ⊢
    rw [List.foldlM_cons, e, ok_bind]
    exact h

theorem AlikeT.addAll {a b : TA K} (h : AlikeT a b) {l l' : List (K × When K)} (hl : SameNet l l') :
    ∃ a' b', addAll a l = .ok a' ∧ addAll b l' = .ok b' ∧ AlikeT a' b' := by
  obtain ⟨y, hi⟩ := h.inva
  obtain ⟨y', hi'⟩ := h.invb
  obtain ⟨a', ea⟩ := addAll_ok hl.left a
  obtain ⟨b', eb⟩ := addAll_ok hl.right b
  obtain ⟨p1, p2, p3, -, p5, -⟩ := val_addAll l ea hi
  obtain ⟨q1, q2, q3, -, q5, -⟩ := val_addAll l' eb hi'
  refine ⟨a', b', ea, eb, ⟨?_, ?_, ?_, p1.acct, q1.acct, ?_, fun t => ?_⟩, ⟨_, p1⟩, ⟨_, q1⟩, ?_⟩
  · rw [p2, q2]; exact h.acct.year
  · rw [p2, q2]; exact h.acct.growth
  · rw [p2, q2]; exact h.acct.timing
  · rw [p2, q2, balance_txns_irrel, balance_txns_irrel]; exact h.acct.bal
  · rw [p5, q5, h.acct.net]
    congr 1
    exact (hl.net t).symm
  · rw [p3, q3, h.acb]

theorem compute_error {a : Acct K} (ha : Inv a) (l : List K) (hl : ∀ w ∈ l, 0 ≤ w ∧ w ≤ 1) (s : K × K)
    {e : PyErr} (h : l.foldlM (gainStep a) s = .error e) : e = .zeroDivisionError := by
  induction l generalizing s with
  | nil => cases h
  | cons w l ih =>
    rw [List.foldlM_cons] at h
    cases hs : gainStep a s w with
    | ok s' =>
      rw [hs, ok_bind] at h
      exact ih (fun x hx => hl x (by simp [hx])) s' h
    | error e' =>
      rw [hs] at h
      cases h
      unfold gainStep at hs
      dsimp only at hs
      split at hs
      · cases hs
      obtain ⟨x, hx⟩ := ha.balance_ok
      rw [balanceAtTime_eq ha hx (hl w (by simp)) none (by simp), ok_bind] at hs
      split at hs
      · exact (Except.error.inj hs).symm
      · cases hs

theorem AlikeT.nextYear {a b : TA K} (h : AlikeT a b) :
    (∃ a' b', nextYear a = .ok a' ∧ nextYear b = .ok b' ∧ AlikeT a' b') ∨
    (nextYear a = .error .zeroDivisionError ∧ nextYear b = .error .zeroDivisionError) := by
  obtain ⟨y, hi⟩ := h.inva
  obtain ⟨y', hi'⟩ := h.invb
  obtain ⟨c, hc⟩ := hi.now
  have e : Taxable.acb a = .ok c := by simp [Taxable.acb, look, hc]
  have e' := h.acb.trans e
  cases hr : computeGain a.acct c with
  | ok r =>
    obtain ⟨c', g⟩ := r
    obtain ⟨-, a', -, na, ca⟩ := nextYear_of_compute hi e hr
    obtain ⟨-, b', -, nb, cb⟩ := nextYear_of_compute hi' e' ((compute_alike h.acct c).trans hr)
    obtain ⟨ia, -, -, -, -, -, -, -, -, ta, -⟩ := nextYear_spec hi na
    obtain ⟨ib, -, -, -, -, -, -, -, -, tb, -⟩ := nextYear_spec hi' nb
    obtain ⟨a2, b2, ua, ub, h2⟩ := h.acct.nextYear
    rw [ta] at ua
    rw [tb] at ub
    cases ua
    cases ub
    exact .inl ⟨a', b', na, nb, h2, ⟨_, ia⟩, ⟨_, ib⟩, cb.trans ca.symm⟩
  | error er =>
    refine .inr ?_
    have her : er = .zeroDivisionError :=
      compute_error hi.acct _ (fun w hw => hi.acct.tx.rng w (mem_sorted w hw)) _ hr
    subst her
    have key : ∀ {d : TA K} {z : ℤ}, TInv z d → Taxable.acb d = .ok c →
        computeGain d.acct c = .error .zeroDivisionError →
        Taxable.nextYear d = .error .zeroDivisionError := by
      intro d z hd hcd he
      have := gain_value hd hcd
      rw [he] at this
      unfold Taxable.nextYear
      cases hg : capitalGain d with
      | ok r => rw [hg] at this; cases this
      | error x => rw [hg] at this; cases this; rfl
    exact ⟨key hi e hr, key hi' e' ((compute_alike h.acct c).trans hr)⟩

theorem AlikeT.live {a b : TA K} (h : AlikeT a b) {p p' : List (List (K × When K))}
    (hp : List.Forall₂ SameNet p p') :
    (∃ a' b', liveT a p = .ok a' ∧ liveT b p' = .ok b' ∧ AlikeT a' b') ∨
    (liveT a p = .error .zeroDivisionError ∧ liveT b p' = .error .zeroDivisionError) := by
  induction hp generalizing a b with
  | nil => exact .inl ⟨a, b, rfl, rfl, h⟩
  | cons hl _ ih =>
    obtain ⟨a1, b1, e1, e2, h1⟩ := h.addAll hl
    rcases h1.nextYear with ⟨a2, b2, e3, e4, h2⟩ | ⟨e3, e4⟩
    · rcases ih h2 with ⟨a3, b3, e5, e6, h3⟩ | ⟨e5, e6⟩
      · refine .inl ⟨a3, b3, ?_, ?_, h3⟩
        · simp only [liveT, e1, e3, ok_bind, e5]
        · simp only [liveT, e2, e4, ok_bind, e6]
      · refine .inr ⟨?_, ?_⟩
        · simp only [liveT, e1, e3, ok_bind, e5]
        · simp only [liveT, e2, e4, ok_bind, e6]
    · refine .inr ⟨?_, ?_⟩
      · simp only [liveT, e1, e3, ok_bind]; rfl
      · simp only [liveT, e2, e4, ok_bind]; rfl

/-- **C128** (taxable accounts). From any state a taxable account can be in, after any number of years
and then some transactions of the year that has come: if in each of the years the transactions of every
date add up to the same, then either every figure, among them cost base, capital gain and taxable
income, is the same, or both histories end in a `ZeroDivisionError`. -/
theorem C128_taxable_account (a : TA K) (ha : Reachable a) (past past' : List (List (K × When K)))
    (hp : List.Forall₂ SameNet past past') (now now' : List (K × When K)) (hn : SameNet now now') :
    (∃ b1 b1' b b', liveT a past = .ok b1 ∧ addAll b1 now = .ok b ∧
      liveT a past' = .ok b1' ∧ addAll b1' now' = .ok b' ∧ SameTaxFigures b b') ∨
    (liveT a past = .error .zeroDivisionError ∧ liveT a past' = .error .zeroDivisionError) := by
  obtain ⟨y, hi⟩ := ha.tinv
  rcases (AlikeT.mk (Alike.refl hi.acct) ⟨y, hi⟩ ⟨y, hi⟩ rfl).live hp with
    ⟨b1, b1', e1, e2, h1⟩ | h
  · obtain ⟨b, b', e3, e4, h2⟩ := h1.addAll hn
    exact .inl ⟨b1, b1', b, b', e1, e3, e2, e4, h2.figures⟩
  · exact .inr h

/-- The first case occurs: a year in which half is sold, entered in two ways, with a gain. -/
example : ((liveT sample [[(-20, .num 1), (5, .num 0)]]).bind acb) =
      ((liveT sample [[(3, .str "start"), (-20, .str "end"), (2, .num 0), (7, .num 1), (-7, .num 1)]]).bind acb) ∧
    (((liveT sample [[(-20, .num 1), (5, .num 0)]]).bind acb).toOption).isSome ∧
    (capitalGain sample).map Prod.fst = .ok (75 / 2) := by
  decide +kernel

/-- And so does the second: selling from an account that has been emptied. -/
example : (liveT (init 2000 (0 : ℚ) (fun _ _ => 1) [] none)
      [[(-5, .num 0), (5, .num (1 / 2))]]).map (fun _ => ()) =
    .error .zeroDivisionError := by
  decide +kernel

end Forecaster.Taxable
