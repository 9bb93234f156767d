import Verif.Props.Account
import Mathlib.Data.List.Sort

/-!
# Property C104: saving more, earlier or at better rates never leaves one with less

Two accounts that are used in the same way, but for the amounts, are compared at every moment of
every year, over any number of years.
-/

set_option linter.unusedSectionVars false

namespace Forecaster.Account

open Forecaster Forecaster.Timing

variable {K : Type} [Field K] [LinearOrder K] [IsStrictOrderedRing K]

/-! ### Specification -/

/-- **Specification.** A plan for several years: what is paid in (or, negative, taken out) in each
year, as dates and amounts in any order. -/
abbrev Plan (K : Type) := List (List (K × K))

/-- **Specification.** Every date lies within the year. -/
def Plan.Dated (P : Plan K) : Prop := ∀ L ∈ P, ∀ p ∈ L, 0 ≤ p.1 ∧ p.1 ≤ 1

/-- **Specification.** What has been paid in, net, by the date `t` of year number `k` (from 0). -/
def Plan.paidBy (P : Plan K) (k : ℕ) (t : K) : K :=
  (((P.take k).flatten.map Prod.snd)).sum
    + (((P[k]?.getD []).filter fun p => decide (p.1 ≤ t)).map Prod.snd).sum

/-- **Specification.** The calls that carry out one year of a plan. -/
def adds (L : List (K × K)) : List (Op K) := L.map fun p => .add p.2 (.num p.1)

/-- **Specification.** The calls that carry out a plan: each year's payments, then `next_year()`. -/
def Plan.ops (P : Plan K) : List (Op K) := P.flatMap fun L => adds L ++ [.nextYear]

/-! ### Proofs -/

theorem run_append (a : Acct K) (o o' : List (Op K)) : run a (o ++ o') = run (run a o) o' := by
  simp [run, List.foldl_append]

theorem run_adds {a : Acct K} (ha : Inv a) (L : List (K × K))
    (hL : ∀ p ∈ L, 0 ≤ p.1 ∧ p.1 ≤ 1) :
    Inv (run a (adds L)) ∧ (run a (adds L)).year = a.year ∧
      (run a (adds L)).growth = a.growth ∧ balance (run a (adds L)) = balance a ∧
      ∀ A t, grown A (run a (adds L)).txns t = grown A a.txns t + grown A L t := by
  induction L generalizing a with
  | nil => exact ⟨ha, rfl, rfl, rfl, fun A t => by simp [run, adds]⟩
  | cons p L ih =>
    have hp := hL p (by simp)
    have e := addTransaction_eq (a := a) (v := p.2) (whenConv_ok hp.1 hp.2)
    have hi := inv_addTransaction ha e
    have hr : run a (adds (p :: L)) = run
        { a with txns := Dict.set a.txns p.1 (Dict.val a.txns p.1 + p.2) } (adds L) := by
      simp only [adds, List.map_cons, run, List.foldl_cons, step, e]
    obtain ⟨i1, i2, i3, i4, i5⟩ := ih hi fun q hq => hL q (by simp [hq])
    rw [hr]
    refine ⟨i1, i2, i3, by rw [i4, balance_txns_irrel], fun A t => ?_⟩
    rw [i5, grown_set A ha.tx.wf, grown_cons]
    split <;> ring

theorem run_year {a : Acct K} (ha : Inv a) (htx : a.txns = []) {b : K} (hb : balance a = .ok b)
    (L : List (K × K)) (hL : ∀ p ∈ L, 0 ≤ p.1 ∧ p.1 ≤ 1) :
    Inv (run a (adds L ++ [.nextYear])) ∧
      (run a (adds L ++ [.nextYear])).txns = [] ∧
      (run a (adds L ++ [.nextYear])).year = a.year + 1 ∧
      (run a (adds L ++ [.nextYear])).growth = a.growth ∧
      balance (run a (adds L ++ [.nextYear]))
        = .ok (b * a.growth (a.year + 1) 1 + grown (a.growth (a.year + 1)) L 1) := by
  obtain ⟨i1, i2, i3, i4, i5⟩ := run_adds ha L hL
  rw [run_append]
  generalize run a (adds L) = a1 at *
  have hb1 : balance a1 = .ok b := i4.trans hb
  have e : run a1 [.nextYear] = { a1 with
      year := a1.year + 1, balHist := Dict.set a1.balHist a1.year b,
      txHist := Dict.set a1.txHist a1.year a1.txns, txns := [] } := by
    simp only [run, List.foldl_cons, List.foldl_nil, step, nextYear_eq hb1]
  have hinv := inv_nextYear i1 (nextYear_eq hb1)
  rw [e]
  refine ⟨hinv, rfl, by simp [i2], by simp [i3], ?_⟩
  rw [balance_of_prev (b := b) (tx := a1.txns) _ _ _ i1.tx]
  · simp only [Acct.A]
    rw [i5, htx, grown_nil, zero_add, i2, i3]
  · simp only
    rw [Dict.get?_set_ne _ _ (by omega)]
    exact i1.future _ (by omega)
  · simp [Dict.get?_set]
  · simp [Dict.get?_set]

theorem run_now {a : Acct K} (ha : Inv a) (htx : a.txns = []) {b : K} (hb : balance a = .ok b)
    (L : List (K × K)) (hL : ∀ p ∈ L, 0 ≤ p.1 ∧ p.1 ≤ 1) (t : K) (ht : 0 ≤ t ∧ t ≤ 1) :
    balanceAtTime (run a (adds L)) (.num t) none
      = .ok (b * a.growth a.year t + grown (a.growth a.year) L t) := by
  obtain ⟨i1, i2, i3, i4, i5⟩ := run_adds ha L hL
  rw [balanceAtTime_eq i1 (b := b) (i4.trans hb) ht none (by simp)]
  simp only [Acct.A, Option.getD_none, grown_nil, add_zero, i5, i2, i3, htx, zero_add]

/-- What a list pays by the date `t`. -/
def upTo (L : List (K × K)) (t : K) : K :=
  ((L.filter fun p => decide (p.1 ≤ t)).map Prod.snd).sum

@[simp] theorem upTo_nil (t : K) : upTo ([] : List (K × K)) t = 0 := rfl

theorem upTo_cons (p : K × K) (L : List (K × K)) (t : K) :
    upTo (p :: L) t = (if p.1 ≤ t then p.2 else 0) + upTo L t := by
  unfold upTo
  by_cases h : p.1 ≤ t <;> simp [h]

theorem upTo_perm {L L' : List (K × K)} (h : L.Perm L') (t : K) : upTo L t = upTo L' t :=
  ((h.filter _).map _).sum_eq

/-- Later money counts less. -/
theorem abel_sorted (w : K → K) (T : K) (L : List (K × K))
    (hs : L.Pairwise fun p q => p.1 ≤ q.1) (c s0 : K) (hs0 : ∀ p ∈ L, s0 ≤ p.1)
    (hT : ∀ p ∈ L, p.1 ≤ T) (h0T : s0 ≤ T)
    (hw : ∀ u v, s0 ≤ u → u ≤ v → v ≤ T → w v ≤ w u)
    (H : ∀ u, s0 ≤ u → u ≤ T → 0 ≤ c + upTo L u) :
    (c + (L.map Prod.snd).sum) * w T ≤ c * w s0 + (L.map fun p => p.2 * w p.1).sum := by
  induction L generalizing c s0 with
  | nil =>
    have hc := H s0 le_rfl h0T
    rw [upTo_nil, add_zero] at hc
    simpa using mul_le_mul_of_nonneg_left (hw s0 T le_rfl h0T le_rfl) hc
  | cons p L ih =>
    obtain ⟨hs1, hs2⟩ := List.pairwise_cons.1 hs
    have hp := hs0 p (by simp)
    have hpT := hT p (by simp)
    have key : c * w p.1 ≤ c * w s0 := by
      rcases eq_or_lt_of_le hp with e | hlt
      · rw [e]
      · have hc := H s0 le_rfl h0T
        have hz : upTo (p :: L) s0 = 0 := by
          unfold upTo
          rw [List.filter_eq_nil_iff.2]
          · rfl
          · intro q hq
            have : p.1 ≤ q.1 := by
              rcases List.mem_cons.1 hq with rfl | hq
              · exact le_rfl
              · exact hs1 q hq
            simpa using hlt.trans_le this
        rw [hz, add_zero] at hc
        exact mul_le_mul_of_nonneg_left (hw s0 p.1 le_rfl hp hpT) hc
    have := ih hs2 (c + p.2) p.1 (fun q hq => hs1 q hq) (fun q hq => hT q (by simp [hq])) hpT
      (fun u v hu => hw u v (hp.trans hu)) (fun u hu huT => by
        have := H u (hp.trans hu) huT
        rw [upTo_cons, if_pos hu] at this
        linarith)
    simp only [List.map_cons, List.sum_cons]
    have e : (c + (p.2 + (L.map Prod.snd).sum)) * w T = (c + p.2 + (L.map Prod.snd).sum) * w T := by
      ring
    rw [e]
    nlinarith

theorem abel (w : K → K) (T : K) (hT0 : 0 ≤ T) (L : List (K × K))
    (h0 : ∀ p ∈ L, 0 ≤ p.1) (hT : ∀ p ∈ L, p.1 ≤ T) (c : K)
    (hw : ∀ u v, 0 ≤ u → u ≤ v → v ≤ T → w v ≤ w u)
    (H : ∀ u, 0 ≤ u → u ≤ T → 0 ≤ c + upTo L u) :
    (c + (L.map Prod.snd).sum) * w T ≤ c * w 0 + (L.map fun p => p.2 * w p.1).sum := by
  have hp : (L.insertionSort fun p q => p.1 ≤ q.1).Perm L := List.perm_insertionSort _ _
  haveI : Std.Total (fun p q : K × K => p.1 ≤ q.1) := ⟨fun p q => le_total p.1 q.1⟩
  haveI : IsTrans (K × K) (fun p q : K × K => p.1 ≤ q.1) := ⟨fun _ _ _ h1 h2 => le_trans h1 h2⟩
  have := abel_sorted w T (L.insertionSort fun p q => p.1 ≤ q.1)
    (List.pairwise_insertionSort _ _) c 0 (fun p hpm => h0 p (hp.mem_iff.1 hpm))
    (fun p hpm => hT p (hp.mem_iff.1 hpm)) hT0 hw
    (fun u hu huT => by rw [upTo_perm hp]; exact H u hu huT)
  rw [(hp.map Prod.snd).sum_eq, (hp.map fun p => p.2 * w p.1).sum_eq] at this
  exact this

/-- The negated list. -/
def neg (L : List (K × K)) : List (K × K) := L.map fun p => (p.1, -p.2)

theorem upTo_append (L L' : List (K × K)) (t : K) : upTo (L ++ L') t = upTo L t + upTo L' t := by
  simp [upTo]

theorem upTo_neg (L : List (K × K)) (t : K) : upTo (neg L) t = -upTo L t := by
  induction L with
  | nil => simp [neg]
  | cons p L ih =>
    have : neg (p :: L) = (p.1, -p.2) :: neg L := rfl
    rw [this, upTo_cons, upTo_cons, ih]
    split <;> ring

theorem sum_upTo (L : List (K × K)) (t : K) (h : ∀ p ∈ L, p.1 ≤ t) :
    (L.map Prod.snd).sum = upTo L t := by
  unfold upTo
  rw [List.filter_eq_self.2]
  intro p hp
  simpa using h p hp

theorem upTo_mono (L : List (K × K)) (s t : K) (h : s ≤ t) :
    upTo (L.filter fun p => decide (p.1 ≤ t)) s = upTo L s := by
  unfold upTo
  rw [List.filter_filter]
  congr 3
  funext p
  by_cases hp : p.1 ≤ s
  · simp [hp, hp.trans h]
  · simp [hp]

/-- Within a year: `D` is the lead of the second account at the start, `c` the lead in payments. -/
theorem lead_kept {A : K → K} (hA0 : A 0 = 1)
    (hA : ∀ s t, 0 ≤ s → s ≤ t → t ≤ 1 → A s ≤ A t) {L L' : List (K × K)}
    (hL : ∀ p ∈ L, 0 ≤ p.1 ∧ p.1 ≤ 1) (hL' : ∀ p ∈ L', 0 ≤ p.1 ∧ p.1 ≤ 1) {D c : K} (hD : c ≤ D)
    (H : ∀ u, 0 ≤ u → u ≤ 1 → 0 ≤ c + (upTo L' u - upTo L u)) {t : K} (h0 : 0 ≤ t) (h1 : t ≤ 1) :
    c + (upTo L' t - upTo L t) ≤ D * A t + (grown A L' t - grown A L t) := by
  set M := (L' ++ neg L).filter fun p => decide (p.1 ≤ t) with hM
  have hMm : ∀ p ∈ M, (0 ≤ p.1 ∧ p.1 ≤ 1) ∧ p.1 ≤ t := by
    intro p hp
    rw [hM, List.mem_filter] at hp
    refine ⟨?_, by simpa using hp.2⟩
    rcases List.mem_append.1 hp.1 with h | h
    · exact hL' p h
    · obtain ⟨q, hq, rfl⟩ := List.mem_map.1 h
      exact hL q hq
  have e1 : ∀ u, u ≤ t → upTo M u = upTo L' u - upTo L u := by
    intro u hu
    rw [hM, upTo_mono _ _ _ hu, upTo_append, upTo_neg]
    ring
  have key := abel (fun u => A (t - u)) t h0 M (fun p hp => (hMm p hp).1.1)
    (fun p hp => (hMm p hp).2) c
    (fun u v hu huv hv => hA _ _ (by linarith) (by linarith) (by linarith))
    (fun u hu hut => by rw [e1 u hut]; exact H u hu (hut.trans h1))
  rw [sum_upTo M t (fun p hp => (hMm p hp).2), e1 t le_rfl] at key
  simp only [sub_self, sub_zero, hA0, mul_one] at key
  have e2 : (M.map fun p => p.2 * A (t - p.1)).sum = grown A L' t - grown A L t := by
    rw [hM, List.filter_append, List.map_append, List.sum_append]
    have : (((neg L).filter fun p => decide (p.1 ≤ t)).map fun p => p.2 * A (t - p.1)).sum
        = -grown A L t := by
      clear key e1 hMm hM H hL
      induction L with
      | nil => simp [neg]
      | cons p L ih =>
        have e : neg (p :: L) = (p.1, -p.2) :: neg L := rfl
        rw [grown_cons, e]
        by_cases hp : p.1 ≤ t
        · rw [List.filter_cons_of_pos (by simpa using hp), List.map_cons, List.sum_cons, ih,
            if_pos hp]
          ring
        · rw [List.filter_cons_of_neg (by simpa using hp), ih, if_neg hp]
          ring
    rw [this]
    simp only [grown]
    ring
  rw [e2] at key
  have hA1 : 1 ≤ A t := by rw [← hA0]; exact hA 0 t le_rfl h0 h1
  nlinarith [mul_le_mul_of_nonneg_right hD (zero_le_one.trans hA1)]

theorem paidBy_zero (L : List (K × K)) (P : Plan K) (t : K) :
    Plan.paidBy (L :: P) 0 t = upTo L t := by
  simp [Plan.paidBy, upTo]

theorem paidBy_succ (L : List (K × K)) (P : Plan K) (k : ℕ) (t : K) :
    Plan.paidBy (L :: P) (k + 1) t = (L.map Prod.snd).sum + Plan.paidBy P k t := by
  simp [Plan.paidBy, add_assoc]

theorem lead_over_years (P P' : Plan K) (hlen : P.length = P'.length) (hP : P.Dated)
    (hP' : P'.Dated) (a a' : Acct K) (ha : Inv a) (ha' : Inv a') (htx : a.txns = [])
    (htx' : a'.txns = []) (hy : a'.year = a.year) (hg : a'.growth = a.growth)
    (hA0 : ∀ i, a.growth i 0 = 1)
    (hA : ∀ i s t, 0 ≤ s → s ≤ t → t ≤ 1 → a.growth i s ≤ a.growth i t)
    {b b' c : K} (hb : balance a = .ok b) (hb' : balance a' = .ok b') (hc : c ≤ b' - b)
    (L L' : List (K × K)) (hL : ∀ p ∈ L, 0 ≤ p.1 ∧ p.1 ≤ 1) (hL' : ∀ p ∈ L', 0 ≤ p.1 ∧ p.1 ≤ 1)
    (H : ∀ k u, 0 ≤ u → u ≤ 1 → k ≤ P.length →
      0 ≤ c + (Plan.paidBy (P' ++ [L']) k u - Plan.paidBy (P ++ [L]) k u))
    {t : K} (h0 : 0 ≤ t) (h1 : t ≤ 1) :
    ∃ x x', balanceAtTime (run a (P.ops ++ adds L)) (.num t) none = .ok x ∧
      balanceAtTime (run a' (P'.ops ++ adds L')) (.num t) none = .ok x' ∧
      c + (Plan.paidBy (P' ++ [L']) P.length t - Plan.paidBy (P ++ [L]) P.length t) ≤ x' - x := by
  induction P generalizing P' a a' b b' c with
  | nil =>
    obtain rfl : P' = [] := List.length_eq_zero_iff.1 hlen.symm
    refine ⟨_, _, run_now ha htx hb L hL t ⟨h0, h1⟩, run_now ha' htx' hb' L' hL' t ⟨h0, h1⟩, ?_⟩
    have H0 : ∀ u, 0 ≤ u → u ≤ 1 → 0 ≤ c + (upTo L' u - upTo L u) := by
      intro u hu hu1
      have := H 0 u hu hu1 le_rfl
      simpa only [List.nil_append, paidBy_zero] using this
    have := lead_kept (A := a.growth a.year) (hA0 _) (hA _) hL hL' hc H0 h0 h1
    rw [hg, hy]
    simp only [List.nil_append, List.length_nil, paidBy_zero]
    linarith
  | cons Y P ih =>
    cases P' with
    | nil => cases hlen
    | cons Y' P' =>
      simp only [List.length_cons, Nat.add_right_cancel_iff] at hlen
      have hY : ∀ p ∈ Y, 0 ≤ p.1 ∧ p.1 ≤ 1 := fun p hp => hP Y (by simp) p hp
      have hY' : ∀ p ∈ Y', 0 ≤ p.1 ∧ p.1 ≤ 1 := fun p hp => hP' Y' (by simp) p hp
      obtain ⟨i1, i2, i3, i4, i5⟩ := run_year ha htx hb Y hY
      obtain ⟨j1, j2, j3, j4, j5⟩ := run_year ha' htx' hb' Y' hY'
      have e : ∀ (Y : List (K × K)) (P : Plan K) (a : Acct K) (L : List (K × K)),
          run a (Plan.ops (Y :: P) ++ adds L)
            = run (run a (adds Y ++ [.nextYear])) (P.ops ++ adds L) := by
        intro Y P a L
        rw [← run_append]
        congr 1
        simp [Plan.ops]
      rw [e, e]
      have H0 : ∀ u, 0 ≤ u → u ≤ 1 → 0 ≤ c + (upTo Y' u - upTo Y u) := by
        intro u hu hu1
        have := H 0 u hu hu1 (Nat.zero_le _)
        simpa only [List.cons_append, paidBy_zero] using this
      have hstep := lead_kept (A := a.growth (a.year + 1)) (hA0 _) (hA _) hY hY' hc H0
        zero_le_one le_rfl
      rw [← sum_upTo Y' 1 fun p hp => (hY' p hp).2, ← sum_upTo Y 1 fun p hp => (hY p hp).2] at hstep
      obtain ⟨x, x', h2, h3, h4⟩ := ih P' hlen (fun L hL => hP L (by simp [hL]))
        (fun L hL => hP' L (by simp [hL])) _ _ i1 j1 i2 j2 (by rw [i3, j3, hy])
        (by rw [i4, j4, hg]) (by rw [i4]; exact hA0) (by rw [i4]; exact hA) i5 j5
        (c := c + ((Y'.map Prod.snd).sum - (Y.map Prod.snd).sum))
        (by rw [hg, hy]; linarith) (fun k u hu hu1 hk => by
          have := H (k + 1) u hu hu1 (by simpa using hk)
          simp only [List.cons_append, paidBy_succ] at this
          linarith)
      refine ⟨x, x', h2, h3, ?_⟩
      simp only [List.cons_append, List.length_cons, paidBy_succ]
      linarith

/-- **C104** (more, or earlier). Two accounts are opened in the same year and grow at the same,
never negative, rates; each has its own opening balance and its own plan of payments. If at every
moment up to the last year, the opening balance and the payments so far of the second come to at
least those of the first, then at every moment of the last year the second account is ahead of the
first by at least the difference of what has been put into them. -/
theorem C104_more_or_earlier (y : ℤ) (g : ℤ → K → K) (dt dt' : Dict K K) (b b' : K)
    (hg0 : ∀ i, g i 0 = 1) (hg : ∀ i s t, 0 ≤ s → s ≤ t → t ≤ 1 → g i s ≤ g i t)
    (P P' : Plan K) (L L' : List (K × K)) (hlen : P.length = P'.length)
    (hd : Plan.Dated (P ++ [L])) (hd' : Plan.Dated (P' ++ [L']))
    (hahead : ∀ k t, k ≤ P.length → 0 ≤ t → t ≤ 1 →
      b + Plan.paidBy (P ++ [L]) k t ≤ b' + Plan.paidBy (P' ++ [L']) k t)
    (t : K) (h0 : 0 ≤ t) (h1 : t ≤ 1) :
    ∃ x x', balanceAtTime (run (init y b g dt) (P.ops ++ adds L)) (.num t) none = .ok x ∧
      balanceAtTime (run (init y b' g dt') (P'.ops ++ adds L')) (.num t) none = .ok x' ∧
      x ≤ x' ∧
      (b' + Plan.paidBy (P' ++ [L']) P.length t) - (b + Plan.paidBy (P ++ [L]) P.length t)
        ≤ x' - x := by
  have hb : ∀ b : K, ∀ dt, balance (init y b g dt) = .ok b := by
    intro b dt
    simp [balance, init, Dict.get?_cons]
  obtain ⟨x, x', h2, h3, h4⟩ := lead_over_years P P' hlen (fun M hM => hd M (by simp [hM]))
    (fun M hM => hd' M (by simp [hM])) (init y b g dt) (init y b' g dt') (inv_init _ _ _ _)
    (inv_init _ _ _ _) rfl rfl rfl rfl hg0 hg (hb b dt) (hb b' dt') (c := b' - b) le_rfl L L'
    (hd L (by simp)) (hd' L' (by simp)) (fun k u hu hu1 hk => by
      have := hahead k u hk hu hu1
      linarith) h0 h1
  have := hahead P.length t le_rfl h0 h1
  exact ⟨x, x', h2, h3, by linarith, by linarith⟩

/-! ### More money at the same dates -/

theorem grown_le {A A' : K → K} {L L' : List (K × K)} (t : K) (h1 : t ≤ 1)
    (hL : ∀ p ∈ L, 0 ≤ p.1 ∧ p.1 ≤ 1)
    (h : List.Forall₂ (fun p q => p.1 = q.1 ∧
      ∀ s, 0 ≤ s → s ≤ 1 → p.2 * A s ≤ q.2 * A' s) L L') :
    grown A L t ≤ grown A' L' t := by
  induction h with
  | nil => simp
  | @cons p q L L' hpq _ ih =>
    have ih := ih fun r hr => hL r (by simp [hr])
    have hp := hL p (by simp)
    rw [grown_cons, grown_cons, ← hpq.1]
    by_cases hpt : p.1 ≤ t
    · rw [if_pos hpt, if_pos hpt]
      have := hpq.2 (t - p.1) (by linarith) (by linarith)
      linarith
    · rw [if_neg hpt, if_neg hpt]
      linarith

theorem ahead_over_years (P P' : Plan K) (hP : P.Dated) (hP' : P'.Dated)
    (g g' : ℤ → K → K)
    (hPP : List.Forall₂ (List.Forall₂ fun p q => p.1 = q.1 ∧
      ∀ i s, 0 ≤ s → s ≤ 1 → p.2 * g i s ≤ q.2 * g' i s) P P')
    (good : K → Prop) (hgood : ∀ i b L, good b → (L ∈ P) →
      good (b * g i 1 + grown (g i) L 1))
    (a a' : Acct K) (ha : Inv a) (ha' : Inv a') (htx : a.txns = [])
    (htx' : a'.txns = []) (hy : a'.year = a.year) (hg : a.growth = g) (hg' : a'.growth = g')
    (hmul : ∀ b b' i s, good b → b ≤ b' → 0 ≤ s → s ≤ 1 → b * g i s ≤ b' * g' i s)
    {b b' : K} (hb : balance a = .ok b) (hb' : balance a' = .ok b') (hbb : b ≤ b')
    (hgb : good b) (L L' : List (K × K)) (hL : ∀ p ∈ L, 0 ≤ p.1 ∧ p.1 ≤ 1)
    (hL' : ∀ p ∈ L', 0 ≤ p.1 ∧ p.1 ≤ 1)
    (hLL : List.Forall₂ (fun p q => p.1 = q.1 ∧
      ∀ i s, 0 ≤ s → s ≤ 1 → p.2 * g i s ≤ q.2 * g' i s) L L')
    {t : K} (h0 : 0 ≤ t) (h1 : t ≤ 1) :
    ∃ x x', balanceAtTime (run a (P.ops ++ adds L)) (.num t) none = .ok x ∧
      balanceAtTime (run a' (P'.ops ++ adds L')) (.num t) none = .ok x' ∧ x ≤ x' := by
  induction hPP generalizing a a' b b' with
  | nil =>
    refine ⟨_, _, run_now ha htx hb L hL t ⟨h0, h1⟩, run_now ha' htx' hb' L' hL' t ⟨h0, h1⟩, ?_⟩
    rw [hg, hg', hy]
    exact add_le_add (hmul b b' _ t hgb hbb h0 h1)
      (grown_le t h1 hL (hLL.imp fun p q h => ⟨h.1, h.2 _⟩))
  | @cons Y Y' P P' hYY _ ih =>
    have hY : ∀ p ∈ Y, 0 ≤ p.1 ∧ p.1 ≤ 1 := fun p hp => hP Y (by simp) p hp
    have hY' : ∀ p ∈ Y', 0 ≤ p.1 ∧ p.1 ≤ 1 := fun p hp => hP' Y' (by simp) p hp
    obtain ⟨i1, i2, i3, i4, i5⟩ := run_year ha htx hb Y hY
    obtain ⟨j1, j2, j3, j4, j5⟩ := run_year ha' htx' hb' Y' hY'
    have e : ∀ (Y : List (K × K)) (P : Plan K) (a : Acct K) (L : List (K × K)),
        run a (Plan.ops (Y :: P) ++ adds L)
          = run (run a (adds Y ++ [.nextYear])) (P.ops ++ adds L) := by
      intro Y P a L
      rw [← run_append]
      congr 1
      simp [Plan.ops]
    rw [e, e]
    rw [hg] at i5
    rw [hg', hy] at j5
    exact ih (fun L hL => hP L (by simp [hL])) (fun L hL => hP' L (by simp [hL]))
      (fun i b M hb hM => hgood i b M hb (by simp [hM])) _ _ i1 j1 i2 j2 (by rw [i3, j3, hy])
      (by rw [i4, hg]) (by rw [j4, hg']) i5 j5
      (add_le_add (hmul b b' _ 1 hgb hbb zero_le_one le_rfl)
        (grown_le 1 le_rfl hY (hYY.imp fun p q h => ⟨h.1, h.2 _⟩)))
      (hgood _ _ _ hgb (by simp))

/-- **C104** (more). Whatever the rates, also negative ones: if every payment of the second account
is at least the payment of the first on the same date (withdrawals being negative payments), then
it never holds less. -/
theorem C104_more (y : ℤ) (g : ℤ → K → K) (dt dt' : Dict K K) (b b' : K)
    (hg : ∀ i s, 0 ≤ s → s ≤ 1 → 0 ≤ g i s) (hbb : b ≤ b')
    (P P' : Plan K) (L L' : List (K × K))
    (hd : Plan.Dated (P ++ [L])) (hd' : Plan.Dated (P' ++ [L']))
    (hP : List.Forall₂ (List.Forall₂ fun p q => p.1 = q.1 ∧ p.2 ≤ q.2) P P')
    (hL : List.Forall₂ (fun p q => p.1 = q.1 ∧ p.2 ≤ q.2) L L')
    (t : K) (h0 : 0 ≤ t) (h1 : t ≤ 1) :
    ∃ x x', balanceAtTime (run (init y b g dt) (P.ops ++ adds L)) (.num t) none = .ok x ∧
      balanceAtTime (run (init y b' g dt') (P'.ops ++ adds L')) (.num t) none = .ok x' ∧
      x ≤ x' := by
  have hb : ∀ b : K, ∀ dt, balance (init y b g dt) = .ok b := by
    intro b dt
    simp [balance, init, Dict.get?_cons]
  exact ahead_over_years P P' (fun M hM => hd M (by simp [hM])) (fun M hM => hd' M (by simp [hM]))
    g g (hP.imp fun L L' h => h.imp fun p q h => ⟨h.1, fun i s h0 h1 =>
      mul_le_mul_of_nonneg_right h.2 (hg i s h0 h1)⟩) (fun _ => True) (fun _ _ _ _ _ => trivial)
    (init y b g dt) (init y b' g dt') (inv_init _ _ _ _) (inv_init _ _ _ _) rfl rfl rfl rfl rfl
    (fun b b' i s _ hbb h0 h1 => mul_le_mul_of_nonneg_right hbb (hg i s h0 h1)) (hb b dt)
    (hb b' dt') hbb trivial L L' (hd L (by simp)) (hd' L' (by simp))
    (hL.imp fun p q h => ⟨h.1, fun i s h0 h1 => mul_le_mul_of_nonneg_right h.2 (hg i s h0 h1)⟩)
    h0 h1

/-- **C104** (better rates). If every year money grows at least as fast, an account that starts with
something and is only paid into never holds less. -/
theorem C104_better_rates (y : ℤ) (g g' : ℤ → K → K) (dt dt' : Dict K K) (b : K) (hb0 : 0 ≤ b)
    (hg : ∀ i s, 0 ≤ s → s ≤ 1 → 0 ≤ g i s) (hgg : ∀ i s, 0 ≤ s → s ≤ 1 → g i s ≤ g' i s)
    (P : Plan K) (L : List (K × K)) (hd : Plan.Dated (P ++ [L]))
    (hpay : ∀ M ∈ P ++ [L], ∀ p ∈ M, 0 ≤ p.2)
    (t : K) (h0 : 0 ≤ t) (h1 : t ≤ 1) :
    ∃ x x', balanceAtTime (run (init y b g dt) (P.ops ++ adds L)) (.num t) none = .ok x ∧
      balanceAtTime (run (init y b g' dt') (P.ops ++ adds L)) (.num t) none = .ok x' ∧
      x ≤ x' := by
  have hb : ∀ (g : ℤ → K → K) dt, balance (init y b g dt) = .ok b := by
    intro g dt
    simp [balance, init, Dict.get?_cons]
  have hM : ∀ M ∈ P ++ [L], List.Forall₂ (fun p q : K × K => p.1 = q.1 ∧
      ∀ i s, 0 ≤ s → s ≤ 1 → p.2 * g i s ≤ q.2 * g' i s) M M := fun M hM =>
    List.forall₂_same.2 fun p hp => ⟨rfl, fun i s h0 h1 =>
      mul_le_mul_of_nonneg_left (hgg i s h0 h1) (hpay M hM p hp)⟩
  exact ahead_over_years P P (fun M hM => hd M (by simp [hM])) (fun M hM => hd M (by simp [hM]))
    g g' (List.forall₂_same.2 fun M hm => hM M (by simp [hm])) (fun b => 0 ≤ b)
    (fun i b M hb hm => by
      refine add_nonneg (mul_nonneg hb (hg i 1 zero_le_one le_rfl)) ?_
      unfold grown
      apply List.sum_nonneg
      intro x hx
      obtain ⟨p, hp, rfl⟩ := List.mem_map.1 hx
      obtain ⟨hp1, hp2⟩ := List.mem_filter.1 hp
      have hp2 : p.1 ≤ 1 := by simpa using hp2
      have := (hd M (by simp [hm]) p hp1).1
      exact mul_nonneg (hpay M (by simp [hm]) p hp1) (hg i _ (by linarith) (by linarith)))
    (init y b g dt) (init y b g' dt') (inv_init _ _ _ _) (inv_init _ _ _ _) rfl rfl rfl rfl rfl
    (fun b b' i s hb hbb h0 h1 => (mul_le_mul_of_nonneg_left (hgg i s h0 h1) hb).trans
      (mul_le_mul_of_nonneg_right hbb ((hg i s h0 h1).trans (hgg i s h0 h1)))) (hb g dt)
    (hb g' dt') le_rfl hb0 L L (hd L (by simp)) (hd L (by simp)) (hM L (by simp)) h0 h1

/-! ### Examples -/

/-- The growth function of the code for a rate that is not negative is as `C104_more_or_earlier`
wants it. -/
theorem C104_rates_not_negative (rate : ℝ) (nper : Option ℝ) (h : Accum.Valid rate nper)
    (hr : 0 ≤ rate) :
    Accum.accumulationFunction 0 rate nper = 1 ∧
    ∀ s t, 0 ≤ s → s ≤ t → t ≤ 1 →
      Accum.accumulationFunction s rate nper ≤ Accum.accumulationFunction t rate nper := by
  refine ⟨(Accum.C16_exponential_law rate nper h).1, fun s t _ hst _ => ?_⟩
  rcases eq_or_lt_of_le hst with rfl | hlt
  · exact le_rfl
  · obtain ⟨h1, -, h3⟩ := Accum.C16_monotone_time rate nper h s t hlt
    rcases eq_or_lt_of_le hr with e | hpos
    · exact (h3 e.symm).ge
    · exact (h1 hpos).le

/-- Simple interest, at 10% a year until 2001 and then at 20%. -/
def simpleInterest : ℤ → ℚ → ℚ := fun i t => if i < 2002 then 1 + t / 10 else 1 + t / 5

theorem simpleInterest_mono (i : ℤ) (s t : ℚ) (h : s ≤ t) :
    simpleInterest i s ≤ simpleInterest i t := by
  unfold simpleInterest
  split <;> linarith

/-- 60 at the start of the year and 40 in the middle, against 100 half way through and then 70 that
are taken out at the end; in the next year nothing, against 50 paid in at the end. -/
example : ∃ x x',
    balanceAtTime (run (init 2000 (10 : ℚ) simpleInterest [])
      (Plan.ops [[(1 / 2, 100), (1, -70)], []] ++ adds [(1, 50)])) (.num 1) none = .ok x ∧
    balanceAtTime (run (init 2000 (10 : ℚ) simpleInterest [])
      (Plan.ops [[(1 / 2, 40), (0, 60), (1, -70)], [(1, 50)]] ++ adds [])) (.num 1) none = .ok x' ∧
    x ≤ x' := by
  obtain ⟨x, x', h1, h2, h3, -⟩ := C104_more_or_earlier 2000 simpleInterest [] [] 10 10 (fun i => by simp [simpleInterest])
    (fun i s t _ h _ => simpleInterest_mono i s t h) [[(1 / 2, 100), (1, -70)], []]
    [[(1 / 2, 40), (0, 60), (1, -70)], [(1, 50)]] [(1, 50)] [] rfl
    (by unfold Plan.Dated; decide +kernel) (by unfold Plan.Dated; decide +kernel)
    (by
      intro k t hk h0 h1
      simp only [List.length_cons, List.length_nil] at hk
      obtain rfl | rfl | rfl : k = 0 ∨ k = 1 ∨ k = 2 := by omega
      all_goals
        simp only [Plan.paidBy, List.cons_append, List.nil_append, List.take_zero, List.take_succ_cons,
          List.flatten_cons, List.flatten_nil, List.map_cons, List.map_nil, List.sum_cons,
          List.sum_nil, List.getElem?_cons_zero, List.getElem?_cons_succ, Option.getD_some,
          List.filter_cons, List.filter_nil, h0, decide_true, if_true, List.append_nil]
        split_ifs <;> simp_all <;> linarith)
    1 zero_le_one le_rfl
  exact ⟨x, x', h1, h2, h3⟩

/-- The two come to 116.24 and 130.56. -/
example : balanceAtTime (run (init 2000 (10 : ℚ) simpleInterest [])
      (Plan.ops [[(1 / 2, 100), (1, -70)], []] ++ adds [(1, 50)])) (.num 1) none = .ok (2906 / 25) ∧
    balanceAtTime (run (init 2000 (10 : ℚ) simpleInterest [])
      (Plan.ops [[(1 / 2, 40), (0, 60), (1, -70)], [(1, 50)]] ++ adds [])) (.num 1) none = .ok (3264 / 25) := by
  constructor <;> decide +kernel

/-- Paying in 5 more, and taking out 10 less, at a rate of -50%; and a better rate. -/
example : (∃ x x',
    balanceAtTime (run (init 2000 (10 : ℚ) (fun _ t => 1 - t / 2) [])
      (Plan.ops [[(1 / 2, 100), (1, -70)]] ++ adds [(0, 50)])) (.num 1) none = .ok x ∧
    balanceAtTime (run (init 2000 (10 : ℚ) (fun _ t => 1 - t / 2) [])
      (Plan.ops [[(1 / 2, 105), (1, -60)]] ++ adds [(0, 50)])) (.num 1) none = .ok x' ∧ x ≤ x') ∧
    ∃ x x',
    balanceAtTime (run (init 2000 (10 : ℚ) (fun _ t => 1 - t / 2) [])
      (Plan.ops [[(1 / 2, 100), (1, 70)]] ++ adds [(0, 50)])) (.num (1 / 2)) none = .ok x ∧
    balanceAtTime (run (init 2000 (10 : ℚ) simpleInterest [])
      (Plan.ops [[(1 / 2, 100), (1, 70)]] ++ adds [(0, 50)])) (.num (1 / 2)) none = .ok x' ∧
      x ≤ x' := by
  have h2 : ∀ (i : ℤ) (s : ℚ), 0 ≤ s → s ≤ 1 → 0 ≤ 1 - s / 2 := fun _ s _ h => by linarith
  constructor
  · exact C104_more 2000 (fun _ t => 1 - t / 2) [] [] 10 10 h2 le_rfl [[(1 / 2, 100), (1, -70)]]
      [[(1 / 2, 105), (1, -60)]] [(0, 50)] [(0, 50)] (by unfold Plan.Dated; decide +kernel)
      (by unfold Plan.Dated; decide +kernel) (by simp; norm_num) (by simp) 1 zero_le_one le_rfl
  · exact C104_better_rates 2000 (fun _ t => 1 - t / 2) simpleInterest [] [] 10 (by norm_num) h2
      (fun i s h0 h1 => by unfold simpleInterest; split <;> linarith) [[(1 / 2, 100), (1, 70)]]
      [(0, 50)] (by unfold Plan.Dated; decide +kernel) (by decide +kernel) (1 / 2) (by norm_num)
      (by norm_num)

end Forecaster.Account
