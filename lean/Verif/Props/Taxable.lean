import Verif.Model.Taxable
import Verif.Props.Account
import Mathlib.Tactic.FieldSimp

/-!
# Properties of `forecaster/canada/accounts/taxable_account.py` (C36)
-/

set_option linter.unusedSectionVars false

namespace Forecaster.Taxable

open Forecaster Forecaster.Timing Forecaster.Account

variable {K : Type} [Field K] [LinearOrder K] [IsStrictOrderedRing K]

/-! ### The loop -/

theorem vals_eq_keys {d : Dict K K} (hd : Dict.WF d) :
    Dict.vals d = (Dict.keys d).map (Dict.val d) := by
  unfold Dict.vals Dict.keys
  rw [List.map_map]
  exact List.map_congr_left fun kv hkv => (val_of_mem hd hkv).symm

theorem filter_pos_sum (l : List K) :
    (l.filter fun v => decide (v > 0)).sum = (l.map fun v => max v 0).sum := by
  induction l with
  | nil => simp
  | cons x l ih =>
    by_cases h : x > 0
    · simp [h, ih, max_eq_left h.le]
    · simp [h, ih, max_eq_right (not_lt.1 h)]

theorem filter_neg_sum (l : List K) :
    (l.filter fun v => decide (v < 0)).sum = (l.map fun v => min v 0).sum := by
  induction l with
  | nil => simp
  | cons x l ih =>
    by_cases h : x < 0
    · simp [h, ih, min_eq_left h.le]
    · simp [h, ih, min_eq_right (not_lt.1 h)]

theorem posSum_keys {d : Dict K K} (hd : Dict.WF d) {l : List K} (hl : l.Perm (Dict.keys d)) :
    posSum d = (l.map fun k => max (Dict.val d k) 0).sum := by
  unfold posSum
  rw [filter_pos_sum, vals_eq_keys hd, List.map_map, (hl.map _).sum_eq]
  rfl

theorem negSum_keys {d : Dict K K} (hd : Dict.WF d) {l : List K} (hl : l.Perm (Dict.keys d)) :
    negSum d = (l.map fun k => min (Dict.val d k) 0).sum := by
  unfold negSum
  rw [filter_neg_sum, vals_eq_keys hd, List.map_map, (hl.map _).sum_eq]
  rfl

theorem gainStep_inflow {a : Acct K} {s : K × K} {w : K} (h : 0 ≤ Dict.val a.txns w) :
    gainStep a s w = .ok (s.1 + Dict.val a.txns w, s.2) := by
  simp [gainStep, h]

theorem gainStep_outflow {a : Acct K} {s : K × K} {w b : K} (h : Dict.val a.txns w < 0)
    (hb : balanceAtTime a (.num w) none = .ok b) (h0 : b - Dict.val a.txns w ≠ 0) :
    gainStep a s w = .ok (s.1 * (1 - (-Dict.val a.txns w / (b - Dict.val a.txns w))),
      s.2 + -Dict.val a.txns w * (1 - s.1 / (b - Dict.val a.txns w))) := by
  simp [gainStep, not_le.2 h, hb, h0]

theorem gainStep_identity {a : Acct K} {s s' : K × K} {w : K} (h : gainStep a s w = .ok s') :
    s'.2 - s'.1 = s.2 - s.1 - Dict.val a.txns w := by
  by_cases h0 : 0 ≤ Dict.val a.txns w
  · rw [gainStep_inflow h0] at h
    cases h
    simp only; ring
  · push Not at h0
    cases hb : balanceAtTime a (.num w) none with
    | error e => simp [gainStep, not_le.2 h0, hb] at h
    | ok b =>
      by_cases hz : b - Dict.val a.txns w = 0
      · simp [gainStep, not_le.2 h0, hb, hz] at h
      · rw [gainStep_outflow h0 hb hz] at h
        cases h
        simp only
        ring

theorem fold_identity {a : Acct K} (l : List K) {s s' : K × K}
    (h : l.foldlM (gainStep a) s = .ok s') :
    s'.2 - s'.1 = s.2 - s.1 - (l.map (Dict.val a.txns)).sum := by
  induction l generalizing s with
  | nil => cases h; simp
  | cons w l ih =>
    rw [List.foldlM_cons] at h
    cases h1 : gainStep a s w with
    | error e => rw [h1] at h; cases h
    | ok s1 =>
      rw [h1, ok_bind] at h
      rw [ih h, gainStep_identity h1, List.map_cons, List.sum_cons]
      ring

theorem compute_identity {a : Acct K} (ha : Dict.WF a.txns) {c c' g : K}
    (h : computeGain a c = .ok (c', g)) :
    g = -(outflows a none) - (c + inflows a none - c') := by
  have h1 := fold_identity _ h
  have hp := List.perm_insertionSort (· ≤ ·) (Dict.keys a.txns)
  have h2 : ((List.insertionSort (· ≤ ·) (Dict.keys a.txns)).map (Dict.val a.txns)).sum
      = posSum a.txns + negSum a.txns := by
    rw [pos_add_neg, Dict.total_eq_sum_keys ha, (hp.map _).sum_eq]
  rw [h2] at h1
  simp only [inflows, outflows, zero_add] at *
  linarith

/-! ### The invariant -/

/-- What one finished year's records have to satisfy. -/
def YearOk (a : TA K) (y : ℤ) : Prop :=
  ∃ tx c c' g, Dict.get? a.acct.txHist y = some tx ∧ Dict.get? a.acbHist y = some c ∧
    Dict.get? a.acbHist (y + 1) = some c' ∧ Dict.get? a.gainHist y = some g ∧
    g = -(negSum tx) - (c + posSum tx - c')

structure TInv (y0 : ℤ) (a : TA K) : Prop where
  acct : Inv a.acct
  wfG : Dict.WF a.gainHist
  wfA : Dict.WF a.acbHist
  start : y0 ≤ a.acct.year
  now : ∃ c, Dict.get? a.acbHist a.acct.year = some c
  futG : ∀ y, a.acct.year < y → Dict.get? a.gainHist y = none
  cache : ∀ g, Dict.get? a.gainHist a.acct.year = some g → ∃ c c',
    Dict.get? a.acbHist a.acct.year = some c ∧ computeGain a.acct c = .ok (c', g) ∧
    Dict.get? a.acbHist (a.acct.year + 1) = some c'
  past : ∀ y, y0 ≤ y → y < a.acct.year → YearOk a y
  ahead : ∀ y c, a.acct.year < y → Dict.get? a.acbHist y = some c →
    y = a.acct.year + 1 ∧ ∃ g, Dict.get? a.gainHist a.acct.year = some g

theorem tinv_init (y : ℤ) (b : K) (g : ℤ → K → K) (dt : Dict K K) (c : Option K) :
    TInv y (init y b g dt c) where
  acct := inv_init y b g dt
  wfG := Dict.wf_nil
  wfA := by simp [init, Dict.WF]
  start := le_rfl
  now := ⟨_, by simp [init, Account.init, Dict.get?_cons]; rfl⟩
  futG := fun _ _ => rfl
  cache := fun g h => by simp [init] at h
  past := fun z h1 h2 => by simp only [init, Account.init] at h2; omega
  ahead := fun z d h1 h2 => by
    simp only [init, Account.init] at h1 h2
    rw [Dict.get?_cons, if_neg (by omega)] at h2
    cases h2

/-- Replacing the transactions and invalidating keeps the invariant. -/
theorem tinv_invalidate {y0 : ℤ} {a : TA K} (h : TInv y0 a) {acct : Acct K} (hi : Inv acct)
    (hy : acct.year = a.acct.year) (ht : acct.txHist = a.acct.txHist) :
    TInv y0 (invalidate { a with acct := acct }) where
  acct := hi
  wfG := Dict.wf_del h.wfG _
  wfA := Dict.wf_del h.wfA _
  start := by simpa [invalidate, hy] using h.start
  now := by
    obtain ⟨c, hc⟩ := h.now
    refine ⟨c, ?_⟩
    simp only [invalidate, hy]
    rw [Dict.get?_del h.wfA, if_neg (by omega), hc]
  futG := by
    intro y hyy
    simp only [invalidate, hy] at *
    rw [Dict.get?_del h.wfG, if_neg (by omega), h.futG y hyy]
  cache := by
    intro g hg
    simp only [invalidate] at hg
    rw [Dict.get?_del h.wfG, if_pos rfl] at hg
    cases hg
  past := by
    intro y h1 h2
    simp only [invalidate, hy] at h2
    obtain ⟨tx, c, c', g, e1, e2, e3, e4, e5⟩ := h.past y h1 h2
    refine ⟨tx, c, c', g, ?_, ?_, ?_, ?_, e5⟩
    · simpa [invalidate, ht] using e1
    · simp only [invalidate, hy]; rw [Dict.get?_del h.wfA, if_neg (by omega), e2]
    · simp only [invalidate, hy]; rw [Dict.get?_del h.wfA, if_neg (by omega), e3]
    · simp only [invalidate, hy]; rw [Dict.get?_del h.wfG, if_neg (by omega), e4]
  ahead := by
    intro y c h1 h2
    simp only [invalidate, hy] at h1 h2
    rw [Dict.get?_del h.wfA] at h2
    split at h2
    · cases h2
    · exact absurd (h.ahead y c h1 h2).1 (by omega)

theorem acct_add_const {a a' : Acct K} {v : K} {w : When K}
    (h : Account.addTransaction a v w = .ok a') : a'.year = a.year ∧ a'.txHist = a.txHist := by
  unfold Account.addTransaction at h
  cases hw : whenConv w with
  | error e => simp [hw] at h
  | ok t => simp only [hw, ok_bind, Except.ok.injEq] at h; subst h; exact ⟨rfl, rfl⟩

theorem acct_set_const {a a' : Acct K} {v : K} {k : When K}
    (h : Account.setItem a k v = .ok a') : a'.year = a.year ∧ a'.txHist = a.txHist := by
  unfold Account.setItem at h
  cases k with
  | str s => exact acct_add_const h
  | num x =>
    simp only at h
    split_ifs at h with hx
    · have := acct_add_const h; exact this
    · exact acct_add_const h

theorem tinv_add {y0 : ℤ} {a a' : TA K} (h : TInv y0 a) {v : K} {w : When K}
    (e : addTransaction a v w = .ok a') : TInv y0 a' := by
  unfold addTransaction at e
  cases h1 : Account.addTransaction a.acct v w with
  | error _ => rw [h1] at e; cases e
  | ok acct =>
    rw [h1, ok_bind] at e
    cases e
    exact tinv_invalidate h (inv_addTransaction h.acct h1) (acct_add_const h1).1
      (acct_add_const h1).2

theorem tinv_set {y0 : ℤ} {a a' : TA K} (h : TInv y0 a) {v : K} {w : When K}
    (e : setItem a w v = .ok a') : TInv y0 a' := by
  unfold setItem at e
  cases h1 : Account.setItem a.acct w v with
  | error _ => rw [h1] at e; cases e
  | ok acct =>
    rw [h1, ok_bind] at e
    cases e
    exact tinv_invalidate h (inv_setItem h.acct h1) (acct_set_const h1).1 (acct_set_const h1).2

/-- What reading the gain does. -/
theorem gain_spec {y0 : ℤ} {a a' : TA K} (h : TInv y0 a) {g : K}
    (e : capitalGain a = .ok (g, a')) :
    TInv y0 a' ∧ a'.acct = a.acct ∧ Dict.get? a'.gainHist a.acct.year = some g ∧
      (∀ y, y ≤ a.acct.year → Dict.get? a'.acbHist y = Dict.get? a.acbHist y) ∧
      ∃ c c', Dict.get? a.acbHist a.acct.year = some c ∧ computeGain a.acct c = .ok (c', g) ∧
        Dict.get? a'.acbHist (a.acct.year + 1) = some c' := by
  unfold capitalGain at e
  rcases Option.eq_none_or_eq_some (Dict.get? a.gainHist a.acct.year) with h0 | ⟨g0, h0⟩
  · rw [h0] at e
    obtain ⟨c, hc⟩ := h.now
    have hacb : acb a = .ok c := by simp [acb, look, hc]
    simp only [hacb, ok_bind] at e
    cases hr : computeGain a.acct c with
    | error _ => rw [hr] at e; cases e
    | ok r =>
      obtain ⟨c', g'⟩ := r
      rw [hr, ok_bind] at e
      cases e
      refine ⟨⟨h.acct, Dict.wf_set h.wfG _ _, Dict.wf_set h.wfA _ _, h.start, ?_, ?_, ?_, ?_, ?_⟩,
        rfl, by simp, ?_, c, c', hc, hr, by simp⟩
      · exact ⟨c, by simp only; rw [Dict.get?_set_ne _ _ (by omega)]; exact hc⟩
      · intro y hy
        simp only at *
        rw [Dict.get?_set_ne _ _ (by omega)]
        exact h.futG y hy
      · intro g2 hg2
        simp only [Dict.get?_set_self, Option.some.injEq] at hg2
        subst hg2
        refine ⟨c, c', ?_, hr, by simp⟩
        simp only
        rw [Dict.get?_set_ne _ _ (by omega)]; exact hc
      · intro y h1 h2
        obtain ⟨tx, d, d', k, e1, e2, e3, e4, e5⟩ := h.past y h1 h2
        simp only at h2
        refine ⟨tx, d, d', k, e1, ?_, ?_, ?_, e5⟩
        · simp only; rw [Dict.get?_set_ne _ _ (by omega)]; exact e2
        · simp only; rw [Dict.get?_set_ne _ _ (by omega)]; exact e3
        · simp only; rw [Dict.get?_set_ne _ _ (by omega)]; exact e4
      · intro y d h1 h2
        simp only at h1 h2 ⊢
        refine ⟨?_, g', by simp⟩
        by_contra hne
        rw [Dict.get?_set_ne _ _ (fun h => hne h.symm)] at h2
        exact hne (h.ahead y d h1 h2).1
      · intro y hy
        simp only
        rw [Dict.get?_set_ne _ _ (by omega)]
  · rw [h0] at e
    cases e
    obtain ⟨c, c', h1, h2, h3⟩ := h.cache _ h0
    exact ⟨h, rfl, h0, fun _ _ => rfl, c, c', h1, h2, h3⟩

theorem nextYear_spec {y0 : ℤ} {a a' : TA K} (h : TInv y0 a) (e : nextYear a = .ok a') :
    TInv y0 a' ∧ a'.acct.year = a.acct.year + 1 ∧ ∃ g c c' a1, capitalGain a = .ok (g, a1) ∧
      Dict.get? a.acbHist a.acct.year = some c ∧ computeGain a.acct c = .ok (c', g) ∧
      Account.nextYear a.acct = .ok a'.acct ∧ acb a' = .ok c' := by
  unfold nextYear at e
  cases hg : capitalGain a with
  | error _ => rw [hg] at e; cases e
  | ok r =>
    obtain ⟨g, a1⟩ := r
    obtain ⟨hi, hacct, hgain, hpast, c, c', hc, hcomp, hnext⟩ := gain_spec h hg
    rw [hg, ok_bind] at e
    obtain ⟨c1, hc1⟩ := hi.now
    have hacb1 : acb a1 = .ok c1 := by simp [acb, look, hc1]
    simp only [hacb1, ok_bind] at e
    obtain ⟨b, hb⟩ := hi.acct.balance_ok
    rw [nextYear_eq hb, ok_bind] at e
    cases e
    have hI := inv_nextYear hi.acct (nextYear_eq hb)
    refine ⟨⟨hI, hi.wfG, hi.wfA, ?_, ?_, ?_, ?_, ?_, ?_⟩, ?_, g, c, c', a1, rfl, hc, hcomp, ?_, ?_⟩
    · have := hi.start; simp only; omega
    · exact ⟨c', by simp only; rw [hacct]; exact hnext⟩
    · intro y hy; simp only at hy; exact hi.futG y (by omega)
    · intro g2 hg2
      simp only at hg2
      rw [hi.futG _ (by omega)] at hg2
      cases hg2
    · intro y h1 h2
      simp only at h2
      by_cases hy : y = a.acct.year
      · subst hy
        refine ⟨a1.acct.txns, c, c', g, ?_, ?_, hnext, hgain, ?_⟩
        · simp only; rw [hacct]; simp
        · simp only; rw [hpast _ le_rfl]; exact hc
        · have := compute_identity h.acct.tx.wf hcomp
          rw [hacct]
          simpa [inflows, outflows] using this
      · have hlt : y < a1.acct.year := by rw [hacct] at h2 ⊢; omega
        obtain ⟨tx, d, d', k, e1, e2, e3, e4, e5⟩ := hi.past y h1 hlt
        refine ⟨tx, d, d', k, ?_, e2, e3, e4, e5⟩
        simp only
        rw [Dict.get?_set_ne _ _ (by omega)]; exact e1
    · intro y d h1 h2
      simp only at h1 h2
      exact absurd (hi.ahead y d (by omega) h2).1 (by omega)
    · simp only; rw [hacct]
    · rw [← hacct]; exact nextYear_eq hb
    · simp only [acb, look]
      rw [hacct, hnext]

theorem tinv_run {y0 : ℤ} {a : TA K} (h : TInv y0 a) (ops : List (Op K)) : TInv y0 (run a ops) := by
  unfold run
  induction ops generalizing a with
  | nil => exact h
  | cons op ops ih =>
    rw [List.foldl_cons]
    apply ih
    cases hs : step a op with
    | error e => exact h
    | ok a' =>
      cases op with
      | add v w => exact tinv_add h hs
      | setItem k v => exact tinv_set h hs
      | readGain =>
        simp only [step] at hs
        cases hg : capitalGain a with
        | error _ => rw [hg] at hs; cases hs
        | ok r =>
          obtain ⟨g, a1⟩ := r
          rw [hg, ok_bind] at hs
          cases hs
          exact (gain_spec h hg).1
      | nextYear => exact (nextYear_spec h hs).1

/-- Specification: an account opened in year `y0` with cost base `c0` and then used. -/
def Opened (y0 : ℤ) (c0 : K) (a : TA K) : Prop :=
  ∃ b g dt c ops, c0 = Option.getD c b ∧ a = run (init y0 b g dt c) ops

/-- Specification: an account a program can reach. -/
def Reachable (a : TA K) : Prop := ∃ y0 c0, Opened y0 c0 a

theorem Reachable.tinv {a : TA K} (h : Reachable a) : ∃ y0, TInv y0 a := by
  obtain ⟨y0, c0, b, g, dt, c, ops, -, rfl⟩ := h
  exact ⟨y0, tinv_run (tinv_init y0 b g dt c) ops⟩

/-! ## C36 -/

/-- **C36, every dollar is accounted for.** The year's gain is the proceeds of the year's
withdrawals minus the part of the cost base (opening cost base plus contributions) that is not
carried over to next year. -/
theorem C36_gain_is_proceeds_minus_cost (a a1 a' : TA K) (ha : Reachable a) (g : K)
    (hg : capitalGain a = .ok (g, a1)) (hn : nextYear a = .ok a') :
    ∃ c c', acb a = .ok c ∧ acb a' = .ok c' ∧
      g = -(outflows a.acct none) - (c + inflows a.acct none - c') := by
  obtain ⟨y0, hi⟩ := ha.tinv
  obtain ⟨-, -, g2, c, c', a2, e1, e2, e3, -, e5⟩ := nextYear_spec hi hn
  rw [hg] at e1
  cases e1
  exact ⟨c, c', by simp [acb, look, e2], e5, compute_identity hi.acct.tx.wf e3⟩

/-- A sum over the years `y0, ..., y0 + n - 1`. -/
def sumYears (f : ℤ → K) (y0 : ℤ) (n : ℕ) : K := ((List.range n).map fun (i : ℕ) => f (y0 + i)).sum

/-- **C36, over a lifetime.** However long the account is used, the recorded gains of all finished
years add up to all withdrawals minus (the initial cost base plus all contributions minus the
current cost base). -/
theorem C36_lifetime_gains (y0 : ℤ) (c0 : K) (a : TA K) (ha : Opened y0 c0 a) (n : ℕ)
    (hn : a.acct.year = y0 + n) :
    ∃ c, acb a = .ok c ∧
      sumYears (fun y => Dict.val a.gainHist y) y0 n
        = sumYears (fun y => -(negSum ((Dict.get? a.acct.txHist y).getD []))) y0 n
          - (c0 + sumYears (fun y => posSum ((Dict.get? a.acct.txHist y).getD [])) y0 n - c) := by
  have hi : TInv y0 a := by
    obtain ⟨b, g, dt, c, ops, -, rfl⟩ := ha
    exact tinv_run (tinv_init y0 b g dt c) ops
  have hfirst : Dict.get? a.acbHist y0 = some c0 := by
    obtain ⟨b, g, dt, c, ops, rfl, rfl⟩ := ha
    have key : ∀ (ops : List (Op K)) (s : TA K), TInv y0 s →
        Dict.get? (run s ops).acbHist y0 = Dict.get? s.acbHist y0 := by
      intro ops
      induction ops with
      | nil => intro s _; rfl
      | cons op ops ih =>
        intro s hs
        have hone : Dict.get? (run s [op]).acbHist y0 = Dict.get? s.acbHist y0 := by
          have hst := hs.start
          simp only [run, List.foldl_cons, List.foldl_nil]
          cases hop : step s op with
          | error e => rfl
          | ok s' =>
            cases op with
            | add v w =>
              simp only [step, addTransaction] at hop
              cases h1 : Account.addTransaction s.acct v w with
              | error _ => rw [h1] at hop; cases hop
              | ok acct =>
                rw [h1, ok_bind] at hop
                cases hop
                simp only [invalidate, (acct_add_const h1).1]
                rw [Dict.get?_del hs.wfA, if_neg (by omega)]
            | setItem k v =>
              simp only [step, setItem] at hop
              cases h1 : Account.setItem s.acct k v with
              | error _ => rw [h1] at hop; cases hop
              | ok acct =>
                rw [h1, ok_bind] at hop
                cases hop
                simp only [invalidate, (acct_set_const h1).1]
                rw [Dict.get?_del hs.wfA, if_neg (by omega)]
            | readGain =>
              simp only [step] at hop
              cases hg : capitalGain s with
              | error _ => rw [hg] at hop; cases hop
              | ok r =>
                obtain ⟨g, a1⟩ := r
                rw [hg, ok_bind] at hop
                cases hop
                exact (gain_spec hs hg).2.2.2.1 y0 hst
            | nextYear =>
              simp only [step, nextYear] at hop
              cases hg : capitalGain s with
              | error _ => rw [hg] at hop; cases hop
              | ok r =>
                obtain ⟨g, a1⟩ := r
                obtain ⟨hi1, -, -, hp, -⟩ := gain_spec hs hg
                obtain ⟨c1, hc1⟩ := hi1.now
                have hacb1 : acb a1 = .ok c1 := by simp [acb, look, hc1]
                obtain ⟨b1, hb1⟩ := hi1.acct.balance_ok
                rw [hg, ok_bind] at hop
                simp only [hacb1, ok_bind, nextYear_eq hb1] at hop
                cases hop
                exact hp y0 hst
        have e : run s (op :: ops) = run (run s [op]) ops := by simp [run]
        rw [e, ih _ (tinv_run hs [op]), hone]
    rw [key ops _ (tinv_init y0 b g dt c)]
    simp [init, Dict.get?_cons]
  have hsum : ∀ m : ℕ, (m : ℤ) ≤ n → ∃ c, Dict.get? a.acbHist (y0 + m) = some c ∧
      sumYears (fun y => Dict.val a.gainHist y) y0 m
        = sumYears (fun y => -(negSum ((Dict.get? a.acct.txHist y).getD []))) y0 m
          - (c0 + sumYears (fun y => posSum ((Dict.get? a.acct.txHist y).getD [])) y0 m - c) := by
    intro m
    induction m with
    | zero => intro _; exact ⟨c0, by simpa using hfirst, by simp [sumYears]⟩
    | succ m ih =>
      intro hm
      push_cast at hm
      obtain ⟨c, hc, hs⟩ := ih (by omega)
      obtain ⟨tx, d, d', k, e1, e2, e3, e4, e5⟩ := hi.past (y0 + m) (by omega) (by omega)
      rw [hc] at e2
      cases e2
      refine ⟨d', by push_cast; rw [← add_assoc]; exact e3, ?_⟩
      simp only [sumYears, List.range_succ, List.map_append, List.sum_append, List.map_cons,
        List.map_nil, List.sum_cons, List.sum_nil, add_zero] at hs ⊢
      rw [hs, e1]
      simp only [Dict.val, e4, Option.getD_some, e5]
      ring
  obtain ⟨c, hc, hs⟩ := hsum n le_rfl
  exact ⟨c, by simp [acb, look, hn, hc], hs⟩

/-- **C36, the cached gain is never stale**: whatever was done before, reading the gain gives what
computing it afresh from the current transactions gives. -/
theorem C36_gain_is_current (a : TA K) (ha : Reachable a) :
    (capitalGain a).toOption.map Prod.fst
      = (capitalGain { a with gainHist := [] }).toOption.map Prod.fst := by
  obtain ⟨y0, hi⟩ := ha.tinv
  rcases Option.eq_none_or_eq_some (Dict.get? a.gainHist a.acct.year) with h0 | ⟨g0, h0⟩
  · have hacb : acb { a with gainHist := [] } = acb a := rfl
    simp only [capitalGain, h0, Dict.get?_nil, hacb]
    cases acb a with
    | error e => simp [Except.toOption]
    | ok c =>
      simp only [ok_bind]
      cases computeGain a.acct c with
      | error e => simp [Except.toOption]
      | ok r => simp [Except.toOption]
  · obtain ⟨c, c', h1, h2, -⟩ := hi.cache _ h0
    have hacb : acb { a with gainHist := [] } = .ok c := by simp [acb, look, h1]
    simp [capitalGain, h0, hacb, h2, Except.toOption]

theorem nextYear_of_compute {y0 : ℤ} {a : TA K} (hi : TInv y0 a) {c c' g : K}
    (hc : acb a = .ok c) (hr : computeGain a.acct c = .ok (c', g)) :
    ∃ a1 a', capitalGain a = .ok (g, a1) ∧ nextYear a = .ok a' ∧ acb a' = .ok c' := by
  have hg : ∃ a1, capitalGain a = .ok (g, a1) := by
    rcases Option.eq_none_or_eq_some (Dict.get? a.gainHist a.acct.year) with h0 | ⟨g0, h0⟩
    · simp [capitalGain, h0, hc, hr]
    · obtain ⟨d, d', h1, h2, -⟩ := hi.cache _ h0
      have : d = c := by simpa [acb, look, h1] using hc
      subst this
      rw [h2] at hr
      cases hr
      exact ⟨a, by simp [capitalGain, h0]⟩
  obtain ⟨a1, hg⟩ := hg
  obtain ⟨hi1, hacct, -⟩ := gain_spec hi hg
  obtain ⟨c1, hc1⟩ := hi1.now
  have hacb1 : acb a1 = .ok c1 := by simp [acb, look, hc1]
  obtain ⟨b, hb⟩ := hi1.acct.balance_ok
  have hn : ∃ a', nextYear a = .ok a' := by
    simp [nextYear, hg, hacb1, nextYear_eq hb]
  obtain ⟨a', hn⟩ := hn
  obtain ⟨-, -, g2, d, d', a2, -, h2, h3, -, h5⟩ := nextYear_spec hi hn
  have : d = c := by simpa [acb, look, h2] using hc
  subst this
  rw [h3] at hr
  cases hr
  exact ⟨a1, a', hg, hn, h5⟩

/-- **C36, the cost base shown for next year is never stale**: whatever was done before, a figure
that `acb_history` shows for a later year is one for next year, and it is the cost base that the
account will have when it gets there without any further change. -/
theorem C36_next_cost_base_is_current (a : TA K) (ha : Reachable a) (y : ℤ) (c : K)
    (hy : a.acct.year < y) (h : Dict.get? a.acbHist y = some c) :
    y = a.acct.year + 1 ∧ ∃ a', nextYear a = .ok a' ∧ acb a' = .ok c := by
  obtain ⟨y0, hi⟩ := ha.tinv
  obtain ⟨rfl, g, hg⟩ := hi.ahead y c hy h
  obtain ⟨d, d', h1, h2, h3⟩ := hi.cache _ hg
  rw [h] at h3
  cases h3
  obtain ⟨a1, a', -, e1, e2⟩ := nextYear_of_compute hi (by simp [acb, look, h1]) h2
  exact ⟨rfl, a', e1, e2⟩

/-- An account whose gain was read after a purchase shows a cost base for next year; one more
purchase takes it back. -/
example :
    let a := run (init 2000 (100 : ℚ) (fun _ _ => 1) [] (some 80))
      [.add 10 (.num 0), .readGain]
    Dict.get? a.acbHist 2001 = some 90 ∧
      Dict.get? (run a [.add 5 (.num 0)]).acbHist 2001 = none := by
  decide +kernel

/-! ### Withdrawals that the account can cover -/

/-- Specification: no withdrawal takes out more than there is. -/
def Covered (a : Acct K) : Prop :=
  ∀ t v, Dict.get? a.txns t = some v → v < 0 →
    ∃ b, balanceAtTime a (.num t) none = .ok b ∧ 0 ≤ b

theorem covered_step {a : Acct K} (hc : Covered a) {w : K} (hw : w ∈ Dict.keys a.txns)
    (s : K × K) (hs : 0 ≤ s.1) :
    ∃ s', gainStep a s w = .ok s' ∧ 0 ≤ s'.1 ∧ s'.1 ≤ s.1 + max (Dict.val a.txns w) 0 := by
  by_cases h : 0 ≤ Dict.val a.txns w
  · exact ⟨_, gainStep_inflow h, add_nonneg hs h, by rw [max_eq_left h]⟩
  · push Not at h
    obtain ⟨b, hb, hb0⟩ := hc w _ (Dict.get?_eq_some_val hw) h
    have hpos : 0 < b - Dict.val a.txns w := by linarith
    refine ⟨_, gainStep_outflow h hb hpos.ne', ?_⟩
    have h1 : 1 - (-Dict.val a.txns w / (b - Dict.val a.txns w)) = b / (b - Dict.val a.txns w) := by
      field_simp; ring
    have h2 : 0 ≤ b / (b - Dict.val a.txns w) := div_nonneg hb0 hpos.le
    have h3 : b / (b - Dict.val a.txns w) ≤ 1 := by rw [div_le_one hpos]; linarith
    simp only [h1]
    refine ⟨mul_nonneg hs h2, ?_⟩
    rw [max_eq_right h.le, add_zero]
    exact mul_le_of_le_one_right hs h3

theorem covered_fold {a : Acct K} (hc : Covered a) (l : List K) (hl : ∀ w ∈ l, w ∈ Dict.keys a.txns)
    (s : K × K) (hs : 0 ≤ s.1) :
    ∃ s', l.foldlM (gainStep a) s = .ok s' ∧ 0 ≤ s'.1 ∧
      s'.1 ≤ s.1 + (l.map fun w => max (Dict.val a.txns w) 0).sum := by
  induction l generalizing s with
  | nil => exact ⟨s, rfl, hs, by simp⟩
  | cons w l ih =>
    obtain ⟨s1, e1, p1, q1⟩ := covered_step hc (hl w (by simp)) s hs
    obtain ⟨s2, e2, p2, q2⟩ := ih (fun x hx => hl x (by simp [hx])) s1 p1
    refine ⟨s2, by rw [List.foldlM_cons, e1, ok_bind, e2], p2, ?_⟩
    rw [List.map_cons, List.sum_cons]
    linarith

theorem mem_sorted {a : Acct K} (w : K) (h : w ∈ (Dict.keys a.txns).insertionSort (· ≤ ·)) :
    w ∈ Dict.keys a.txns := (List.perm_insertionSort (· ≤ ·) _).mem_iff.1 h

/-- **C36, the cost base is never negative** (and never exceeds what was put in): if the cost base
is non-negative and no withdrawal takes out more than there is, then the gain and `next_year()` are
well defined and next year's cost base is between 0 and this year's plus the contributions. -/
theorem C36_cost_base_never_negative (a : TA K) (ha : Reachable a) (hc : Covered a.acct) (c : K)
    (hacb : acb a = .ok c) (h0 : 0 ≤ c) :
    ∃ g a1 a' c', capitalGain a = .ok (g, a1) ∧ nextYear a = .ok a' ∧ acb a' = .ok c' ∧
      0 ≤ c' ∧ c' ≤ c + inflows a.acct none := by
  obtain ⟨y0, hi⟩ := ha.tinv
  obtain ⟨⟨c', g⟩, e, p, q⟩ := covered_fold hc _ mem_sorted (c, 0) h0
  obtain ⟨a1, a', h1, h2, h3⟩ := nextYear_of_compute hi hacb e
  refine ⟨g, a1, a', c', h1, h2, h3, p, ?_⟩
  simp only [inflows, zero_add]
  rw [posSum_keys hi.acct.tx.wf (List.perm_insertionSort (· ≤ ·) _)]
  exact q

/-! ### What one more transaction does -/

theorem sorted_append {l : List K} (hn : l.Nodup) {t : K} (h : ∀ k ∈ l, k < t) :
    (l ++ [t]).insertionSort (· ≤ ·) = l.insertionSort (· ≤ ·) ++ [t] := by
  have hp := List.perm_insertionSort (· ≤ ·) l
  refine List.Perm.eq_of_pairwise' (List.pairwise_insertionSort _ _) ?_
    ((List.perm_insertionSort _ _).trans (hp.symm.append_right [t]))
  rw [List.pairwise_append]
  refine ⟨List.pairwise_insertionSort _ _, by simp, ?_⟩
  intro x hx y hy
  simp only [List.mem_singleton] at hy
  subst hy
  exact (h x (hp.mem_iff.1 hx)).le

theorem foldlM_congr {α β : Type} {f g : β → α → Except PyErr β} (l : List α)
    (h : ∀ x ∈ l, ∀ b, f b x = g b x) (b : β) : l.foldlM f b = l.foldlM g b := by
  induction l generalizing b with
  | nil => rfl
  | cons x l ih =>
    rw [List.foldlM_cons, List.foldlM_cons, h x (by simp)]
    cases g b x with
    | error e => rfl
    | ok b' => exact ih (fun y hy => h y (by simp [hy])) b'

theorem foldlM_append_ok {α β : Type} {f : β → α → Except PyErr β} (l : List α) (x : α) {b b' : β}
    (h : l.foldlM f b = .ok b') : (l ++ [x]).foldlM f b = f b' x := by
  rw [List.foldlM_append, h, ok_bind, List.foldlM_cons]
  cases f b' x <;> rfl

/-- The computation for an account with one more, later, transaction. -/
theorem compute_append {a : Acct K} (ha : Inv a) {t v : K} (ht : 0 ≤ t ∧ t ≤ 1)
    (hlast : ∀ k ∈ Dict.keys a.txns, k < t) {c : K} {s : K × K} (hs : computeGain a c = .ok s) :
    computeGain { a with txns := Dict.set a.txns t (Dict.val a.txns t + v) } c
      = gainStep { a with txns := Dict.set a.txns t (Dict.val a.txns t + v) } s t := by
  have hnm : t ∉ Dict.keys a.txns := fun h => lt_irrefl _ (hlast t h)
  set a' : Acct K := { a with txns := Dict.set a.txns t (Dict.val a.txns t + v) } with ha'
  have hinv : Inv a' := inv_addTransaction ha (addTransaction_eq (whenConv_ok ht.1 ht.2))
  obtain ⟨b, hb⟩ := ha.balance_ok
  have hb' : balance a' = .ok b := by rw [ha', balance_txns_irrel]; exact hb
  have hk : Dict.keys a'.txns = Dict.keys a.txns ++ [t] := Dict.keys_set_of_not_mem _ hnm
  unfold computeGain
  rw [hk, sorted_append ha.tx.wf hlast]
  refine foldlM_append_ok _ _ ?_
  unfold computeGain at hs
  rw [← hs]
  refine foldlM_congr _ (fun w hw b0 => ?_) _
  have hw := mem_sorted w hw
  have hlt := hlast w hw
  have hval : Dict.val a'.txns w = Dict.val a.txns w := by
    rw [ha']; simp only [Dict.val_set]; rw [if_neg hlt.ne']
  have hbal : balanceAtTime a' (.num w) none = balanceAtTime a (.num w) none := by
    rw [balanceAtTime_eq hinv hb' (ha.tx.rng w hw) none (by simp),
      balanceAtTime_eq ha hb (ha.tx.rng w hw) none (by simp)]
    have hA : a'.A = a.A := rfl
    rw [hA, ha']
    simp only [grown_set a.A ha.tx.wf, if_neg (not_le.2 hlt), add_zero]
  unfold gainStep
  rw [hval, hbal]

/-- The state after `add_transaction`. -/
theorem add_ok {a : TA K} {v t : K} (ht : 0 ≤ t ∧ t ≤ 1) :
    addTransaction a v (.num t) = .ok (invalidate { a with
      acct := { a.acct with txns := Dict.set a.acct.txns t (Dict.val a.acct.txns t + v) } }) := by
  simp [addTransaction, addTransaction_eq (whenConv_ok ht.1 ht.2)]

theorem acb_invalidate {y0 : ℤ} {a : TA K} (hi : TInv y0 a) (tx : Dict K K) {c : K}
    (h : acb a = .ok c) :
    acb (invalidate { a with acct := { a.acct with txns := tx } }) = .ok c := by
  obtain ⟨d, hd⟩ := hi.now
  have : d = c := by simpa [acb, look, hd] using h
  subst this
  simp only [acb, look, invalidate]
  rw [Dict.get?_del hi.wfA, if_neg (by omega), hd]

/-- **C36, a contribution** made after all other transactions of the year adds exactly its amount
to next year's cost base and realises no gain. -/
theorem C36_contribution (a a1 a' : TA K) (ha : Reachable a) (g c' t v : K)
    (hg : capitalGain a = .ok (g, a1)) (hn : nextYear a = .ok a') (hc' : acb a' = .ok c')
    (ht : 0 ≤ t ∧ t ≤ 1) (hlast : ∀ k ∈ Dict.keys a.acct.txns, k < t) (hv : 0 ≤ v) :
    ∃ b b1 b', addTransaction a v (.num t) = .ok b ∧ capitalGain b = .ok (g, b1) ∧
      nextYear b = .ok b' ∧ acb b' = .ok (c' + v) := by
  obtain ⟨y0, hi⟩ := ha.tinv
  obtain ⟨-, -, g2, c, c2, a2, e1, e2, e3, -, e5⟩ := nextYear_spec hi hn
  rw [hg] at e1; cases e1
  rw [hc'] at e5; cases e5
  have hnm : t ∉ Dict.keys a.acct.txns := fun h => lt_irrefl _ (hlast t h)
  have h0 := Dict.val_of_not_mem (d := a.acct.txns) hnm
  have hacb : acb a = .ok c := by simp [acb, look, e2]
  have hi' := tinv_add hi (add_ok (v := v) ht)
  have hr := compute_append hi.acct ht hlast (v := v) e3
  rw [gainStep_inflow (by simp [Dict.val_set, h0, hv])] at hr
  obtain ⟨b1, b', h1, h2, h3⟩ := nextYear_of_compute hi' (acb_invalidate hi _ hacb) hr
  refine ⟨_, b1, b', add_ok ht, h1, h2, ?_⟩
  rw [h3]
  simp [Dict.val_set, h0]

/-- **C36, a withdrawal** of `w` made after all other transactions of the year, when the balance is
`bal`, uses up the fraction `w / bal` of the cost base and realises the rest of `w` as a gain. -/
theorem C36_withdrawal (a a1 a' : TA K) (ha : Reachable a) (g c' t w bal : K)
    (hg : capitalGain a = .ok (g, a1)) (hn : nextYear a = .ok a') (hc' : acb a' = .ok c')
    (ht : 0 ≤ t ∧ t ≤ 1) (hlast : ∀ k ∈ Dict.keys a.acct.txns, k < t) (hw : 0 < w)
    (hA : a.acct.A 0 = 1)
    (hbal : balanceAtTime a.acct (.num t) none = .ok bal) (hb0 : bal ≠ 0) :
    ∃ b b1 b', addTransaction a (-w) (.num t) = .ok b ∧
      capitalGain b = .ok (g + (w - c' * (w / bal)), b1) ∧
      nextYear b = .ok b' ∧ acb b' = .ok (c' - c' * (w / bal)) := by
  obtain ⟨y0, hi⟩ := ha.tinv
  obtain ⟨-, -, g2, c, c2, a2, e1, e2, e3, -, e5⟩ := nextYear_spec hi hn
  rw [hg] at e1; cases e1
  rw [hc'] at e5; cases e5
  have hnm : t ∉ Dict.keys a.acct.txns := fun h => lt_irrefl _ (hlast t h)
  have h0 := Dict.val_of_not_mem (d := a.acct.txns) hnm
  have hacb : acb a = .ok c := by simp [acb, look, e2]
  have hi' := tinv_add hi (add_ok (v := -w) ht)
  have hr := compute_append hi.acct ht hlast (v := -w) e3
  set x : Acct K := { a.acct with txns := Dict.set a.acct.txns t (Dict.val a.acct.txns t + -w) }
    with hx
  have hval : Dict.val x.txns t = -w := by simp [hx, Dict.val_set, h0]
  obtain ⟨b0, hb⟩ := hi.acct.balance_ok
  have hinv : Inv x := hi'.acct
  have hbalx : balanceAtTime x (.num t) none = .ok (bal - w) := by
    rw [balanceAtTime_eq hi.acct hb ht none (by simp)] at hbal
    rw [balanceAtTime_eq hinv (b := b0) (by rw [hx, balance_txns_irrel]; exact hb) ht none
      (by simp)]
    have hAA : x.A = a.acct.A := rfl
    cases hbal
    rw [hAA, hx]
    simp only [grown_set a.acct.A hi.acct.tx.wf, le_refl, if_true, sub_self, hA, h0]
    congr 1
    ring
  rw [gainStep_outflow (by rw [hval]; linarith) hbalx (by rw [hval]; simpa using hb0)] at hr
  simp only [hval, neg_neg, sub_neg_eq_add, sub_add_cancel] at hr
  obtain ⟨b1, b', h1, h2, h3⟩ := nextYear_of_compute hi' (acb_invalidate hi _ hacb) hr
  refine ⟨_, b1, b', add_ok ht, ?_, h2, ?_⟩
  · rw [h1]; congr 2; ring
  · rw [h3]; congr 1; ring

/-- **C36, emptying the account.** If the year's last transaction is a withdrawal that leaves
nothing, next year's cost base is 0 and the year's gain is all proceeds minus the whole cost base
and all contributions. -/
theorem C36_emptying (a : TA K) (ha : Reachable a) (hcov : Covered a.acct) (c t v : K)
    (hacb : acb a = .ok c) (h0 : 0 ≤ c) (htv : Dict.get? a.acct.txns t = some v) (hv : v < 0)
    (hlast : ∀ k ∈ Dict.keys a.acct.txns, k ≤ t)
    (hempty : balanceAtTime a.acct (.num t) none = .ok 0) :
    ∃ g a1 a', capitalGain a = .ok (g, a1) ∧ nextYear a = .ok a' ∧ acb a' = .ok 0 ∧
      g = -(outflows a.acct none) - c - inflows a.acct none := by
  obtain ⟨y0, hi⟩ := ha.tinv
  have hval : Dict.val a.acct.txns t = v := by simp [Dict.val, htv]
  have htm : t ∈ Dict.keys a.acct.txns := Dict.mem_keys_iff.2 ⟨v, htv⟩
  have hp := List.perm_insertionSort (· ≤ ·) (Dict.keys a.acct.txns)
  have hsort : (Dict.keys a.acct.txns).insertionSort (· ≤ ·)
      = ((Dict.keys a.acct.txns).erase t).insertionSort (· ≤ ·) ++ [t] := by
    have hp2 := List.perm_insertionSort (· ≤ ·) ((Dict.keys a.acct.txns).erase t)
    refine List.Perm.eq_of_pairwise' (List.pairwise_insertionSort _ _) ?_ ?_
    · rw [List.pairwise_append]
      refine ⟨List.pairwise_insertionSort _ _, by simp, ?_⟩
      intro x hx y hy
      simp only [List.mem_singleton] at hy
      subst hy
      exact hlast x (List.mem_of_mem_erase (hp2.mem_iff.1 hx))
    · refine hp.trans ((List.perm_cons_erase htm).trans ?_)
      exact (List.perm_append_singleton _ _).symm.trans (hp2.symm.append_right [t])
  obtain ⟨s, e, p, -⟩ := covered_fold hcov
    (((Dict.keys a.acct.txns).erase t).insertionSort (· ≤ ·))
    (fun w hw => List.mem_of_mem_erase ((List.perm_insertionSort (· ≤ ·) _).mem_iff.1 hw))
    (c, 0) h0
  have hr : computeGain a.acct c = gainStep a.acct s t := by
    unfold computeGain
    rw [hsort]
    exact foldlM_append_ok _ _ e
  rw [gainStep_outflow (by rw [hval]; exact hv) hempty (by rw [hval]; simpa using hv.ne)] at hr
  rw [hval, zero_sub, div_self (by simpa using hv.ne), sub_self, mul_zero] at hr
  have hid := compute_identity hi.acct.tx.wf hr
  obtain ⟨a1, a', h1, h2, h3⟩ := nextYear_of_compute hi hacb hr
  exact ⟨_, a1, a', h1, h2, h3, by rw [hid]; ring⟩

/-! ### No gains turn into losses while prices do not fall -/

theorem grown_between {A : K → K} (hA : IsGrowth A) {d : Dict K K} (hd : Dict.WF d) {s t : K}
    (hst : s < t) (hno : ∀ k ∈ Dict.keys d, ¬ (s < k ∧ k < t)) :
    grown A d t = grown A d s * A (t - s) + Dict.val d t := by
  induction d with
  | nil => simp [Dict.val_nil]
  | cons x d ih =>
    obtain ⟨hna, hd'⟩ := Dict.wf_cons.1 hd
    have hx := hno x.1 (by simp)
    rw [grown_cons, grown_cons, ih hd' fun k hk => hno k (by simp [hk])]
    simp only [Dict.val, Dict.get?_cons]
    by_cases h : x.1 = t
    · have : Dict.get? d t = none := Dict.get?_eq_none.2 (h ▸ hna)
      rw [if_pos h.le, if_neg (by rw [h]; exact not_le.2 hst), if_pos h, this, h, sub_self, hA.zero]
      simp
      ring
    · rw [if_neg h]
      by_cases h2 : x.1 ≤ s
      · rw [if_pos h2, if_pos (h2.trans hst.le)]
        have : A (t - x.1) = A (s - x.1) * A (t - s) := by rw [← hA.add]; congr 1; ring
        rw [this]; ring
      · have h3 : ¬ x.1 ≤ t := fun h' => hx ⟨not_le.1 h2, lt_of_le_of_ne h' h⟩
        rw [if_neg h2, if_neg h3]; ring

/-- The balance at the next date, before its transaction. -/
theorem bal_between {a : Acct K} (ha : Inv a) (hA : IsGrowth a.A) {s t x : K} (hs : 0 ≤ s)
    (ht : t ≤ 1) (hst : s < t) (hno : ∀ k ∈ Dict.keys a.txns, ¬ (s < k ∧ k < t))
    (hx : balanceAtTime a (.num s) none = .ok x) :
    balanceAtTime a (.num t) none = .ok (x * a.A (t - s) + Dict.val a.txns t) := by
  obtain ⟨b, hb⟩ := ha.balance_ok
  rw [balanceAtTime_eq ha hb ⟨hs, hst.le.trans ht⟩ none (by simp)] at hx
  rw [balanceAtTime_eq ha hb ⟨hs.trans hst.le, ht⟩ none (by simp)]
  cases hx
  have : a.A t = a.A s * a.A (t - s) := by rw [← hA.add]; congr 1; ring
  simp only [Option.getD_none, grown_nil, add_zero, grown_between hA ha.tx.wf hst hno, this]
  congr 1
  ring

theorem bal_first {a : Acct K} (ha : Inv a) (hA : IsGrowth a.A) {t b : K} (ht : 0 ≤ t ∧ t ≤ 1)
    (hno : ∀ k ∈ Dict.keys a.txns, ¬ k < t) (hb : balance a = .ok b) :
    balanceAtTime a (.num t) none = .ok (b * a.A t + Dict.val a.txns t) := by
  rw [balanceAtTime_eq ha hb ht none (by simp)]
  have h1 := grown_between hA ha.tx.wf (s := -1) (t := t) (by linarith)
    fun k hk h => hno k hk h.2
  have h2 : grown a.A a.txns (-1) = 0 := by
    unfold grown
    rw [List.filter_eq_nil_iff.2]
    · simp
    · intro kv hkv
      have := (ha.tx.rng _ (Dict.mem_keys_of_mem hkv)).1
      simp only [decide_eq_true_eq, not_le]
      linarith
  rw [h1, h2]
  simp

/-- Processing the dates `l` in order, when the cost base does not exceed the balance available at
the first of them. -/
theorem noloss_fold {a : Acct K} (ha : Inv a) (hA : IsGrowth a.A) (hup : ∀ t, 0 ≤ t → 1 ≤ a.A t)
    (hcov : Covered a) (l : List K) :
    ∀ (t : K) (s : K × K) (x : K), (t :: l).Pairwise (· < ·) →
      (∀ k ∈ t :: l, k ∈ Dict.keys a.txns) →
      (∀ k ∈ Dict.keys a.txns, t < k → k ∈ l) → 0 ≤ s.1 → 0 ≤ s.2 →
      balanceAtTime a (.num t) none = .ok (x + Dict.val a.txns t) → s.1 ≤ x →
      ∃ s' y, (t :: l).foldlM (gainStep a) s = .ok s' ∧ 0 ≤ s'.2 ∧
        balanceAtTime a (.num 1) none = .ok y ∧ s'.1 ≤ y := by
  induction l with
  | nil =>
    intro t s x hsort hmem hall h1 h2 hx hle
    have htm := hmem t (by simp)
    have hrng := ha.tx.rng t htm
    obtain ⟨s', e, p, -⟩ := covered_step hcov htm s h1
    have hfin : s'.1 ≤ x + Dict.val a.txns t ∧ 0 ≤ s'.2 := by
      by_cases h0 : 0 ≤ Dict.val a.txns t
      · rw [gainStep_inflow h0] at e; cases e
        exact ⟨by simp only; linarith, h2⟩
      · push Not at h0
        obtain ⟨b, hb, hb0⟩ := hcov t _ (Dict.get?_eq_some_val htm) h0
        rw [hx] at hb; cases hb
        have hxpos : 0 < x := by linarith
        rw [gainStep_outflow h0 hx (by simpa using hxpos.ne')] at e
        cases e
        simp only [add_sub_cancel_right]
        have hr : s.1 / x ≤ 1 := by rw [div_le_one hxpos]; exact hle
        refine ⟨?_, add_nonneg h2 (mul_nonneg (by linarith) (by linarith))⟩
        have e1 : 1 - -Dict.val a.txns t / x = (x + Dict.val a.txns t) / x := by
          field_simp; ring
        rw [e1]
        calc s.1 * ((x + Dict.val a.txns t) / x) = s.1 / x * (x + Dict.val a.txns t) := by ring
          _ ≤ 1 * (x + Dict.val a.txns t) := mul_le_mul_of_nonneg_right hr hb0
          _ = _ := one_mul _
    have hfold : [t].foldlM (gainStep a) s = .ok s' := by
      rw [List.foldlM_cons, e]; rfl
    rcases eq_or_lt_of_le hrng.2 with h | h
    · subst h
      exact ⟨s', _, hfold, hfin.2, hx, hfin.1⟩
    · have hb1 := bal_between ha hA hrng.1 le_rfl h (fun k hk h' => by simpa using hall k hk h'.1) hx
      refine ⟨s', _, hfold, hfin.2, hb1, ?_⟩
      have hv1 : 0 ≤ Dict.val a.txns 1 := by
        rw [Dict.val_of_not_mem fun hk => by simpa using hall 1 hk h]
      have hx0 : 0 ≤ x + Dict.val a.txns t := p.trans hfin.1
      have := mul_le_mul_of_nonneg_left (hup (1 - t) (by linarith)) hx0
      linarith [hfin.1]
  | cons t2 l ih =>
    intro t s x hsort hmem hall h1 h2 hx hle
    have htm := hmem t (by simp)
    have hrng := ha.tx.rng t htm
    obtain ⟨s1, e, p, -⟩ := covered_step hcov htm s h1
    have hfin : s1.1 ≤ x + Dict.val a.txns t ∧ 0 ≤ s1.2 := by
      by_cases h0 : 0 ≤ Dict.val a.txns t
      · rw [gainStep_inflow h0] at e; cases e
        exact ⟨by simp only; linarith, h2⟩
      · push Not at h0
        obtain ⟨b, hb, hb0⟩ := hcov t _ (Dict.get?_eq_some_val htm) h0
        rw [hx] at hb; cases hb
        have hxpos : 0 < x := by linarith
        rw [gainStep_outflow h0 hx (by simpa using hxpos.ne')] at e
        cases e
        simp only [add_sub_cancel_right]
        have hr : s.1 / x ≤ 1 := by rw [div_le_one hxpos]; exact hle
        refine ⟨?_, add_nonneg h2 (mul_nonneg (by linarith) (by linarith))⟩
        have e1 : 1 - -Dict.val a.txns t / x = (x + Dict.val a.txns t) / x := by
          field_simp; ring
        rw [e1]
        calc s.1 * ((x + Dict.val a.txns t) / x) = s.1 / x * (x + Dict.val a.txns t) := by ring
          _ ≤ 1 * (x + Dict.val a.txns t) := mul_le_mul_of_nonneg_right hr hb0
          _ = _ := one_mul _
    have hlt : t < t2 := (List.pairwise_cons.1 hsort).1 t2 (by simp)
    have hsort2 := (List.pairwise_cons.1 hsort).2
    have hrng2 := ha.tx.rng t2 (hmem t2 (by simp))
    have hb1 := bal_between ha hA hrng.1 hrng2.2 hlt (fun k hk h' => by
      rcases List.mem_cons.1 (hall k hk h'.1) with rfl | hk2
      · exact lt_irrefl _ h'.2
      · exact lt_asymm h'.2 ((List.pairwise_cons.1 hsort2).1 k hk2)) hx
    have hx0 : 0 ≤ x + Dict.val a.txns t := p.trans hfin.1
    have hgrow := mul_le_mul_of_nonneg_left (hup (t2 - t) (by linarith)) hx0
    obtain ⟨s', y, e', q1, q2, q3⟩ := ih t2 s1 _ hsort2
      (fun k hk => hmem k (by simp only [List.mem_cons] at hk ⊢; tauto))
      (fun k hk h' => by
        rcases List.mem_cons.1 (hall k hk (hlt.trans h')) with rfl | hk2
        · exact absurd h' (lt_irrefl _)
        · exact hk2) p hfin.2 hb1 (by linarith [hfin.1])
    exact ⟨s', y, by rw [List.foldlM_cons, e, ok_bind, e'], q1, q2, q3⟩

/-- **C36, no losses out of nowhere.** If the account never loses value by itself, no withdrawal
takes out more than there is and the cost base is at most the balance, then the year's gain is not
negative and next year's cost base is at most the closing balance. -/
theorem C36_no_losses (a : TA K) (ha : Reachable a) (hA : IsGrowth a.acct.A)
    (hup : ∀ t, 0 ≤ t → 1 ≤ a.acct.A t) (hcov : Covered a.acct) (b c : K)
    (hb : balance a.acct = .ok b) (hacb : acb a = .ok c) (h0 : 0 ≤ c) (hle : c ≤ b) :
    ∃ g a1 a' c' closing, capitalGain a = .ok (g, a1) ∧ 0 ≤ g ∧ nextYear a = .ok a' ∧
      acb a' = .ok c' ∧ balanceAtTime a.acct (.str "end") none = .ok closing ∧ c' ≤ closing := by
  obtain ⟨y0, hi⟩ := ha.tinv
  have hp := List.perm_insertionSort (· ≤ ·) (Dict.keys a.acct.txns)
  have hs := sortedKeys_lt hi.acct.tx.wf
  have key : ∃ s' y, computeGain a.acct c = .ok s' ∧ 0 ≤ s'.2 ∧
      balanceAtTime a.acct (.num 1) none = .ok y ∧ s'.1 ≤ y := by
    unfold computeGain
    rcases hl : (Dict.keys a.acct.txns).insertionSort (· ≤ ·) with _ | ⟨t, l⟩
    · have hnil : Dict.keys a.acct.txns = [] := by
        rw [hl] at hp; exact hp.symm.eq_nil
      have hb1 := bal_first hi.acct hA ⟨zero_le_one, le_rfl⟩ (by simp [hnil]) hb
      refine ⟨(c, 0), _, rfl, le_rfl, hb1, ?_⟩
      rw [Dict.val_of_not_mem (by simp [hnil])]
      have := mul_le_mul_of_nonneg_left (hup 1 zero_le_one) (h0.trans hle)
      simp only
      linarith
    · rw [hl] at hp hs
      have htm : t ∈ Dict.keys a.acct.txns := hp.mem_iff.1 (by simp)
      have hfirst := bal_first hi.acct hA (hi.acct.tx.rng t htm) (fun k hk hlt => by
        rcases List.mem_cons.1 (hp.mem_iff.2 hk) with rfl | h
        · exact lt_irrefl _ hlt
        · exact lt_asymm hlt ((List.pairwise_cons.1 hs).1 k h)) hb
      have := mul_le_mul_of_nonneg_left (hup t (hi.acct.tx.rng t htm).1) (h0.trans hle)
      exact noloss_fold hi.acct hA hup hcov l t (c, 0) _ hs (fun k hk => hp.mem_iff.1 hk)
        (fun k hk hlt => by
          rcases List.mem_cons.1 (hp.mem_iff.2 hk) with rfl | h
          · exact absurd hlt (lt_irrefl _)
          · exact h) h0 le_rfl hfirst (by simp only; linarith)
  obtain ⟨⟨c', g⟩, y, e, p, q, r⟩ := key
  obtain ⟨a1, a', h1, h2, h3⟩ := nextYear_of_compute hi hacb e
  exact ⟨g, a1, a', c', y, h1, p, h2, h3, by rw [balanceAtTime_end]; exact q, r⟩

/-! ### The order in which transactions are recorded does not matter -/

/-- Two accounts that differ only in the order of their transactions. -/
structure Same (a b : Acct K) : Prop where
  rest : b = { a with txns := b.txns }
  wf : Dict.WF b.txns
  get : ∀ k, Dict.get? b.txns k = Dict.get? a.txns k

theorem Same.keys {a b : Acct K} (ha : Dict.WF a.txns) (h : Same a b) :
    (Dict.keys b.txns).Perm (Dict.keys a.txns) := by
  refine (List.perm_ext_iff_of_nodup h.wf ha).2 fun k => ?_
  rw [Dict.mem_keys_iff, Dict.mem_keys_iff, h.get]

theorem Same.compute {a b : Acct K} (ha : Inv a) (hb : Inv b) (h : Same a b) (c : K) :
    computeGain b c = computeGain a c := by
  have hval : ∀ k, Dict.val b.txns k = Dict.val a.txns k := fun k => by simp [Dict.val, h.get]
  have hk := h.keys ha.tx.wf
  have hA : b.A = a.A := by rw [h.rest]; rfl
  have hbal : ∀ t, 0 ≤ t ∧ t ≤ 1 → balanceAtTime b (.num t) none = balanceAtTime a (.num t) none := by
    intro t ht
    obtain ⟨x, hx⟩ := ha.balance_ok
    have hx' : balance b = .ok x := by rw [h.rest, balance_txns_irrel]; exact hx
    rw [balanceAtTime_eq ha hx ht none (by simp), balanceAtTime_eq hb hx' ht none (by simp), hA]
    congr 2
    rw [grown_eq_keys _ hb.tx.wf, grown_eq_keys _ ha.tx.wf]
    have := ((hk.filter fun w => decide (w ≤ t)).map fun w => Dict.val a.txns w * a.A (t - w)).sum_eq
    rw [← this]
    simp only [hval]
  have hsort : (Dict.keys b.txns).insertionSort (· ≤ ·) = (Dict.keys a.txns).insertionSort (· ≤ ·) :=
    List.Perm.eq_of_pairwise' (List.pairwise_insertionSort _ _) (List.pairwise_insertionSort _ _)
      ((List.perm_insertionSort _ _).trans (hk.trans (List.perm_insertionSort _ _).symm))
  unfold computeGain
  rw [hsort]
  refine foldlM_congr _ (fun w hw s => ?_) _
  unfold gainStep
  rw [hval, hbal w (ha.tx.rng w (mem_sorted w hw))]

/-- Record a list of `(value, date)` transactions. -/
def addAll (a : TA K) (l : List (K × When K)) : Except PyErr (TA K) :=
  l.foldlM (fun a vw => addTransaction a vw.1 vw.2) a

theorem val_addAll {a a' : TA K} (l : List (K × When K)) (h : addAll a l = .ok a')
    {y0 : ℤ} (hi : TInv y0 a) :
    TInv y0 a' ∧ a'.acct = { a.acct with txns := a'.acct.txns } ∧ acb a' = acb a ∧
      (l ≠ [] → Dict.get? a'.gainHist a.acct.year = none) ∧
      (∀ k, Dict.val a'.acct.txns k = Dict.val a.acct.txns k
        + (l.map fun vw => if whenConv vw.2 = .ok k then vw.1 else 0).sum) ∧
      (∀ k, k ∈ Dict.keys a'.acct.txns ↔ k ∈ Dict.keys a.acct.txns ∨
        ∃ vw ∈ l, whenConv vw.2 = .ok k) := by
  induction l generalizing a with
  | nil => cases h; exact ⟨hi, rfl, rfl, by simp, by simp, by simp⟩
  | cons x l ih =>
    unfold addAll at h
    rw [List.foldlM_cons] at h
    cases h1 : addTransaction a x.1 x.2 with
    | error e => rw [h1] at h; cases h
    | ok a1 =>
      rw [h1, ok_bind] at h
      have hi1 := tinv_add hi h1
      obtain ⟨q1, q2, q3, q4, q5, q6⟩ := ih h hi1
      cases hw : whenConv x.2 with
      | error e => simp [addTransaction, Account.addTransaction, hw] at h1
      | ok t =>
        have e1 : a1 = invalidate { a with acct := { a.acct with
            txns := Dict.set a.acct.txns t (Dict.val a.acct.txns t + x.1) } } := by
          simp only [addTransaction, addTransaction_eq hw, ok_bind, Except.ok.injEq] at h1
          exact h1.symm
        obtain ⟨c, hc⟩ := hi.now
        have hacb : acb a = .ok c := by simp [acb, look, hc]
        refine ⟨q1, ?_, ?_, ?_, ?_, ?_⟩
        · rw [q2, e1]; rfl
        · rw [q3, e1, acb_invalidate hi _ hacb, hacb]
        · intro _
          by_cases hl : l = []
          · subst hl
            cases h
            rw [e1]
            simp only [invalidate]
            rw [Dict.get?_del hi.wfG, if_pos rfl]
          · have := q4 hl
            rw [e1] at this
            exact this
        · intro k
          rw [q5 k, e1]
          simp only [invalidate, Dict.val_set, List.map_cons, List.sum_cons, Except.ok.injEq, hw]
          by_cases htk : t = k
          · subst htk; simp; ring
          · simp [htk]
        · intro k
          rw [q6 k, e1]
          simp only [invalidate, Dict.mem_keys_set, List.mem_cons, exists_eq_or_imp, hw,
            Except.ok.injEq]
          tauto

/-- **C36, order of entry.** The same transactions recorded in any order give the same gain. -/
theorem C36_order_of_entry_irrelevant (a b b' : TA K) (ha : Reachable a)
    (l l' : List (K × When K)) (hp : l.Perm l') (h : addAll a l = .ok b)
    (h' : addAll a l' = .ok b') :
    (capitalGain b).toOption.map Prod.fst = (capitalGain b').toOption.map Prod.fst := by
  obtain ⟨y0, hi⟩ := ha.tinv
  by_cases hl : l = []
  · subst hl
    have : l' = [] := by simpa using hp.symm.eq_nil
    subst this
    rw [h] at h'
    cases h'
    rfl
  have hl' : l' ≠ [] := fun e => hl (by subst e; exact hp.eq_nil)
  obtain ⟨p1, p2, p3, p4, p5, p6⟩ := val_addAll l h hi
  obtain ⟨q1, q2, q3, q4, q5, q6⟩ := val_addAll l' h' hi
  have hmem : ∀ k, k ∈ Dict.keys b'.acct.txns ↔ k ∈ Dict.keys b.acct.txns := by
    intro k
    rw [p6, q6]
    simp only [hp.mem_iff]
  have hsame : Same b.acct b'.acct := by
    refine ⟨?_, q1.acct.tx.wf, fun k => ?_⟩
    · rw [q2, p2]
    · have hval : Dict.val b'.acct.txns k = Dict.val b.acct.txns k := by
        rw [p5, q5, (hp.map _).sum_eq]
      by_cases hk : k ∈ Dict.keys b.acct.txns
      · rw [Dict.get?_eq_some_val hk, Dict.get?_eq_some_val ((hmem k).2 hk), hval]
      · rw [Dict.get?_eq_none.2 hk, Dict.get?_eq_none.2 (fun h => hk ((hmem k).1 h))]
  have hyb : b.acct.year = a.acct.year := by rw [p2]
  have hyb' : b'.acct.year = a.acct.year := by rw [q2]
  unfold capitalGain
  rw [hyb, hyb', p4 hl, q4 hl', p3, q3]
  cases acb a with
  | error e => rfl
  | ok c =>
    simp only [ok_bind, hsame.compute p1.acct q1.acct]
    cases computeGain b.acct c with
    | error e => rfl
    | ok r => rfl

/-- **C36.** Half of the gain is taxable; a principal residence yields no taxable income. -/
theorem C36_taxable_income (a a1 : TA K) (g : K) (h : capitalGain a = .ok (g, a1)) :
    taxableIncome a = .ok (g / 2, a1) ∧ residenceTaxableIncome a.acct = 0 := by
  simp [taxableIncome, h, residenceTaxableIncome]

/-! ### A concrete account, and what goes wrong with `del` and `clear()` -/

/-- Opened in 2000 with balance 100 and cost base 40, no growth; half is withdrawn at the start,
then 30 is contributed and 20 withdrawn. -/
def sample : TA ℚ :=
  run (init 2000 100 (fun _ _ => 1) [(1 / 2, 1)] (some 40))
    [.add (-20) (.str "end"), .readGain, .add (-50) (.num 0), .add 30 (.num (1 / 2))]

theorem sample_reachable : Reachable sample := ⟨_, _, _, _, _, _, _, rfl, rfl⟩

example : (capitalGain sample).toOption.map Prod.fst = some (75 / 2) := by decide +kernel
example : (nextYear sample).toOption.map (fun a => (acb a).toOption) = some (some (75 / 2)) := by
  decide +kernel
example : sample.acct.txns = [(1, -20), (0, -50), (1 / 2, 30)] := by decide +kernel

theorem sample_covered : Covered sample.acct := by
  intro t v h hv
  have hm := Dict.mem_of_get? h
  have e : sample.acct.txns = [(1, -20), (0, -50), (1 / 2, 30)] := by decide +kernel
  rw [e] at hm
  simp only [List.mem_cons, Prod.mk.injEq, List.not_mem_nil, or_false] at hm
  rcases hm with ⟨rfl, rfl⟩ | ⟨rfl, rfl⟩ | ⟨rfl, rfl⟩
  · exact ⟨60, by decide +kernel, by norm_num⟩
  · exact ⟨50, by decide +kernel, by norm_num⟩
  · norm_num at hv

/-- Emptied: everything is withdrawn at the end of the year. -/
def sampleEmptied : TA ℚ := run sample [.add (-60) (.str "end")]

example : balanceAtTime sampleEmptied.acct (.num 1) none = .ok 0 ∧
    (capitalGain sampleEmptied).toOption.map Prod.fst = some (130 - 40 - 30) ∧
    (nextYear sampleEmptied).toOption.map (fun a => (acb a).toOption) = some (some 0) := by
  decide +kernel

/-- The claim that a reading of the gain always reflects the current transactions, for programs
that also use `del account[t]` and `account.clear()`, is false: the inherited methods do not
invalidate the cached gain. Here all transactions are cleared after the gain was read, yet the gain
is still reported (and is recorded by `next_year()`). -/
theorem C36_clear_leaves_stale_gain :
    ∃ a a1 : TA ℚ, Reachable a ∧ capitalGain a = .ok (75 / 2, a1) ∧
      (clear a1).acct.txns = [] ∧ capitalGain (clear a1) = .ok (75 / 2, clear a1) := by
  have h : (capitalGain sample).toOption.map Prod.fst = some (75 / 2) := by decide +kernel
  cases hg : capitalGain sample with
  | error e => rw [hg] at h; cases h
  | ok r =>
    obtain ⟨g, a1⟩ := r
    rw [hg] at h
    simp only [Except.toOption, Option.map_some, Option.some.injEq] at h
    subst h
    obtain ⟨y0, hi⟩ := sample_reachable.tinv
    obtain ⟨-, hacct, hgain, -⟩ := gain_spec hi hg
    refine ⟨sample, a1, sample_reachable, hg, rfl, ?_⟩
    have : Dict.get? (clear a1).gainHist (clear a1).acct.year = some (75 / 2) := by
      simp only [clear, Account.clear]; rw [hacct]; exact hgain
    simp [capitalGain, this]

/-- In every state: when the gain has been read, `del account[t]` takes the transaction away and
nothing else, but the gain that was read is still the one that is reported. -/
theorem C36_deletion_leaves_stale_gain (a a1 : TA K) (g x : K) (h : capitalGain a = .ok (g, a1))
    (hwf : Dict.WF a.acct.txns) (hx : x ∈ Dict.keys a.acct.txns) :
    ∃ a2, delItem a1 (.num x) = .ok a2 ∧ Dict.get? a2.acct.txns x = none ∧
      (∀ y, y ≠ x → Dict.get? a2.acct.txns y = Dict.get? a.acct.txns y) ∧
      a2.acct.year = a.acct.year ∧ capitalGain a2 = .ok (g, a2) := by
  have h1 : a1.acct = a.acct ∧ Dict.get? a1.gainHist a1.acct.year = some g := by
    unfold capitalGain at h
    cases hg : Dict.get? a.gainHist a.acct.year with
    | some g' => rw [hg] at h; cases h; exact ⟨rfl, hg⟩
    | none =>
      rw [hg] at h
      simp only at h
      cases hc : acb a with
      | error e => rw [hc] at h; cases h
      | ok c =>
        rw [hc, ok_bind] at h
        cases hr : computeGain a.acct c with
        | error e => rw [hr] at h; cases h
        | ok r => rw [hr, ok_bind] at h; cases h; exact ⟨rfl, Dict.get?_set_self _ _ _⟩
  refine ⟨{ a1 with acct := { a1.acct with txns := Dict.del a1.acct.txns x } }, ?_, ?_, ?_, ?_, ?_⟩
  · unfold delItem Account.delItem
    rw [h1.1]
    simp only [hx, if_true]
    rfl
  · simp only [h1.1]; rw [Dict.get?_del hwf]; simp
  · intro y hy
    simp only [h1.1]
    rw [Dict.get?_del hwf, if_neg (Ne.symm hy)]
  · simp only [h1.1]
  · simp [capitalGain, h1.2]

/-- The hypotheses of `C36_deletion_leaves_stale_gain` are met. -/
example : (0 : ℚ) ∈ Dict.keys sample.acct.txns ∧ (capitalGain sample).toOption.isSome ∧
    (Dict.keys sample.acct.txns).Nodup := by
  decide +kernel

end Forecaster.Taxable
