import Verif.Props.Registered
import Verif.Props.LinkOut

/-!
# C105: a lifetime of contributions to one registered account

C23 says what `max_inflows` answers in one state, C34 and C35 how the room moves from one year to the
next. Here both are put together over whole histories of one account that is not linked to others:
what `max_inflows` allows in any year, and what somebody who never contributes more than it allows
can have contributed in total.
-/

set_option linter.unusedSectionVars false

namespace Forecaster.Registered

open Forecaster Forecaster.Timing Forecaster.Account Forecaster.Inflation Forecaster.Link

section General

variable {K : Type} [Field K] [LinearOrder K] [IsStrictOrderedRing K]

/-! ### one account on its own -/

/-- State of a one-account group whose account started in year `y0`. -/
structure Alone (y0 : ℤ) (growth : ℤ → K → K) (n : ℕ) (g : Grp K) (r : Reg K) : Prop where
  one : g.accts = [r]
  year : r.acct.year = y0 + n
  reach : Reachable r.acct
  growth : r.acct.growth = growth
  inputs : r.inputs = []
  fut : ∀ y, y0 + n ≤ y → Dict.get? r.roomHist y = none

theorem Alone.room {y0 : ℤ} {G : ℤ → K → K} {n : ℕ} {g : Grp K} {r : Reg K}
    (h : Alone y0 G n g r) : contributionRoom g r = g.room := by
  unfold contributionRoom
  rw [h.year, h.fut _ le_rfl]

theorem reachable_step {a a' : Acct K} (h : Reachable a) (op : Account.Op K)
    (e : Account.step a op = .ok a') : Reachable a' := by
  obtain ⟨y, b, gr, dt, ops, rfl⟩ := h
  refine ⟨y, b, gr, dt, ops ++ [op], ?_⟩
  unfold Account.run at *
  rw [List.foldl_append, List.foldl_cons, List.foldl_nil, e]

theorem alone_add {y0 : ℤ} {G : ℤ → K → K} {n : ℕ} {g g' : Grp K}
    {r : Reg K} (h : Alone y0 G n g r) {i : ℕ} {v : K} {w : When K}
    (e : addTo g i v w = .ok g') : ∃ r' t, Alone y0 G n g' r' ∧ g'.room = g.room ∧
      r'.acct.txHist = r.acct.txHist ∧
      r'.acct.txns = Dict.set r.acct.txns t (Dict.val r.acct.txns t + v) := by
  obtain ⟨s, a, hi, ha, rfl⟩ := addTo_spec e
  rw [h.one] at hi
  cases i with
  | succ i => simp at hi
  | zero =>
    simp at hi
    subst hi
    have hr := reachable_step h.reach (.add v w) ha
    cases hw : whenConv w with
    | error e => simp [addTransaction, hw] at ha
    | ok t =>
      rw [addTransaction_eq hw] at ha
      cases ha
      exact ⟨⟨{ r.acct with txns := Dict.set r.acct.txns t (Dict.val r.acct.txns t + v) }, r.roomHist,
        r.inputs⟩, t, ⟨by simp [h.one], h.year, hr, h.growth, h.inputs, h.fut⟩, rfl, rfl, rfl⟩

theorem alone_next {next : Grp K → Reg K → Except PyErr K} {y0 : ℤ} {G : ℤ → K → K} {n : ℕ}
    {g g' : Grp K} {r : Reg K} (h : Alone y0 G n g r) {i fuel : ℕ}
    (e : nextYear next fuel g i = .ok g') :
    ∃ r' v, Alone y0 G (n + 1) g' r' ∧ next g r = .ok v ∧ g'.room = v ∧ r'.acct.txns = [] ∧
      ∀ y, recorded r' y = if y = r.acct.year then r.acct.txns else recorded r y := by
  have hinv0 := h.reach.inv
  have hsync : ∀ s ∈ g.accts, s.acct.year = y0 + n := by
    intro s hs; rw [h.one] at hs; simp at hs; subst hs; exact h.year
  have hinv : ∀ s ∈ g.accts, Inv s.acct := by
    intro s hs; rw [h.one] at hs; simp at hs; subst hs; exact hinv0
  cases fuel with
  | zero => cases e
  | succ fuel =>
  cases i with
  | succ i =>
    unfold nextYear at e
    rw [h.one] at e
    simp at e
  | zero =>
    have hi : g.accts[0]? = some r := by rw [h.one]; rfl
    have hp0 : plannedRoom next g r = (next g r).bind fun v => .ok (some v) := by
      unfold plannedRoom
      rw [if_pos (inSync_iff.2 (by rw [h.year]; exact hsync)), h.fut _ (by rw [h.year]; omega)]
      rfl
    cases hv : next g r with
    | error er =>
      exfalso
      unfold nextYear at e
      rw [hi] at e
      simp only [hp0, hv] at e
      cases e
    | ok v =>
    have hp : plannedRoom next g r = .ok (some v) := by rw [hp0, hv]; rfl
    obtain ⟨r', g1, e1, ey, q2, q3, q4, -, q6⟩ := nextYear_sync next hsync hinv hi hp
      (fuel := fuel + 1) (by rw [h.one]; simp)
    obtain ⟨r1, e2, f1, f2, f3, f4, f5, f6⟩ := advance_spec (g := g) hinv0
    rw [e1] at e2
    cases e2
    rw [e] at q6
    have hone : g1.accts = [r'] := by
      have := q2.each.length_eq
      rw [h.one] at this
      obtain ⟨x, hx⟩ := List.length_eq_one_iff.1 this.symm
      rw [hx] at q4
      simp at q4
      rw [hx, q4]
    unfold setContributionRoom at q6
    rw [q4] at q6
    simp only [f4, h.inputs, Dict.keys, List.map_nil, List.not_mem_nil, if_false] at q6
    cases q6
    have hyr := h.year
    obtain ⟨b, hb⟩ := hinv0.balance_ok
    have f3' := f3
    rw [nextYear_eq hb] at f3'
    have f3' := Except.ok.inj f3'
    refine ⟨{ r' with roomHist := Dict.del r'.roomHist r'.acct.year }, v,
      ⟨by simp [hone, f4, h.inputs], ?_, reachable_step h.reach .nextYear f3, ?_, ?_, ?_⟩,
      rfl, rfl, ?_, ?_⟩
    · simp only; rw [ey]; push_cast; ring
    · simp only; rw [← f3']; exact h.growth
    · simp only; rw [f4, h.inputs]
    · intro y hy
      have hy' : y0 + n + 1 ≤ y := by push_cast at hy; omega
      have hg : Dict.get? r'.roomHist y = none := by
        rw [f6 y (by omega)]
        exact h.fut y (by omega)
      simp only
      rw [Dict.get?_eq_none] at hg ⊢
      intro hc
      exact hg ((List.Sublist.map Prod.fst (Dict.del_sublist _ _)).subset hc)
    · simp only; rw [← f3']
    · intro y
      have : r'.acct.txHist = Dict.set r.acct.txHist r.acct.year r.acct.txns := by rw [← f3']
      unfold recorded
      simp only
      rw [this, Dict.get?_set]
      by_cases hy : r.acct.year = y
      · rw [if_pos hy, if_pos hy.symm]; rfl
      · rw [if_neg hy, if_neg (Ne.symm hy)]

theorem alone_init (y0 : ℤ) (bal : K) (G : ℤ → K → K) (dt : Dict K K) (room0 : K) (c : ℤ) :
    Alone y0 G 0 (single (Account.init y0 bal G dt) [] room0 c) ⟨Account.init y0 bal G dt, [], []⟩ :=
  ⟨rfl, by simp [Account.init], ⟨_, _, _, _, [], rfl⟩, rfl, rfl, fun _ _ => rfl⟩

/-! ### what `max_inflows` allows -/

/-- Specification: `total` is the sum of what `max_inflows` answers for the only account of the group,
if asked with some usable timing (or the account's own default) and no limits of the caller's. -/
def Allows (g : Grp K) (total : K) : Prop :=
  ∃ r timing tm d, g.accts = [r] ∧ resolveTiming r.acct timing = .ok tm ∧ GoodTiming tm ∧
    linkedMaxInflows { plainLimits with maxIn := .fin g.room } r.acct { timing := timing } none
      (some []) = .ok (Dict.mapVals Ext.fin d) ∧
    total = (Dict.vals d).sum

/-- Specification: what was contributed in total by transactions `d` of one year. -/
def paid (d : Dict K K) : K := ((Dict.vals d).map fun v => max v 0).sum

/-- Specification: contributions less withdrawals. -/
def net (d : Dict K K) : K := (Dict.vals d).sum

theorem allows_iff {y0 : ℤ} {G : ℤ → K → K} {n : ℕ} {g : Grp K} {r : Reg K}
    (h : Alone y0 G n g r) (hG : ∀ y, IsGrowth (G y)) {total : K} (ht : Allows g total) :
    total = max (g.room - paid r.acct.txns) 0 := by
  obtain ⟨r', timing, tm, d, h1, h2, h3, h4, rfl⟩ := ht
  rw [h.one] at h1
  cases h1
  have hA : IsGrowth r.acct.A := by
    have := hG r.acct.year
    rw [← h.growth] at this
    exact this
  have hR : Ready r.acct timing (some []) tm := ⟨h.reach, hA, h2, h3, by
    intro d hd
    cases hd
    exact ⟨List.nodup_nil, by simp⟩⟩
  obtain ⟨d', e1, -, -, e4⟩ := (C23_max_inflows { plainLimits with maxIn := .fin g.room } r.acct
    { timing := timing, transactions := some [] } tm hR rfl).1 g.room rfl rfl
  have : linkedMaxInflows { plainLimits with maxIn := .fin g.room } r.acct { timing := timing } none
      (some []) = .ok (Dict.mapVals Ext.fin d') := e1
  rw [this] at h4
  have hd : d' = d := by
    have h5 := Except.ok.inj h4
    clear this h4 e1 e4
    unfold Dict.mapVals at h5
    induction d' generalizing d with
    | nil => cases d with | nil => rfl | cons a d => simp at h5
    | cons x d' ih =>
      cases d with
      | nil => simp at h5
      | cons a d =>
        simp only [List.map_cons, List.cons.injEq, Prod.mk.injEq, Ext.fin.injEq] at h5
        rw [ih d h5.2]
        obtain ⟨⟨h6, h7⟩, -⟩ := h5
        cases x; cases a
        simp only at h6 h7
        rw [h6, h7]
  subst hd
  unfold Dict.total at e4
  rw [e4]
  unfold paidIn paid Dict.vals
  simp [List.map_map, Function.comp_def]

theorem allows_ok {y0 : ℤ} {G : ℤ → K → K} {n : ℕ} {g : Grp K} {r : Reg K}
    (h : Alone y0 G n g r) (hG : ∀ y, IsGrowth (G y)) {timing : Option (Arg K)} {tm : Dict K K}
    (h2 : resolveTiming r.acct timing = .ok tm) (h3 : GoodTiming tm) :
    Allows g (max (g.room - paid r.acct.txns) 0) := by
  have hA : IsGrowth r.acct.A := by
    have := hG r.acct.year
    rw [← h.growth] at this
    exact this
  have hR : Ready r.acct timing (some []) tm := ⟨h.reach, hA, h2, h3, by
    intro d hd
    cases hd
    exact ⟨List.nodup_nil, by simp⟩⟩
  obtain ⟨d', e1, -, -, e4⟩ := (C23_max_inflows { plainLimits with maxIn := .fin g.room } r.acct
    { timing := timing, transactions := some [] } tm hR rfl).1 g.room rfl rfl
  refine ⟨r, timing, tm, d', h.one, h2, h3, e1, ?_⟩
  unfold Dict.total at e4
  rw [e4]
  unfold paidIn paid Dict.vals
  simp [List.map_map, Function.comp_def]

theorem paid_nonneg (d : Dict K K) : 0 ≤ paid d := by
  unfold paid
  apply List.sum_nonneg
  intro x hx
  obtain ⟨v, -, rfl⟩ := List.mem_map.1 hx
  exact le_max_right _ _

theorem net_le_paid (d : Dict K K) : net d ≤ paid d := by
  unfold net paid
  induction Dict.vals d with
  | nil => simp
  | cons x l ih => simp only [List.sum_cons, List.map_cons]; exact add_le_add (le_max_left _ _) ih

theorem paid_set (d : Dict K K) (t x : K) :
    paid (Dict.set d t x) + max (Dict.val d t) 0 = paid d + max x 0 := by
  induction d with
  | nil => simp [paid, Dict.set, Dict.val_nil, Dict.vals]
  | cons a d ih =>
    obtain ⟨ka, va⟩ := a
    unfold paid Dict.vals at ih ⊢
    by_cases h : ka = t
    · subst h
      simp only [Dict.set, if_true, Dict.val, Dict.get?_cons, Option.getD_some, List.map_cons,
        List.sum_cons]
      ring
    · have hv : Dict.val ((ka, va) :: d) t = Dict.val d t := by
        simp [Dict.val, Dict.get?_cons, h]
      simp only [Dict.set, h, if_false, List.map_cons, List.sum_cons, hv]
      linear_combination ih

theorem paid_add_le (d : Dict K K) (t v : K) :
    paid (Dict.set d t (Dict.val d t + v)) ≤ paid d + max v 0 := by
  have h := paid_set d t (Dict.val d t + v)
  have h2 : max (Dict.val d t + v) 0 ≤ max (Dict.val d t) 0 + max v 0 :=
    max_le (add_le_add (le_max_left _ _) (le_max_left _ _))
      (add_nonneg (le_max_right _ _) (le_max_right _ _))
  linarith

theorem paid_filter (d : Dict K K) :
    ((Dict.vals d).filter fun v => decide (0 < v)).sum = paid d := by
  unfold paid
  induction Dict.vals d with
  | nil => simp
  | cons x l ih =>
    by_cases h : 0 < x
    · simp [h, ih, max_eq_left h.le]
    · simp [h, ih, max_eq_right (not_lt.1 h)]

/-- Specification: a history in which every contribution is, at the time it is made, within what
`max_inflows` allows. -/
def Within (next : Grp K → Reg K → Except PyErr K) (fuel : ℕ) (g : Grp K) (ops : List (Op K)) : Prop :=
  ∀ before i v w after, ops = before ++ Op.add i v w :: after → 0 < v →
    ∃ total, Allows (run next fuel g before) total ∧ v ≤ total

theorem run_snoc (next : Grp K → Reg K → Except PyErr K) (fuel : ℕ) (g : Grp K) (ops : List (Op K))
    (op : Op K) : run next fuel g (ops ++ [op]) =
      match step next fuel (run next fuel g ops) op with
      | .ok g' => g' | .error _ => run next fuel g ops := by
  unfold run
  rw [List.foldl_append]
  rfl

theorem within_init {next : Grp K → Reg K → Except PyErr K} {fuel : ℕ} {g : Grp K}
    {ops more : List (Op K)} (h : Within next fuel g (ops ++ more)) : Within next fuel g ops := by
  intro before i v w after e hv
  exact h before i v w (after ++ more) (by rw [e]; simp) hv

/-- What a careful saver's account satisfies. -/
structure Careful (flow : Dict K K → K) (acc : ℤ → K) (y0 : ℤ) (G : ℤ → K → K) (room0 : K) (n : ℕ)
    (g : Grp K) (r : Reg K) : Prop where
  alone : Alone y0 G n g r
  past : g.room + ∑ k ∈ Finset.range n, flow (recorded r (y0 + k))
    ≤ room0 + ∑ k ∈ Finset.range n, acc (y0 + k + 1)
  now : paid r.acct.txns ≤ g.room

theorem careful_run {next : Grp K → Reg K → Except PyErr K} {flow : Dict K K → K} {acc : ℤ → K}
    (hnext : ∀ g r v, next g r = .ok v → paid r.acct.txns ≤ contributionRoom g r →
      0 ≤ v ∧ v + flow r.acct.txns ≤ contributionRoom g r + acc (r.acct.year + 1))
    (y0 : ℤ) (bal : K) (G : ℤ → K → K) (hG : ∀ y, IsGrowth (G y)) (dt : Dict K K) (room0 : K)
    (h0 : 0 ≤ room0) (c : ℤ) (fuel : ℕ) (ops : List (Op K))
    (hw : Within next fuel (single (Account.init y0 bal G dt) [] room0 c) ops) :
    ∃ n r, Careful flow acc y0 G room0 n
      (run next fuel (single (Account.init y0 bal G dt) [] room0 c) ops) r := by
  induction ops using List.reverseRecOn with
  | nil =>
    refine ⟨0, _, alone_init y0 bal G dt room0 c, ?_, ?_⟩
    · simp [run, single]
    · simpa [paid, Account.init, run, single, Dict.vals] using h0
  | append_singleton ops op ih =>
    obtain ⟨n, r, h⟩ := ih (within_init hw)
    rw [run_snoc]
    cases hop : step next fuel (run next fuel (single (Account.init y0 bal G dt) [] room0 c) ops) op with
    | error e => exact ⟨n, r, h⟩
    | ok g1 =>
      simp only
      cases op with
      | add i v w =>
        obtain ⟨r', t, ha, hroom, hh, ht⟩ := alone_add h.alone hop
        refine ⟨n, r', ha, ?_, ?_⟩
        · have : ∀ y, recorded r' y = recorded r y := by intro y; unfold recorded; rw [hh]
          simp only [this, hroom]
          exact h.past
        · rw [ht, hroom]
          by_cases hv : 0 < v
          · obtain ⟨total, hal, hle⟩ := hw ops i v w [] rfl hv
            have := allows_iff h.alone hG hal
            have h2 := paid_add_le r.acct.txns t v
            rw [max_eq_left hv.le] at h2
            rw [this] at hle
            rcases le_max_iff.1 hle with h3 | h3
            · linarith
            · linarith
          · have h2 := paid_add_le r.acct.txns t v
            rw [max_eq_right (not_lt.1 hv)] at h2
            linarith [h.now]
      | nextYear i =>
        obtain ⟨r', v, ha, hn, hroom, ht, hrec⟩ := alone_next h.alone hop
        obtain ⟨hv0, hv⟩ := hnext _ r v hn (by rw [h.alone.room]; exact h.now)
        rw [h.alone.room] at hv
        refine ⟨n + 1, r', ha, ?_, ?_⟩
        · have hsum : ∑ k ∈ Finset.range n, flow (recorded r' (y0 + k))
              = ∑ k ∈ Finset.range n, flow (recorded r (y0 + k)) := by
            refine Finset.sum_congr rfl fun k hk => ?_
            rw [hrec, if_neg]
            have := Finset.mem_range.1 hk
            have := h.alone.year
            omega
          rw [Finset.sum_range_succ, Finset.sum_range_succ, hsum, hrec, if_pos h.alone.year.symm,
            hroom]
          have h1 := h.past
          rw [h.alone.year] at hv
          linarith
        · rw [ht, hroom]
          simpa [paid, Dict.vals] using hv0

/-- The same without care: the equation of `C34` and `C35` for the state after any history. -/
theorem alone_run {next : Grp K → Reg K → Except PyErr K}
    (y0 : ℤ) (bal : K) (G : ℤ → K → K) (dt : Dict K K) (room0 : K) (c : ℤ) (fuel : ℕ)
    (ops : List (Op K)) : ∃ n r, Alone y0 G n
      (run next fuel (single (Account.init y0 bal G dt) [] room0 c) ops) r := by
  induction ops using List.reverseRecOn with
  | nil => exact ⟨0, _, alone_init y0 bal G dt room0 c⟩
  | append_singleton ops op ih =>
    obtain ⟨n, r, h⟩ := ih
    rw [run_snoc]
    cases hop : step next fuel (run next fuel (single (Account.init y0 bal G dt) [] room0 c) ops) op with
    | error e => exact ⟨n, r, h⟩
    | ok g1 =>
      simp only
      cases op with
      | add i v w =>
        obtain ⟨r', t, ha, -⟩ := alone_add h hop
        exact ⟨n, r', ha⟩
      | nextYear i =>
        obtain ⟨r', v, ha, -⟩ := alone_next h hop
        exact ⟨n + 1, r', ha⟩

/-- The account answers, after any history and with any usable timing. -/
theorem C105_answers (next : Grp K → Reg K → Except PyErr K)
    (y0 : ℤ) (bal : K) (growth : ℤ → K → K) (hG : ∀ y, IsGrowth (growth y)) (dt : Dict K K)
    (room0 : K) (c : ℤ) (fuel : ℕ) (ops : List (Op K)) (tm : Dict K K) (htm : GoodTiming tm) :
    ∃ r d, (run next fuel (single (Account.init y0 bal growth dt) [] room0 c) ops).accts = [r] ∧
      linkedMaxInflows { plainLimits with
          maxIn := .fin (run next fuel (single (Account.init y0 bal growth dt) [] room0 c) ops).room }
        r.acct { timing := some (.timing tm) } none (some []) = .ok (Dict.mapVals Ext.fin d) ∧
      (Dict.vals d).sum =
        max ((run next fuel (single (Account.init y0 bal growth dt) [] room0 c) ops).room
          - paid r.acct.txns) 0 ∧
      Allows (run next fuel (single (Account.init y0 bal growth dt) [] room0 c) ops)
        (Dict.vals d).sum := by
  obtain ⟨n, r, h⟩ := alone_run (next := next) y0 bal growth dt room0 c fuel ops
  have hres : resolveTiming r.acct (some (.timing tm)) = .ok tm := by
    unfold resolveTiming
    have : falsy (Arg.timing tm) = false := by
      have := htm.nonempty
      cases tm with
      | nil => exact absurd rfl this
      | cons a l => rfl
    simp [this]
  have hA : IsGrowth r.acct.A := by
    have := hG r.acct.year
    rw [← h.growth] at this
    exact this
  have hR : Ready r.acct (some (.timing tm)) (some []) tm := ⟨h.reach, hA, hres, htm, by
    intro d hd
    cases hd
    exact ⟨List.nodup_nil, by simp⟩⟩
  obtain ⟨d', e1, -, -, e4⟩ := (C23_max_inflows { plainLimits with
    maxIn := .fin (run next fuel (single (Account.init y0 bal growth dt) [] room0 c) ops).room } r.acct
    { timing := some (.timing tm), transactions := some [] } tm hR rfl).1 _ rfl rfl
  refine ⟨r, d', h.one, e1, ?_, r, _, tm, d', h.one, hres, htm, e1, rfl⟩
  unfold Dict.total at e4
  rw [e4]
  unfold paidIn paid Dict.vals
  simp [List.map_map, Function.comp_def]

/-- **C105.** And all of the room can be used: after any history, contributing everything that is
allowed, at any moment of the year at which nothing has been withdrawn, leaves nothing allowed. -/
theorem C105_filling_up (next : Grp K → Reg K → Except PyErr K)
    (y0 : ℤ) (bal : K) (growth : ℤ → K → K) (hG : ∀ y, IsGrowth (growth y)) (dt : Dict K K)
    (room0 : K) (c : ℤ) (fuel : ℕ) (ops : List (Op K)) (total t : K) (h0 : 0 ≤ t) (h1 : t ≤ 1)
    (hal : Allows (run next fuel (single (Account.init y0 bal growth dt) [] room0 c) ops) total)
    (hno : ∀ r ∈ (run next fuel (single (Account.init y0 bal growth dt) [] room0 c) ops).accts,
      0 ≤ Dict.val r.acct.txns t) (total' : K)
    (hal' : Allows (run next fuel (single (Account.init y0 bal growth dt) [] room0 c)
      (ops ++ [.add 0 total (.num t)])) total') : total' = 0 := by
  obtain ⟨n, r, h⟩ := alone_run (next := next) y0 bal growth dt room0 c fuel ops
  have ht := allows_iff h hG hal
  rw [run_snoc] at hal'
  have hw : whenConv (.num t : When K) = .ok t := by simp [whenConv, h0, h1]
  have hadd : ∃ g', step next fuel
      (run next fuel (single (Account.init y0 bal growth dt) [] room0 c) ops)
      (.add 0 total (.num t)) = .ok g' ∧ g'.room =
      (run next fuel (single (Account.init y0 bal growth dt) [] room0 c) ops).room ∧
      ∃ r', Alone y0 growth n g' r' ∧ r'.acct.txns =
        Dict.set r.acct.txns t (Dict.val r.acct.txns t + total) := by
    cases hop : step next fuel
      (run next fuel (single (Account.init y0 bal growth dt) [] room0 c) ops)
      (.add 0 total (.num t)) with
    | error e =>
      exfalso
      simp only [step, addTo, h.one, List.getElem?_cons_zero, addTransaction_eq hw, ok_bind] at hop
      cases hop
    | ok g' =>
      refine ⟨g', rfl, ?_⟩
      have hop' := hop
      simp only [step, addTo, h.one, List.getElem?_cons_zero, addTransaction_eq hw, ok_bind] at hop'
      obtain ⟨r', t', ha, hroom, -, -⟩ := alone_add h hop
      refine ⟨hroom, r', ha, ?_⟩
      have hone := ha.one
      rw [← Except.ok.inj hop'] at hone
      simp at hone
      rw [← hone]
  obtain ⟨g', e, hroom, r', ha, htx⟩ := hadd
  rw [e] at hal'
  have ht' := allows_iff ha hG hal'
  have hv := hno r (by rw [h.one]; simp)
  have htot : 0 ≤ total := by rw [ht]; exact le_max_right _ _
  have hp := paid_set r.acct.txns t (Dict.val r.acct.txns t + total)
  rw [max_eq_left hv, max_eq_left (add_nonneg hv htot)] at hp
  rw [ht', htx, hroom]
  apply max_eq_right
  have : (run next fuel (single (Account.init y0 bal growth dt) [] room0 c) ops).room
      - paid r.acct.txns ≤ total := by rw [ht]; exact le_max_left _ _
  linarith

theorem within_snoc {next : Grp K → Reg K → Except PyErr K} {fuel : ℕ} {g : Grp K}
    {ops : List (Op K)} {op : Op K} (h : Within next fuel g ops)
    (h1 : ∀ i v w, op = .add i v w → 0 < v → ∃ total, Allows (run next fuel g ops) total ∧ v ≤ total) :
    Within next fuel g (ops ++ [op]) := by
  intro before i v w after e hv
  rcases List.eq_nil_or_concat after with rfl | ⟨l, b, rfl⟩
  · obtain ⟨rfl, h2⟩ := List.append_inj' e rfl
    exact h1 i v w (by simpa using h2) hv
  · rw [List.concat_eq_append, ← List.cons_append, ← List.append_assoc] at e
    exact h before i v w l (List.append_inj' e rfl).1 hv

theorem within_nil (next : Grp K → Reg K → Except PyErr K) (fuel : ℕ) (g : Grp K) :
    Within next fuel g [] := by
  intro before i v w after e
  simp at e

end General

/-! ## TFSA -/

section TFSA

variable {K : Type} [Field K] [LinearOrder K] [IsStrictOrderedRing K] [FloorRing K]

/-- **C105.** After any history of a TFSA that is not linked to others, what `max_inflows` allows in
total for the current year, whenever and with whatever usable timing it is asked, is the first room
plus all the accruals since, less what was contributed (net of what was withdrawn) in all the past
years, less what has been contributed this year (withdrawals of this year do not count); or nothing
if that is negative. -/
theorem C105_tfsa_allowance (e : TfsaEnv K) (acc : ℤ → K) (hacc : ∀ y, accrual e y = .ok (acc y))
    (y0 : ℤ) (bal : K) (growth : ℤ → K → K) (hG : ∀ y, IsGrowth (growth y)) (dt : Dict K K)
    (room0 : K) (c : ℤ) (fuel : ℕ) (ops : List (Op K)) :
    ∃ (n : ℕ) (r : Reg K),
      (run (tfsaNext e) fuel (single (Account.init y0 bal growth dt) [] room0 c) ops).accts = [r] ∧
      r.acct.year = y0 + n ∧
      ∀ total,
        Allows (run (tfsaNext e) fuel (single (Account.init y0 bal growth dt) [] room0 c) ops) total →
        total = max (room0 + ∑ k ∈ Finset.range n, acc (y0 + k + 1)
          - ∑ k ∈ Finset.range n, net ((Dict.get? r.acct.txHist (y0 + k)).getD [])
          - paid r.acct.txns) 0 := by
  obtain ⟨n, r, h1, h2, h3⟩ := C35_room_conserved e acc hacc y0 bal growth dt room0 c fuel ops
  refine ⟨n, r, h1, h2, fun total ht => ?_⟩
  obtain ⟨n', r', ha⟩ := alone_run (next := tfsaNext e) y0 bal growth dt room0 c fuel ops
  have : r' = r := by have := ha.one; rw [h1] at this; simpa using this.symm
  subst this
  rw [allows_iff ha hG ht]
  unfold net
  congr 1
  linear_combination h3

/-- **C105.** Somebody who never contributes more than `max_inflows` allows at the time never exceeds
the room of a TFSA over a whole lifetime: the contributions of all past years (net of withdrawals)
and those of the current year together stay within the first room plus all the accruals since, and
the room never becomes negative. -/
theorem C105_tfsa_lifetime (e : TfsaEnv K) (acc : ℤ → K) (hacc : ∀ y, accrual e y = .ok (acc y))
    (hpos : ∀ y, 0 ≤ acc y)
    (y0 : ℤ) (bal : K) (growth : ℤ → K → K) (hG : ∀ y, IsGrowth (growth y)) (dt : Dict K K)
    (room0 : K) (h0 : 0 ≤ room0) (c : ℤ) (fuel : ℕ) (ops : List (Op K))
    (hw : Within (tfsaNext e) fuel (single (Account.init y0 bal growth dt) [] room0 c) ops) :
    ∃ (n : ℕ) (r : Reg K),
      (run (tfsaNext e) fuel (single (Account.init y0 bal growth dt) [] room0 c) ops).accts = [r] ∧
      r.acct.year = y0 + n ∧
      ∑ k ∈ Finset.range n, net ((Dict.get? r.acct.txHist (y0 + k)).getD []) + paid r.acct.txns
        ≤ room0 + ∑ k ∈ Finset.range n, acc (y0 + k + 1) ∧
      0 ≤ (run (tfsaNext e) fuel (single (Account.init y0 bal growth dt) [] room0 c) ops).room := by
  obtain ⟨n, r, h⟩ := careful_run (next := tfsaNext e) (flow := net) (acc := acc) (fun g r v hv hr => by
    have hp := pos_add_neg r.acct.txns
    have hn := net_le_paid r.acct.txns
    unfold Dict.total at hp
    unfold net at hn ⊢
    simp only [tfsaNext, hacc, ok_bind, outflows, inflows] at hv
    have hv := Except.ok.inj hv
    have h3 := hpos (r.acct.year + 1)
    rw [← hp] at hn ⊢
    refine ⟨?_, ?_⟩ <;> rw [← hv] <;> linarith) y0 bal growth hG dt room0 h0 c fuel ops hw
  refine ⟨n, r, h.alone.one, h.alone.year, ?_, ?_⟩
  · have h1 := h.past
    have h2 := h.now
    unfold recorded at h1
    linarith
  · exact (paid_nonneg _).trans h.now

/-- Ten years from 2013 with the shipped constants: the careful history `saving` is one that meets the
hypothesis of `C105_tfsa_lifetime`, uses all the room twice and withdraws in between. -/
def saving : List (Op ℚ) :=
  [.add 0 100 (.num (1/2)), .nextYear 0, .add 0 5500 (.str "start"), .add 0 (-40) (.str "end"),
    .nextYear 0, .add 0 10040 (.num (1/4))]

theorem growth_one : ∀ y : ℤ, IsGrowth ((fun _ _ => 1 : ℤ → ℚ → ℚ) y) := fun _ =>
  ⟨rfl, fun _ _ => by norm_num, fun _ => by norm_num⟩

theorem good_one : GoodTiming ([(0, 1)] : Dict ℚ ℚ) := by
  refine ⟨⟨by simp [Dict.WF, Dict.keys], ?_⟩, ?_, by simp⟩
  · intro k hk
    simp [Dict.keys] at hk
    subst hk
    norm_num
  · intro kv hkv
    simp at hkv
    subst hkv
    norm_num

theorem saving_within : Within (tfsaNext (shipped 1980)) 1
    (single (Account.init 2013 1000 (fun _ _ => 1) [(0, 1)]) [] 100 2013) saving := by
  have ans := fun ops => C105_answers (tfsaNext (shipped 1980)) 2013 (1000 : ℚ) (fun _ _ => 1)
    growth_one [(0, 1)] 100 2013 1 ops _ good_one
  have use : ∀ (ops : List (Op ℚ)) (v : ℚ),
      (∀ r ∈ (run (tfsaNext (shipped 1980)) 1
        (single (Account.init 2013 1000 (fun _ _ => 1) [(0, 1)]) [] 100 2013) ops).accts,
      v ≤ (run (tfsaNext (shipped 1980)) 1
        (single (Account.init 2013 1000 (fun _ _ => 1) [(0, 1)]) [] 100 2013) ops).room
        - paid r.acct.txns) →
      ∃ total, Allows (run (tfsaNext (shipped 1980)) 1
        (single (Account.init 2013 1000 (fun _ _ => 1) [(0, 1)]) [] 100 2013) ops) total ∧
        v ≤ total := by
    intro ops v h
    obtain ⟨r, d, h1, -, h3, h4⟩ := ans ops
    refine ⟨_, h4, ?_⟩
    rw [h3]
    exact (h r (by rw [h1]; simp)).trans (le_max_left _ _)
  refine within_snoc (ops := [_, _, _, _, _]) (within_snoc (ops := [_, _, _, _])
    (within_snoc (ops := [_, _, _]) (within_snoc (ops := [_, _]) (within_snoc (ops := [_])
      (within_snoc (ops := []) (within_nil _ _ _) ?_) ?_) ?_) ?_) ?_) ?_
  · intro i v w e hv
    cases e
    exact use _ _ (by decide +kernel)
  · intro i v w e; cases e
  · intro i v w e hv
    cases e
    exact use _ _ (by decide +kernel)
  · intro i v w e hv
    cases e
    norm_num at hv
  · intro i v w e; cases e
  · intro i v w e hv
    cases e
    exact use _ _ (by decide +kernel)

/-- The sums of the theorem: 100 + 5500 − 40 in the past, 10040 now; 100 at first, 5500 and 10000
accrued. All has been used. -/
example : (run (tfsaNext (shipped 1980)) 1
      (single (Account.init 2013 1000 (fun _ _ => 1) [(0, 1)]) [] 100 2013) saving).accts.map
        (fun r => (r.acct.year, ([2013, 2014].map fun y =>
          net ((Dict.get? r.acct.txHist y).getD [])), paid r.acct.txns))
      = [(2015, [100, 5460], 10040)] := by decide +kernel

end TFSA

/-! ## RRSP -/

section RRSP

variable {K : Type} [Field K] [LinearOrder K] [IsStrictOrderedRing K]

/-- **C105.** The same for an RRSP, as long as the contributor is not past the conversion age: here
withdrawals give no room back. -/
theorem C105_rrsp_allowance (e : RrspEnv K) (income most : ℤ → K) (y0 : ℤ) (N : ℕ)
    (hage : ∀ y, y0 < y → y ≤ y0 + N → ∃ n, e.contributorAge y = .ok n ∧ n ≤ e.const.conversionAge)
    (hinc : ∀ y, e.income y = .ok (income y))
    (hmost : ∀ y, extendScalar e.const.accrualMax e.adj y = .ok (most y))
    (bal : K) (growth : ℤ → K → K) (hG : ∀ y, IsGrowth (growth y)) (dt : Dict K K)
    (room0 : K) (c : ℤ) (fuel : ℕ) (ops : List (Op K))
    (hN : ∀ s ∈ (run (rrspNext e) fuel (single (Account.init y0 bal growth dt) [] room0 c) ops).accts,
      s.acct.year ≤ y0 + N) :
    ∃ (n : ℕ) (r : Reg K),
      (run (rrspNext e) fuel (single (Account.init y0 bal growth dt) [] room0 c) ops).accts = [r] ∧
      r.acct.year = y0 + n ∧
      ∀ total,
        Allows (run (rrspNext e) fuel (single (Account.init y0 bal growth dt) [] room0 c) ops) total →
        total = max (room0
          + ∑ k ∈ Finset.range n, min (e.const.rate * income (y0 + k)) (most (y0 + k + 1))
          - ∑ k ∈ Finset.range n, paid ((Dict.get? r.acct.txHist (y0 + k)).getD [])
          - paid r.acct.txns) 0 := by
  obtain ⟨n, r, h1, h2, h3⟩ := C34_room_conserved e income most y0 N hage hinc hmost bal growth dt
    room0 c fuel ops hN
  refine ⟨n, r, h1, h2, fun total ht => ?_⟩
  obtain ⟨n', r', ha⟩ := alone_run (next := rrspNext e) y0 bal growth dt room0 c fuel ops
  have : r' = r := by have := ha.one; rw [h1] at this; simpa using this.symm
  subst this
  rw [allows_iff ha hG ht]
  simp only [paid_filter] at h3
  congr 1
  linear_combination h3

/-- **C105.** Somebody who never contributes more than `max_inflows` allows at the time never exceeds
the room of an RRSP over a whole lifetime, before and after the conversion age: all contributions
together stay within the first room plus the accruals of all years (the rate times the income of
the year before, at most the maximum of the year), and the room never becomes negative. -/
theorem C105_rrsp_lifetime (e : RrspEnv K) (income most : ℤ → K)
    (hinc : ∀ y, e.income y = .ok (income y))
    (hmost : ∀ y, extendScalar e.const.accrualMax e.adj y = .ok (most y))
    (hrate : 0 ≤ e.const.rate) (hinc0 : ∀ y, 0 ≤ income y) (hmost0 : ∀ y, 0 ≤ most y)
    (y0 : ℤ) (bal : K) (growth : ℤ → K → K) (hG : ∀ y, IsGrowth (growth y)) (dt : Dict K K)
    (room0 : K) (h0 : 0 ≤ room0) (c : ℤ) (fuel : ℕ) (ops : List (Op K))
    (hw : Within (rrspNext e) fuel (single (Account.init y0 bal growth dt) [] room0 c) ops) :
    ∃ (n : ℕ) (r : Reg K),
      (run (rrspNext e) fuel (single (Account.init y0 bal growth dt) [] room0 c) ops).accts = [r] ∧
      r.acct.year = y0 + n ∧
      ∑ k ∈ Finset.range n, paid ((Dict.get? r.acct.txHist (y0 + k)).getD []) + paid r.acct.txns
        ≤ room0 + ∑ k ∈ Finset.range n, min (e.const.rate * income (y0 + k)) (most (y0 + k + 1)) ∧
      0 ≤ (run (rrspNext e) fuel (single (Account.init y0 bal growth dt) [] room0 c) ops).room := by
  obtain ⟨n, r, h⟩ := careful_run (next := rrspNext e) (flow := paid)
    (acc := fun y => min (e.const.rate * income (y - 1)) (most y)) (fun g r v hv hr => by
    have h3 : 0 ≤ min (e.const.rate * income r.acct.year) (most (r.acct.year + 1)) :=
      le_min (mul_nonneg hrate (hinc0 _)) (hmost0 _)
    simp only [add_sub_cancel_right]
    unfold rrspNext at hv
    cases ha : e.contributorAge (r.acct.year + 1) with
    | error er => rw [ha] at hv; cases hv
    | ok age =>
      rw [ha, ok_bind] at hv
      split_ifs at hv with hlt
      · have hv := Except.ok.inj hv
        rw [← hv]
        exact ⟨le_rfl, by linarith⟩
      · rw [hinc, ok_bind, hmost, ok_bind] at hv
        have hv := Except.ok.inj hv
        have hp := paid_filter r.acct.txns
        simp only [inflows, posSum, gt_iff_lt, zero_add] at hv
        rw [mul_comm] at hv
        simp only [hp] at hv
        refine ⟨?_, ?_⟩ <;> rw [← hv] <;> linarith) y0 bal growth hG dt room0 h0 c fuel ops hw
  refine ⟨n, r, h.alone.one, h.alone.year, ?_, ?_⟩
  · have h1 := h.past
    have h2 := h.now
    unfold recorded at h1
    simp only [add_sub_cancel_right] at h1
    linarith
  · exact (paid_nonneg _).trans h.now

/-- A careful RRSP saver who earns 50000 a year. -/
example : Within (rrspNext (shippedRrsp 1980)) 1
    (single (Account.init 2017 1000 (fun _ _ => 1) [(0, 1)]) [] 100 2017)
    [.nextYear 0, .add 0 9100 (.num (1/2))] := by
  refine within_snoc (ops := [_]) (within_snoc (ops := []) (within_nil _ _ _) ?_) ?_
  · intro i v w e; cases e
  · intro i v w e hv
    cases e
    obtain ⟨r, d, h1, -, h3, h4⟩ := C105_answers (rrspNext (shippedRrsp 1980)) 2017 (1000 : ℚ)
      (fun _ _ => 1) growth_one [(0, 1)] 100 2017 1 [.nextYear 0] _ good_one
    refine ⟨_, h4, ?_⟩
    have hd : ∀ r ∈ (run (rrspNext (shippedRrsp 1980)) 1
        (single (Account.init 2017 1000 (fun _ _ => 1) [(0, 1)]) [] 100 2017) [.nextYear 0]).accts,
      9100 ≤ (run (rrspNext (shippedRrsp 1980)) 1
        (single (Account.init 2017 1000 (fun _ _ => 1) [(0, 1)]) [] 100 2017) [.nextYear 0]).room
        - paid r.acct.txns := by decide +kernel
    rw [h3]
    exact (hd r (by rw [h1]; simp)).trans (le_max_left _ _)

end RRSP

end Forecaster.Registered
