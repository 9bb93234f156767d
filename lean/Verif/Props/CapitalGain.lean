import Verif.Model.FamilyKinds
import Verif.Props.Taxable

/-!
# C122: a capital gain depends only on the account's own history

`Taxable.gainOf` works the gain of this year out from the transactions and balances of all years.
-/

set_option linter.unusedSectionVars false

namespace Forecaster.Taxable

open Forecaster Forecaster.Timing Forecaster.Account

variable {K : Type} [Field K] [LinearOrder K] [IsStrictOrderedRing K]

theorem computeGain_congr {a b : Acct K} (h1 : a.txns = b.txns) (h2 : a.A = b.A)
    (h3 : balance a = balance b) (c : K) : computeGain a c = computeGain b c := by
  have h : gainStep a = gainStep b := by
    funext s w
    unfold gainStep balanceAtTime
    rw [h1, h2, h3]
  unfold computeGain
  rw [h, h1]

/-- The recorded cost bases are those of the account's own history. -/
def Follows (y0 : ℤ) (c0 : K) (a : TA K) : Prop :=
  ∀ k : ℕ, y0 + k ≤ a.acct.year → ∃ c, Dict.get? a.acbHist (y0 + k) = some c ∧
    costBase y0 c0 a.acct k = .ok c

theorem costBase_congr {y0 : ℤ} {c0 : K} {a b : Acct K} (k : ℕ)
    (h : ∀ j : ℕ, j < k → ∀ c, computeGain (asOf a (y0 + j)) c = computeGain (asOf b (y0 + j)) c) :
    costBase y0 c0 a k = costBase y0 c0 b k := by
  induction k with
  | zero => rfl
  | succ k ih =>
    unfold costBase
    rw [ih fun j hj => h j (by omega)]
    simp only [h k (by omega)]

theorem follows_of_same {y0 : ℤ} {c0 : K} {a b : TA K} (h : Follows y0 c0 a)
    (hy : b.acct.year = a.acct.year) (hg : b.acct.growth = a.acct.growth)
    (hb : b.acct.balHist = a.acct.balHist) (ht : b.acct.txHist = a.acct.txHist)
    (hacb : ∀ y, y ≤ a.acct.year → Dict.get? b.acbHist y = Dict.get? a.acbHist y) :
    Follows y0 c0 b := by
  intro k hk
  rw [hy] at hk
  obtain ⟨c, h1, h2⟩ := h k hk
  refine ⟨c, by rw [hacb _ hk, h1], ?_⟩
  rw [← h2]
  apply costBase_congr
  intro j _ c
  have e : asOf b.acct (y0 + j) = asOf { a.acct with defaultTiming := b.acct.defaultTiming } (y0 + j) := by
    unfold asOf
    rw [hg, hb, ht]
  rw [e]
  exact computeGain_congr rfl rfl rfl c

theorem add_same {a a' : Acct K} {v : K} {w : When K} (h : Account.addTransaction a v w = .ok a') :
    a'.year = a.year ∧ a'.growth = a.growth ∧ a'.balHist = a.balHist ∧ a'.txHist = a.txHist := by
  unfold Account.addTransaction at h
  cases hw : whenConv w with
  | error e => simp [hw] at h
  | ok t => simp only [hw, ok_bind, Except.ok.injEq] at h; subst h; exact ⟨rfl, rfl, rfl, rfl⟩

theorem set_same {a a' : Acct K} {v : K} {k : When K} (h : Account.setItem a k v = .ok a') :
    a'.year = a.year ∧ a'.growth = a.growth ∧ a'.balHist = a.balHist ∧ a'.txHist = a.txHist := by
  unfold Account.setItem at h
  cases k with
  | str s => exact add_same h
  | num x =>
    simp only at h
    have := add_same h
    split at this <;> exact this

theorem next_old {a a' : Acct K} {b : K}
    (hn : a' = { a with
      year := a.year + 1
      balHist := Dict.set a.balHist a.year b
      txHist := Dict.set a.txHist a.year a.txns
      txns := [] }) {y : ℤ} (hy : y < a.year) (d : K) :
    computeGain (asOf a' y) d = computeGain (asOf a y) d := by
  apply computeGain_congr
  · rw [hn]
    show (Dict.get? (Dict.set _ _ _) _).getD [] = _
    rw [Dict.get?_set_ne _ _ (by omega)]
    rfl
  · rw [hn]; rfl
  · rw [hn]
    have n1 : a.year ≠ y := by omega
    have n2 : a.year ≠ y - 1 := by omega
    unfold balance asOf look
    simp only [Dict.get?_set, if_neg n1, if_neg n2]
    rfl

theorem next_now {a a' : Acct K} {b : K} (hb : balance a = .ok b)
    (hn : a' = { a with
      year := a.year + 1
      balHist := Dict.set a.balHist a.year b
      txHist := Dict.set a.txHist a.year a.txns
      txns := [] }) (d : K) : computeGain (asOf a' a.year) d = computeGain a d := by
  apply computeGain_congr
  · rw [hn]
    show (Dict.get? (Dict.set _ _ _) _).getD [] = _
    simp
  · rw [hn]; rfl
  · rw [hb, hn]
    unfold balance asOf
    simp

theorem follows_next {y0 : ℤ} {c0 : K} {a a' : TA K} (hi : TInv y0 a) (h : Follows y0 c0 a)
    (e : nextYear a = .ok a') : Follows y0 c0 a' := by
  obtain ⟨hi', hy, g, c, c', a1, -, hc, hcomp, hn, hacb'⟩ := nextYear_spec hi e
  have keep : ∀ y, y ≤ a.acct.year → Dict.get? a'.acbHist y = Dict.get? a.acbHist y := by
    intro y hle
    unfold nextYear at e
    cases hg : capitalGain a with
    | error _ => rw [hg] at e; cases e
    | ok r =>
      obtain ⟨g, b⟩ := r
      obtain ⟨hb1, -, -, hp, -⟩ := gain_spec hi hg
      obtain ⟨c1, hc1⟩ := hb1.now
      have hacb1 : acb b = .ok c1 := by simp [acb, look, hc1]
      obtain ⟨b1, hb2⟩ := hb1.acct.balance_ok
      rw [hg, ok_bind] at e
      simp only [hacb1, ok_bind, nextYear_eq hb2] at e
      cases e
      exact hp y hle
  obtain ⟨b, hb⟩ := hi.acct.balance_ok
  rw [nextYear_eq hb] at hn
  have hn' := (Except.ok.inj hn).symm
  have old : ∀ j : ℕ, y0 + j < a.acct.year → ∀ d,
      computeGain (asOf a'.acct (y0 + j)) d = computeGain (asOf a.acct (y0 + j)) d :=
    fun j hj d => next_old hn' hj d
  intro k hk
  rw [hy] at hk
  by_cases hlt : y0 + k ≤ a.acct.year
  · obtain ⟨d, h1, h2⟩ := h k hlt
    refine ⟨d, by rw [keep _ hlt, h1], ?_⟩
    rw [← h2]
    exact costBase_congr k fun j hj d => old j (by omega) d
  · obtain ⟨m, rfl⟩ : ∃ m, k = m + 1 := by
      have := hi.start
      exact ⟨k - 1, by omega⟩
    have hm : y0 + m = a.acct.year := by push_cast at hk hlt; omega
    obtain ⟨d, h1, h2⟩ := h m hm.le
    rw [hm, hc] at h1
    cases h1
    refine ⟨c', ?_, ?_⟩
    · have : y0 + ((m + 1 : ℕ) : ℤ) = a'.acct.year := by rw [hy]; push_cast; omega
      rw [this]
      unfold acb look at hacb'
      cases hh : Dict.get? a'.acbHist a'.acct.year with
      | none => rw [hh] at hacb'; cases hacb'
      | some z => rw [hh] at hacb'; cases hacb'; rfl
    · unfold costBase
      rw [costBase_congr m (b := a.acct) fun j hj d => old j (by omega) d, h2, ok_bind, hm]
      rw [next_now hb hn', hcomp, ok_bind]

theorem follows_run {y0 : ℤ} {c0 : K} {a : TA K} (hi : TInv y0 a) (h : Follows y0 c0 a)
    (ops : List (Op K)) : Follows y0 c0 (run a ops) := by
  unfold run
  induction ops generalizing a with
  | nil => exact h
  | cons op ops ih =>
    rw [List.foldl_cons]
    cases hs : step a op with
    | error e => exact ih hi h
    | ok a' =>
      cases op with
      | add v w =>
        refine ih (tinv_add hi hs) ?_
        simp only [step, addTransaction] at hs
        cases h1 : Account.addTransaction a.acct v w with
        | error _ => rw [h1] at hs; cases hs
        | ok acct =>
          rw [h1, ok_bind] at hs
          cases hs
          obtain ⟨e1, e2, e3, e4⟩ := add_same h1
          refine follows_of_same h e1 e2 e3 e4 fun y hy => ?_
          simp only [invalidate, e1]
          rw [Dict.get?_del hi.wfA, if_neg (by omega)]
      | setItem k v =>
        refine ih (tinv_set hi hs) ?_
        simp only [step, setItem] at hs
        cases h1 : Account.setItem a.acct k v with
        | error _ => rw [h1] at hs; cases hs
        | ok acct =>
          rw [h1, ok_bind] at hs
          cases hs
          obtain ⟨e1, e2, e3, e4⟩ := set_same h1
          refine follows_of_same h e1 e2 e3 e4 fun y hy => ?_
          simp only [invalidate, e1]
          rw [Dict.get?_del hi.wfA, if_neg (by omega)]
      | readGain =>
        simp only [step] at hs
        cases hg : capitalGain a with
        | error _ => rw [hg] at hs; cases hs
        | ok r =>
          obtain ⟨g, a1⟩ := r
          rw [hg, ok_bind] at hs
          cases hs
          obtain ⟨h1, h2, -, h3, -⟩ := gain_spec hi hg
          exact ih h1 (follows_of_same h (by rw [h2]) (by rw [h2]) (by rw [h2]) (by rw [h2]) h3)
      | nextYear => exact ih (nextYear_spec hi hs).1 (follows_next hi h hs)

/-- **C122.** Whatever has been done with a taxable account opened in `y0` with cost base `c0`, its capital
gain, with all its caching, is the one worked out from its history. -/
theorem C122_capital_gain {y0 : ℤ} {c0 : K} {a : TA K} (ha : Opened y0 c0 a) :
    (capitalGain a).map Prod.fst = gainOf y0 c0 a.acct := by
  obtain ⟨b, g, dt, c, ops, rfl, rfl⟩ := ha
  have hi := tinv_run (tinv_init y0 b g dt c) ops
  have hf : Follows y0 (Option.getD c b) (run (init y0 b g dt c) ops) := by
    refine follows_run (tinv_init y0 b g dt c) ?_ ops
    intro k hk
    have : k = 0 := by simp only [init, Account.init] at hk; omega
    subst this
    exact ⟨_, by simp [init, Dict.get?_cons], rfl⟩
  generalize run (init y0 b g dt c) ops = x at hi hf
  have hs := hi.start
  obtain ⟨d, h1, h2⟩ := hf (x.acct.year - y0).toNat (by omega)
  have e : y0 + ((x.acct.year - y0).toNat : ℤ) = x.acct.year := by omega
  rw [e] at h1
  unfold gainOf
  rw [h2, ok_bind]
  cases hg : capitalGain x with
  | ok r =>
    obtain ⟨-, -, -, -, c1, c', h3, h4, -⟩ := gain_spec hi (a' := r.2) (g := r.1) hg
    rw [h1] at h3
    cases h3
    rw [h4]; rfl
  | error e' =>
    have : computeGain x.acct d = .error e' := by
      unfold capitalGain at hg
      rcases Option.eq_none_or_eq_some (Dict.get? x.gainHist x.acct.year) with h0 | ⟨g0, h0⟩
      · have hacb : acb x = .ok d := by simp [acb, look, h1]
        simp only [h0, hacb, ok_bind] at hg
        cases hc : computeGain x.acct d with
        | error e2 => rw [hc] at hg; simpa using hg
        | ok r => rw [hc] at hg; cases hg
      · rw [h0] at hg; cases hg
    rw [this]; rfl

/-- **C122.** A taxable account of a family (`Family.taxableHolding`) answers what the account itself, with
all its caching, would. -/
theorem C122_taxable_income {y0 : ℤ} {c0 : K} {a : TA K} (ha : Opened y0 c0 a) (owner : ℕ) :
    (Family.taxableHolding owner y0 c0).taxableIncome a.acct = (taxableIncome a).map Prod.fst := by
  show (do let g ← gainOf y0 c0 a.acct; .ok (g / 2)) = _
  rw [← C122_capital_gain ha]
  unfold taxableIncome
  cases capitalGain a with
  | error e => rfl
  | ok r => rfl

/-- If no withdrawal takes out more than there is, the gain can be worked out from any cost base. -/
theorem covered_computes {a : Acct K} (hc : Covered a) (c : K) : ∃ r, computeGain a c = .ok r := by
  have key : ∀ l : List K, (∀ w ∈ l, w ∈ Dict.keys a.txns) → ∀ s : K × K,
      ∃ r, l.foldlM (gainStep a) s = .ok r := by
    intro l
    induction l with
    | nil => intro _ s; exact ⟨s, rfl⟩
    | cons w l ih =>
      intro hl s
      have h1 : ∃ s', gainStep a s w = .ok s' := by
        by_cases h : 0 ≤ Dict.val a.txns w
        · exact ⟨_, gainStep_inflow h⟩
        · push Not at h
          obtain ⟨b, hb, hb0⟩ := hc w _ (Dict.get?_eq_some_val (hl w (by simp))) h
          exact ⟨_, gainStep_outflow h hb (by linarith : 0 < b - Dict.val a.txns w).ne'⟩
      obtain ⟨s', e⟩ := h1
      obtain ⟨r, hr⟩ := ih (fun w hw => hl w (by simp [hw])) s'
      exact ⟨r, by rw [List.foldlM_cons, e, ok_bind, hr]⟩
  exact key _ mem_sorted _

/-- The cost base of the year the account is in can be worked out. -/
def Priced (y0 : ℤ) (c0 : K) (x : Acct K) : Prop :=
  y0 ≤ x.year ∧ ∃ c, costBase y0 c0 x (x.year - y0).toNat = .ok c

theorem priced_init {y0 : ℤ} {c0 : K} {x : Acct K} (h : x.year = y0) : Priced y0 c0 x :=
  ⟨h.ge, c0, by rw [h]; simp [costBase]⟩

theorem priced_gain {y0 : ℤ} {c0 : K} {x : Acct K} (h : Priced y0 c0 x) (hc : Covered x) :
    ∃ g, gainOf y0 c0 x = .ok g := by
  obtain ⟨-, c, h⟩ := h
  obtain ⟨r, hr⟩ := covered_computes hc c
  exact ⟨r.2, by unfold gainOf; rw [h, ok_bind, hr]; rfl⟩

theorem priced_same {y0 : ℤ} {c0 : K} {a b : Acct K} (h : Priced y0 c0 a) (hy : b.year = a.year)
    (hg : b.growth = a.growth) (hb : b.balHist = a.balHist) (ht : b.txHist = a.txHist) :
    Priced y0 c0 b := by
  obtain ⟨h1, c, h2⟩ := h
  refine ⟨by rw [hy]; exact h1, c, ?_⟩
  rw [hy, ← h2]
  apply costBase_congr
  intro j _ d
  have e : asOf b (y0 + j) = asOf { a with defaultTiming := b.defaultTiming } (y0 + j) := by
    unfold asOf
    rw [hg, hb, ht]
  rw [e]
  exact computeGain_congr rfl rfl rfl d

theorem priced_next {y0 : ℤ} {c0 : K} {a a' : Acct K} (h : Priced y0 c0 a) (hi : Account.Inv a)
    (hc : Covered a) (hn : Account.nextYear a = .ok a') : Priced y0 c0 a' := by
  obtain ⟨b, hb⟩ := hi.balance_ok
  rw [nextYear_eq hb] at hn
  have hn' := (Except.ok.inj hn).symm
  obtain ⟨h0, c, h1⟩ := h
  obtain ⟨r, hr⟩ := covered_computes hc c
  have hy : a'.year = a.year + 1 := by rw [hn']
  obtain ⟨m, hm⟩ : ∃ m : ℕ, a.year = y0 + m := ⟨(a.year - y0).toNat, by omega⟩
  have em : (a.year - y0).toNat = m := by omega
  rw [em] at h1
  refine ⟨by omega, r.1, ?_⟩
  rw [hy, show (a.year + 1 - y0).toNat = m + 1 by omega]
  unfold costBase
  rw [costBase_congr m (b := a) fun j hj d => next_old hn' (by omega) d, h1, ok_bind, ← hm,
    next_now hb hn', hr, ok_bind]

/-- An account opened in 2000, with money taken out in 2000 and in 2001; the gain was read in between. -/
def exGain : TA ℚ := run (init 2000 (100 : ℚ) (fun _ _ => 1) [] (some 40))
  [.add (-20) (.num 1), .readGain, .add (-30) (.num 0), .nextYear, .add (-25) (.num 0), .readGain]

example : Opened 2000 40 exGain ∧ gainOf 2000 40 exGain.acct = .ok 15 := by
  refine ⟨⟨100, _, _, _, _, rfl, rfl⟩, ?_⟩
  decide +kernel

end Forecaster.Taxable
