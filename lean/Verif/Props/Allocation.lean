import Verif.Model.Allocation
import Mathlib.Tactic.Linarith
import Mathlib.Tactic.FieldSimp
import Mathlib.Tactic.Ring
import Mathlib.Tactic.NormNum

/-!
# Properties of asset allocation strategies (C39, C55)
-/

set_option linter.unusedSectionVars false

namespace Forecaster.Allocation

open Forecaster

variable {K : Type} [Field K] [LinearOrder K] [IsStrictOrderedRing K]

/-! ## Specification -/

/-- The retirement age the strategy plans with: the person's own if it adjusts for it, otherwise
the standard one. -/
def planned (s : Strat K) (ret : K) : K := if s.adjust then ret else s.standardRetirementAge

/-- The share of stocks the strategy's formula asks for, before the limits on equity. For `n - age`
it is `n` minus the age in percent, a late retirement counting as being younger. The transition
strategy holds `max_equity` until `risk_transition_period` years before retirement, then moves
linearly to `target`, which it reaches at retirement and keeps. -/
noncomputable def wanted (s : Strat K) (age ret : K) : K :=
  match s.kind with
  | .nAge => (s.target - (age + (s.standardRetirementAge - planned s ret))) / 100
  | .transition =>
    if age ≤ planned s ret - s.riskTransitionPeriod then s.maxEquity
    else if planned s ret ≤ age then s.target
    else s.target + (s.maxEquity - s.target) * ((planned s ret - age) / s.riskTransitionPeriod)

/-- The closest value within `[lo, hi]`. -/
def clamp (lo hi x : K) : K := max lo (min hi x)

/-- A strategy a constructor can have returned. -/
def Built (s : Strat K) : Prop := ∃ arg t lo hi std p adj, init arg t lo hi std p adj = .ok s

/-! ## Helpers -/

theorem built_le {s : Strat K} (h : Built s) : s.minEquity ≤ s.maxEquity := by
  obtain ⟨arg, t, lo, hi, std, p, adj, h⟩ := h
  unfold init at h
  cases hk : strategyInit strategyKeys arg with
  | error e => rw [hk] at h; simp at h
  | ok key =>
    rw [hk] at h
    simp only [ok_bind] at h
    split at h
    · simp at h
    · rename_i hlt
      cases h
      simpa using hlt

/-- What the formula returns: nothing in `other`, everything else in bonds; the share of stocks is
`wanted` up to the equity limits (the transition strategy applies the lower limit itself). -/
theorem raw_eq (s : Strat K) (age ret : K) :
    ∃ x, formula s age (some ret) = .ok ⟨x, 1 - x, 0⟩ ∧
      (x = wanted s age ret ∨
        (s.kind = .transition ∧ planned s ret ≤ age ∧ x = max s.minEquity (wanted s age ret))) := by
  have hr : retirementAge s (some ret) = .ok (planned s ret) := by
    unfold retirementAge planned
    split <;> rfl
  cases hk : s.kind with
  | nAge =>
    simp only [formula, hk, nMinusAge, wanted, hr, ok_bind]
    refine ⟨_, rfl, Or.inl ?_⟩
    cases ha : s.adjust <;> simp [planned, ha]
  | transition =>
    simp only [formula, hk, transitionToConst, wanted, hr, ok_bind]
    generalize planned s ret = r
    by_cases h1 : age ≤ r - s.riskTransitionPeriod
    · simp [h1]
    · by_cases h2 : r ≤ age
      · simp [h1, h2]
      · have hp : (s.riskTransitionPeriod : K) ≠ 0 := by
          intro h0
          rw [h0] at h1
          push Not at h1 h2
          linarith
        simp only [h1, h2, hp, if_false]
        exact ⟨_, rfl, Or.inl (by rw [mul_div_assoc])⟩

theorem call_eq (s : Strat K) (hs : s.minEquity ≤ s.maxEquity) (age ret : K) :
    ∃ x, clamp s.minEquity s.maxEquity x = clamp s.minEquity s.maxEquity (wanted s age ret) ∧
      ((x = 1 ↔ wanted s age ret = 1) ∨ s.minEquity ≤ x) ∧
      (x = 1 → s.maxEquity < x ∨ x < s.minEquity →
        call s age (some ret) = .error .zeroDivisionError) ∧
      (¬ (x = 1 ∧ (s.maxEquity < x ∨ x < s.minEquity)) →
        call s age (some ret) = .ok ⟨clamp s.minEquity s.maxEquity x,
          1 - clamp s.minEquity s.maxEquity x, 0⟩) ∧
      (x = wanted s age ret ∨
        (s.kind = .transition ∧ planned s ret ≤ age ∧ x = max s.minEquity (wanted s age ret))) := by
  obtain ⟨x, hx, hw⟩ := raw_eq s age ret
  refine ⟨x, ?_, ?_, ?_, ?_, hw⟩
  · rcases hw with rfl | ⟨-, -, rfl⟩
    · rfl
    · unfold clamp
      rcases le_total s.minEquity (wanted s age ret) with h | h
      · rw [max_eq_right h]
      · rw [max_eq_left h, min_eq_right hs, max_self, min_eq_right (h.trans hs), max_eq_left h]
  · rcases hw with rfl | ⟨-, -, rfl⟩
    · exact Or.inl Iff.rfl
    · exact Or.inr (le_max_left _ _)
  · intro h1 h2
    simp only [call]
    rw [hx]
    simp only [ok_bind, balance]
    subst h1
    rcases h2 with h2 | h2
    · simp [h2]
    · have : ¬ s.maxEquity < 1 := by push Not; exact h2.le.trans hs
      simp [h2, this]
  · intro h1
    simp only [call]
    rw [hx]
    simp only [ok_bind, balance, add_zero, mul_zero, zero_div]
    by_cases ha : s.maxEquity < x
    · have hne : (1 : K) - x ≠ 0 := by
        intro h0
        exact h1 ⟨by linarith, Or.inl ha⟩
      have hc : clamp s.minEquity s.maxEquity x = s.maxEquity := by
        unfold clamp; rw [min_eq_left ha.le, max_eq_right hs]
      simp only [ha, if_true, hne, if_false, hc]
      congr 2
      field_simp
      ring
    · push Not at ha
      by_cases hb : x < s.minEquity
      · have hne : (1 : K) - x ≠ 0 := by
          intro h0
          exact h1 ⟨by linarith, Or.inr hb⟩
        have hc : clamp s.minEquity s.maxEquity x = s.minEquity := by
          unfold clamp; rw [min_eq_right ha, max_eq_left hb.le]
        simp only [not_lt.mpr ha, if_false, hb, if_true, hne, hc]
        congr 2
        · field_simp
          ring
        · ring
      · push Not at hb
        have hc : clamp s.minEquity s.maxEquity x = x := by
          unfold clamp; rw [min_eq_right ha, max_eq_right hb]
        simp [not_lt.mpr ha, not_lt.mpr hb, hc]

theorem clamp_mem {lo hi : K} (h : lo ≤ hi) (x : K) : lo ≤ clamp lo hi x ∧ clamp lo hi x ≤ hi :=
  ⟨le_max_left _ _, max_le h (min_le_left _ _)⟩

theorem call_ok {s : Strat K} (hs : s.minEquity ≤ s.maxEquity) {age ret : K} {a : Alloc K}
    (h : call s age (some ret) = .ok a) :
    a = ⟨clamp s.minEquity s.maxEquity (wanted s age ret),
      1 - clamp s.minEquity s.maxEquity (wanted s age ret), 0⟩ := by
  obtain ⟨x, hc, -, he, ho, -⟩ := call_eq s hs age ret
  by_cases hb : x = 1 ∧ (s.maxEquity < x ∨ x < s.minEquity)
  · rw [he hb.1 hb.2] at h; cases h
  · rw [ho hb, hc] at h; cases h; rfl

theorem call_none_cases (s : Strat K) (age : K) :
    (s.adjust = true ∧ call s age none = .error .valueError) ∨
    (s.adjust = false ∧ ∀ r, call s age none = call s age (some r)) := by
  cases ha : s.adjust
  · right
    refine ⟨rfl, fun r => ?_⟩
    cases hk : s.kind <;> simp [call, formula, retirementAge, hk, nMinusAge, transitionToConst, ha]
  · left
    refine ⟨rfl, ?_⟩
    cases hk : s.kind <;> simp [call, formula, retirementAge, hk, nMinusAge, transitionToConst, ha]

/-! ## C39 -/

/-- **C39.** Whatever an allocation strategy returns, for any age and any (or no) retirement age:
the three shares add up to one, and stocks are within the limits on equity. -/
theorem C39_sums_to_one_within_limits {s : Strat K} (hs : Built s) {age : K} {ret : Option K}
    {a : Alloc K} (h : call s age ret = .ok a) :
    a.stocks + a.bonds + a.other = 1 ∧ s.minEquity ≤ a.stocks ∧ a.stocks ≤ s.maxEquity := by
  have hle := built_le hs
  have key : ∀ r, call s age (some r) = .ok a → _ := fun r hr => call_ok hle hr
  have : ∃ r, call s age (some r) = .ok a := by
    cases ret with
    | some r => exact ⟨r, h⟩
    | none =>
      rcases call_none_cases s age with ⟨-, he⟩ | ⟨-, he⟩
      · rw [he] at h; cases h
      · exact ⟨0, he 0 ▸ h⟩
  obtain ⟨r, hr⟩ := this
  have := key r hr
  subst this
  have hm := clamp_mem hle (wanted s age r)
  exact ⟨by simp, hm.1, hm.2⟩

/-- **C39.** With limits on equity between 0 and 1 no share is negative. -/
theorem C39_no_negative_share {s : Strat K} (hs : Built s) (h0 : 0 ≤ s.minEquity)
    (h1 : s.maxEquity ≤ 1) {age : K} {ret : Option K} {a : Alloc K} (h : call s age ret = .ok a) :
    0 ≤ a.stocks ∧ 0 ≤ a.bonds ∧ 0 ≤ a.other ∧ a.stocks ≤ 1 ∧ a.bonds ≤ 1 := by
  have hle := built_le hs
  have : ∃ r, call s age (some r) = .ok a := by
    cases ret with
    | some r => exact ⟨r, h⟩
    | none =>
      rcases call_none_cases s age with ⟨-, he⟩ | ⟨-, he⟩
      · rw [he] at h; cases h
      · exact ⟨0, he 0 ▸ h⟩
  obtain ⟨r, hr⟩ := this
  have := call_ok hle hr
  subst this
  have hm := clamp_mem hle (wanted s age r)
  simp only
  refine ⟨by linarith, by linarith, le_rfl, by linarith, by linarith⟩

/-- **C39.** Exactly what is returned: the share of stocks is the closest value to what the
strategy's formula asks for that the limits on equity allow, and the rest is in bonds. -/
theorem C39_stocks_follow_the_formula {s : Strat K} (hs : Built s) {age ret : K} {a : Alloc K}
    (h : call s age (some ret) = .ok a) :
    a.stocks = clamp s.minEquity s.maxEquity (wanted s age ret) ∧ a.bonds = 1 - a.stocks ∧
      a.other = 0 := by
  have := call_ok (built_le hs) h
  subst this
  exact ⟨rfl, rfl, rfl⟩

/-- **C39.** A strategy that adjusts for the retirement plan needs a retirement age; one that does
not ignores it. -/
theorem C39_retirement_age_needed (s : Strat K) (age : K) :
    (s.adjust = true → call s age none = .error .valueError) ∧
    (s.adjust = false → ∀ r r', call s age r = call s age r') := by
  refine ⟨fun ha => ?_, fun ha r r' => ?_⟩
  · rcases call_none_cases s age with ⟨-, h⟩ | ⟨h, -⟩
    · exact h
    · rw [ha] at h; cases h
  · rcases call_none_cases s age with ⟨h, -⟩ | ⟨-, h⟩
    · rw [ha] at h; cases h
    · have : ∀ x, call s age x = call s age none := by
        intro x
        cases x with
        | none => rfl
        | some y => exact (h y).symm
      rw [this r, this r']

/-- **C39.** (The defect.) A strategy with an equity limit below 100% fails with
`ZeroDivisionError` at exactly the ages where its formula asks for 100% stocks (e.g. `120 - age` at
age 20 with at most 90% in stocks): re-balancing divides by the zero share of bonds. It never fails
otherwise. -/
theorem C39_fails_exactly_at_all_stocks {s : Strat K} (hs : Built s) (hmin : s.minEquity ≤ 1)
    (age ret : K) :
    (wanted s age ret = 1 ∧ s.maxEquity < 1 → call s age (some ret) = .error .zeroDivisionError) ∧
    (¬ (wanted s age ret = 1 ∧ s.maxEquity < 1) → ∃ a, call s age (some ret) = .ok a) := by
  have hle := built_le hs
  obtain ⟨x, hc, -, he, ho, hw⟩ := call_eq s hle age ret
  refine ⟨fun h => ?_, fun h => ?_⟩
  · have hx : x = 1 := by
      rcases hw with h' | ⟨-, -, h'⟩
      · rw [h', h.1]
      · rw [h', h.1, max_eq_right hmin]
    exact he hx (Or.inl (hx ▸ h.2))
  · refine ⟨_, ho fun hbad => ?_⟩
    obtain ⟨hx, hor⟩ := hbad
    rw [hx] at hor
    rcases hor with h1 | h1
    · apply h
      refine ⟨?_, h1⟩
      rcases hw with h' | ⟨-, -, h'⟩
      · rw [← h', hx]
      · rw [hx] at h'
        rcases max_choice s.minEquity (wanted s age ret) with hm | hm
        · rw [hm] at h'; linarith
        · rw [hm] at h'; exact h'.symm
    · exact absurd h1 (not_lt.mpr hmin)

theorem clamp_mono {lo hi x y : K} (h : x ≤ y) : clamp lo hi x ≤ clamp lo hi y :=
  max_le_max le_rfl (min_le_min le_rfl h)

/-- **C39.** Getting older never increases the share of stocks, for either strategy and any
parameters. -/
theorem C39_older_never_more_stocks {s : Strat K} (hs : Built s) {age₁ age₂ : K} (hage : age₁ ≤ age₂)
    {ret : Option K} {a₁ a₂ : Alloc K} (h₁ : call s age₁ ret = .ok a₁)
    (h₂ : call s age₂ ret = .ok a₂) : a₂.stocks ≤ a₁.stocks := by
  have hle := built_le hs
  have : ∃ r, call s age₁ (some r) = .ok a₁ ∧ call s age₂ (some r) = .ok a₂ := by
    cases ret with
    | some r => exact ⟨r, h₁, h₂⟩
    | none =>
      rcases call_none_cases s age₁ with ⟨-, he⟩ | ⟨-, he⟩
      · rw [he] at h₁; cases h₁
      · rcases call_none_cases s age₂ with ⟨-, he'⟩ | ⟨-, he'⟩
        · rw [he'] at h₂; cases h₂
        · exact ⟨0, he 0 ▸ h₁, he' 0 ▸ h₂⟩
  obtain ⟨r, h₁, h₂⟩ := this
  rw [call_ok hle h₁, call_ok hle h₂]
  simp only
  cases hk : s.kind with
  | nAge =>
    apply clamp_mono
    simp only [wanted, hk]
    apply div_le_div_of_nonneg_right _ (by norm_num)
    linarith
  | transition =>
    simp only [wanted, hk]
    generalize planned s r = R
    -- above the upper limit nothing changes
    have hbetween : ∀ x : K, ¬ x ≤ R - s.riskTransitionPeriod → ¬ R ≤ x →
        0 < (s.riskTransitionPeriod : K) ∧ 0 ≤ (R - x) / s.riskTransitionPeriod ∧
          (R - x) / s.riskTransitionPeriod ≤ 1 := by
      intro x hx1 hx2
      push Not at hx1 hx2
      have hp : (0 : K) < s.riskTransitionPeriod := by linarith
      refine ⟨hp, div_nonneg (by linarith) hp.le, ?_⟩
      rw [div_le_one hp]
      linarith
    rcases le_total s.maxEquity s.target with ht | ht
    · -- target above the limit: always at the limit
      have hall : ∀ x : K, clamp s.minEquity s.maxEquity
          (if x ≤ R - s.riskTransitionPeriod then s.maxEquity
            else if R ≤ x then s.target
            else s.target + (s.maxEquity - s.target) * ((R - x) / s.riskTransitionPeriod)) =
          s.maxEquity := by
        intro x
        have : s.maxEquity ≤ (if x ≤ R - s.riskTransitionPeriod then s.maxEquity
            else if R ≤ x then s.target
            else s.target + (s.maxEquity - s.target) * ((R - x) / s.riskTransitionPeriod)) := by
          split
          · exact le_rfl
          · split
            · exact ht
            · rename_i hx1 hx2
              obtain ⟨-, q0, q1⟩ := hbetween x hx1 hx2
              nlinarith
        unfold clamp
        rw [min_eq_left this, max_eq_right hle]
      rw [hall, hall]
    · apply clamp_mono
      by_cases c1 : age₁ ≤ R - s.riskTransitionPeriod
      · simp only [c1, if_true]
        split
        · exact le_rfl
        · split
          · exact ht
          · rename_i hx1 hx2
            obtain ⟨-, q0, q1⟩ := hbetween age₂ hx1 hx2
            nlinarith
      · have c1' : ¬ age₂ ≤ R - s.riskTransitionPeriod := fun h => c1 (hage.trans h)
        simp only [c1, c1', if_false]
        by_cases c2 : R ≤ age₁
        · simp [c2, c2.trans hage]
        · simp only [c2, if_false]
          obtain ⟨hp, q0, q1⟩ := hbetween age₁ c1 c2
          split
          · nlinarith
          · have : (R - age₂) / (s.riskTransitionPeriod : K) ≤ (R - age₁) / s.riskTransitionPeriod :=
              div_le_div_of_nonneg_right (by linarith) hp.le
            nlinarith

/-- **C39.** The two ends of the transition strategy: `max_equity` at least
`risk_transition_period` years before retirement, the target (within the limits) from retirement
on, for a non-negative period. -/
theorem C39_transition_ends {s : Strat K} (hs : Built s) (hk : s.kind = .transition) {age ret : K}
    {a : Alloc K} (h : call s age (some ret) = .ok a) :
    (age ≤ planned s ret - s.riskTransitionPeriod → a.stocks = s.maxEquity) ∧
    (planned s ret ≤ age → 0 < s.riskTransitionPeriod →
      a.stocks = clamp s.minEquity s.maxEquity s.target) := by
  have hle := built_le hs
  rw [call_ok hle h]
  refine ⟨fun h1 => ?_, fun h1 hp => ?_⟩
  · simp only [wanted, hk, h1, if_true]
    unfold clamp
    rw [min_self, max_eq_right hle]
  · have hp' : (0 : K) < s.riskTransitionPeriod := by exact_mod_cast hp
    have : ¬ age ≤ planned s ret - s.riskTransitionPeriod := by push Not; linarith
    simp only [wanted, hk, this, h1, if_true, if_false]

/-- **C39.** A constructor accepts exactly the known strategies with `min_equity ≤ max_equity`. -/
theorem C39_constructor (arg : StrategyArg) (t lo hi : K) (std p : ℤ) (adj : Bool) :
    (∃ s, init arg t lo hi std p adj = .ok s) ↔
      lo ≤ hi ∧ ∃ k, (k = "n-age" ∨ k = "Transition to constant") ∧ (arg = .str k ∨ arg = .method k) := by
  have hmem : ∀ k : String, k ∈ strategyKeys ↔ k = "n-age" ∨ k = "Transition to constant" := by
    intro k; simp [strategyKeys]
  constructor
  · rintro ⟨s, h⟩
    have h' : lo ≤ hi := by
      unfold init at h
      cases hk : strategyInit strategyKeys arg with
      | error e => rw [hk] at h; simp at h
      | ok key =>
        rw [hk] at h
        simp only [ok_bind] at h
        split at h
        · simp at h
        · rename_i hlt; exact not_lt.mp hlt
    refine ⟨h', ?_⟩
    cases arg with
    | other => simp [init, strategyInit] at h
    | str k =>
      refine ⟨k, (hmem k).mp ?_, Or.inl rfl⟩
      by_contra hk
      simp [init, strategyInit, hk] at h
    | method k =>
      refine ⟨k, (hmem k).mp ?_, Or.inr rfl⟩
      by_contra hk
      simp [init, strategyInit, hk] at h
  · rintro ⟨hle, k, hk, ha⟩
    have hk' := (hmem k).mpr hk
    rcases ha with rfl | rfl <;> simp [init, strategyInit, hk', not_lt.mpr hle]

/-! ### Re-balancing any allocation (strategies with a third asset class) -/

/-- **C39.** Cutting stocks down to the maximum keeps the sum of the shares and the proportion of
bonds to other investments, for every allocation. -/
theorem C39_rebalancing_down (s : Strat K) (a b : Alloc K) (hmax : s.maxEquity < a.stocks)
    (h : balance s a = .ok b) :
    b.stocks = s.maxEquity ∧ b.stocks + b.bonds + b.other = a.stocks + a.bonds + a.other ∧
      b.bonds * a.other = b.other * a.bonds := by
  simp only [balance, hmax, if_true] at h
  split at h
  · cases h
  · rename_i hne
    cases h
    refine ⟨rfl, ?_, ?_⟩
    · simp only
      field_simp
      ring
    · simp only
      ring

/-- **C39.** (The defect.) Raising stocks to the minimum does not keep the sum when there are other
investments: the code uses the maximum in the place of the minimum for them, and
`(max - min) * other / (bonds + other)` goes missing. -/
theorem C39_rebalancing_up (s : Strat K) (a b : Alloc K) (hle : s.minEquity ≤ s.maxEquity)
    (hmin : a.stocks < s.minEquity) (h : balance s a = .ok b) :
    b.stocks = s.minEquity ∧
      b.stocks + b.bonds + b.other = a.stocks + a.bonds + a.other
        - (s.maxEquity - s.minEquity) * a.other / (a.bonds + a.other) := by
  have : ¬ s.maxEquity < a.stocks := by push Not; linarith
  simp only [balance, this, hmin, if_true, if_false] at h
  split at h
  · cases h
  · rename_i hne
    cases h
    refine ⟨rfl, ?_⟩
    simp only
    field_simp
    ring

/-! ## C55: the rate of return of a portfolio -/

/-- **C55.** The rate function returns the average of the asset classes' returns weighted by the
allocation. -/
theorem C55_weighted_average {s : Strat K} (hs : Built s) {age : K} {ret : Option K} {r : Returns K}
    {x : K} (h : rate s (.ok age) ret (.ok r) = .ok x) :
    ∃ a, call s age ret = .ok a ∧ x = a.stocks * r.stock + a.bonds * r.bond + a.other * r.other := by
  simp only [rate, ok_bind] at h
  cases hc : call s age ret with
  | error e => rw [hc] at h; simp at h
  | ok a =>
    rw [hc] at h
    simp only [ok_bind] at h
    have h1 := (C39_sums_to_one_within_limits hs hc).1
    rw [h1] at h
    simp at h
    exact ⟨a, rfl, h.symm⟩

/-- **C55.** With limits on equity between 0 and 1, the rate of return lies between the returns of
stocks and bonds. -/
theorem C55_between_the_returns {s : Strat K} (hs : Built s) (h0 : 0 ≤ s.minEquity)
    (h1 : s.maxEquity ≤ 1) {age ret : K} {r : Returns K} {x : K}
    (h : rate s (.ok age) (some ret) (.ok r) = .ok x) :
    min r.stock r.bond ≤ x ∧ x ≤ max r.stock r.bond := by
  obtain ⟨a, hc, rfl⟩ := C55_weighted_average hs h
  obtain ⟨p1, p2, -, -, -⟩ := C39_no_negative_share hs h0 h1 hc
  obtain ⟨-, q2, q3⟩ := C39_stocks_follow_the_formula hs hc
  rw [q3]
  have e : a.stocks = 1 - a.bonds := by linarith
  have m1 := min_le_left r.stock r.bond
  have m2 := min_le_right r.stock r.bond
  have m3 := le_max_left r.stock r.bond
  have m4 := le_max_right r.stock r.bond
  constructor
  · have := mul_le_mul_of_nonneg_left m1 p1
    have := mul_le_mul_of_nonneg_left m2 p2
    generalize min r.stock r.bond = m at *
    rw [e] at *
    nlinarith
  · have := mul_le_mul_of_nonneg_left m3 p1
    have := mul_le_mul_of_nonneg_left m4 p2
    generalize max r.stock r.bond = m at *
    rw [e] at *
    nlinarith

/-- **C55.** If stocks return at least as much as bonds, a portfolio's rate never increases with age
(for the same returns). -/
theorem C55_older_never_earns_more {s : Strat K} (hs : Built s) {age₁ age₂ : K} (hage : age₁ ≤ age₂)
    {ret : K} {r : Returns K} (hr : r.bond ≤ r.stock) {x₁ x₂ : K}
    (h₁ : rate s (.ok age₁) (some ret) (.ok r) = .ok x₁)
    (h₂ : rate s (.ok age₂) (some ret) (.ok r) = .ok x₂) : x₂ ≤ x₁ := by
  obtain ⟨a₁, c₁, rfl⟩ := C55_weighted_average hs h₁
  obtain ⟨a₂, c₂, rfl⟩ := C55_weighted_average hs h₂
  have hm := C39_older_never_more_stocks hs hage c₁ c₂
  obtain ⟨-, b1, o1⟩ := C39_stocks_follow_the_formula hs c₁
  obtain ⟨-, b2, o2⟩ := C39_stocks_follow_the_formula hs c₂
  rw [b1, b2, o1, o2]
  nlinarith

/-- **C55.** The rate function fails exactly when the allocation does (given a valid age and
returns for the year): it never divides by zero itself. -/
theorem C55_fails_with_the_allocation {s : Strat K} (hs : Built s) (age : K) (ret : Option K)
    (r : Returns K) (e : PyErr) :
    rate s (.ok age) ret (.ok r) = .error e ↔ call s age ret = .error e := by
  simp only [rate, ok_bind]
  cases hc : call s age ret with
  | error e' => simp
  | ok a =>
    have h1 := (C39_sums_to_one_within_limits hs hc).1
    simp [h1]

/-! ## Examples -/

/-- `Transition to 50-50` over 20 years, at most 90% stocks. -/
def exTransition : Strat ℚ := ⟨.transition, 1/2, 1/10, 9/10, 65, 20, true⟩
/-- `125 - age`, at most 90% stocks, adjusting for the retirement plan. -/
def exNAge : Strat ℚ := ⟨.nAge, 125, 1/10, 9/10, 65, 20, true⟩

example : Built exTransition :=
  ⟨.str "Transition to constant", 1/2, 1/10, 9/10, 65, 20, true, by decide +kernel⟩
example : Built exNAge := ⟨.method "n-age", 125, 1/10, 9/10, 65, 20, true, by decide +kernel⟩
-- ten years before retirement at 70, half-way
example : call exTransition 60 (some 70) = .ok ⟨7/10, 3/10, 0⟩ := by decide +kernel
example : call exTransition 40 (some 70) = .ok ⟨9/10, 1/10, 0⟩ := by decide +kernel
example : call exTransition 71 (some 70) = .ok ⟨1/2, 1/2, 0⟩ := by decide +kernel
example : call exTransition 71 none = .error .valueError := by decide +kernel
-- 60 years old but retiring at 70: as if 55
example : call exNAge 60 (some 70) = .ok ⟨7/10, 3/10, 0⟩ := by decide +kernel
example : call exNAge 20 (some 65) = .ok ⟨9/10, 1/10, 0⟩ := by decide +kernel
-- the formula asks for exactly 100%
example : call exNAge 25 (some 65) = .error .zeroDivisionError := by decide +kernel
example : wanted exNAge 25 65 = 1 ∧ exNAge.maxEquity < 1 := by
  constructor
  · norm_num [wanted, exNAge, planned]
  · decide +kernel
-- rounding up with other investments: 10% of the portfolio disappears
example : balance (⟨.nAge, 0, 1/2, 7/10, 65, 20, true⟩ : Strat ℚ) ⟨2/10, 4/10, 4/10⟩ =
    .ok ⟨1/2, 1/4, 3/20⟩ := by decide +kernel
example : balance exNAge ⟨95/100, 1/100, 4/100⟩ = .ok ⟨9/10, 2/100, 8/100⟩ := by decide +kernel
example : rate exNAge (.ok 60) (some 70) (.ok ⟨1/10, 1/20, 0⟩) = .ok (17/200) := by decide +kernel

end Forecaster.Allocation
