import Verif.Lemmas.Registered
import Mathlib.Algebra.BigOperators.Fin
import Mathlib.Data.Rat.Floor
import Mathlib.Tactic.Ring
import Mathlib.Tactic.Linarith

/-!
# Registered accounts: lock-step (C52), TFSA room (C35), RRSP room (C34), RRIFs and withholding tax
(C53), constructor arguments (C54)
-/

namespace Forecaster.Registered

open Forecaster Forecaster.Timing Forecaster.Account Forecaster.Inflation

section Group

variable {K : Type} [Field K] [LinearOrder K] [IsStrictOrderedRing K]

/-! ## C52: linked accounts move in step -/

/-- **C52.** Advancing any one of a group of linked accounts that are in the same year advances
every account of the group by exactly one year, each as `Account.next_year` does; every account
records the room it had; the contributor is brought up to that year; and the new shared room is the
one determined once, by the account whose `next_year` was called, before anything changed. Nested
calls need a recursion depth of at most the number of accounts. -/
theorem C52_lockstep (next : Grp K → Reg K → Except PyErr K) (g : Grp K) (y : ℤ)
    (hsync : ∀ s ∈ g.accts, s.acct.year = y) (hinv : ∀ s ∈ g.accts, Inv s.acct)
    (i : ℕ) (r : Reg K) (hi : g.accts[i]? = some r) (v : K) (hv : next g r = .ok v)
    (hnone : Dict.get? r.roomHist (y + 1) = none) (hinp : y + 1 ∉ Dict.keys r.inputs)
    (fuel : ℕ) (hf : g.accts.length ≤ fuel) :
    ∃ g', nextYear next fuel g i = .ok g' ∧ g'.room = v ∧
      g'.contribYear = max g.contribYear (y + 1) ∧ g'.accts.length = g.accts.length ∧
      ∀ (k : ℕ) (s : Reg K), g.accts[k]? = some s → ∃ s', g'.accts[k]? = some s' ∧
        Account.nextYear s.acct = .ok s'.acct ∧ s'.acct.year = y + 1 ∧ s'.inputs = s.inputs ∧
        Dict.get? s'.roomHist y = some (contributionRoom g s) ∧
        (Dict.get? s.roomHist (y + 1) = none → contributionRoom g' s' = v) := by
  have hry := hsync r (List.mem_of_getElem? hi)
  have hp : plannedRoom next g r = .ok (some v) := by
    unfold plannedRoom
    rw [if_pos (by rw [hry]; exact inSync_iff.2 hsync), hry, hnone, hv]
    rfl
  obtain ⟨r', g', e, ey, q2, q3, q4, q5, q6⟩ := nextYear_sync next hsync hinv hi hp hf
  obtain ⟨r1, e1, f1, f2, f3, f4, f5, f6⟩ := advance_spec (g := g) (hinv r (List.mem_of_getElem? hi))
  rw [e] at e1
  cases e1
  have hset : setContributionRoom g' i v = .ok { g' with
      accts := g'.accts.set i { r' with roomHist := Dict.del r'.roomHist (y + 1) }, room := v } := by
    unfold setContributionRoom
    rw [q4]
    simp only
    rw [ey, f4, if_neg hinp]
  have hlen := q2.each.length_eq
  refine ⟨_, q6.trans hset, rfl, q5, by simp [hlen], ?_⟩
  intro k s hk
  have hsy := hsync s (List.mem_of_getElem? hk)
  obtain ⟨s', hs', hR⟩ := forall₂_get q2.each hk
  have hadv : advance g s = .ok s' := by
    rcases hR with rfl | ⟨-, h⟩
    · have := q3 s' (List.mem_of_getElem? hs'); omega
    · exact h
  obtain ⟨s1, e1, g1, g2, g3, g4, g5, g6⟩ :=
    advance_spec (g := g) (hinv s (List.mem_of_getElem? hk))
  rw [hadv] at e1
  cases e1
  rw [hsy] at g5 g6 g1
  by_cases hik : i = k
  · subst hik
    rw [hi] at hk
    cases hk
    have hlt : i < g'.accts.length := (List.getElem?_eq_some_iff.1 q4).1
    rw [q4] at hs'
    cases hs'
    refine ⟨{ r' with roomHist := Dict.del r'.roomHist (y + 1) }, by simp [hlt], g3, g1, g4, ?_, ?_⟩
    · simp only
      rw [get?_del_ne _ (by omega)]
      exact g5
    · intro h0
      unfold contributionRoom
      simp only [g1]
      have : Dict.get? (Dict.del r'.roomHist (y + 1)) (y + 1) = none := by
        rw [← g6 (y + 1) (by omega)] at h0
        rw [Dict.get?_eq_none] at h0 ⊢
        intro hc
        exact h0 ((List.Sublist.map Prod.fst (Dict.del_sublist _ _)).subset hc)
      rw [this]
  · refine ⟨s', by simp [List.getElem?_set_ne hik, hs'], g3, g1, g4, g5, ?_⟩
    intro h0
    unfold contributionRoom
    rw [g1, g6 (y + 1) (by omega), h0]

/-- **C52.** Whatever state a group is in (also out of step), `next_year` of account `i`, if it
returns, moves `i` by exactly one year, brings every account that was behind to that year, leaves
the ones ahead alone, and does the same to the contributor. -/
theorem C52_catch_up (next : Grp K → Reg K → Except PyErr K) (fuel : ℕ) (g g' : Grp K) (i : ℕ)
    (h : nextYear next fuel g i = .ok g') :
    ∃ r, g.accts[i]? = some r ∧
      (∃ r', g'.accts[i]? = some r' ∧ r'.acct.year = r.acct.year + 1) ∧
      g'.contribYear = max g.contribYear (r.acct.year + 1) ∧
      ∀ (k : ℕ) (s : Reg K), g.accts[k]? = some s →
        ∃ s', g'.accts[k]? = some s' ∧ s'.acct.year = max s.acct.year (r.acct.year + 1) := by
  obtain ⟨r, hr, hu, hlo, hc⟩ := nextYear_up next fuel g i g' h
  have key : ∀ (k : ℕ) (s : Reg K), g.accts[k]? = some s →
      ∃ s', g'.accts[k]? = some s' ∧ s'.acct.year = max s.acct.year (r.acct.year + 1) := by
    intro k s hk
    obtain ⟨s', hs', h1, h2⟩ := forall₂_get hu.each hk
    have h3 := hlo s' (List.mem_of_getElem? hs')
    exact ⟨s', hs', le_antisymm h2 (max_le h1 h3)⟩
  refine ⟨r, hr, ?_, le_antisymm hu.hi (max_le hu.lo hc), key⟩
  obtain ⟨r', h1, h2⟩ := key i r hr
  exact ⟨r', h1, by rw [h2]; omega⟩

/-- **C52.** Accounts that start in step stay in step, whatever is done to whichever of them. -/
theorem C52_always_in_step (next : Grp K → Reg K → Except PyErr K) (fuel : ℕ) (g : Grp K) (y : ℤ)
    (hsync : ∀ s ∈ g.accts, s.acct.year = y) (ops : List (Op K)) :
    ∃ y', y ≤ y' ∧ ∀ s ∈ (run next fuel g ops).accts, s.acct.year = y' := by
  unfold run
  induction ops generalizing g y with
  | nil => exact ⟨y, le_rfl, hsync⟩
  | cons op ops ih =>
    rw [List.foldl_cons]
    cases hop : step next fuel g op with
    | error e => exact ih g y hsync
    | ok g1 =>
      suffices h : ∃ y1, y ≤ y1 ∧ ∀ s ∈ g1.accts, s.acct.year = y1 by
        obtain ⟨y1, h1, h2⟩ := h
        obtain ⟨y2, h3, h4⟩ := ih g1 y1 h2
        exact ⟨y2, h1.trans h3, h4⟩
      cases op with
      | add i v w =>
        refine ⟨y, le_rfl, ?_⟩
        obtain ⟨r, a, hi, ha, rfl⟩ := addTo_spec hop
        intro s hs
        rcases List.mem_or_eq_of_mem_set hs with h | rfl
        · exact hsync s h
        · have h1 := hsync r (List.mem_of_getElem? hi)
          obtain ⟨t, rfl⟩ := addTransaction_shape ha
          exact h1
      | nextYear i =>
        obtain ⟨r, hr, hu, hlo, -⟩ := nextYear_up next fuel g i g1 hop
        have hry := hsync r (List.mem_of_getElem? hr)
        refine ⟨y + 1, by omega, fun s hs => ?_⟩
        obtain ⟨k, hk⟩ := List.getElem?_of_mem hs
        obtain ⟨t, ht, h1, h2⟩ := forall₂_get (hu.each.flip) hk
        have h3 := hsync t (List.mem_of_getElem? ht)
        have h4 := hlo s hs
        rw [h3, hry] at h2
        rw [hry] at h4
        have : max y (y + 1) = y + 1 := by omega
        omega

/-- A group of two accounts, made up for the examples: 0 and 0 in 2017, some transactions. -/
def twoAccounts (t1 t2 : Dict ℚ ℚ) (room : ℚ) : Grp ℚ :=
  { accts := [⟨{ Account.init 2017 1000 (fun _ _ => 1) [(0, 1)] with txns := t1 }, [], []⟩,
      ⟨{ Account.init 2017 1000 (fun _ _ => 1) [(0, 1)] with txns := t2 }, [], []⟩]
    room, contribYear := 2017 }

example : (∀ s ∈ (twoAccounts [(1/2, 70)] [(0, 30)] 100).accts, s.acct.year = 2017) ∧
    (∀ s ∈ (twoAccounts [(1/2, 70)] [(0, 30)] 100).accts, Inv s.acct) := by
  have hi : ∀ d : Dict ℚ ℚ, Dated d →
      Inv { Account.init 2017 1000 (fun _ _ => 1) [(0, 1)] with txns := d } := fun d hd =>
    ⟨hd, (inv_init (2017 : ℤ) (1000 : ℚ) (fun _ _ => 1) [(0, 1)]).future,
      (inv_init (2017 : ℤ) (1000 : ℚ) (fun _ _ => 1) [(0, 1)]).opening⟩
  have d1 : ∀ t v : ℚ, 0 ≤ t → t ≤ 1 → Dated [(t, v)] := fun t v h0 h1 =>
    dated_set dated_nil h0 h1 v
  constructor
  · intro s hs
    simp only [twoAccounts, List.mem_cons, List.not_mem_nil, or_false] at hs
    rcases hs with rfl | rfl <;> rfl
  · intro s hs
    simp only [twoAccounts, List.mem_cons, List.not_mem_nil, or_false] at hs
    rcases hs with rfl | rfl
    · exact hi _ (d1 _ _ (by norm_num) (by norm_num))
    · exact hi _ (d1 _ _ (by norm_num) (by norm_num))

example : (nextYear (fun _ _ => .ok 42) 2 (twoAccounts [(1/2, 70)] [(0, 30)] 100) 1).map
    (fun g => (g.room, g.contribYear, g.accts.map fun r => (r.acct.year, Dict.get? r.roomHist 2017)))
    = .ok (42, 2018, [(2018, some 100), (2018, some 100)]) := by decide +kernel

/-- The room known in advance for next year from `inputs` is what `contribution_room` reads next
year, but it is not what limits the account: the shared limit keeps this year's value. (The
assignment at registered_account.py:168 is ignored because the value is an input,
recorded_property.py:70-73.) -/
theorem C52_input_room_is_not_enforced (next : Grp K → Reg K → Except PyErr K) (g : Grp K) (y : ℤ)
    (hsync : ∀ s ∈ g.accts, s.acct.year = y) (hinv : ∀ s ∈ g.accts, Inv s.acct)
    (i : ℕ) (r : Reg K) (hi : g.accts[i]? = some r) (v : K)
    (hknown : Dict.get? r.roomHist (y + 1) = some v) (hinp : y + 1 ∈ Dict.keys r.inputs)
    (fuel : ℕ) (hf : g.accts.length ≤ fuel) :
    ∃ g' r', nextYear next fuel g i = .ok g' ∧ g'.accts[i]? = some r' ∧
      contributionRoom g' r' = v ∧ g'.room = g.room := by
  have hry := hsync r (List.mem_of_getElem? hi)
  have hp : plannedRoom next g r = .ok (some v) := by
    unfold plannedRoom
    rw [if_pos (by rw [hry]; exact inSync_iff.2 hsync), hry, hknown]
  obtain ⟨r', g', e, ey, q2, q3, q4, q5, q6⟩ := nextYear_sync next hsync hinv hi hp hf
  obtain ⟨r1, e1, f1, f2, f3, f4, f5, f6⟩ := advance_spec (g := g) (hinv r (List.mem_of_getElem? hi))
  rw [e] at e1
  cases e1
  refine ⟨g', r', ?_, q4, ?_, q2.room⟩
  · rw [q6]
    unfold setContributionRoom
    rw [q4]
    simp only
    rw [ey, f4, if_pos hinp]
  · unfold contributionRoom
    rw [ey, f6 _ (by omega), hknown]

example : (nextYear (fun _ _ => .ok 0) 1
      (single (Account.init 2017 (1000 : ℚ) (fun _ _ => 1) [(0, 1)]) [(2018, 5500)] 100 2017) 0).map
    (fun g => (g.room, g.accts.map fun r => contributionRoom g r)) = .ok (100, [5500]) := by
  decide +kernel

/-! ## C54: constructor arguments -/

/-- **C54.** `contribution_room` and `max_inflow_limit` may not both be given, nor may
`max_inflow_link` together with `contributor` or `max_inflow_token`: `ValueError`. In all other
cases the limit is the one given (if any), and the link is the one given or else the pair of the
contributor (default: the owner) and the token (default: the type's). -/
theorem C54_alias_args {P T L : Type} (room : Option K) (contributor : Option P) (token : Option T)
    (kwLimit : Option (Option K)) (kwLink : Option L) (defP : P) (defT : T) :
    (((∃ x l, room = some x ∧ kwLimit = some l) ∨
        ((contributor ≠ none ∨ token ≠ none) ∧ kwLink ≠ none)) ∧
      processAliasArgs room contributor token kwLimit kwLink defP defT = .error .valueError) ∨
    (¬ ((∃ x l, room = some x ∧ kwLimit = some l) ∨
        ((contributor ≠ none ∨ token ≠ none) ∧ kwLink ≠ none)) ∧
      ∃ link limit, processAliasArgs room contributor token kwLimit kwLink defP defT
          = .ok (link, limit) ∧
        (∀ x, room = some x → limit = some x) ∧ (∀ l, kwLimit = some l → limit = l) ∧
        (room = none → kwLimit = none → limit = none) ∧
        (∀ l, kwLink = some l → link = .inl l) ∧
        (kwLink = none → ∃ p t, link = .inr (p, t) ∧ (∀ q, contributor = some q → p = q) ∧
          (contributor = none → p = defP) ∧ (∀ q, token = some q → t = q) ∧
          (token = none → t = defT))) := by
  unfold processAliasArgs
  cases room <;> cases kwLimit <;> cases kwLink <;> cases contributor <;> cases token <;> simp

example : processAliasArgs (P := ℕ) (T := ℕ) (L := ℕ) (some (5 : ℚ)) (some 1) none none none 7 8
    = .ok (.inr (1, 8), some 5) := by decide +kernel

end Group

/-! ## C35: TFSA -/

section TFSA

variable {K : Type} [Field K] [LinearOrder K] [IsStrictOrderedRing K] [FloorRing K]

/-- **C35.** The rounding: the nearest integer, ... -/
theorem C35_round_nearest (x : K) : |x - (pyRound x : K)| ≤ 1 / 2 := by
  have h1 := Int.floor_le x
  have h2 := Int.lt_floor_add_one x
  unfold pyRound
  simp only
  split_ifs with a b c
  · rw [abs_le]; constructor <;> linarith
  · push_cast; rw [abs_le]; constructor <;> linarith
  · rw [abs_le]; constructor <;> linarith
  · push_cast; rw [abs_le]; constructor <;> linarith

/-- ... and the even one if there are two. -/
theorem C35_round_half_even (x : K) (h : |x - (pyRound x : K)| = 1 / 2) : pyRound x % 2 = 0 := by
  have h1 := Int.floor_le x
  have h2 := Int.lt_floor_add_one x
  unfold pyRound at h ⊢
  simp only at h ⊢
  split_ifs at h ⊢ with a b c
  · rw [abs_of_nonneg (by linarith)] at h
    linarith
  · push_cast at h
    rw [abs_of_nonpos (by linarith)] at h
    linarith
  · exact c
  · omega

theorem pyRound_mono {x y : K} (h : x ≤ y) : pyRound x ≤ pyRound y := by
  have hx := C35_round_nearest x
  have hy := C35_round_nearest y
  rw [abs_le] at hx hy
  by_contra hc
  have hlt : pyRound y + 1 ≤ pyRound x := by omega
  have hlt' : (pyRound y : K) + 1 ≤ (pyRound x : K) := by exact_mod_cast hlt
  have e1 : x - (pyRound x : K) = -(1 / 2) := by linarith
  have e2 : y - (pyRound y : K) = 1 / 2 := by linarith
  have p1 := C35_round_half_even x (by rw [e1]; norm_num)
  have p2 := C35_round_half_even y (by rw [e2]; norm_num)
  have : (pyRound x : K) = ((pyRound y + 1 : ℤ) : K) := by push_cast; linarith
  have := Int.cast_injective this
  omega

theorem pyRound_nonneg {x : K} (h : 0 ≤ x) : 0 ≤ pyRound x := by
  have h0 : pyRound (0 : K) = 0 := by
    unfold pyRound
    simp
  rw [← h0]
  exact pyRound_mono h

example : pyRound (5 / 2 : ℚ) = 2 ∧ pyRound (7 / 2 : ℚ) = 4 ∧ pyRound (11 / 4 : ℚ) = 3 := by
  decide +kernel

theorem roundTo_nonneg {unit x v : K} (hu : 0 < unit) (hx : 0 ≤ x) (h : roundTo unit x = .ok v) :
    ∃ n : ℕ, v = n * unit := by
  unfold roundTo at h
  rw [if_neg hu.ne'] at h
  cases h
  have := pyRound_nonneg (div_nonneg hx hu.le)
  obtain ⟨n, hn⟩ := Int.eq_ofNat_of_zero_le this
  exact ⟨n, by rw [hn]; simp⟩

theorem baseAccrual_nonneg {e : TfsaEnv K} (hu : 0 < e.const.unit)
    (ht : ∀ y v, Dict.get? e.const.annual y = some v → ∃ n : ℕ, v = n * e.const.unit) {b : K}
    (h : baseAccrual e = .ok b) : ∃ n : ℕ, b = n * e.const.unit := by
  unfold baseAccrual at h
  cases hy : baseYear e with
  | error er => rw [hy] at h; cases h
  | ok y =>
    rw [hy, ok_bind] at h
    unfold look at h
    cases hg : Dict.get? e.const.annual y with
    | none => rw [hg] at h; cases h
    | some v =>
      rw [hg] at h
      simp only [ok_bind] at h
      obtain ⟨n, rfl⟩ := ht y v hg
      exact roundTo_nonneg hu (by positivity) h

/-- **C35.** A year's accrual is a whole number of rounding units, never negative, provided the
tabulated ones are. -/
theorem C35_accrual_whole_units (e : TfsaEnv K) (hu : 0 < e.const.unit)
    (ht : ∀ y v, Dict.get? e.const.annual y = some v → ∃ n : ℕ, v = n * e.const.unit)
    (ha : ∀ a b f, e.adj a b = .ok f → 0 ≤ f) (y : ℤ) (a : K) (h : accrual e y = .ok a) :
    ∃ n : ℕ, a = n * e.const.unit := by
  unfold accrual at h
  cases hage : e.ownerAge (y + 1) with
  | error er => rw [hage] at h; cases h
  | ok age =>
    rw [hage, ok_bind] at h
    split_ifs at h with hlt
    · cases h; exact ⟨0, by simp⟩
    · cases hg : Dict.get? e.const.annual y with
      | some v => rw [hg] at h; cases h; exact ht y _ hg
      | none =>
        rw [hg] at h
        simp only at h
        cases hb : baseAccrual e with
        | error er => rw [hb] at h; cases h
        | ok b =>
          rw [hb, ok_bind] at h
          cases hy : baseYear e with
          | error er => rw [hy] at h; cases h
          | ok y0 =>
            rw [hy, ok_bind] at h
            cases hf : e.adj y0 y with
            | error er => rw [hf] at h; cases h
            | ok f =>
              rw [hf, ok_bind] at h
              obtain ⟨n, rfl⟩ := baseAccrual_nonneg hu ht hb
              exact roundTo_nonneg hu (mul_nonneg (by positivity) (ha _ _ _ hf)) h

/-- **C35.** Nothing accrues for a year if the owner is not old enough in the year after. -/
theorem C35_accrual_before_eligible (e : TfsaEnv K) (y age : ℤ) (h : e.ownerAge (y + 1) = .ok age)
    (hlt : age < e.const.eligibility) : accrual e y = .ok 0 := by
  simp [accrual, h, hlt]

/-- The shipped constants (canada/constants.py:106-120) without inflation, for somebody born in the
given year. -/
def shipped (born : ℤ) : TfsaEnv ℚ where
  const := ⟨[(2009, 5000), (2010, 5000), (2011, 5000), (2012, 5000), (2013, 5500), (2014, 5500),
    (2015, 10000), (2016, 5500), (2017, 5500)], 18, 500⟩
  adj := fun _ _ => .ok 1
  ownerAge := fun y => .ok (y - born)
  contributorAge := fun y => .ok (y - born)

/-- The comparison is with the age in the *following* year (tfsa.py:101): room accrues for the year
in which the owner is 17, a year too early. -/
theorem C35_accrues_a_year_early :
    ∃ (e : TfsaEnv ℚ) (y : ℤ), e.ownerAge y = .ok (e.const.eligibility - 1) ∧
      accrual e y = .ok 5500 :=
  ⟨shipped 2000, 2017, by decide +kernel, by decide +kernel⟩

/-- The inflation adjustment is applied the wrong way round (tfsa.py:111-112 pass the base year as
target): with a price index `P`, of two years without a tabulated amount the one with the *higher*
prices accrues less (or the same). -/
theorem C35_accrual_falls_as_prices_rise (e : TfsaEnv K) (P : ℤ → K) (hP : ∀ y, 0 < P y)
    (hadj : ∀ t b, e.adj t b = .ok (P t / P b)) (hu : 0 < e.const.unit)
    (ht : ∀ y v, Dict.get? e.const.annual y = some v → ∃ n : ℕ, v = n * e.const.unit)
    (y1 y2 : ℤ) (h1 : Dict.get? e.const.annual y1 = none) (h2 : Dict.get? e.const.annual y2 = none)
    (a1 a2 : K) (e1 : accrual e y1 = .ok a1) (e2 : accrual e y2 = .ok a2)
    (hold : ∀ n, e.ownerAge (y1 + 1) = .ok n → e.const.eligibility ≤ n)
    (hP12 : P y1 ≤ P y2) : a2 ≤ a1 := by
  have hnn : ∀ a b f, e.adj a b = .ok f → 0 ≤ f := by
    intro a b f h
    rw [hadj] at h
    cases h
    exact (div_pos (hP a) (hP b)).le
  obtain ⟨n1, hn1⟩ := C35_accrual_whole_units e hu ht hnn y1 a1 e1
  unfold accrual at e1 e2
  cases g1 : e.ownerAge (y1 + 1) with
  | error er => rw [g1] at e1; cases e1
  | ok age1 =>
  cases g2 : e.ownerAge (y2 + 1) with
  | error er => rw [g2] at e2; cases e2
  | ok age2 =>
  rw [g1, ok_bind, if_neg (not_lt.2 (hold _ g1)), h1] at e1
  rw [g2, ok_bind] at e2
  split_ifs at e2 with hlt
  · cases e2
    rw [hn1]
    positivity
  · rw [h2] at e2
    simp only at e1 e2
    cases hb : baseAccrual e with
    | error er => rw [hb] at e1; cases e1
    | ok b =>
    cases hy : baseYear e with
    | error er => rw [hb, hy] at e1; cases e1
    | ok y0 =>
    rw [hb, hy] at e1 e2
    simp only [ok_bind, hadj, roundTo, if_neg hu.ne'] at e1 e2
    cases e1
    cases e2
    obtain ⟨n, rfl⟩ := baseAccrual_nonneg hu ht hb
    refine mul_le_mul_of_nonneg_right ?_ hu.le
    have : pyRound ((n : K) * e.const.unit * (P y0 / P y2) / e.const.unit)
        ≤ pyRound ((n : K) * e.const.unit * (P y0 / P y1) / e.const.unit) := by
      apply pyRound_mono
      apply div_le_div_of_nonneg_right _ hu.le
      apply mul_le_mul_of_nonneg_left _ (by positivity)
      exact div_le_div_of_nonneg_left (hP y0).le (hP y1) hP12
    exact_mod_cast this

/-- Prices double every year from 2009 on. -/
example : accrual { shipped 1980 with adj := fun t b => .ok (2 ^ (t - 2009) / 2 ^ (b - 2009)) } 2018
    = .ok 0 := by decide +kernel

/-- **C35.** Next year's room: advancing any account of a group in step makes the room this year's
room, less what was contributed to *that account* net of what was withdrawn from it, plus the
accrual of the new year. -/
theorem C35_next_room (e : TfsaEnv K) (g : Grp K) (y : ℤ)
    (hsync : ∀ s ∈ g.accts, s.acct.year = y) (hinv : ∀ s ∈ g.accts, Inv s.acct)
    (i : ℕ) (r : Reg K) (hi : g.accts[i]? = some r) (a : K) (ha : accrual e (y + 1) = .ok a)
    (hnone : Dict.get? r.roomHist (y + 1) = none) (hinp : y + 1 ∉ Dict.keys r.inputs)
    (fuel : ℕ) (hf : g.accts.length ≤ fuel) :
    ∃ g', nextYear (tfsaNext e) fuel g i = .ok g' ∧
      g'.room = contributionRoom g r - (Dict.vals r.acct.txns).sum + a := by
  have hry := hsync r (List.mem_of_getElem? hi)
  have hv : tfsaNext e g r = .ok (a + (contributionRoom g r
      - (outflows r.acct none + inflows r.acct none))) := by
    simp [tfsaNext, hry, ha]
  obtain ⟨g', e1, e2, -⟩ := C52_lockstep (tfsaNext e) g y hsync hinv i r hi _ hv hnone hinp fuel hf
  refine ⟨g', e1, ?_⟩
  have := pos_add_neg r.acct.txns
  unfold Dict.total at this
  rw [e2, ← this]
  simp only [outflows, inflows]
  ring

/-- Contributions to (and withdrawals from) the other accounts of the group are forgotten: two
linked TFSAs with 6000 of room, 6000 contributed to the second, nothing to the first. If the
second account is advanced first, 5000 of room (the accrual) remain for 2018; if the first is,
11000. -/
theorem C35_linked_contributions_forgotten :
    ∃ (g1 g2 : Grp ℚ),
      nextYear (tfsaNext (shipped 1980)) 2 (twoAccounts [] [(0, 6000)] 6000) 0 = .ok g1 ∧
      nextYear (tfsaNext (shipped 1980)) 2 (twoAccounts [] [(0, 6000)] 6000) 1 = .ok g2 ∧
      g1.room = 11000 ∧ g2.room = 5000 := by
  have h : ∀ (x : Except PyErr (Grp ℚ)) (v : ℚ), x.map (·.room) = .ok v → ∃ g, x = .ok g ∧ g.room = v := by
    intro x v hx
    cases x with
    | error e => cases hx
    | ok g => exact ⟨g, rfl, by simpa [Except.map] using hx⟩
  obtain ⟨g1, a1, b1⟩ := h (nextYear (tfsaNext (shipped 1980)) 2 (twoAccounts [] [(0, 6000)] 6000) 0)
    11000 (by decide +kernel)
  obtain ⟨g2, a2, b2⟩ := h (nextYear (tfsaNext (shipped 1980)) 2 (twoAccounts [] [(0, 6000)] 6000) 1)
    5000 (by decide +kernel)
  exact ⟨g1, g2, a1, a2, b1, b2⟩

/-- **C35.** Room is conserved over every history of a TFSA that is not linked to others: after any
sequence of transactions and `next_year`s, the room left plus all the net contributions of the
past years equals the first room plus all the accruals since. -/
theorem C35_room_conserved (e : TfsaEnv K) (acc : ℤ → K) (hacc : ∀ y, accrual e y = .ok (acc y))
    (y0 : ℤ) (bal : K) (growth : ℤ → K → K) (dt : Dict K K) (room0 : K) (c : ℤ) (fuel : ℕ)
    (ops : List (Op K)) :
    ∃ (n : ℕ) (r : Reg K),
      (run (tfsaNext e) fuel (single (Account.init y0 bal growth dt) [] room0 c) ops).accts = [r] ∧
      r.acct.year = y0 + n ∧
      (run (tfsaNext e) fuel (single (Account.init y0 bal growth dt) [] room0 c) ops).room
        + ∑ k ∈ Finset.range n, (Dict.vals ((Dict.get? r.acct.txHist (y0 + k)).getD [])).sum
        = room0 + ∑ k ∈ Finset.range n, acc (y0 + k + 1) := by
  have h0 := sinv_init (fun d => (Dict.vals d).sum) acc (Account.init y0 bal growth dt)
    (inv_init y0 bal growth dt) room0 c
  obtain ⟨s, hs2⟩ : ∃ y', ∀ s ∈ (run (tfsaNext e) fuel
      (single (Account.init y0 bal growth dt) [] room0 c) ops).accts, s.acct.year = y' := by
    obtain ⟨y', -, h⟩ := C52_always_in_step (tfsaNext e) fuel
      (single (Account.init y0 bal growth dt) [] room0 c) y0
      (by intro s hs; simp [single] at hs; subst hs; rfl) ops
    exact ⟨y', h⟩
  obtain ⟨n, r, h⟩ := sinv_run (N := (s - y0).toNat) h0 (next := tfsaNext e) (fun g r _ _ => by
    have := pos_add_neg r.acct.txns
    unfold Dict.total at this
    simp only [tfsaNext, hacc, ok_bind, outflows, inflows]
    rw [← this]
    congr 2
    ring) fuel ops (fun t ht => by rw [hs2 t ht]; simp [Account.init]; omega)
  exact ⟨n, r, h.one, h.year, h.eq⟩

example : ∃ ops : List (Op ℚ),
    ((run (tfsaNext (shipped 1980)) 1
      (single (Account.init 2013 1000 (fun _ _ => 1) [(0, 1)]) [] 100 2013) ops).room,
     (run (tfsaNext (shipped 1980)) 1
      (single (Account.init 2013 1000 (fun _ _ => 1) [(0, 1)]) [] 100 2013) ops).accts.map
      fun r => r.acct.year) = (100 - 70 + 5500 + 40 + 10000, [2015]) :=
  ⟨[.add 0 70 (.num (1/2)), .nextYear 0, .add 0 (-40) (.str "end"), .nextYear 0], by decide +kernel⟩

theorem accruals_eq {e : TfsaEnv K} {acc : ℤ → K} (hacc : ∀ y, accrual e y = .ok (acc y)) (a b : ℤ) :
    accruals e a b = .ok ((pyRange a b).map acc).sum := by
  have key : ∀ (l : List ℤ) (s : K), l.foldlM (fun s y => do
      let x ← accrual e y
      Except.ok (s + x)) s = (Except.ok (s + (l.map acc).sum) : Except PyErr K) := by
    intro l
    induction l with
    | nil => intro s; simp
    | cons y l ih => intro s; rw [List.foldlM_cons, hacc, ok_bind, ok_bind, ih]; simp [add_assoc]
  unfold accruals
  rw [key, zero_add]

/-- **C35.** The room a new TFSA is given if none is passed and none is given in `inputs`: all the
accruals from the year in which the contributor reaches the eligible age (but not before the first
tabulated year) up to and including the first year. -/
theorem C35_initial_room (e : TfsaEnv K) (acc : ℤ → K) (hacc : ∀ y, accrual e y = .ok (acc y))
    (y0 age first : ℤ) (hage : e.contributorAge y0 = .ok age)
    (hfirst : first ∈ Dict.keys e.const.annual) (hmin : ∀ y ∈ Dict.keys e.const.annual, first ≤ y) :
    inferRoom e [] y0
      = .ok ((pyRange (max (y0 - age + e.const.eligibility) first) (y0 + 1)).map acc).sum := by
  have hm : (Dict.keys e.const.annual).min? = some first :=
    List.min?_eq_some_iff.2 ⟨hfirst, hmin⟩
  simp [inferRoom, hage, baseYear, hm, accruals_eq hacc]

example : inferRoom (shipped 1994) [] 2015 = .ok (5000 + 5500 + 5500 + 10000) := by decide +kernel

/-- **C35.** With room given for earlier years in `inputs`, the last of these plus the accruals
since. -/
theorem C35_initial_room_from_inputs (e : TfsaEnv K) (acc : ℤ → K)
    (hacc : ∀ y, accrual e y = .ok (acc y)) (inputs : Dict ℤ K) (y0 last : ℤ) (v : K)
    (hv : Dict.get? inputs last = some v) (hlt : last < y0)
    (hlast : ∀ y ∈ Dict.keys inputs, y < y0 → y ≤ last) (h0 : y0 ∉ Dict.keys inputs) :
    inferRoom e inputs y0 = .ok (v + ((pyRange (last + 1) (y0 + 1)).map acc).sum) := by
  have hm : ((Dict.keys inputs).filter fun y => decide (y < y0)).max? = some last := by
    rw [List.max?_eq_some_iff]
    refine ⟨?_, ?_⟩
    · rw [List.mem_filter]
      exact ⟨Dict.mem_keys_iff.2 ⟨v, hv⟩, by simpa using hlt⟩
    · intro y hy
      rw [List.mem_filter] at hy
      exact hlast y hy.1 (by simpa using hy.2)
  have hne : inputs.isEmpty = false := by
    cases inputs with
    | nil => simp [Dict.get?] at hv
    | cons a l => rfl
  simp [inferRoom, Dict.get?_eq_none.2 h0, hne, hm, look, hv, accruals_eq hacc]

/-- **C35.** The room of a new TFSA: the given room if one is given, else the inferred room. There is
nothing else in it: it is the only account of its group, as it was passed. -/
theorem C35_new_account_room (e : TfsaEnv K) (acct : Acct K) (inputs : Dict ℤ K) (room : Option K)
    (c : ℤ) (g : Grp K) (h : tfsaInit e acct inputs room c = .ok g) :
    (∀ v, room = some v → g.room = v) ∧
    (room = none → inferRoom e inputs acct.year = .ok g.room) ∧
    g.accts.map (·.acct) = [acct] ∧ (∀ r ∈ g.accts, r.roomHist = inputs) := by
  unfold tfsaInit at h
  cases hb : baseAccrual e with
  | error x => rw [hb] at h; cases h
  | ok b =>
    rw [hb] at h
    cases room with
    | some v =>
      cases h
      exact ⟨fun w hw => Option.some.inj hw, by simp, by simp [single], by simp [single]⟩
    | none =>
      cases hw : inferRoom e inputs acct.year with
      | error x => rw [ok_bind, hw] at h; cases h
      | ok w =>
        rw [ok_bind, hw] at h
        cases h
        exact ⟨by simp, fun _ => rfl, by simp [single], by simp [single]⟩

example : (tfsaInit (shipped 1994) (Account.init 2015 1000 (fun _ _ => 1) [(0, 1)]) [] (some 700)
    2015).map (·.room) = .ok 700 := by decide +kernel
example : (tfsaInit (shipped 1994) (Account.init 2015 1000 (fun _ _ => 1) [(0, 1)]) [] none
    2015).map (·.room) = .ok 26000 := by decide +kernel

/-- If `inputs` gives room only for later years, the constructor raises `ValueError`
(tfsa.py:77-79: `max` of nothing). -/
theorem C35_future_inputs_rejected (e : TfsaEnv K) (acct : Acct K) (inputs : Dict ℤ K)
    (c : ℤ) (b : K) (hb : baseAccrual e = .ok b) (hne : inputs ≠ [])
    (h : ∀ y ∈ Dict.keys inputs, acct.year < y) :
    tfsaInit e acct inputs none c = .error .valueError := by
  have h0 : Dict.get? inputs acct.year = none :=
    Dict.get?_eq_none.2 fun hc => absurd (h _ hc) (lt_irrefl _)
  have hm : (Dict.keys inputs).filter (fun y => decide (y < acct.year)) = [] := by
    rw [List.filter_eq_nil_iff]
    intro y hy
    have := h y hy
    simp
    omega
  have hne' : inputs.isEmpty = false := by
    cases inputs with
    | nil => exact absurd rfl hne
    | cons a l => rfl
  simp [tfsaInit, hb, inferRoom, h0, hne', hm]

example : (tfsaInit (shipped 1980) (Account.init 2017 1000 (fun _ _ => 1) [(0, 1)]) [(2020, 500)] none
    2017).map (·.room) = .error .valueError := by decide +kernel

end TFSA

/-! ## C34: RRSP room -/

section RRSP

variable {K : Type} [Field K] [LinearOrder K] [IsStrictOrderedRing K]

/-- **C34.** Next year's room while the contributor is not past the conversion age next year:
advancing any account of a group in step makes the room this year's room less the contributions
to *that account* plus the accrual, which is the smaller of the given share of this year's income
and the maximum for next year. -/
theorem C34_next_room (e : RrspEnv K) (g : Grp K) (y : ℤ)
    (hsync : ∀ s ∈ g.accts, s.acct.year = y) (hinv : ∀ s ∈ g.accts, Inv s.acct)
    (i : ℕ) (r : Reg K) (hi : g.accts[i]? = some r) (age : ℤ) (income most : K)
    (hage : e.contributorAge (y + 1) = .ok age) (hle : age ≤ e.const.conversionAge)
    (hinc : e.income y = .ok income)
    (hmost : extendScalar e.const.accrualMax e.adj (y + 1) = .ok most)
    (hnone : Dict.get? r.roomHist (y + 1) = none) (hinp : y + 1 ∉ Dict.keys r.inputs)
    (fuel : ℕ) (hf : g.accts.length ≤ fuel) :
    ∃ g' accrual, nextYear (rrspNext e) fuel g i = .ok g' ∧
      g'.room = contributionRoom g r
        - ((Dict.vals r.acct.txns).filter fun v => decide (0 < v)).sum + accrual ∧
      accrual ≤ e.const.rate * income ∧ accrual ≤ most ∧
      (accrual = e.const.rate * income ∨ accrual = most) := by
  have hry := hsync r (List.mem_of_getElem? hi)
  have hv : rrspNext e g r = .ok (min (income * e.const.rate) most
      + (contributionRoom g r - inflows r.acct none)) := by
    simp [rrspNext, hry, hage, not_lt.2 hle, hinc, hmost]
  obtain ⟨g', e1, e2, -⟩ := C52_lockstep (rrspNext e) g y hsync hinv i r hi _ hv hnone hinp fuel hf
  refine ⟨g', min (income * e.const.rate) most, e1, ?_, ?_, min_le_right _ _, ?_⟩
  · rw [e2]
    simp only [inflows, posSum, zero_add, gt_iff_lt]
    ring
  · rw [mul_comm]; exact min_le_left _ _
  · rw [mul_comm]; exact min_choice _ _

/-- The maximum accrual for a year: the tabulated one or else the one of the nearest tabulated year
adjusted for inflation. -/
theorem C34_accrual_max (vals : Dict ℤ K) (adj : Adjust K) (y : ℤ) :
    (∀ v, Dict.get? vals y = some v → extendScalar vals adj y = .ok v) ∧
    (∀ base v f, Dict.get? vals y = none → nearestYear vals y = some base →
      Dict.get? vals base = some v → adj y base = .ok f →
      extendScalar vals adj y = .ok (v * f)) := by
  constructor
  · intro v h; simp [extendScalar, h]
  · intro base v f h hb hv hf
    have hne : base ≠ y := by rintro rfl; rw [h] at hv; cases hv
    simp [extendScalar, h, hb, hne, look, hv, hf]

/-- **C34.** No room at all from the year in which the contributor is past the conversion age. -/
theorem C34_no_room_past_conversion_age (e : RrspEnv K) (g : Grp K) (y : ℤ)
    (hsync : ∀ s ∈ g.accts, s.acct.year = y) (hinv : ∀ s ∈ g.accts, Inv s.acct)
    (i : ℕ) (r : Reg K) (hi : g.accts[i]? = some r) (age : ℤ)
    (hage : e.contributorAge (y + 1) = .ok age) (hlt : e.const.conversionAge < age)
    (hnone : Dict.get? r.roomHist (y + 1) = none) (hinp : y + 1 ∉ Dict.keys r.inputs)
    (fuel : ℕ) (hf : g.accts.length ≤ fuel) :
    ∃ g', nextYear (rrspNext e) fuel g i = .ok g' ∧ g'.room = 0 := by
  have hry := hsync r (List.mem_of_getElem? hi)
  have hv : rrspNext e g r = .ok 0 := by
    simp [rrspNext, hry, hage, hlt]
  obtain ⟨g', e1, e2, -⟩ := C52_lockstep (rrspNext e) g y hsync hinv i r hi _ hv hnone hinp fuel hf
  exact ⟨g', e1, e2⟩

/-- **C34.** The room never becomes negative if incomes and maxima are not, and the contributions
to the account stay within its room. -/
theorem C34_room_not_negative (e : RrspEnv K) (g : Grp K) (r : Reg K) (v : K)
    (hv : rrspNext e g r = .ok v) (hrate : 0 ≤ e.const.rate)
    (hinc : ∀ x, e.income r.acct.year = .ok x → 0 ≤ x)
    (hmost : ∀ x, extendScalar e.const.accrualMax e.adj (r.acct.year + 1) = .ok x → 0 ≤ x)
    (hroom : inflows r.acct none ≤ contributionRoom g r) : 0 ≤ v := by
  unfold rrspNext at hv
  cases ha : e.contributorAge (r.acct.year + 1) with
  | error er => rw [ha] at hv; cases hv
  | ok age =>
    rw [ha, ok_bind] at hv
    split_ifs at hv with h
    · cases hv; exact le_rfl
    · cases hi : e.income r.acct.year with
      | error er => rw [hi] at hv; cases hv
      | ok x =>
      rw [hi, ok_bind] at hv
      cases hm : extendScalar e.const.accrualMax e.adj (r.acct.year + 1) with
      | error er => rw [hm] at hv; cases hv
      | ok m =>
        rw [hm, ok_bind] at hv
        cases hv
        have := le_min (mul_nonneg (hinc x hi) hrate) (hmost m hm)
        linarith

/-- **C34.** Room is conserved over every history of an RRSP that is not linked to others, as long
as the contributor is not past the conversion age: the room left plus all contributions of the
past years equals the first room plus all accruals. -/
theorem C34_room_conserved (e : RrspEnv K) (income most : ℤ → K) (y0 : ℤ) (N : ℕ)
    (hage : ∀ y, y0 < y → y ≤ y0 + N → ∃ n, e.contributorAge y = .ok n ∧ n ≤ e.const.conversionAge)
    (hinc : ∀ y, e.income y = .ok (income y))
    (hmost : ∀ y, extendScalar e.const.accrualMax e.adj y = .ok (most y))
    (bal : K) (growth : ℤ → K → K) (dt : Dict K K) (room0 : K) (c : ℤ) (fuel : ℕ)
    (ops : List (Op K))
    (hN : ∀ s ∈ (run (rrspNext e) fuel (single (Account.init y0 bal growth dt) [] room0 c) ops).accts,
      s.acct.year ≤ y0 + N) :
    ∃ (n : ℕ) (r : Reg K),
      (run (rrspNext e) fuel (single (Account.init y0 bal growth dt) [] room0 c) ops).accts = [r] ∧
      r.acct.year = y0 + n ∧
      (run (rrspNext e) fuel (single (Account.init y0 bal growth dt) [] room0 c) ops).room
        + ∑ k ∈ Finset.range n,
            ((Dict.vals ((Dict.get? r.acct.txHist (y0 + k)).getD [])).filter
              fun v => decide (0 < v)).sum
        = room0 + ∑ k ∈ Finset.range n,
            min (e.const.rate * income (y0 + k)) (most (y0 + k + 1)) := by
  have h0 := sinv_init (fun d => ((Dict.vals d).filter fun v => decide (0 < v)).sum)
    (fun y => min (e.const.rate * income (y - 1)) (most y)) (Account.init y0 bal growth dt)
    (inv_init y0 bal growth dt) room0 c
  obtain ⟨n, r, h⟩ := sinv_run (N := N) h0 (next := rrspNext e) (fun g r h1 h2 => by
    simp only [Account.init] at h1 h2
    obtain ⟨m, hm, hle⟩ := hage (r.acct.year + 1) (by omega) (by omega)
    simp only [rrspNext, hm, ok_bind, not_lt.2 hle, if_false, hinc, hmost, inflows, posSum,
      gt_iff_lt, zero_add]
    rw [mul_comm]
    simp) fuel ops (fun t ht => by simpa [Account.init] using hN t ht)
  refine ⟨n, r, h.one, h.year, ?_⟩
  have := h.eq
  simp only [add_sub_cancel_right] at this
  exact this

/-- The shipped constants (canada/constants.py:61-104) without inflation for somebody born in the
given year who always earns 50000. -/
def shippedRrsp (born : ℤ) : RrspEnv ℚ where
  const := ⟨18/100, [(2017, 25750.55)], [(2017, [(0, 1/10), (5000, 2/10), (15000, 3/10)])], 71,
    [(71, 0.0528), (72, 0.0540), (73, 0.0553), (74, 0.0567), (75, 0.0582), (76, 0.0598),
     (77, 0.0617), (78, 0.0636), (79, 0.0658), (80, 0.0682), (81, 0.0708), (82, 0.0738),
     (83, 0.0771), (84, 0.0808), (85, 0.0851), (86, 0.0899), (87, 0.0955), (88, 0.1021),
     (89, 0.1099), (90, 0.1192), (91, 0.1306), (92, 0.1449), (93, 0.1634), (94, 0.1879),
     (95, 0.2000)]⟩
  adj := fun _ _ => .ok 1
  ownerAge := fun y => .ok (y - born)
  contributorAge := fun y => .ok (y - born)
  income := fun _ => .ok 50000

example : ∃ ops : List (Op ℚ),
    ((run (rrspNext (shippedRrsp 1980)) 1
      (single (Account.init 2017 1000 (fun _ _ => 1) [(0, 1)]) [] 100 2017) ops).room,
     (run (rrspNext (shippedRrsp 1980)) 1
      (single (Account.init 2017 1000 (fun _ _ => 1) [(0, 1)]) [] 100 2017) ops).accts.map
      fun r => r.acct.year) = (100 - 70 + 9000 + 9000, [2019]) :=
  ⟨[.add 0 70 (.num (1/2)), .nextYear 0, .add 0 (-40) (.str "end"), .nextYear 0], by decide +kernel⟩

/-- Contributions to the other accounts of the group are forgotten, as for TFSAs. -/
theorem C34_linked_contributions_forgotten :
    ((nextYear (rrspNext (shippedRrsp 1980)) 2 (twoAccounts [] [(0, 6000)] 6000) 0).map (·.room),
     (nextYear (rrspNext (shippedRrsp 1980)) 2 (twoAccounts [] [(0, 6000)] 6000) 1).map (·.room))
    = (.ok 15000, .ok 9000) := by decide +kernel

/-- An RRSP that was converted to a RRIF early goes on accruing room (rrsp.py:196-199 look at the
age only): a 60-year-old who converted two years ago must withdraw, and still gets 9000 of new
room. -/
theorem C34_early_conversion_keeps_accruing :
    ∃ (e : RrspEnv ℚ) (g : Grp ℚ) (r : Reg ℚ) (conversion : ℤ), g.accts = [r] ∧
      setConversionYear e 2010 (some conversion) = .ok (some conversion) ∧
      conversion < r.acct.year ∧
      (minimumDistribution e conversion r.acct).map (fun x => decide (0 < x)) = .ok true ∧
      rrspNext e g r = .ok (contributionRoom g r + 9000) :=
  ⟨shippedRrsp 1957, single (Account.init 2017 1000 (fun _ _ => 1) [(0, 1)]) [] 100 2017, _, 2015,
    rfl, by decide +kernel, by decide, by decide +kernel, by decide +kernel⟩

/-- **C34.** What is taxable and what is deductible: the withdrawals and the contributions. -/
theorem C34_taxable_and_deductible (a : Acct K) :
    rrspTaxableIncome a = ((Dict.vals a.txns).map fun v => max (-v) 0).sum ∧
    rrspTaxDeduction a = ((Dict.vals a.txns).map fun v => max v 0).sum := by
  have h1 : ∀ l : List K, -(l.filter fun v => decide (v < 0)).sum
      = (l.map fun v => max (-v) 0).sum := by
    intro l
    induction l with
    | nil => simp
    | cons x l ih =>
      by_cases h : x < 0
      · simp [h, ← ih, max_eq_left (neg_nonneg.2 h.le)]; ring
      · simp [h, ← ih, max_eq_right (neg_nonpos.2 (not_lt.1 h))]
  have h2 : ∀ l : List K, (l.filter fun v => decide (0 < v)).sum
      = (l.map fun v => max v 0).sum := by
    intro l
    induction l with
    | nil => simp
    | cons x l ih =>
      by_cases h : 0 < x
      · simp [h, ← ih, max_eq_left h.le]
      · simp [h, ← ih, max_eq_right (not_lt.1 h)]
  constructor
  · simp only [rrspTaxableIncome, outflows, negSum, zero_add, h1]
  · simp only [rrspTaxDeduction, inflows, posSum, zero_add, gt_iff_lt, h2]

/-! ## C53: RRIF conversion and withholding tax -/

/-- **C53.** Whatever is assigned to `rrif_conversion_year`, in whatever order, the year read back is
never later than the year in which the owner reaches the conversion age; a later one is rejected
with `ValueError`. -/
theorem C53_conversion_year (e : RrspEnv K) (y0 age : ℤ) (hage : e.ownerAge y0 = .ok age)
    (vals : List (Option ℤ)) :
    ∃ y, conversionYear e y0 (setConversionYears e y0 none vals) = .ok y ∧
      y ≤ y0 + (e.const.conversionAge - age) := by
  have hm : maxConversionYear e y0 = .ok (y0 + e.const.conversionAge - age) := by
    simp [maxConversionYear, hage]
  have key : ∀ (vals : List (Option ℤ)) (s : Option ℤ),
      (∀ y, s = some y → y ≤ y0 + (e.const.conversionAge - age)) →
      ∀ y, setConversionYears e y0 s vals = some y → y ≤ y0 + (e.const.conversionAge - age) := by
    intro vals
    induction vals with
    | nil => intro s h; exact h
    | cons v vals ih =>
      intro s h
      unfold setConversionYears
      rw [List.foldl_cons]
      apply ih
      cases v with
      | none => simp [setConversionYear]
      | some y =>
        simp only [setConversionYear, hm, ok_bind]
        by_cases hlt : y0 + e.const.conversionAge - age < y
        · rw [if_pos hlt]; exact h
        · rw [if_neg hlt]
          intro z hz
          cases hz
          omega
  have := key vals none (by simp)
  cases hs : setConversionYears e y0 none vals with
  | none => exact ⟨y0 + e.const.conversionAge - age, by simp only [conversionYear, hm], by omega⟩
  | some y => exact ⟨y, rfl, this y hs⟩

theorem C53_conversion_year_rejected (e : RrspEnv K) (y0 age y : ℤ) (hage : e.ownerAge y0 = .ok age) :
    (y ≤ y0 + (e.const.conversionAge - age) → setConversionYear e y0 (some y) = .ok (some y)) ∧
    (y0 + (e.const.conversionAge - age) < y →
      setConversionYear e y0 (some y) = .error .valueError) := by
  have hm : maxConversionYear e y0 = .ok (y0 + e.const.conversionAge - age) := by
    simp [maxConversionYear, hage]
  constructor
  · intro h
    simp only [setConversionYear, hm, ok_bind]
    rw [if_neg (by omega)]
  · intro h
    simp only [setConversionYear, hm, ok_bind]
    rw [if_pos (by omega)]

example : setConversionYears (shippedRrsp 1950) 2017 none [some 2018, some 2030, none, some 2020]
    = some 2020 := by decide +kernel

/-- **C53.** The prescribed share of the balance: the tabulated one for the age; beyond the table the
largest; below the table one over the years left to 90. -/
theorem C53_minimum_distribution (e : RrspEnv K) (conversion : ℤ) (a : Acct K) (age lo hi : ℤ) (b : K)
    (hconv : conversion < a.year) (hage : e.contributorAge a.year = .ok age) (hb : balance a = .ok b)
    (hlo : ∀ k, k ∈ Dict.keys e.const.withdrawalMin ↔ lo ≤ k ∧ k ≤ hi) (hlh : lo ≤ hi) (h90 : lo ≤ 90) :
    ∃ share, minimumDistribution e conversion a = .ok (share * b) ∧
      (lo ≤ age → age ≤ hi → Dict.get? e.const.withdrawalMin age = some share) ∧
      (hi < age → share ∈ Dict.vals e.const.withdrawalMin ∧
        ∀ f ∈ Dict.vals e.const.withdrawalMin, f ≤ share) ∧
      (age < lo → share = 1 / ((90 - age : ℤ) : K)) := by
  unfold minimumDistribution
  rw [if_pos hconv, hage, ok_bind, hb, ok_bind]
  have hmax : (Dict.keys e.const.withdrawalMin).max? = some hi := by
    rw [List.max?_eq_some_iff]
    exact ⟨(hlo hi).2 ⟨hlh, le_rfl⟩, fun k hk => ((hlo k).1 hk).2⟩
  by_cases hin : lo ≤ age ∧ age ≤ hi
  · obtain ⟨f, hf⟩ := Dict.mem_keys_iff.1 ((hlo age).2 hin)
    rw [hf]
    exact ⟨f, rfl, fun _ _ => rfl, fun h => by omega, fun h => by omega⟩
  · have hnone : Dict.get? e.const.withdrawalMin age = none :=
      Dict.get?_eq_none.2 fun h => hin ((hlo age).1 h)
    rw [hnone]
    obtain ⟨m, hm⟩ : ∃ m, (Dict.vals e.const.withdrawalMin).max? = some m := by
      cases h : (Dict.vals e.const.withdrawalMin).max? with
      | some m => exact ⟨m, rfl⟩
      | none =>
        rw [List.max?_eq_none_iff] at h
        have h2 := (hlo hi).2 ⟨hlh, le_rfl⟩
        unfold Dict.keys at h2
        unfold Dict.vals at h
        rw [List.map_eq_nil_iff] at h
        rw [h] at h2
        simp at h2
    rw [hmax, hm]
    simp only
    by_cases hgt : hi < age
    · rw [if_pos hgt]
      refine ⟨m, by rw [mul_comm], fun _ h => by omega, fun _ => ?_, fun h => by omega⟩
      rw [List.max?_eq_some_iff] at hm
      exact hm
    · rw [if_neg hgt, if_neg (by omega)]
      exact ⟨1 / ((90 - age : ℤ) : K), by congr 1; ring, fun h h' => by omega,
        fun h => by omega, fun _ => rfl⟩

/-- The shipped table has exactly the ages 71 to 95. -/
theorem shipped_ages (born k : ℤ) :
    k ∈ Dict.keys (shippedRrsp born).const.withdrawalMin ↔ 71 ≤ k ∧ k ≤ 95 := by
  simp only [shippedRrsp, Dict.keys, List.map_cons, List.map_nil, List.mem_cons, List.not_mem_nil,
    or_false]
  omega

/-- **C53.** The minimum withdrawal is never negative and never more than the opening balance (which
must not be negative), and nothing has to be withdrawn up to and including the year of the
conversion. -/
theorem C53_minimum_distribution_range (e : RrspEnv K) (conversion : ℤ) (a : Acct K) (lo hi : ℤ)
    (b x : K) (hb : balance a = .ok b) (hb0 : 0 ≤ b)
    (hlo : ∀ k, k ∈ Dict.keys e.const.withdrawalMin ↔ lo ≤ k ∧ k ≤ hi) (hlh : lo ≤ hi) (h90 : lo ≤ 90)
    (hf : ∀ f ∈ Dict.vals e.const.withdrawalMin, 0 ≤ f ∧ f ≤ 1)
    (h : minimumDistribution e conversion a = .ok x) :
    0 ≤ x ∧ x ≤ b ∧ (a.year ≤ conversion → x = 0) := by
  by_cases hconv : conversion < a.year
  · cases hage : e.contributorAge a.year with
    | error er => simp [minimumDistribution, hconv, hage] at h
    | ok age =>
      obtain ⟨share, e1, e2, e3, e4⟩ :=
        C53_minimum_distribution e conversion a age lo hi b hconv hage hb hlo hlh h90
      rw [h] at e1
      have hs : 0 ≤ share ∧ share ≤ 1 := by
        rcases lt_or_ge age lo with c | c
        · rw [e4 c]
          have h1 : (1 : ℤ) ≤ 90 - age := by omega
          have h1' : (1 : K) ≤ ((90 - age : ℤ) : K) := by exact_mod_cast h1
          exact ⟨by positivity, (div_le_one (by linarith)).2 h1'⟩
        · rcases le_or_gt age hi with c' | c'
          · have := Dict.mem_of_get? (e2 c c')
            exact hf share (List.mem_map.2 ⟨_, this, rfl⟩)
          · exact hf share (e3 c').1
      cases e1
      exact ⟨mul_nonneg hs.1 hb0, mul_le_of_le_one_left hb0 hs.2, fun h => by omega⟩
  · unfold minimumDistribution at h
    rw [if_neg hconv] at h
    cases h
    exact ⟨le_rfl, hb0, fun _ => rfl⟩

example : (∀ f ∈ Dict.vals (shippedRrsp 1940).const.withdrawalMin, 0 ≤ f ∧ f ≤ 1) ∧
    minimumDistribution (shippedRrsp 1940) 2011 (Account.init 2017 1000 (fun _ _ => 1) [(0, 1)])
      = .ok 61.7 := by
  constructor
  · decide +kernel
  · decide +kernel

/-- **C53.** `min_outflow_limit` asks for at least the minimum distribution and at least the shared
minimum (outflows are negative). -/
theorem C53_min_outflow_limit (e : RrspEnv K) (conversion : ℤ) (a : Acct K) (shared x m : K)
    (h : minOutflowLimit e conversion a shared = .ok x)
    (hm : minimumDistribution e conversion a = .ok m) :
    x ≤ -m ∧ x ≤ shared ∧ (x = -m ∨ x = shared) := by
  simp only [minOutflowLimit, hm, ok_bind] at h
  cases h
  exact ⟨min_le_left _ _, min_le_right _ _, min_choice _ _⟩

/-- **C53.** Without any withholding table, `tax_withheld` raises `KeyError`; with an empty one for the
year, `ValueError`. -/
theorem C53_no_withholding_table (e : RrspEnv K) (year : ℤ) (income : K) :
    (e.const.withholding = [] → withhold e year income = .error .keyError) ∧
    (∀ y f, nearestYear e.const.withholding year = some y →
      Dict.get? e.const.withholding y = some [] → e.adj y year = .ok f →
      withhold e year income = .error .valueError) := by
  refine ⟨fun h => ?_, fun y f h1 h2 h3 => ?_⟩
  · unfold withhold nearestYear
    rw [h]
    rfl
  · unfold withhold
    rw [h1]
    simp only [look, h2, h3, bind, Except.bind]
    rfl

/-- **C53.** The tax withheld on a taxable amount: the amount times the rate of the highest bracket
below the amount in the table year's prices, or of the lowest bracket if there is none. -/
theorem C53_withholding_bracket (e : RrspEnv K) (year : ℤ) (income t : K)
    (h : withhold e year income = .ok t) :
    ∃ (y : ℤ) (rates : Dict K K) (f bracket rate : K), nearestYear e.const.withholding year = some y ∧
      Dict.get? e.const.withholding y = some rates ∧ e.adj y year = .ok f ∧
      Dict.get? rates bracket = some rate ∧ t = income * rate ∧
      ((bracket < income * f ∧ ∀ b ∈ Dict.keys rates, b < income * f → b ≤ bracket) ∨
        ((∀ b ∈ Dict.keys rates, income * f ≤ b) ∧ ∀ b ∈ Dict.keys rates, bracket ≤ b)) := by
  unfold withhold at h
  cases hy : nearestYear e.const.withholding year with
  | none => rw [hy] at h; cases h
  | some y =>
  rw [hy] at h
  simp only at h
  unfold look at h
  cases hr : Dict.get? e.const.withholding y with
  | none => rw [hr] at h; cases h
  | some rates =>
  rw [hr] at h
  simp only [ok_bind] at h
  cases hf : e.adj y year with
  | error er => rw [hf] at h; cases h
  | ok f =>
  rw [hf, ok_bind] at h
  cases hmax : ((Dict.keys rates).filter fun b => decide (b < income * f)).max? with
  | some b =>
    rw [hmax] at h
    simp only at h
    cases hb : Dict.get? rates b with
    | none => rw [hb] at h; cases h
    | some rate =>
      rw [hb] at h
      simp only [ok_bind] at h
      cases h
      rw [List.max?_eq_some_iff] at hmax
      refine ⟨y, rates, f, b, rate, rfl, hr, hf, hb, rfl, Or.inl ⟨?_, ?_⟩⟩
      · simpa using (List.mem_filter.1 hmax.1).2
      · intro c hc hlt
        exact hmax.2 c (List.mem_filter.2 ⟨hc, by simpa using hlt⟩)
  | none =>
    cases hmin : (Dict.keys rates).min? with
    | none => rw [hmax, hmin] at h; cases h
    | some b =>
      rw [hmax, hmin] at h
      simp only at h
      cases hb : Dict.get? rates b with
      | none => rw [hb] at h; cases h
      | some rate =>
        rw [hb] at h
        simp only [ok_bind] at h
        cases h
        rw [List.max?_eq_none_iff, List.filter_eq_nil_iff] at hmax
        rw [List.min?_eq_some_iff] at hmin
        refine ⟨y, rates, f, b, rate, rfl, hr, hf, hb, rfl, Or.inr ⟨fun c hc => ?_, hmin.2⟩⟩
        simpa using hmax c hc

/-- **C53.** Between 0 and the whole amount, if the rates are shares. -/
theorem C53_withholding_bounds (e : RrspEnv K) (year : ℤ) (income t : K) (hi : 0 ≤ income)
    (hr : ∀ y rates b r, Dict.get? e.const.withholding y = some rates → Dict.get? rates b = some r →
      0 ≤ r ∧ r ≤ 1) (h : withhold e year income = .ok t) : 0 ≤ t ∧ t ≤ income := by
  obtain ⟨y, rates, f, bracket, rate, -, h2, -, h4, rfl, -⟩ := C53_withholding_bracket e year income t h
  have := hr y rates bracket rate h2 h4
  exact ⟨mul_nonneg hi this.1, mul_le_of_le_one_right hi this.2⟩

/-- **C53.** Withdrawing more never means less tax withheld, if higher brackets have higher rates. -/
theorem C53_withholding_monotone (e : RrspEnv K) (year : ℤ) (x1 x2 t1 t2 : K) (h0 : 0 ≤ x1)
    (hx : x1 ≤ x2) (hadj : ∀ a b f, e.adj a b = .ok f → 0 ≤ f)
    (hr : ∀ y rates b r, Dict.get? e.const.withholding y = some rates → Dict.get? rates b = some r →
      0 ≤ r)
    (hm : ∀ y rates b1 b2 r1 r2, Dict.get? e.const.withholding y = some rates →
      Dict.get? rates b1 = some r1 → Dict.get? rates b2 = some r2 → b1 ≤ b2 → r1 ≤ r2)
    (h1 : withhold e year x1 = .ok t1) (h2 : withhold e year x2 = .ok t2) : t1 ≤ t2 := by
  obtain ⟨y, rates, f, b1, r1, p1, p2, p3, p4, rfl, p6⟩ := C53_withholding_bracket e year x1 t1 h1
  obtain ⟨y', rates', f', b2, r2, q1, q2, q3, q4, rfl, q6⟩ :=
    C53_withholding_bracket e year x2 t2 h2
  rw [p1] at q1
  cases q1
  rw [p2] at q2
  cases q2
  rw [p3] at q3
  cases q3
  have hf := hadj _ _ _ p3
  have hle : x1 * f ≤ x2 * f := mul_le_mul_of_nonneg_right hx hf
  have k1 : b1 ∈ Dict.keys rates := Dict.mem_keys_iff.2 ⟨_, p4⟩
  have k2 : b2 ∈ Dict.keys rates := Dict.mem_keys_iff.2 ⟨_, q4⟩
  have hb : b1 ≤ b2 := by
    rcases p6 with ⟨a1, a2⟩ | ⟨a1, a2⟩
    · rcases q6 with ⟨c1, c2⟩ | ⟨c1, c2⟩
      · exact c2 b1 k1 (lt_of_lt_of_le a1 hle)
      · exact absurd (c1 b1 k1) (not_le.2 (lt_of_lt_of_le a1 hle))
    · exact a2 b2 k2
  exact mul_le_mul hx (hm y rates b1 b2 r1 r2 p2 p4 q4 hb) (hr y rates b1 r1 p2 p4) (h0.trans hx)

example : withhold (shippedRrsp 1980) 2020 5000 = .ok 500 ∧
    withhold (shippedRrsp 1980) 2020 6000 = .ok 1200 := by
  constructor
  · decide +kernel
  · decide +kernel

/-- **C53.** Before the conversion the tax is withheld on exactly what is withdrawn. -/
theorem C53_withheld_before_conversion (e : RrspEnv K) (conversion : ℤ) (a : Acct K) (shared : K)
    (h : a.year < conversion) :
    taxWithheld e conversion a shared
      = withhold e a.year ((Dict.vals a.txns).map fun v => max (-v) 0).sum := by
  unfold taxWithheld
  rw [if_pos h, (C34_taxable_and_deductible a).1]

/-- After the conversion the documentation says that only withdrawals in excess of the minimum are
subject to the tax. In fact the minimum is *added* to what is withdrawn (rrsp.py:152 subtracts the
limit, which is negative). -/
theorem C53_rrif_minimum_is_taxed_not_exempt (e : RrspEnv K) (conversion : ℤ) (a : Acct K) (m : K)
    (h : conversion ≤ a.year) (hm : minimumDistribution e conversion a = .ok m) (h0 : 0 ≤ m) :
    taxWithheld e conversion a 0
      = withhold e a.year (((Dict.vals a.txns).map fun v => max (-v) 0).sum + m) := by
  unfold taxWithheld minOutflowLimit
  rw [if_neg (not_lt.2 h), hm, ok_bind, ok_bind, (C34_taxable_and_deductible a).1,
    min_eq_left (by linarith), sub_neg_eq_add]

/-- E.g. tax is withheld from a RRIF from which nothing was withdrawn. -/
example : taxWithheld (shippedRrsp 1940) 2011 (Account.init 2017 1000 (fun _ _ => 1) [(0, 1)]) 0
    = .ok 6.17 := by decide +kernel

end RRSP

end Forecaster.Registered
