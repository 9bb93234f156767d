import Verif.Props.Shipped
import Verif.Props.Allocation
import Verif.Props.Expenses
import Verif.Props.Registered
import Mathlib.Data.Rat.Floor
import Mathlib.Algebra.Order.Ring.Rat

/-!
# The default settings (C76) and the shipped constants of registered accounts (C77)
-/

set_option linter.unusedSectionVars false

namespace Forecaster.Shipped

open Forecaster Forecaster.Inflation

variable {K : Type} [Field K] [LinearOrder K] [IsStrictOrderedRing K]

/-! ## C76 -/

theorem loop_constant (x : K) (r : Rates K) (h : ∀ y, r.get y = .ok x) (a : ℤ) (n : ℕ) :
    accumLoop r a (a + n) = .ok ((1 + x) ^ n) := by
  induction n with
  | zero => simp [accumLoop_self]
  | succ n ih =>
    rw [accumLoop_ok_split r (b := a + n) (by omega) (by push_cast; omega)]
    refine ⟨_, 1 + x, ih, ?_, by rw [pow_succ]⟩
    have e : a + ((n + 1 : ℕ) : ℤ) = (a + n) + 1 := by push_cast; ring
    rw [e, ← accFn_le r (by omega)]
    exact (C11_accumulation_year r (a + n) 0).1 x (h _)

/-- A constant rate of inflation: prices grow by `1 + x` a year, in both directions of time. -/
theorem accum_constant (x : K) (hx : 1 + x ≠ 0) (r : Rates K) (h : ∀ y, r.get y = .ok x) (a b : ℤ) :
    accumulationFunction r a b = .ok ((1 + x) ^ (b - a)) := by
  rcases le_or_gt a b with hab | hab
  · obtain ⟨n, rfl⟩ : ∃ n : ℕ, b = a + n := ⟨(b - a).toNat, by omega⟩
    rw [accFn_le r hab, loop_constant x r h]
    have : a + (n : ℤ) - a = n := by ring
    rw [this, zpow_natCast]
  · obtain ⟨n, rfl⟩ : ∃ n : ℕ, a = b + n := ⟨(a - b).toNat, by omega⟩
    rw [accFn_gt r hab]
    refine ⟨_, loop_constant x r h b n, pow_ne_zero _ hx, ?_⟩
    have : b - (b + (n : ℤ)) = -(n : ℤ) := by ring
    rw [this, zpow_neg, zpow_natCast, one_div]

/-- **C76.** With the default settings prices rise by 2% a year, before and after 2017, and the
forecast runs over the hundred years from 2017 on. -/
theorem C76_default_scenario :
    ∃ s : Scenario K, scenario = .ok s ∧
      (∀ y b, s.inflationAdjust y (some b) = .ok ((102 / 100 : K) ^ (y - b))) ∧
      (∀ y, s.inflationAdjust y none = .ok ((102 / 100 : K) ^ (y - 2017))) ∧
      (∀ y, y ∈ s.years ↔ 2017 ≤ y ∧ y ≤ 2116) := by
  have hs : (scenario : Except PyErr (Scenario K)) = .ok ⟨2017, 100, ⟨[], some (2 / 100)⟩,
      ⟨[], some (7 / 100)⟩, ⟨[], some (4 / 100)⟩, ⟨[], some (3 / 100)⟩, ⟨[], some (5 / 1000)⟩⟩ := by
    simp [scenario, Scenario.init, buildDict]
  have e : (102 / 100 : K) = 1 + 2 / 100 := by norm_num
  refine ⟨_, hs, fun y b => ?_, fun y => ?_, fun y => ?_⟩
  · rw [e]
    exact accum_constant _ (by norm_num) _ (fun _ => rfl) b y
  · rw [e]
    exact accum_constant _ (by norm_num) _ (fun _ => rfl) 2017 y
  · rw [((C11_scenario_years _ _ _ _ _ _ _).2.1 _ hs).2.2.2.1]
    omega

/-- The default scenario is a price index in the sense of C75. -/
theorem scenario_index {s : Scenario K} (hs : scenario = .ok s) :
    Index (fun y b => s.inflationAdjust y (some b)) fun y => (102 / 100 : K) ^ (y - 2017) := by
  obtain ⟨s', hs', h1, -⟩ := C76_default_scenario (K := K)
  rw [hs] at hs'
  cases hs'
  refine ⟨fun y => zpow_pos (by norm_num) _, fun y b => ?_⟩
  rw [h1, ← zpow_sub₀ (by norm_num)]
  congr 2
  ring

/-- **C76.** With the default settings everybody holds 30% stocks at every age, whatever the
retirement plans (the allocation strategy `65 - age` is cut off at 30% from both sides), and so earns
4.9% a year. The management fees of 0.5%, or any other fees, are never deducted. The one exception is
a retirement planned in exactly a hundred years, where the strategy fails. -/
theorem C76_default_return (fees : RateArg K) {s : Scenario K} {st : Allocation.Strat K}
    (hs : Scenario.init 2017 100 (.scalar (2 / 100)) (.scalar (7 / 100)) (.scalar (4 / 100))
      (.scalar (3 / 100)) fees = .ok s) (hst : allocation = .ok st)
    (age : ℤ → Except PyErr K) (year : ℤ) (x r : K) (hx : age year = .ok x) :
    (r ≠ x + 100 → Allocation.call st x (some r) = .ok ⟨3 / 10, 7 / 10, 0⟩ ∧
      rateFunction st s age (some r) year = .ok (49 / 1000)) ∧
    (r = x + 100 → rateFunction st s age (some r) year = .error .zeroDivisionError) := by
  have hst' : st = ⟨.nAge, 65, 3 / 10, 3 / 10, 65, 20, true⟩ := by
    simp [allocation, Allocation.init, Allocation.strategyInit, Allocation.strategyKeys] at hst
    exact hst.symm
  have hb : Allocation.Built st := ⟨_, _, _, _, _, _, _, hst⟩
  have hw : Allocation.wanted st x r = (r - x) / 100 := by
    subst hst'
    simp [Allocation.wanted, Allocation.planned]
    ring
  have hret : returnsOf s year = .ok ⟨7 / 100, 4 / 100, 3 / 100⟩ := by
    obtain ⟨-, -, -, -, -, b1, b2, b3, -⟩ := (C11_scenario_years _ _ _ _ _ _ _).2.1 _ hs
    simp only [buildDict, Except.ok.injEq] at b1 b2 b3
    simp [returnsOf, ← b1, ← b2, ← b3, Rates.get, Dict.get?]
  obtain ⟨f1, f2⟩ := Allocation.C39_fails_exactly_at_all_stocks hb (by rw [hst']; norm_num) x r
  rw [hw] at f1 f2
  constructor
  · intro h
    obtain ⟨a, ha⟩ := f2 (by
      rintro ⟨h1, -⟩
      apply h
      linarith [(div_eq_iff (by norm_num : (100 : K) ≠ 0)).1 h1])
    have hc := Allocation.call_ok (Allocation.built_le hb) ha
    have hcl : Allocation.clamp st.minEquity st.maxEquity (Allocation.wanted st x r) = 3 / 10 := by
      have : st.minEquity = 3 / 10 ∧ st.maxEquity = 3 / 10 := by rw [hst']; exact ⟨rfl, rfl⟩
      rw [this.1, this.2]
      exact max_eq_left (min_le_left _ _)
    rw [hcl] at hc
    have ha' : Allocation.call st x (some r) = .ok ⟨3 / 10, 7 / 10, 0⟩ := by
      rw [ha, hc]; norm_num
    refine ⟨ha', ?_⟩
    unfold rateFunction
    simp only [Allocation.rate, hx, hret, ha', ok_bind]
    norm_num
  · intro h
    have h1 := f1 ⟨by rw [h]; field_simp; ring, by rw [hst']; norm_num⟩
    unfold rateFunction
    rw [hx, hret]
    exact (Allocation.C55_fails_with_the_allocation hb x (some r) _ _).2 h1

/-- **C76** (returns of the year). With any scenario and strategy, the rate for a year is the allocation of
that year's age, applied to the scenario's stock, bond and other returns for that same year; management
fees and inflation do not enter. -/
theorem C76_rate_of_year {s : Scenario K} {st : Allocation.Strat K} (hst : Allocation.Built st)
    (age : ℤ → Except PyErr K) (r : Option K) (year : ℤ) (a b c x : K) (al : Allocation.Alloc K)
    (h1 : s.stockReturn.get year = .ok a) (h2 : s.bondReturn.get year = .ok b)
    (h3 : s.otherReturn.get year = .ok c) (hx : age year = .ok x)
    (hal : Allocation.call st x r = .ok al) :
    rateFunction st s age r year = .ok (a * al.stocks + b * al.bonds + c * al.other) := by
  have hret : returnsOf s year = .ok ⟨a, b, c⟩ := by simp only [returnsOf, h1, h2, h3]; rfl
  unfold rateFunction
  have h1 := (Allocation.C39_sums_to_one_within_limits hst hal).1
  simp only [Allocation.rate, hx, hret, hal, ok_bind, h1, if_neg one_ne_zero, div_one]
  congr 1
  ring

/-- The default fees. -/
example : (scenario : Except PyErr (Scenario ℚ)) = Scenario.init 2017 100 (.scalar (2 / 100))
    (.scalar (7 / 100)) (.scalar (4 / 100)) (.scalar (3 / 100)) (.scalar (5 / 1000)) := rfl

example : ∃ (s : Scenario ℚ) (st : Allocation.Strat ℚ), scenario = .ok s ∧ allocation = .ok st ∧
    rateFunction st s (fun y => .ok (y - 1980)) (some 67) 2030 = .ok (49 / 1000) :=
  ⟨⟨2017, 100, ⟨[], some (2 / 100)⟩, ⟨[], some (7 / 100)⟩, ⟨[], some (4 / 100)⟩,
    ⟨[], some (3 / 100)⟩, ⟨[], some (5 / 1000)⟩⟩, ⟨.nAge, 65, 3 / 10, 3 / 10, 65, 20, true⟩,
    rfl, by decide +kernel, by decide +kernel⟩

/-- **C76.** With the default settings living expenses are 60000 dollars of 2017 in every year,
whatever the income, the savings and the retirement date. -/
theorem C76_default_living_expenses {s : Scenario K} (hs : scenario = .ok s) {le : Expenses.Strat K}
    (hle : livingExpenses s = .ok le) (bal : ℕ → Dict ℤ K) {people : List (Expenses.Plannee K)}
    (hne : people ≠ []) (year : ℤ) (ret : Option ℤ) :
    Expenses.call le bal (some people) (some year) ret
      = .ok (60000 * (102 / 100 : K) ^ (year - 2017)) := by
  have hle' : le = ⟨.constLivingExpenses, 60000, 2 / 10, adjustOf s⟩ := by
    have hk : Expenses.Kind.all.find? (fun k => k.key == "Constant living expenses")
        = some .constLivingExpenses := by decide
    have hm : "Constant living expenses" ∈ Expenses.Kind.all.map Expenses.Kind.key := by decide
    unfold livingExpenses Expenses.init Allocation.strategyInit at hle
    simp only [hm, if_true, ok_bind, hk, Except.ok.injEq, Option.getD_some] at hle
    exact hle.symm
  obtain ⟨s', hs', -, h2, -⟩ := C76_default_scenario (K := K)
  rw [hs] at hs'
  cases hs'
  rw [Expenses.call_eq le bal hne]
  subst hle'
  simp only [Expenses.formula, adjustOf, h2, ok_bind, Except.map]
  rw [max_eq_left]
  have : (0 : K) < (102 / 100 : K) ^ (year - 2017) := zpow_pos (by norm_num) _
  linarith

/-- **C76.** Without a year there is no answer: the years from the scenario's first to `None` cannot be
counted (`TypeError`). -/
theorem C76_default_living_expenses_need_a_year {s : Scenario K} {le : Expenses.Strat K}
    (hle : livingExpenses s = .ok le) (bal : ℕ → Dict ℤ K) {people : List (Expenses.Plannee K)}
    (hne : people ≠ []) (ret : Option ℤ) :
    Expenses.call le bal (some people) none ret = .error .typeError := by
  have hle' : le = ⟨.constLivingExpenses, 60000, 2 / 10, adjustOf s⟩ := by
    have hk : Expenses.Kind.all.find? (fun k => k.key == "Constant living expenses")
        = some .constLivingExpenses := by decide
    have hm : "Constant living expenses" ∈ Expenses.Kind.all.map Expenses.Kind.key := by decide
    unfold livingExpenses Expenses.init Allocation.strategyInit at hle
    simp only [hm, if_true, ok_bind, hk, Except.ok.injEq, Option.getD_some] at hle
    exact hle.symm
  rw [Expenses.call_eq le bal hne]
  subst hle'
  simp [Expenses.formula, adjustOf, Except.map]

example : ∃ (s : Scenario ℚ) (le : Expenses.Strat ℚ), scenario = .ok s ∧ livingExpenses s = .ok le ∧
    Expenses.call le (fun _ => []) (some [⟨40000, 50000, [], [], []⟩]) (some 2019) none
      = .ok (60000 * (102 / 100) ^ 2) := by
  refine ⟨⟨2017, 100, ⟨[], some (2 / 100)⟩, ⟨[], some (7 / 100)⟩, ⟨[], some (4 / 100)⟩,
    ⟨[], some (3 / 100)⟩, ⟨[], some (5 / 1000)⟩⟩, ⟨.constLivingExpenses, 60000, 2 / 10, adjustOf _⟩,
    rfl, rfl, by decide +kernel⟩

/-- **C76.** With the default settings nobody ever pays tax, whatever the income, deductions and
credits, in any year, and credits are not refunded. -/
theorem C76_default_tax {s : Scenario K} (hs : scenario = .ok s) {t : Tax.Tax K}
    (ht : plainTax s = .ok t) (qs : List (Tax.Query K))
    (hqs : ∀ q ∈ qs, q.AccumSafe [(2017, [(0, 0)])]) (person : Tax.Payer K) (year : ℤ)
    (income d c ded cred : K) (h1 : person.taxableIncome year = some income)
    (h2 : person.taxDeduction year = some d) (h3 : person.taxCredit year = some c)
    (hc : 0 ≤ 2 * c + cred) :
    (Tax.taxPerson (Tax.base (Tax.run t qs)) person year ded cred).map Prod.fst = .ok 0 := by
  have I := scenario_index hs
  have S : Tax.Setting [(2017, [(0, 0)])] (fun y b => s.inflationAdjust y (some b))
      (fun y => (102 / 100 : K) ^ (y - 2017)) :=
    ⟨⟨by simp [Dict.WF, Dict.keys], by simp [Dict.WF, Dict.keys]⟩, by simp, I.pos, I.adj⟩
  have hpd := (Tax.C30_deduction_and_credit_rate S ht qs hqs year).2.1 2017 0 (nearest_single _ _ _)
    (by simp [Dict.get?])
  have hcr := (Tax.C30_deduction_and_credit_rate S ht qs hqs year).2.2.2 2017 0
    (nearest_single _ _ _) (by simp [Dict.get?])
  obtain ⟨o, B0, t', g1, g2, g3⟩ := Tax.C30_table S ht qs hqs year
  rw [nearest_single] at g1
  cases g1
  simp only [Dict.get?, if_true, Option.some.injEq] at g2
  subst g2
  rw [Tax.C49_person_tax _ person year ded cred income d c _ h1 h2 h3 hpd,
    Tax.C28_tax_is_bracket_sum' ⟨_, _, _, _, _, qs, S.args, ht, rfl⟩ g3 hcr _ _ _ (by simp) hc le_rfl]
  have ha : Tax.ascending ([(0, 0)].map fun kv : K × K =>
      (kv.1 * ((102 / 100 : K) ^ (year - 2017) / (102 / 100 : K) ^ ((2017 : ℤ) - 2017)), kv.2))
      = [(0, 0)] := by
    simp [Tax.ascending, Dict.keys, Dict.val, Dict.get?]
  rw [ha]
  simp [Tax.bracketTax, Except.map]

example : ∃ (s : Scenario ℚ) (t : Tax.Tax ℚ), scenario = .ok s ∧ plainTax s = .ok t ∧
    (Tax.taxPerson (Tax.base t) (Tax.payer 0 none 950000 100 20) 2030 30 5).map Prod.fst = .ok 0 := by
  refine ⟨⟨2017, 100, ⟨[], some (2 / 100)⟩, ⟨[], some (7 / 100)⟩, ⟨[], some (4 / 100)⟩,
    ⟨[], some (3 / 100)⟩, ⟨[], some (5 / 1000)⟩⟩, ⟨[(2017, [(0, 0)])], [(2017, [(0, 0)])], [(2017, 0)],
    [(2017, 0)], _⟩, rfl, rfl, by decide +kernel⟩

/-! ## C77 -/

/-- **Specification.** The share of a RRIF that has to be withdrawn at an age (tables of the Income
Tax Regulations from 71 on, one over 90 minus the age before). -/
def rrifShare (age : ℤ) : K :=
  if age < 71 then 1 / ((90 - age : ℤ) : K)
  else if 95 < age then 2 / 10
  else (([528, 540, 553, 567, 582, 598, 617, 636, 658, 682, 708, 738, 771, 808, 851, 899, 955, 1021,
    1099, 1192, 1306, 1449, 1634, 1879, 2000].getD (age - 71).toNat 0 : ℕ) : K) / 10000

theorem rrifMin_get {c : ℤ} (h1 : 71 ≤ c) (h2 : c ≤ 95) :
    Dict.get? rrifMin c = some (rrifShare c : K) := by
  have : c = 71 ∨ c = 72 ∨ c = 73 ∨ c = 74 ∨ c = 75 ∨ c = 76 ∨ c = 77 ∨ c = 78 ∨ c = 79 ∨ c = 80 ∨
      c = 81 ∨ c = 82 ∨ c = 83 ∨ c = 84 ∨ c = 85 ∨ c = 86 ∨ c = 87 ∨ c = 88 ∨ c = 89 ∨ c = 90 ∨
      c = 91 ∨ c = 92 ∨ c = 93 ∨ c = 94 ∨ c = 95 := by omega
  rcases this with h | h | h | h | h | h | h | h | h | h | h | h | h | h | h | h | h | h | h | h | h |
    h | h | h | h <;> subst h <;> simp [Dict.get?, rrifMin, rrifShare]

theorem rrifMin_keys (k : ℤ) : k ∈ Dict.keys (rrifMin : Dict ℤ K) ↔ 71 ≤ k ∧ k ≤ 95 := by
  simp only [rrifMin, Dict.keys, List.map_cons, List.map_nil, List.mem_cons, List.not_mem_nil,
    or_false]
  omega

theorem rrifMin_vals : ∀ f ∈ Dict.vals (rrifMin : Dict ℤ K), 528 / 10000 ≤ f ∧ f ≤ 2 / 10 := by
  simp only [rrifMin, Dict.vals, List.map_cons, List.map_nil, List.mem_cons, List.not_mem_nil,
    or_false, forall_eq_or_imp, forall_eq]
  norm_num

theorem rrifMin_sorted : (rrifMin : Dict ℤ K).Pairwise fun a b => a.1 < b.1 ∧ a.2 ≤ b.2 := by
  unfold rrifMin
  simp only [List.pairwise_cons, List.mem_cons, List.not_mem_nil, or_false, forall_eq_or_imp,
    forall_eq, List.Pairwise.nil, and_true, IsEmpty.forall_iff, implies_true]
  norm_num

theorem rrifMin_mono {a b : ℤ} {u v : K} (hu : Dict.get? rrifMin a = some u)
    (hv : Dict.get? rrifMin b = some v) (hab : a ≤ b) : u ≤ v := by
  have key : ∀ l : Dict ℤ K, (l.Pairwise fun a b => a.1 < b.1 ∧ a.2 ≤ b.2) → ∀ {a b : ℤ} {u v : K},
      (a, u) ∈ l → (b, v) ∈ l → a ≤ b → u ≤ v := by
    intro l
    induction l with
    | nil => intro _ a b u v hu; cases hu
    | cons x l ih =>
      intro hp a b u v hu hv hab
      obtain ⟨h1, h2⟩ := List.pairwise_cons.1 hp
      rcases List.mem_cons.1 hu with rfl | hu'
      · rcases List.mem_cons.1 hv with h | hv'
        · cases h; exact le_rfl
        · exact (h1 _ hv').2
      · rcases List.mem_cons.1 hv with rfl | hv'
        · exact absurd (h1 _ hu').1 (not_lt.2 hab)
        · exact ih h2 hu' hv' hab
  exact key _ rrifMin_sorted (Dict.mem_of_get? hu) (Dict.mem_of_get? hv) hab

/-- **C77.** With the shipped constants, after the conversion the minimum withdrawal is the
prescribed share of the balance at every age. -/
theorem C77_rrif_minimum (e : Registered.RrspEnv K) (he : e.const = rrsp) (conversion : ℤ)
    (a : Account.Acct K) (age : ℤ) (b : K) (hconv : conversion < a.year)
    (hage : e.contributorAge a.year = .ok age) (hb : Account.balance a = .ok b) :
    Registered.minimumDistribution e conversion a = .ok (rrifShare age * b) := by
  have hw : e.const.withdrawalMin = rrifMin := by rw [he]; rfl
  obtain ⟨share, h1, h2, h3, h4⟩ := Registered.C53_minimum_distribution e conversion a age 71 95 b hconv
    hage hb (by rw [hw]; exact rrifMin_keys) (by norm_num) (by norm_num)
  rw [h1]
  congr 2
  unfold rrifShare
  split_ifs with g1 g2
  · exact h4 g1
  · obtain ⟨m1, m2⟩ := h3 g2
    rw [hw] at m1 m2
    apply le_antisymm (rrifMin_vals _ m1).2
    have : (2 / 10 : K) ∈ Dict.vals (rrifMin : Dict ℤ K) := by
      simp only [rrifMin, Dict.vals, List.map_cons, List.map_nil, List.mem_cons]
      norm_num
    exact m2 _ this
  · have := h2 (by omega) (by omega)
    have hg := rrifMin_get (K := K) (c := age) (by omega) (by omega)
    rw [rrifShare, if_neg (by omega), if_neg (by omega)] at hg
    rw [hw, hg] at this
    exact (Option.some.inj this).symm

example : ∃ (e : Registered.RrspEnv ℚ) (a : Account.Acct ℚ), e.const = rrsp ∧
    e.contributorAge a.year = .ok 75 ∧ Account.balance a = .ok 100000 ∧
    Registered.minimumDistribution e 2050 a = .ok 5820 :=
  ⟨⟨rrsp, fun _ _ => .ok 1, fun y => .ok (y - 1980), fun y => .ok (y - 1980), fun _ => .ok 50000⟩,
    Account.init 2055 100000 (fun _ _ => 1) [(0, 1)], rfl, by decide +kernel, by decide +kernel,
    by decide +kernel⟩

/-- **C77.** The prescribed share never falls as one grows older, is positive and never more than a
fifth: at least 80% of the balance stay in the account. -/
theorem C77_rrif_share_grows {a b : ℤ} (hab : a ≤ b) :
    (0 : K) < rrifShare a ∧ (rrifShare a : K) ≤ rrifShare b ∧ (rrifShare b : K) ≤ 1 / 5 := by
  have old : ∀ {c : ℤ}, 71 ≤ c → c ≤ 95 → ∃ v : K, Dict.get? rrifMin c = some v ∧
      rrifShare c = v ∧ 528 / 10000 ≤ v ∧ v ≤ 2 / 10 := by
    intro c h1 h2
    obtain ⟨v, hv⟩ := Dict.mem_keys_iff.1 ((rrifMin_keys (K := K) c).2 ⟨h1, h2⟩)
    refine ⟨v, hv, ?_, rrifMin_vals v ?_⟩
    · rw [rrifMin_get h1 h2] at hv
      exact Option.some.inj hv
    · exact List.mem_map.2 ⟨(c, v), Dict.mem_of_get? hv, rfl⟩
  have young : ∀ {c : ℤ}, c < 71 → ∃ v : K, 20 ≤ v ∧ v = 90 - (c : K) ∧ rrifShare c = 1 / v := by
    intro c h
    refine ⟨90 - (c : K), ?_, rfl, by rw [rrifShare, if_pos h]; push_cast; rfl⟩
    have : (c : K) ≤ 70 := by exact_mod_cast (by omega : c ≤ 70)
    linarith
  have young_le : ∀ {c : ℤ}, c < 71 → (0 : K) < rrifShare c ∧ (rrifShare c : K) ≤ 1 / 20 := by
    intro c h
    obtain ⟨v, hv, -, hs⟩ := young h
    have h0 : (0 : K) < v := by linarith
    rw [hs]
    exact ⟨by positivity, one_div_le_one_div_of_le (by norm_num) hv⟩
  have top : ∀ {c : ℤ}, 95 < c → (rrifShare c : K) = 2 / 10 := by
    intro c h
    rw [rrifShare, if_neg (by omega), if_pos h]
  rcases lt_or_ge b 71 with hb | hb
  · obtain ⟨v, hv, ev, hs⟩ := young (show a < 71 by omega)
    obtain ⟨w, hw, ew, ht⟩ := young hb
    refine ⟨(young_le (by omega)).1, ?_, (young_le hb).2.trans (by norm_num)⟩
    rw [hs, ht]
    apply one_div_le_one_div_of_le (by linarith)
    have : (a : K) ≤ b := by exact_mod_cast hab
    linarith
  · have hbv : 528 / 10000 ≤ (rrifShare b : K) ∧ (rrifShare b : K) ≤ 2 / 10 := by
      rcases le_or_gt b 95 with h | h
      · obtain ⟨v, -, hs, h1, h2⟩ := old hb h
        rw [hs]; exact ⟨h1, h2⟩
      · rw [top h]; norm_num
    rcases lt_or_ge a 71 with ha | ha
    · refine ⟨(young_le ha).1, ?_, by linarith⟩
      have := (young_le ha).2
      linarith
    · rcases le_or_gt b 95 with h | h
      · obtain ⟨v, gv, hs, h1, h2⟩ := old ha (by omega)
        obtain ⟨w, gw, ht, h3, h4⟩ := old hb h
        rw [hs, ht]
        exact ⟨by linarith, rrifMin_mono gv gw hab, by linarith⟩
      · rw [top h]
        rcases le_or_gt a 95 with h' | h'
        · obtain ⟨v, gv, hs, h1, h2⟩ := old ha h'
          rw [hs]
          exact ⟨by linarith, h2, by norm_num⟩
        · rw [top h']; norm_num

/-- **C77.** With the shipped constants and any price index, tax is withheld from the *whole* of a
withdrawal at 10% up to 5000 dollars of 2017, 20% up to 15000 and 30% above. -/
theorem C77_withholding (e : Registered.RrspEnv K) (he : e.const = rrsp) {idx : ℤ → K}
    (I : Index e.adj idx) (year : ℤ) (w : K) :
    Registered.withhold e year w = .ok (w *
      if w ≤ 5000 * (idx year / idx 2017) then 1 / 10
      else if w ≤ 15000 * (idx year / idx 2017) then 2 / 10 else 3 / 10) := by
  have hc : e.const.withholding = [(2017, [(0, 1 / 10), (5000, 2 / 10), (15000, 3 / 10)])] := by
    rw [he]; rfl
  have p1 := I.pos year
  have p2 := I.pos 2017
  have eq : ∀ b : K, b < w * (idx 2017 / idx year) ↔ b * (idx year / idx 2017) < w := by
    intro b
    rw [← mul_div_assoc, lt_div_iff₀ p1, ← mul_div_assoc, div_lt_iff₀ p2]
  unfold Registered.withhold
  rw [hc, nearest_single]
  simp only [Account.look, Dict.get?, if_true, ok_bind, I.adj, Dict.keys, List.map_cons,
    List.map_nil]
  have hr : 0 < idx year / idx 2017 := div_pos p1 p2
  by_cases g2 : w ≤ 5000 * (idx year / idx 2017)
  · rw [if_pos g2]
    have n2 : ¬ (5000 : K) < w * (idx 2017 / idx year) := by rw [eq]; exact not_lt.2 g2
    have n3 : ¬ (15000 : K) < w * (idx 2017 / idx year) := by linarith
    by_cases g1 : (0 : K) < w * (idx 2017 / idx year)
    · simp [List.filter_cons, g1, n2, n3]
    · simp [List.filter_cons, g1, n2, n3]
  · have q2 : (5000 : K) < w * (idx 2017 / idx year) := by rw [eq]; exact not_le.1 g2
    have q1 : (0 : K) < w * (idx 2017 / idx year) := by linarith
    rw [if_neg g2]
    by_cases g3 : w ≤ 15000 * (idx year / idx 2017)
    · rw [if_pos g3]
      have n3 : ¬ (15000 : K) < w * (idx 2017 / idx year) := by rw [eq]; exact not_lt.2 g3
      simp [List.filter_cons, q1, q2, n3]
    · rw [if_neg g3]
      have q3 : (15000 : K) < w * (idx 2017 / idx year) := by rw [eq]; exact not_le.1 g3
      have m : max (5000 : K) 15000 = 15000 := max_eq_right (by norm_num)
      have z1 : ¬ (0 : K) = 15000 := by norm_num
      have z2 : ¬ (15000 : K) ≤ 5000 := by norm_num
      have z3 : (5000 : K) ≤ 15000 := by norm_num
      simp [q1, q2, q3, m, z2, z3]

/-- **C77, refuted**: that withdrawing more leaves more in hand. Of 5000 dollars 4500 are paid out,
of 5001 dollars 4000.80. -/
theorem C77_withdrawing_more_may_leave_less (e : Registered.RrspEnv K) (he : e.const = rrsp)
    (hadj : ∀ y b, e.adj y b = .ok 1) (year : ℤ) :
    ∃ t t', Registered.withhold e year 5000 = .ok t ∧ Registered.withhold e year 5001 = .ok t' ∧
      5000 - t = 4500 ∧ 5001 - t' < 4001 := by
  have I : Index e.adj fun _ => (1 : K) := ⟨fun _ => one_pos, fun y b => by rw [hadj, div_one]⟩
  have h1 := C77_withholding e he I year 5000
  have h2 := C77_withholding e he I year 5001
  rw [div_one, mul_one, mul_one, if_pos le_rfl] at h1
  rw [div_one, mul_one, mul_one, if_neg (by norm_num), if_pos (by norm_num)] at h2
  exact ⟨_, _, h1, h2, by norm_num, by norm_num⟩

example : ∃ e : Registered.RrspEnv ℚ, e.const = rrsp ∧ (∀ y b, e.adj y b = .ok 1) ∧
    Registered.withhold e 2055 12000 = .ok 2400 :=
  ⟨⟨rrsp, fun _ _ => .ok 1, fun y => .ok (y - 1980), fun y => .ok (y - 1980), fun _ => .ok 50000⟩,
    rfl, fun _ _ => rfl, by decide +kernel⟩

/-- **C77.** With the shipped constants the RRSP room grows each year, up to the age of 71, by 18% of
the income, at most 25750.55 dollars of 2017. -/
theorem C77_rrsp_room (e : Registered.RrspEnv K) (he : e.const = rrsp) {idx : ℤ → K}
    (I : Index e.adj idx) (g : Registered.Grp K) (r : Registered.Reg K) (age : ℤ) (income : K)
    (hage : e.contributorAge (r.acct.year + 1) = .ok age) (hinc : e.income r.acct.year = .ok income) :
    Registered.rrspNext e g r = .ok (if age ≤ 71 then
      Registered.contributionRoom g r - Account.inflows r.acct none
        + min (18 / 100 * income) (2575055 / 100 * (idx (r.acct.year + 1) / idx 2017)) else 0) := by
  have hm : Registered.extendScalar e.const.accrualMax e.adj (r.acct.year + 1)
      = .ok (2575055 / 100 * (idx (r.acct.year + 1) / idx 2017)) := by
    have hc : e.const.accrualMax = [(2017, 2575055 / 100)] := by rw [he]; rfl
    rw [hc]
    obtain ⟨h1, h2⟩ := Registered.C34_accrual_max [(2017, (2575055 / 100 : K))] e.adj (r.acct.year + 1)
    by_cases hy : r.acct.year + 1 = 2017
    · rw [hy] at h1 ⊢
      rw [h1 (2575055 / 100) (by simp [Dict.get?]), div_self (I.pos _).ne', mul_one]
    · exact h2 2017 _ _ (by simp [Dict.get?, Ne.symm hy]) (nearest_single _ _ _)
        (by simp [Dict.get?]) (I.adj _ _)
  have h71 : e.const.conversionAge = 71 := by rw [he]; rfl
  have hrt : e.const.rate = 18 / 100 := by rw [he]; rfl
  unfold Registered.rrspNext
  rw [hage, ok_bind, h71]
  by_cases h : age ≤ 71
  · rw [if_neg (not_lt.2 h), if_pos h, hinc, ok_bind, hm, ok_bind, hrt, mul_comm income]
    congr 1
    ring
  · rw [if_pos (not_le.1 h), if_neg h]

example : ∃ (e : Registered.RrspEnv ℚ) (g : Registered.Grp ℚ) (r : Registered.Reg ℚ),
    e.const = rrsp ∧ Registered.rrspNext e g r = .ok (100 + 9000) :=
  ⟨⟨rrsp, fun _ _ => .ok 1, fun y => .ok (y - 1980), fun y => .ok (y - 1980), fun _ => .ok 50000⟩,
    Registered.single (Account.init 2017 1000 (fun _ _ => 1) [(0, 1)]) [] 100 2017,
    ⟨Account.init 2017 1000 (fun _ _ => 1) [(0, 1)], [], []⟩, rfl, by decide +kernel⟩

section TFSA

variable [FloorRing K]

theorem tfsa_get (y : ℤ) : Dict.get? (tfsa : Registered.TfsaConst K).annual y =
    if y < 2009 then none else if y ≤ 2012 then some 5000 else if y = 2015 then some 10000
      else if y ≤ 2017 then some 5500 else none := by
  by_cases h : y < 2009 ∨ 2017 < y
  · have : Dict.get? (tfsa : Registered.TfsaConst K).annual y = none := by
      rw [Dict.get?_eq_none]
      simp only [tfsa, Dict.keys, List.map_cons, List.map_nil, List.mem_cons, List.not_mem_nil,
        or_false]
      omega
    rw [this]
    split_ifs <;> first | rfl | omega
  · push Not at h
    obtain ⟨h1, h2⟩ := h
    have : y = 2009 ∨ y = 2010 ∨ y = 2011 ∨ y = 2012 ∨ y = 2013 ∨ y = 2014 ∨ y = 2015 ∨ y = 2016 ∨
        y = 2017 := by omega
    rcases this with rfl | rfl | rfl | rfl | rfl | rfl | rfl | rfl | rfl <;> rfl

/-- **C77.** With the shipped constants an adult's TFSA room grows by the statutory amounts from 2009
to 2017. From 2018 on the documentation promises amounts that rise with inflation; with the prices of
the default settings (2% a year) room grows by at most 4000 dollars a year (and ever less, see
C35). -/
theorem C77_tfsa_room (e : Registered.TfsaEnv K) (he : e.const = tfsa)
    (hadj : ∀ y b, e.adj y b = .ok ((102 / 100 : K) ^ (y - b))) (y : ℤ) (age : ℤ)
    (hage : e.ownerAge (y + 1) = .ok age) (hadult : 18 ≤ age) :
    (2009 ≤ y → y ≤ 2017 → Registered.accrual e y
      = .ok (if y ≤ 2012 then 5000 else if y = 2015 then 10000 else 5500)) ∧
    (2017 < y → ∃ a, Registered.accrual e y = .ok a ∧ 0 ≤ a ∧ a ≤ 4000) := by
  have hel : e.const.eligibility = 18 := by rw [he]; rfl
  have hu : e.const.unit = 500 := by rw [he]; rfl
  have ha : ∀ v, Dict.get? e.const.annual v = Dict.get? (tfsa : Registered.TfsaConst K).annual v := by
    rw [he]; exact fun _ => rfl
  unfold Registered.accrual
  rw [hage, ok_bind, hel, if_neg (not_lt.2 hadult), ha, tfsa_get]
  constructor
  · intro h1 h2
    rw [if_neg (by omega)]
    split_ifs <;> first | rfl | omega
  · intro h
    rw [if_neg (by omega), if_neg (by omega), if_neg (by omega), if_neg (by omega)]
    have hby : Registered.baseYear e = .ok 2009 := by
      unfold Registered.baseYear
      rw [he]
      simp [tfsa, Dict.keys]
    have hba : Registered.baseAccrual e = .ok 5000 := by
      unfold Registered.baseAccrual
      rw [hby, ok_bind]
      have : Account.look e.const.annual 2009 = .ok (5000 : K) := by
        unfold Account.look
        rw [ha, tfsa_get]
        rfl
      rw [this, ok_bind, hu]
      unfold Registered.roundTo
      rw [if_neg (by norm_num)]
      have e10 : (5000 : K) / 500 = ((10 : ℤ) : K) := by norm_num
      have e11 : Registered.pyRound ((10 : ℤ) : K) = 10 := by
        unfold Registered.pyRound
        simp
      rw [e10, e11]
      norm_num
    rw [hba, hby]
    simp only [ok_bind, hadj, hu, Registered.roundTo]
    rw [if_neg (by norm_num)]
    have hp : (102 / 100 : K) ^ (2009 - y) ≤ (102 / 100 : K) ^ (-9 : ℤ) :=
      zpow_le_zpow_right₀ (by norm_num) (by omega)
    have h9 : (102 / 100 : K) ^ (-9 : ℤ) ≤ 84 / 100 := by norm_num
    have h0 : (0 : K) < (102 / 100 : K) ^ (2009 - y) := zpow_pos (by norm_num) _
    generalize (102 / 100 : K) ^ (2009 - y) = q at *
    have hx0 : 0 ≤ 5000 * q / 500 := by positivity
    have hx : 5000 * q / 500 ≤ 84 / 10 := by
      rw [div_le_iff₀ (by norm_num)]
      linarith
    refine ⟨_, rfl, ?_, ?_⟩
    · exact mul_nonneg (by exact_mod_cast Registered.pyRound_nonneg hx0) (by norm_num)
    · have hn := Registered.C35_round_nearest (5000 * q / 500)
      rw [abs_le] at hn
      have h8 : Registered.pyRound (5000 * q / 500) ≤ 8 := by
        by_contra hc
        have : (9 : ℤ) ≤ Registered.pyRound (5000 * q / 500) := by omega
        have h9' : ((9 : ℤ) : K) ≤ Registered.pyRound (5000 * q / 500) := by exact_mod_cast this
        push_cast at h9'
        linarith [hn.1, hn.2]
      have h8' : ((Registered.pyRound (5000 * q / 500) : ℤ) : K) ≤ 8 := by exact_mod_cast h8
      linarith

/-- Under the default inflation the room of 2024 is 3500 dollars. -/
example : ∃ e : Registered.TfsaEnv ℚ, e.const = tfsa ∧
    (∀ y b, e.adj y b = .ok ((102 / 100 : ℚ) ^ (y - b))) ∧ e.ownerAge (2024 + 1) = .ok 45 ∧
    Registered.accrual e 2015 = .ok 10000 ∧ Registered.accrual e 2024 = .ok 3500 :=
  ⟨⟨tfsa, fun y b => .ok ((102 / 100 : ℚ) ^ (y - b)), fun y => .ok (y - 1980),
    fun y => .ok (y - 1980)⟩, rfl, fun _ _ => rfl, by decide +kernel, by decide +kernel, by decide +kernel⟩

end TFSA

end Forecaster.Shipped
