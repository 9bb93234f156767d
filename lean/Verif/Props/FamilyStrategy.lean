import Verif.Props.Family
import Verif.Props.HouseholdStrategy
import Verif.Props.CompletesStrategy
import Verif.Props.TaxHistory

/-!
# C121: the forecast of a family, from beginning to end

Specification vocabulary: `Ordinary` describes a family all of whose parts are parts of the program:
people, plain accounts, a tax, a living expenses strategy, and `TransactionStrategy`s for saving and
withdrawing; `Starts` describes the accounts that the forecast begins with.
-/

set_option linter.unusedSectionVars false

namespace Forecaster.Household

open Forecaster Forecaster.Account Forecaster.SubForecast Forecaster.CashFlow

variable {K : Type} [Field K] [LinearOrder K] [IsStrictOrderedRing K] [FloorRing K]

/-- Specification: the strategy is a `TransactionStrategy` that has what it needs (`Equipped`) and is
called as the forecasts call it (`Employs`). -/
def Planner {A : Type} [DecidableEq A] (owed : A → Bool) (limits : A → Acct K → Limits K)
    (accounts : List A)
    (strategy : ℤ → (Option A → Pool K) → Except PyErr (Dict A (Dict K K))) : Prop :=
  ∃ (S : TxStrategy.Strat K) (info : (Option A → Pool K) → A → TxStrategy.Info K)
    (order : List A → List A) (T : (Option A → Pool K) → Traversal.Env (List ℕ) A K) (fuel : ℕ),
    Employs owed limits S info order T fuel accounts strategy ∧
    Equipped limits S info order T fuel accounts

/-- C79 (wealth, for the program's own strategies): everything the household has at the end is what it
had, what it has earned at work and on its accounts, less what it has lived on, plus the tax adjustments
and the tax withheld from withdrawals. -/
theorem C79_strategies_wealth {N A : Type} [DecidableEq N] [DecidableEq A] {owed : A → Bool}
    {E : Env N A K} (hs : Planner owed E.limits (holdings E) E.saving)
    (hw : Planner owed E.limits E.assets E.withdrawal)
    (people : E.people ≠ [])
    (paid : ∀ i y, Dated (E.earner i y).timing ∧ Dict.total (E.earner i y).timing ≠ 0)
    (timing : Dated (E.default .income) ∧ Dict.total (E.default .income) ≠ 0)
    (refund : Dated E.refund ∧ Dict.total E.refund ≠ 0)
    (payment : Dated E.payment ∧ Dict.total E.payment ≠ 0) {initial : ℤ}
    {n : ℕ} {accounts : A → Acct K} (hacc : ∀ a, Reachable (accounts a))
    (hg : ∀ a y, IsGrowth ((accounts a).growth y)) {s : Forecast.FS K (Home N A K)}
    {start fin : ℕ → Forecast.FS K (Home N A K)} (hr : Run E initial n accounts s start fin)
    (hrate : ∀ a ∈ holdings E, ∀ y, (accounts a).growth y = (accounts a).growth initial) :
    ∃ owing : ℕ → K,
      (∀ k < n, E.owing (initial + k) (fin k).w.accounts = .ok (owing k)) ∧
      wealth E s
        = ((holdings E).map fun a => opening (accounts a) + Dict.total (accounts a).txns).sum
          + ∑ k ∈ Finset.range (n + 1), (incomeIn E (initial + k) - (fin k).w.living
              + ((holdings E).map fun a => earned ((fin k).w.accounts a)).sum)
          + ∑ k ∈ Finset.range n, adjusted E (initial + k) (fin k).w (owing k)
          + (s.w.sub .withdrawal).withheld := by
  obtain ⟨S, info, order, T, fuel, h1, h2⟩ := hs
  obtain ⟨S', info', order', T', fuel', h1', h2'⟩ := hw
  have hd := C96_strategies_decide (reach := holdings E) h1 h2 fun _ h => h
  refine C79_prudent_wealth (owed := owed) ⟨people, paid, timing, refund, payment,
    C95_strategies_prudent h1, C95_strategies_prudent h1'⟩ hacc hg hr hrate ?_
  intro y q p hq hp a ha
  obtain ⟨v, hv⟩ := Dict.mem_keys_iff.1 ha
  exact (hd.2 y q p hq hp (a, v) (Dict.mem_of_get? hv)).1

end Forecaster.Household

namespace Forecaster.Family

open Forecaster Forecaster.Account Forecaster.Person Forecaster.SubForecast Forecaster.CashFlow
open Forecaster.Household (Home Run Sound forecast cash moved opening holdings Planner onSide Careful
  incomeIn)
open Forecaster.Forecast (FS scenarioYears)

variable {K : Type} [Field K] [LinearOrder K] [IsStrictOrderedRing K] [FloorRing K]

/-- Specification: a living expenses strategy that can always be worked out: a share of the income, or an
amount that can be adjusted to every year. -/
def Simple (s : Expenses.Strat K) : Prop :=
  s.kind = .netPercent ∨ s.kind = .grossPercent ∨
  ((s.kind = .constLivingExpenses ∨ s.kind = .constContribution ∨ s.kind = .percentOverBase) ∧
    ∀ y, ∃ a, s.adjust (some y) none = .ok a)

/-- Specification: the tables of the tax object, of every year: brackets with rates that are not
negative, the personal deduction, and a credit rate that is not negative. -/
def Tabled (t : Tax.Tax K) (B : ℤ → Dict K K) (pd : ℤ → K) : Prop :=
  ∀ y : ℤ, (∃ t', Tax.taxBrackets t y = .ok (B y, t')) ∧ Tax.personalDeduction t y = .ok (pd y) ∧
    (∃ cr, Tax.creditRate t y = .ok cr ∧ 0 ≤ cr) ∧ ∀ kv ∈ B y, 0 ≤ kv.2

/-- Specification: a family all of whose parts are parts of the program: there is somebody in it; its
people have been made with the contracts `c` and are paid within the year; its accounts are plain
accounts; a strategy says what it lives on and a tax object what it owes; and `TransactionStrategy`s
with what they need decide what it saves (into any account) and withdraws (from its assets). -/
structure Ordinary (F : Family K) (c : ℕ → Contract K) (t : Tax.Tax K) (B : ℤ → Dict K K)
    (pd : ℤ → K) (owed : ℕ → Bool) : Prop where
  people : F.size ≠ 0
  wages : Wages F c
  paid : ∀ i, Dated (F.member i).timing ∧ Dict.total (F.member i).timing ≠ 0
  timing : Dated (F.default .income) ∧ Dict.total (F.default .income) ≠ 0
  refund : Dated F.refund ∧ Dict.total F.refund ≠ 0
  payment : Dated F.payment ∧ Dict.total F.payment ≠ 0
  plain : ∀ a, ∃ o, F.holding a = plainHolding o
  plan : ∃ s, F.plan = .strategy s ∧ Simple s
  tax : F.tax = Tax.base t ∧ Tax.Reachable t
  tables : Tabled t B pd
  tells : ∀ (a : Acct K) b v, IsGrowth a.A → 0 < b → 0 < v → ∃ r, F.ttv a b v = .ok r
  saving : Planner owed (household F).limits (holdings (household F)) F.saving
  withdrawal : Planner owed (household F).limits F.assets F.withdrawal

/-- Specification: the accounts a forecast begins with: new ones, of its first year, with interest. -/
structure Starts (F : Family K) (accounts : ℕ → Acct K) : Prop where
  sane : ∀ a, Account.Reachable (accounts a)
  year : ∀ a ∈ holdings (household F), (accounts a).year = F.initial
  fresh : ∀ a ∈ holdings (household F), (accounts a).txns = []
  growth : ∀ a y, IsGrowth ((accounts a).growth y)
  rate : ∀ a ∈ holdings (household F), ∀ y, Monotone ((accounts a).growth y) ∨
    Antitone ((accounts a).growth y)

/-- **C121.** Every tax object has the tables `Ordinary` asks for: its tables must have rates that are not
negative, and its amounts must be adjusted by a positive price index. -/
theorem C121_tables {br : Dict ℤ (Dict K K)} {personal credits : Dict ℤ K} {adj : Inflation.Adjust K}
    {idx : ℤ → K} (S : Tax.Setting br adj idx) {t : Tax.Tax K}
    (h : Tax.init br personal credits adj = .ok t) (hrates : ∀ b ∈ br, ∀ kv ∈ b.2, 0 ≤ kv.2)
    (hcredits : ∀ kv ∈ credits, 0 ≤ kv.2) :
    Tax.Reachable t ∧ ∃ B pd, Tabled t B pd := by
  have key : ∀ y : ℤ, ∃ (B : Dict K K) (pd : K), (∃ t', Tax.taxBrackets t y = .ok (B, t')) ∧
      Tax.personalDeduction t y = .ok pd ∧ (∃ cr, Tax.creditRate t y = .ok cr ∧ 0 ≤ cr) ∧
      ∀ kv ∈ B, 0 ≤ kv.2 := by
    intro y
    obtain ⟨o, B0, t', -, h2, h3⟩ := Tax.C30_table S h [] (fun _ hq => by cases hq) y
    obtain ⟨p1, p2, p3, p4⟩ :=
      Tax.C30_deduction_and_credit_rate S h [] (fun _ hq => by cases hq) y
    have near : ∀ d : Dict ℤ K, d ≠ [] → ∃ o v, Inflation.nearestYear d y = some o ∧ Dict.get? d o = some v := by
      intro d hd
      cases hy : Inflation.nearestYear d y with
      | none => exact absurd ((Inflation.C09_nearest_year d y).1.1 hy) hd
      | some o =>
        have hk := (((Inflation.C09_nearest_year d y).2 o).1 hy).1
        obtain ⟨v, hv⟩ := Dict.mem_keys_iff.1 hk
        exact ⟨o, v, rfl, hv⟩
    have hpd : ∃ pd, Tax.personalDeduction t y = .ok pd := by
      by_cases e : personal = []
      · exact ⟨_, p1 e⟩
      · obtain ⟨o, v, q1, q2⟩ := near personal e
        exact ⟨_, p2 o v q1 q2⟩
    have hcr : ∃ cr, Tax.creditRate t y = .ok cr ∧ 0 ≤ cr := by
      by_cases e : credits = []
      · exact ⟨_, p3 e, zero_le_one⟩
      · obtain ⟨o, v, q1, q2⟩ := near credits e
        exact ⟨_, p4 o v q1 q2, hcredits _ (Dict.mem_of_get? q2)⟩
    obtain ⟨pd, hpd⟩ := hpd
    refine ⟨_, pd, ⟨t', h3⟩, hpd, hcr, ?_⟩
    intro kv hkv
    obtain ⟨kv', h4, rfl⟩ := List.mem_map.1 hkv
    exact hrates _ (Dict.mem_of_get? h2) kv' h4
  choose B pd hB using key
  exact ⟨⟨br, personal, credits, adj, t, [], S.args, h, rfl⟩, B, pd, hB⟩

theorem first_min {F : Family K} (hsize : F.size ≠ 0) :
    ∃ R, ((List.range F.size).map fun i => (F.member i).person.retirement.year).min? = some R := by
  cases e : ((List.range F.size).map fun i => (F.member i).person.retirement.year).min? with
  | none =>
    rw [List.min?_eq_none_iff, List.map_eq_nil_iff, List.range_eq_nil] at e
    exact absurd e hsize
  | some R => exact ⟨R, rfl⟩

theorem first_retirement {F : Family K} {c : ℕ → Contract K} (h : Wages F c) (hsize : F.size ≠ 0) :
    ∃ R, FirstRetirement F c R := by
  obtain ⟨R, hR⟩ := first_min hsize
  rw [List.min?_eq_some_iff] at hR
  obtain ⟨h1, h2⟩ := hR
  obtain ⟨i, hi, rfl⟩ := List.mem_map.1 h1
  have hi' := List.mem_range.1 hi
  refine ⟨(F.member i).person.retirement.year, ⟨i, hi', by rw [retirement_eq h hi']⟩,
    fun j hj => ?_⟩
  have := h2 _ (List.mem_map.2 ⟨j, List.mem_range.2 hj, rfl⟩)
  rwa [← retirement_eq h hj]

/-- A simple strategy always has an answer. -/
theorem expenses_answer {F : Family K} (hsize : F.size ≠ 0) {s : Expenses.Strat K}
    (hs : F.plan = .strategy s) (hsimple : Simple s) (y : ℤ) (acc : ℕ → Acct K) :
    ∃ x, expenses F y acc = .ok x := by
  obtain ⟨R, hR⟩ := first_min hsize
  have hne : (List.range F.size).map (plannee F y) ≠ [] := by
    simpa using hsize
  unfold expenses
  rw [hR, hs]
  show ∃ x, Expenses.call s _ _ _ _ = .ok x
  rw [Expenses.call_eq s _ hne]
  rcases hsimple with h | h | ⟨h, ha⟩
  · simp [Expenses.formula, h, Expenses.each, Except.map]
  · simp [Expenses.formula, h, Expenses.each, Except.map]
  · obtain ⟨a, ha⟩ := ha y
    rcases h with h | h | h
    · simp [Expenses.formula, h, ha, Except.map]
    · simp [Expenses.formula, h, ha, Expenses.each, Except.map]
    · simp [Expenses.formula, h, ha, Expenses.each, Except.map]

/-- The tax can always be worked out. -/
theorem owing_answer {F : Family K} {c : ℕ → Contract K} {t : Tax.Tax K} {B : ℤ → Dict K K}
    {pd : ℤ → K} {owed : ℕ → Bool} (h : Ordinary F c t B pd owed) (y : ℤ) (acc : ℕ → Acct K)
    (hacc : ∀ a, Account.Inv (acc a)) : ∃ x, owing F y acc = .ok x := by
  obtain ⟨⟨t', g1⟩, g2, ⟨cr, g3, g4⟩, g5⟩ := h.tables y
  have hg : ∀ a, ∃ g, (F.holding a).taxableIncome (acc a) = .ok g := by
    intro a
    obtain ⟨o, e⟩ := h.plain a
    obtain ⟨b, r, -, hret, -⟩ := Account.returns_reconcile (hacc a)
    refine ⟨max r 0, ?_⟩
    rw [e]
    show Account.taxableIncome _ = _
    unfold Account.taxableIncome
    rw [hret]; rfl
  choose inc hinc using hg
  refine ⟨_, owing_eq h.tax.1 h.tax.2 y g1 g2 g3 g5 g4 acc (inc := inc) (ded := fun _ => 0)
    (cred := fun _ => 0) (fun i _ a _ => hinc a)
    (fun i _ a _ => by obtain ⟨o, e⟩ := h.plain a; rw [e]; rfl)
    (fun i _ a _ => by obtain ⟨o, e⟩ := h.plain a; rw [e]; rfl)
    (fun i _ => by simp [overAccounts])⟩

theorem Ordinary.careful {F : Family K} {c : ℕ → Contract K} {t : Tax.Tax K} {B : ℤ → Dict K K}
    {pd : ℤ → K} {owed : ℕ → Bool} (h : Ordinary F c t B pd owed) : Careful owed (household F) := by
  obtain ⟨S, info, order, T, fuel, h1, h2⟩ := h.saving
  obtain ⟨S', info', order', T', fuel', h1', h2'⟩ := h.withdrawal
  refine ⟨?_, fun i _ => h.paid i, h.timing, h.refund, h.payment,
    Household.C95_strategies_prudent h1, Household.C95_strategies_prudent h1'⟩
  show List.range F.size ≠ []
  simpa using h.people

/-- **C121.** The forecast of a family completes exactly if, in every year, the members' take-home pay
does not come to nothing. -/
theorem C121_completes {F : Family K} {c : ℕ → Contract K} {t : Tax.Tax K} {B : ℤ → Dict K K}
    {pd : ℤ → K} {owed : ℕ → Bool} (h : Ordinary F c t B pd owed) {accounts : ℕ → Acct K}
    (ha : Starts F accounts) (n : ℕ) :
    (∃ s, forecast (household F) F.initial (scenarioYears F.initial (n + 1)) accounts = .ok s) ↔
      ∀ k : ℕ, k ≤ n → (everybody F fun i => takesHome (c i) F.initial k) ≠ 0 := by
  obtain ⟨S, info, order, T, fuel, h1, h2⟩ := h.saving
  obtain ⟨S', info', order', T', fuel', h1', h2'⟩ := h.withdrawal
  obtain ⟨s, hs, hsimple⟩ := h.plan
  have main := Household.C96_household_completes (E := household F) (owed := owed) h1 h2 h1' h2'
    h.careful.people h.careful.paid h.timing h.refund h.payment
    (fun y acc _ => expenses_answer h.people hs hsimple y acc)
    (fun y acc hi => owing_answer h y acc fun a => (hi a).1) h.tells (initial := F.initial) (n := n)
    ha.sane ha.year ha.fresh ha.growth ha.rate
  rw [main]
  constructor
  · intro h k hk
    rw [← C120_income ‹Ordinary F c t B pd owed›.wages k]
    exact h k hk
  · intro h k hk
    rw [C120_income ‹Ordinary F c t B pd owed›.wages k]
    exact h k hk

/-- **C121.** No family can be forecast beyond the year in which the last of its members retires, if
nothing is withheld from nothing. -/
theorem C121_no_retirees {F : Family K} {c : ℕ → Contract K} {t : Tax.Tax K} {B : ℤ → Dict K K}
    {pd : ℤ → K} {owed : ℕ → Bool} (h : Ordinary F c t B pd owed) {accounts : ℕ → Acct K}
    (ha : Starts F accounts) (n : ℕ) (hret : ∀ i < F.size, (c i).retirement.year < F.initial + n)
    (hn : 0 < n)
    (hnone : ∀ i < F.size, ∀ w, (c i).tax = some w → w 0 (F.initial + n) = 0) :
    ¬ ∃ s, forecast (household F) F.initial (scenarioYears F.initial (n + 1)) accounts = .ok s := by
  rw [C121_completes h ha n]
  intro hall
  refine hall n (le_refl _) ?_
  unfold everybody
  have : ∀ i ∈ List.range F.size, takesHome (c i) F.initial n = 0 := by
    intro i hi
    have hi' := List.mem_range.1 hi
    obtain ⟨m, rfl⟩ : ∃ m, n = m + 1 := ⟨n - 1, by omega⟩
    have e : earns (c i) F.initial (m + 1) = 0 := by
      unfold earns
      rw [incomeAfter, if_pos (hret i hi')]
    unfold takesHome keptBack withholding
    rw [e]
    cases hw : (c i).tax with
    | none => simp
    | some w => simpa using hnone i hi' w hw
  rw [List.map_congr_left this]
  simp

/-- **C121.** As long as the members take something home in every year, the forecast of a family whose
rates never fall completes; no account is ever overdrawn and no debt overpaid; and the report shows, for
every year but the last, what the members take home, what the strategy lets them live on, and the sum of
the taxes of all members, each on what they have earned at work and on their accounts. -/
theorem C121_forecast {F : Family K} {c : ℕ → Contract K} {t : Tax.Tax K} {B : ℤ → Dict K K}
    {pd : ℤ → K} {owed : ℕ → Bool} (h : Ordinary F c t B pd owed) {accounts : ℕ → Acct K}
    (ha : Starts F accounts) {n : ℕ}
    (hpaid : ∀ k : ℕ, k ≤ n → (everybody F fun i => takesHome (c i) F.initial k) ≠ 0)
    (hopen : ∀ a ∈ holdings (household F), onSide (owed a) (Household.opening (accounts a)))
    (hrate : ∀ a ∈ holdings (household F), ∀ y, Monotone ((accounts a).growth y) ∨
      owed a = false ∧ Antitone ((accounts a).growth y))
    (hrise : ∀ a ∈ holdings (household F), ∀ y t, 0 ≤ t → t ≤ 1 →
      (accounts a).growth y t ≤ (accounts a).growth (y + 1) t)
    {R : ℤ} (hR : FirstRetirement F c R) :
    ∃ (s : FS K (Home ℕ ℕ K)) (start fin : ℕ → FS K (Home ℕ ℕ K)) (living : ℕ → K)
      (gain : ℕ → ℕ → K),
      forecast (household F) F.initial (scenarioYears F.initial (n + 1)) accounts = .ok s ∧
      Run (household F) F.initial n accounts s start fin ∧
      (∀ k ≤ n, ∀ a ∈ holdings (household F), ∀ t, 0 ≤ t → t ≤ 1 →
        ∃ b, balanceAtTime ((fin k).w.accounts a) (.num t) none = .ok b ∧ onSide (owed a) b) ∧
      (∀ k < n, ∃ ps, Informed F c k ps ∧ F.plan.call (balances (start k).w.accounts) (some ps)
        (some (F.initial + k)) (some R) = .ok (living k)) ∧
      (∀ k a, k < n → Gain ((fin k).w.accounts a) (gain k a)) ∧
      s.w.report = (List.range n).map fun (k : ℕ) =>
        { income := everybody F fun i => takesHome (c i) F.initial k
          livingExpenses := living k
          savings := max ((everybody F fun i => takesHome (c i) F.initial k) - living k) 0
          principal := (F.assets.map fun a => opening ((start k).w.accounts a)).sum
          withdrawals := .fin (-(cash (start k) + (everybody F fun i => takesHome (c i) F.initial k)
            - living k - moved ((fin k).w.sub .saving).txs))
          tax := everybody F fun i => max (Tax.bracketTax (Tax.ascending (B (F.initial + k)))
            (earns (c i) F.initial k + overAccounts F i (gain k) - pd (F.initial + k))) 0 } := by
  obtain ⟨s, hs⟩ := (C121_completes h ha n).2 hpaid
  obtain ⟨start, fin, hr⟩ := Household.C79_run (E := household F) ha.year hs
  have hc := Run.checked h.careful (R := fun _ => True) (fun _ _ _ _ _ => trivial) ha.sane ha.growth
    hr
  let F' : Family K := { F with
    saving := fun y q => Household.only (fun p => Dict.WF p ∧ True) (F.saving y q)
    withdrawal := fun y q => Household.only Household.Usable (F.withdrawal y q) }
  have e : Household.checked (fun _ => True) (household F) = household F' := rfl
  have hsound := Household.checked_sound h.careful (fun _ => True)
  rw [e] at hc hsound
  obtain ⟨living, gain, g1, g2, g3⟩ := report_of_run (F := F') hsound (c := c) h.wages hR h.plain
    h.tax.1 h.tax.2 (n := n) (B := fun k => B (F.initial + k)) (pd := fun k => pd (F.initial + k))
    (fun k _ => by
      obtain ⟨q1, q2, q3, q4⟩ := h.tables (F.initial + k)
      exact ⟨q1, q2, q3, q4⟩) ha.sane hc
  exact ⟨s, start, fin, living, gain, hs, hr,
    Household.C95_solvent h.careful ha.sane ha.growth ha.fresh hopen hrate hrise hr, g1, g2, g3⟩

/-! ### A family -/

section examples

/-- The account of a strategy of the family: `0` is a savings account, `1` a loan. -/
noncomputable def realLeaf (q : Option ℕ → Pool ℝ) (a : ℕ) : Traversal.Leaf ℝ :=
  match q (some a) with
  | .acct L x => ⟨x, L, a == 1⟩
  | .dict _ _ => ⟨Account.init 0 0 (fun _ _ => 1) [], plainLimits, a == 1⟩

/-- What a strategy gets to know about them. -/
noncomputable def realInfo (q : Option ℕ → Pool ℝ) (a : ℕ) : TxStrategy.Info ℝ :=
  ⟨if a = 1 then ["Debt", "Account"] else ["Account"], a == 1,
    Household.opening (realLeaf q a).acct, 1 / 10⟩

/-- What it gets besides the tree. -/
noncomputable def realGiven
    (solve : Traversal.Graph (List ℕ) ℕ → Except PyErr (Traversal.Flows (List ℕ) ℕ))
    (q : Option ℕ → Pool ℝ) : Traversal.Env (List ℕ) ℕ ℝ where
  tree := ⟨[], fun _ => .ordered [], fun _ _ => none⟩
  precision := 1 / 100
  limitOf a lim := Traversal.accountLimit (realLeaf q a) (some (.dict (q none).txns)) lim
  txOf a lim x := Traversal.accountTx (realLeaf q a) (some (.dict (q none).txns)) lim x
  groupOf _ _ := none
  solve := solve

/-- A tax of 10% on what exceeds 1000, and of 20% on what exceeds 5000, in every year; no deductions. -/
noncomputable def realBrackets : Dict ℤ (Dict ℝ ℝ) := [(2020, [(1000, 1 / 10), (5000, 1 / 5)])]

/-- A couple: the first one has an income of 2000, no raises, and retires in 2030; the second one has
3000, with 5% withheld, and retires in 2025. -/
noncomputable def realContract : ℕ → Contract ℝ := fun i =>
  if i = 0 then ⟨fun _ => 0, ⟨2030, 7, 1, 0⟩, none, 2000⟩
  else ⟨fun _ => 0, ⟨2025, 7, 1, 0⟩, some fun g _ => g / 20, 3000⟩

/-- `Person(initial_year=2020, ...)` twice. -/
noncomputable def realPerson (i : ℕ) : Earner ℝ :=
  let c := realContract i
  match Earner.init 2020 c.retirement .none (c.tax.map fun t => fun g y => .ok (t g y)) c.first with
  | .ok p => p
  | .error _ => ⟨0, ⟨0, 0, 0, 0⟩, fun _ => .ok none, none, [], [], []⟩

/-- Savings before debts, except for debts at more than 15 %. -/
noncomputable def realSettings : TxStrategy.Strat ℝ :=
  ⟨.ordered, [("Account", 1), ("Debt", 2)], "Avalanche", some (3 / 20)⟩

/-- They have a savings account and a loan, and live on 60 % of what they take home. -/
noncomputable def realFamily (t : Tax.Tax ℝ)
    (solve : Traversal.Graph (List ℕ) ℕ → Except PyErr (Traversal.Flows (List ℕ) ℕ)) : Family ℝ where
  initial := 2020
  size := 2
  member i := { person := realPerson i
                timing := [(1 / 2, 1)]
                spouse := some (1 - i) }
  assets := [0]
  debts := [1]
  holding a := plainHolding a
  plan := .strategy ⟨.netPercent, 0, 3 / 5, fun _ _ => .ok 1⟩
  tax := Tax.base t
  refund := [(1 / 2, 1)]
  payment := [(1 / 2, 1)]
  default _ := [(1 / 2, 1)]
  ttv _ b v := if b = 0 then .error .zeroDivisionError else .ok (.fin (v / b))
  saving _ q := TxStrategy.call realSettings (realInfo q) id (realGiven solve q) 1000 [0, 1]
    (q none).txns
  withdrawal _ q := TxStrategy.call realSettings (realInfo q) id (realGiven solve q) 1000 [0]
    (q none).txns

/-- Their accounts: savings of 100 at 5 %, a loan of 50. -/
noncomputable def realAccounts : ℕ → Acct ℝ := fun a =>
  Account.init 2020 (if a = 1 then -50 else 100) (fun _ t => Real.exp (t * Real.log (21 / 20))) []

/-- The tax object of the example. -/
theorem real_tax : ∃ t, Tax.init realBrackets [] [] (fun _ _ => .ok (1 : ℝ)) = .ok t ∧
    Tax.Reachable t ∧ ∃ B pd, Tabled t B pd := by
  have ne : ((1000 : ℝ)) ≠ 5000 := by norm_num
  have wf : Dict.WF ([(1000, 1 / 10), (5000, 1 / 5)] : Dict ℝ ℝ) := by
    unfold Dict.WF; simp [Dict.keys]
  have S : Tax.Setting realBrackets (fun _ _ => .ok (1 : ℝ)) (fun _ => 1) := by
    refine ⟨⟨by simp [realBrackets, Dict.WF, Dict.keys], ?_⟩, by simp [realBrackets],
      fun _ => one_pos, fun _ _ => by rw [div_one]⟩
    intro kv hkv
    simp only [realBrackets, List.mem_singleton] at hkv
    subst hkv
    exact wf
  obtain ⟨p, rest, -, ha⟩ := Tax.accumTable_eq wf (by simp)
  obtain ⟨t, ht⟩ : ∃ t, Tax.init realBrackets [] [] (fun _ _ => .ok (1 : ℝ)) = .ok t := by
    unfold Tax.init realBrackets
    simp only [List.foldlM_cons, List.foldlM_nil, Tax.addBrackets, ha, ok_bind]
    exact ⟨_, rfl⟩
  refine ⟨t, ht, C121_tables S ht ?_ (fun kv h => absurd h (List.not_mem_nil))⟩
  intro b hb kv hkv
  simp only [realBrackets, List.mem_singleton] at hb
  subst hb
  simp only [List.mem_cons, List.not_mem_nil, or_false] at hkv
  rcases hkv with rfl | rfl <;> norm_num

theorem real_wages (t : Tax.Tax ℝ)
    (solve : Traversal.Graph (List ℕ) ℕ → Except PyErr (Traversal.Flows (List ℕ) ℕ)) :
    Wages (realFamily t solve) realContract := by
  intro i hi
  refine ⟨.none, fun y => ?_, ?_⟩
  · show (realContract i).raise y = 0
    unfold realContract; split <;> rfl
  · show _ = Except.ok (realPerson i)
    unfold realPerson
    by_cases h : i = 0
    · subst h
      rfl
    · unfold realContract
      rw [if_neg h]
      rfl

/-- The strategies are like this whatever limits the accounts have. -/
theorem real_planner {solve : Traversal.Graph (List ℕ) ℕ → Except PyErr (Traversal.Flows (List ℕ) ℕ)}
    (h1 : ∀ g f, solve g = .ok f → Traversal.MinCostMaxFlow g f)
    (h2 : ∀ g, Traversal.Solvable g → ∃ f, solve g = .ok f ∧ Traversal.Feasible g f ∧
      Traversal.Reports g f)
    {limits : ℕ → Acct ℝ → Limits ℝ} (hl : ∀ a x, (a == 1) = true → (limits a x).minIn ≤ (limits a x).maxIn)
    {l : List ℕ} (h0 : 0 ∈ l) (hlen : l.length ≤ 3) :
    Planner (fun a => a == 1) limits l
      (fun _ q => TxStrategy.call realSettings (realInfo q) id (realGiven solve q) 1000 l
        (q none).txns) := by
  refine ⟨realSettings, realInfo, id, realGiven solve, 1000, ?_, ?_⟩
  · refine ⟨fun _ _ => rfl, fun q x hx => ?_, fun q g f h => (h1 g f h).feasible,
      fun _ _ _ h => h, fun _ _ _ h => h, fun _ => ?_, fun _ _ _ => rfl, hl⟩
    · have : realLeaf q = fun a => ⟨x a, limits a (x a), a == 1⟩ := by
        funext a; unfold realLeaf; rw [hx a]
      exact ⟨fun a lim z => by
          show Traversal.accountTx (realLeaf q a) _ lim z = _; rw [this],
        fun a lim => by show Traversal.accountLimit (realLeaf q a) _ lim = _; rw [this]⟩
    · show (0 : ℝ) < 1 / 100; norm_num
  · refine ⟨.inl rfl, fun q _ => ⟨0, h0, .inr ⟨?_, "Account", ?_⟩⟩, (fun h => by cases h),
      fun _ => .refl _, fun _ _ => .refl _, fun _ => h2, by omega⟩
    · simp [TxStrategy.High, realInfo]
    · exact ⟨by simp [realSettings, Dict.keys], [], [], rfl, by simp⟩

/-- All the hypotheses of C121 are met by this family, for any number of years. -/
theorem real_ordinary : ∃ t solve B pd,
    (∀ g f, solve g = .ok f → Traversal.MinCostMaxFlow g f) ∧
    (∀ g, Traversal.Solvable g → ∃ f, solve g = .ok f ∧ Traversal.Feasible g f ∧
      Traversal.Reports g f) ∧
    Ordinary (realFamily t solve) realContract t B pd (fun a => a == 1) ∧
    Starts (realFamily t solve) realAccounts ∧
    (∀ a ∈ holdings (household (realFamily t solve)), onSide (a == 1)
      (Household.opening (realAccounts a))) ∧
    (∀ a ∈ holdings (household (realFamily t solve)), ∀ y, Monotone ((realAccounts a).growth y)) ∧
    (∀ a ∈ holdings (household (realFamily t solve)), ∀ y t, 0 ≤ t → t ≤ 1 →
      (realAccounts a).growth y t ≤ (realAccounts a).growth (y + 1) t) ∧
    FirstRetirement (realFamily t solve) realContract 2025 := by
  obtain ⟨solve, h1, h2⟩ := Traversal.C88_solver_exists (N := List ℕ) (A := ℕ)
  obtain ⟨t, -, ht, B, pd, hB⟩ := real_tax
  have hhold : holdings (household (realFamily t solve)) = [0, 1] := by
    show ([0] ++ [1] : List ℕ).dedup = [0, 1]
    decide
  have half : (0 : ℝ) ≤ 1 / 2 ∧ (1 / 2 : ℝ) ≤ 1 := by norm_num
  have dated : Dated [((1 / 2 : ℝ), (1 : ℝ))] ∧ Dict.total [((1 / 2 : ℝ), (1 : ℝ))] ≠ 0 := by
    refine ⟨⟨by simp [Dict.WF, Dict.keys], fun x hx => ?_⟩, by simp [Dict.total, Dict.vals]⟩
    simp only [Dict.keys, List.map_cons, List.map_nil, List.mem_singleton] at hx
    rw [hx]; exact half
  have plan : ∀ l : List ℕ, 0 ∈ l → l.length ≤ 2 → Planner (fun a => a == 1) (fun _ _ => plainLimits) l
      (fun _ q => TxStrategy.call realSettings (realInfo q) id (realGiven solve q) 1000 l
        (q none).txns) := fun l hl hlen => real_planner h1 h2 (fun _ _ _ => by
          show (Ext.fin (0 : ℝ)) ≤ .posInf; simp) hl (by omega)
  have mono : ∀ a y, Monotone ((realAccounts a).growth y) := by
    intro a y s t hst
    show Real.exp _ ≤ Real.exp _
    exact Real.exp_le_exp.2 (mul_le_mul_of_nonneg_right hst (Real.log_nonneg (by norm_num)))
  refine ⟨t, solve, B, pd, h1, h2, ⟨by simp [realFamily], real_wages t solve, fun _ => dated, dated, dated,
    dated, fun a => ⟨a, rfl⟩, ⟨_, rfl, .inl rfl⟩, ⟨rfl, ht⟩, hB,
    fun _ b v _ hb _ => ⟨_, if_neg hb.ne'⟩, ?_, ?_⟩,
    ⟨fun a => ⟨_, _, _, _, [], rfl⟩, fun _ _ => rfl, fun _ _ => rfl, fun a y => ?_,
      fun a _ y => .inl (mono a y)⟩, ?_, fun a _ y => mono a y, fun _ _ _ _ _ _ => le_refl _, ?_⟩
  · rw [hhold]; exact plan [0, 1] (by simp) (by simp)
  · exact plan [0] (by simp) (by simp)
  · refine ⟨by simp [realAccounts, Account.init], fun s t => ?_, fun t => Real.exp_pos _⟩
    show Real.exp _ = Real.exp _ * Real.exp _
    rw [add_mul, Real.exp_add]
  · intro a ha
    rw [hhold] at ha
    have hb : ∀ b : ℝ, Household.opening (Account.init 2020 b
        (fun _ t => Real.exp (t * Real.log (21 / 20))) []) = b := by
      intro b
      unfold Household.opening balance
      simp [Account.init, Dict.get?_cons, Household.figure]
    rcases List.mem_pair.1 ha with rfl | rfl
    · unfold realAccounts; rw [hb]; simp [onSide]
    · unfold realAccounts; rw [hb]; simp [onSide]
  · refine ⟨⟨1, by simp [realFamily], by simp [realContract]⟩, fun i _ => ?_⟩
    unfold realContract
    split <;> decide

/-- What the couple take home. -/
theorem real_income (k : ℕ) (t : Tax.Tax ℝ)
    (solve : Traversal.Graph (List ℕ) ℕ → Except PyErr (Traversal.Flows (List ℕ) ℕ)) :
    (everybody (realFamily t solve) fun i => takesHome (realContract i) 2020 k)
      = (if k ≤ 10 then 2000 else 0) + if k ≤ 5 then 2850 else 0 := by
  have h : ∀ (ry : ℤ) (d : ℕ) (g : ℝ), ry = 2020 + d →
      incomeAfter (fun _ => 0) ry 2020 g k = if k ≤ d then g else 0 := by
    intro ry d g hd
    induction k with
    | zero => simp [incomeAfter]
    | succ k ih =>
      rw [incomeAfter, ih]
      by_cases h1 : k + 1 ≤ d
      · rw [if_neg (by push_cast; omega), if_pos h1, if_pos (by omega)]; ring
      · rw [if_pos (by push_cast; omega), if_neg h1]
  unfold everybody
  show ((List.range 2).map _).sum = _
  simp only [List.range_succ, List.range_zero, List.nil_append, List.cons_append, List.map_cons,
    List.map_nil, List.sum_cons, List.sum_nil, add_zero]
  congr 1
  · unfold takesHome keptBack earns realContract
    simp only [if_pos, withholding, sub_zero]
    exact h 2030 10 2000 (by norm_num)
  · unfold takesHome keptBack earns realContract
    simp only [if_neg one_ne_zero, withholding]
    rw [h 2025 5 3000 (by norm_num)]
    split <;> norm_num

/-- Their forecast completes as long as it does not go beyond 2030. -/
example : ∃ t solve, ∀ n : ℕ,
    (∃ s, forecast (household (realFamily t solve)) 2020 (scenarioYears 2020 (n + 1)) realAccounts
      = .ok s) ↔ n ≤ 10 := by
  obtain ⟨t, solve, B, pd, -, -, h1, h2, -⟩ := real_ordinary
  refine ⟨t, solve, fun n => ?_⟩
  have main := C121_completes h1 h2 n
  refine main.trans ⟨fun h => ?_, fun h k hk => ?_⟩
  · by_contra hn
    refine h n (le_refl _) ?_
    refine (real_income n t solve).trans ?_
    rw [if_neg hn, if_neg (by omega), add_zero]
  · refine fun e => ?_
    have e' := (real_income k t solve).symm.trans e
    rw [if_pos (by omega)] at e'
    split at e' <;> norm_num at e'

end examples

end Forecaster.Family
