import Verif.Lemmas.CalendarTax
import Verif.Model.Expenses
import Mathlib.Algebra.Order.Ring.Rat

/-!
# C118: scenarios, taxes and living expenses do not depend on the calendar

What a change of calendar does - every year is written `k` later - is specified at the top of
`Verif/Lemmas/CalendarTax.lean`: the years of the tables, of the histories and of what is remembered
move; rates and amounts do not.
-/

set_option linter.unusedSectionVars false

namespace Forecaster.Calendar

open Forecaster Forecaster.Inflation Forecaster.Tax

variable {K : Type} [Field K] [LinearOrder K] [IsStrictOrderedRing K] {k : ℤ}

/-! ### Scenarios -/

/-- **C118** (scenarios). A scenario for years `k` later, with rates given for years `k` later, is the
old one in the new calendar (or making it raises the same exception); its years are the old ones `k`
later; and its inflation adjustment between two years - or from the first year, if no base year is
given - is the one between the old years. -/
theorem C118_scenario (y n : ℤ) (inflation stocks bonds other fees : RateArg K) :
    Scenario.init (y + k) n (rateArg k inflation) (rateArg k stocks) (rateArg k bonds)
        (rateArg k other) (rateArg k fees) =
      (Scenario.init y n inflation stocks bonds other fees).map (scenario k) ∧
    ∀ s : Scenario K, (scenario k s).years = s.years.map (· + k) ∧
      (∀ target base, (scenario k s).inflationAdjust (target + k) (base.map (· + k)) =
        s.inflationAdjust target base) ∧
      ∀ y, (scenario k s).inflation.get (y + k) = s.inflation.get y ∧
        (scenario k s).stockReturn.get (y + k) = s.stockReturn.get y ∧
        (scenario k s).bondReturn.get (y + k) = s.bondReturn.get y ∧
        (scenario k s).otherReturn.get (y + k) = s.otherReturn.get y ∧
        (scenario k s).managementFees.get (y + k) = s.managementFees.get y :=
  ⟨scenario_init y n inflation stocks bonds other fees, fun s =>
    ⟨years_scenario s, inflationAdjust_scenario s, fun y =>
      ⟨get_rates _ y, get_rates _ y, get_rates _ y, get_rates _ y, get_rates _ y⟩⟩⟩

/-! ### Taxes -/

/-- **C118** (building a tax). A `Tax` built from tables for years `k` later is the old one in the new
calendar (or building it raises the same exception); and the inflation adjustment of a scenario of the
new calendar is the one it needs. -/
theorem C118_init (brackets : Dict ℤ (Dict K K)) (personal creditRates : Dict ℤ K) (s : Scenario K) :
    Tax.init (years k brackets) (years k personal) (years k creditRates)
        (fun y b => (scenario k s).inflationAdjust y (some b)) =
      (Tax.init brackets personal creditRates fun y b => s.inflationAdjust y (some b)).map (tax k) := by
  rw [adjust_scenario]
  exact init_tax brackets personal creditRates _

/-- **C118** (what it answers). Marginal rate, bracket, personal deduction, credit rate and the tax on
an amount of money are those of the year `k` before in the old calendar - also for a `Tax` that has
already been asked, and for the years before its first table, between its tables and after its last
one; what it remembers afterwards corresponds again. -/
theorem C118_money (t : Tax K) (x : K) (y : ℤ) :
    marginalRate (tax k t) x (y + k) = (marginalRate t x y).map (fun r => (r.1, tax k r.2)) ∧
    marginalBracket (tax k t) x (y + k) = (marginalBracket t x y).map (fun r => (r.1, tax k r.2)) ∧
    personalDeduction (tax k t) (y + k) = personalDeduction t y ∧
    creditRate (tax k t) (y + k) = creditRate t y ∧
    ∀ deduction credit, taxMoney (tax k t) x (y + k) deduction credit =
      (taxMoney t x y deduction credit).map fun r => (r.1, tax k r.2) :=
  ⟨marginalRate_tax t x y, marginalBracket_tax t x y, personalDeduction_tax t y, creditRate_tax t y,
    fun d c => taxMoney_tax t x y d c⟩

/-- **C118** (people). The tax of a person, of a couple, of any number of people - with personal
deductions, their own deductions and credits of the year, and further ones given as numbers or per
person - is that of the corresponding year in the old calendar, or the same exception is raised. -/
theorem C118_tax {j j' : Jur K} (h : SameJurLater k j j') (i : Income K) (y : ℤ)
    (deduction credit : Option (Amount K)) :
    (Tax.call j' (income k i) (y + k) deduction credit).map Prod.fst =
      (Tax.call j i y deduction credit).map Prod.fst ∧
    ∀ r, Tax.call j i y deduction credit = .ok r →
      ∃ r', Tax.call j' (income k i) (y + k) deduction credit = .ok r' ∧
        r'.1 = r.1 ∧ r'.2.tax = tax k r.2.tax := by
  rw [call_jur h]
  constructor
  · cases Tax.call j i y deduction credit <;> rfl
  · intro r hr
    rw [hr]
    exact ⟨_, rfl, rfl, rfl⟩

/-- **C118** (which jurisdictions). This holds for a plain `Tax` and for a Canadian jurisdiction, with
its pension income credit and its spousal amount, whose tables move too. -/
theorem C118_jurisdictions (t : Tax K) (E : CanEnv K) :
    SameJurLater k (base t) (base (tax k t)) ∧
    SameJurLater k (canadaJur E t) (canadaJur (canEnv k E) (tax k t)) :=
  ⟨base_later t, canada_later E t⟩

theorem multiCall_later {js js' : List (Jur K)} (h : List.Forall₂ (SameJurLater k) js js')
    (i : Income K) (y : ℤ) (d c : Dict ℕ (Amount K)) :
    (multiCall js' (income k i) (y + k) d c).map Prod.fst = (multiCall js i y d c).map Prod.fst := by
  unfold multiCall
  have key : ∀ (js js' : List (Jur K)) (n : ℕ), List.Forall₂ (SameJurLater k) js js' →
      ((js'.zipIdx n).mapM fun ji => Tax.call ji.1 (income k i) (y + k)
        (Dict.get? d ji.2) (Dict.get? c ji.2)).map (List.map Prod.fst) =
      ((js.zipIdx n).mapM fun ji => Tax.call ji.1 i y (Dict.get? d ji.2) (Dict.get? c ji.2)).map
          (List.map Prod.fst) := by
    intro js js' n h
    induction h generalizing n with
    | nil => rfl
    | @cons a b l l' hab _ ih =>
      rw [List.zipIdx_cons, List.zipIdx_cons, List.mapM_cons, List.mapM_cons]
      rw [call_jur hab]
      cases Tax.call a i y (Dict.get? d n) (Dict.get? c n) with
      | error e => rfl
      | ok r =>
        have := ih (n + 1)
        simp only [Except.map, ok_bind] at this ⊢
        cases h1 : (l'.zipIdx (n + 1)).mapM fun ji => Tax.call ji.1 (income k i) (y + k)
            (Dict.get? d ji.2) (Dict.get? c ji.2) with
        | error e =>
          rw [h1] at this
          cases h2 : (l.zipIdx (n + 1)).mapM fun ji => Tax.call ji.1 i y (Dict.get? d ji.2)
              (Dict.get? c ji.2) with
          | error e' => rw [h2] at this; cases this; rfl
          | ok rs => rw [h2] at this; cases this
        | ok rs' =>
          rw [h1] at this
          cases h2 : (l.zipIdx (n + 1)).mapM fun ji => Tax.call ji.1 i y (Dict.get? d ji.2)
              (Dict.get? c ji.2) with
          | error e' => rw [h2] at this; cases this
          | ok rs =>
            rw [h2] at this
            have h3 := Except.ok.inj this
            show Except.ok (_ :: _) = Except.ok (_ :: _)
            rw [h3]
            rfl
  have := key js js' 0 h
  cases h1 : (js'.zipIdx.mapM fun ji => Tax.call ji.1 (income k i) (y + k)
        (Dict.get? d ji.2) (Dict.get? c ji.2)) with
  | error e =>
    rw [h1] at this
    cases h2 : (js.zipIdx.mapM fun ji => Tax.call ji.1 i y (Dict.get? d ji.2) (Dict.get? c ji.2)) with
    | error e' => rw [h2] at this; cases this; rfl
    | ok rs => rw [h2] at this; cases this
  | ok rs' =>
    rw [h1] at this
    cases h2 : (js.zipIdx.mapM fun ji => Tax.call ji.1 i y (Dict.get? d ji.2) (Dict.get? c ji.2)) with
    | error e' => rw [h2] at this; cases this
    | ok rs =>
      rw [h2] at this
      have h3 : rs'.map Prod.fst = rs.map Prod.fst := Except.ok.inj this
      simp only [Except.map, ok_bind, h3]

/-- **C118** (Canada). Federal and provincial tax together, with whatever deductions and credits are
given for each of them. -/
theorem C118_canada {fed fed' prov prov' : Jur K} (hf : SameJurLater k fed fed')
    (hp : SameJurLater k prov prov') (i : Income K) (y : ℤ) (fd fc pd pc : Option (Amount K))
    (ded cred : Option (Dict ℕ (Amount K))) :
    (canadaCall fed' prov' (income k i) (y + k) fd fc pd pc ded cred).1.map Prod.fst =
      (canadaCall fed prov i y fd fc pd pc ded cred).1.map Prod.fst := by
  unfold canadaCall
  exact multiCall_later (.cons hf (.cons hp .nil)) i y _ _

/-! ### Living expenses -/

open Forecaster.Expenses

/-- What a living expenses strategy reads of a person. -/
def plannee (k : ℤ) (p : Plannee K) : Plannee K :=
  { p with
    netIncomeHistory := years k p.netIncomeHistory
    grossIncomeHistory := years k p.grossIncomeHistory }

/-- A strategy: only its inflation adjustment deals with years. -/
def strat (k : ℤ) (s : Expenses.Strat K) : Expenses.Strat K :=
  { s with adjust := fun target base => s.adjust (target.map (· - k)) (base.map (· - k)) }

/-- A schedule of strategies. -/
def plan (k : ℤ) : Expenses.Plan K → Expenses.Plan K
  | .strategy s => .strategy (strat k s)
  | .schedule w r => .schedule (plan k w) (plan k r)
  | .scheduleMin w r m => .scheduleMin (plan k w) (plan k r) (plan k m)

theorem atYear_years (d : Dict ℤ K) (y : Option ℤ) :
    atYear (years k d) (y.map (· + k)) = atYear d y := by
  cases y with
  | none => rfl
  | some y => simp only [atYear, Option.map_some, get?_years]

theorem each_plannee (people : Option (List (Plannee K))) :
    each (people.map (List.map (plannee k))) = (each people).map (List.map (plannee k)) := by
  cases people <;> rfl

theorem sumM_map {α β : Type} (g : α → β) (f : β → Except PyErr K) (l : List α) :
    sumM f (l.map g) = sumM (fun x => f (g x)) l := by
  induction l with
  | nil => rfl
  | cons x l ih => simp only [List.map_cons, sumM, ih]

theorem back (y : Option ℤ) : (y.map (· + k)).map (· - k) = y := by
  cases y <;> simp

theorem formula_strat (s : Expenses.Strat K) (balances : ℕ → Dict ℤ K)
    (people : Option (List (Plannee K))) (accounts : Option (List ℕ)) (year ret : Option ℤ) :
    formula (strat k s) (fun a => years k (balances a)) (people.map (List.map (plannee k))) accounts
        (year.map (· + k)) (ret.map (· + k)) =
      formula s balances people accounts year ret := by
  have hn : ∀ l : List (Plannee K), (l.map (plannee k)).map Plannee.netIncome =
      l.map Plannee.netIncome := fun l => by rw [List.map_map]; rfl
  have hg : ∀ l : List (Plannee K), (l.map (plannee k)).map Plannee.grossIncome =
      l.map Plannee.grossIncome := fun l => by rw [List.map_map]; rfl
  have hhn : ∀ p : Plannee K, atYear (plannee k p).netIncomeHistory (ret.map (· + k)) =
      atYear p.netIncomeHistory ret := fun p => atYear_years _ _
  have hhg : ∀ p : Plannee K, atYear (plannee k p).grossIncomeHistory (ret.map (· + k)) =
      atYear p.grossIncomeHistory ret := fun p => atYear_years _ _
  obtain ⟨kind, b, r, adj⟩ := s
  have ha : ∀ o, adj ((year.map (· + k)).map (· - k)) (Option.map (· - k) o) =
      adj year (Option.map (· - k) o) := fun o => by rw [back]
  have ha2 : adj ((year.map (· + k)).map (· - k)) ((ret.map (· + k)).map (· - k)) = adj year ret := by
    rw [back, back]
  have ha1 : adj ((year.map (· + k)).map (· - k)) none = adj year none := by rw [back]
  cases people with
  | none =>
    cases kind <;>
      simp only [formula, strat, each, atYear_years, ha2, ha1, Option.map_none] <;> rfl
  | some l =>
    cases kind <;>
      simp only [formula, strat, each, atYear_years, ha2, ha1, Option.map_some, ok_bind, hn, hg,
        Option.map_none, sumM_map, hhn, hhg]

theorem call_strat (s : Expenses.Strat K) (balances : ℕ → Dict ℤ K)
    (people : Option (List (Plannee K))) (year ret : Option ℤ) :
    Expenses.call (strat k s) (fun a => years k (balances a)) (people.map (List.map (plannee k)))
        (year.map (· + k)) (ret.map (· + k)) =
      Expenses.call s balances people year ret := by
  unfold Expenses.call
  have ha : allAccounts (people.map (List.map (plannee k))) = allAccounts people := by
    cases people with
    | none => rfl
    | some l =>
      cases l with
      | nil => rfl
      | cons p l =>
        simp only [Option.map_some, List.map_cons, allAccounts, List.flatMap_cons, List.flatMap_map]
        rfl
  simp only [ha, formula_strat]

theorem retired_years (year ret : Option ℤ) :
    retired (year.map (· + k)) (ret.map (· + k)) = retired year ret := by
  cases year <;> cases ret <;> simp [retired]

/-- **C118** (living expenses). Each of the eight living expenses strategies, and each schedule of
them however nested, asks for the same amount in the corresponding year - or raises the same
exception. -/
theorem C118_living_expenses (s : Expenses.Plan K) (balances : ℕ → Dict ℤ K)
    (people : Option (List (Plannee K))) (year ret : Option ℤ) :
    (plan k s).call (fun a => years k (balances a)) (people.map (List.map (plannee k)))
        (year.map (· + k)) (ret.map (· + k)) =
      s.call balances people year ret := by
  induction s with
  | strategy s => exact call_strat s balances people year ret
  | schedule w r ihw ihr => simp only [plan, Plan.call, retired_years, ihw, ihr]
  | scheduleMin w r m ihw ihr ihm => simp only [plan, Plan.call, retired_years, ihw, ihr, ihm]

section examples

/-- 10 % up to 100, 20 % above in 2020, on an income of 300 with a deduction of 50 and a credit of 5
in 2022, with inflation of 10 % in 2021; and the same a hundred years before. -/
def inflation : RateArg ℚ := .dict [(2020, 0), (2021, 1 / 10), (2022, 1 / 5)]

def taxIn (y : ℤ) (r : RateArg ℚ) : Except PyErr ℚ := do
  let s ← Scenario.init y 3 r (.scalar 0) (.scalar 0) (.scalar 0) (.scalar 0)
  let t ← Tax.init [(y, [(0, 1 / 10), (100, 1 / 5)])] [(y, 50)] [(y, 1)]
    (fun y b => s.inflationAdjust y (some b))
  (taxMoney t 300 (y + 2) 50 5).map Prod.fst

example : taxIn 2020 inflation = .ok 34 ∧ taxIn 1920 (rateArg (-100) inflation) = .ok 34 := by
  decide +kernel

/-- Retired since 2030: in 2031 (or, a century before, in 1931), half of the income of 2030 is spent. -/
example :
    let s : Expenses.Plan ℚ := .schedule (.strategy ⟨.netPercent, 0, 1, fun _ _ => .ok 1⟩)
      (.strategy ⟨.netPercentRet, 0, 1 / 2, fun _ _ => .ok 1⟩)
    s.call (fun _ => []) (some [⟨100, 120, [(2030, 80)], [], []⟩]) (some 2031) (some 2030) = .ok 40 ∧
    (plan (-100) s).call (fun _ => []) (some [⟨100, 120, [(1930, 80)], [], []⟩]) (some 1931)
      (some 1930) = .ok 40 ∧
    s.call (fun _ => []) (some [⟨100, 120, [(2030, 80)], [], []⟩]) (some 2030) (some 2030) = .ok 100 := by
  decide +kernel

end examples

end Forecaster.Calendar
