import Verif.Lemmas.UnitsTax
import Mathlib.Algebra.Order.Ring.Rat

/-!
# C116: taxes and living expenses do not depend on the unit money is counted in

What is money in a tax treatment and what is not is specified at the top of
`Verif/Lemmas/UnitsTax.lean`: thresholds, personal deductions and people's incomes, deductions and
credits are amounts; rates, years and inflation adjustments are not.
-/

set_option linter.unusedSectionVars false

namespace Forecaster.Units

open Forecaster Forecaster.Inflation Forecaster.Tax

variable {K : Type} [Field K] [LinearOrder K] [IsStrictOrderedRing K] {c : K}

/-! ### Taxes -/

/-- **C116** (building a tax). A `Tax` built from thresholds and personal deductions in another unit is
the old one in the other unit (or building it raises the same exception). -/
theorem C116_init (hc : 0 < c) (brackets : Dict ℤ (Dict K K)) (personal creditRates : Dict ℤ K)
    (adj : Adjust K) :
    Tax.init (brackets.map fun e => (e.1, e.2.map fun b => (c * b.1, b.2)))
        (personal.map fun e => (e.1, c * e.2)) creditRates adj =
      (Tax.init brackets personal creditRates adj).map (tax c) :=
  init_tax hc brackets personal creditRates adj

/-- **C116** (what it answers). The marginal rate is the same; the bracket and the tax on an amount of
money are the old ones in the new unit - also for a `Tax` that has already been asked and has
remembered inflation-adjusted brackets, and what it remembers afterwards is the same again. -/
theorem C116_money (hc : 0 < c) (t : Tax K) (x : K) (y : ℤ) :
    marginalRate (tax c t) (c * x) y = (marginalRate t x y).map (fun r => (r.1, tax c r.2)) ∧
    marginalBracket (tax c t) (c * x) y =
      (marginalBracket t x y).map (fun r => (c * r.1, tax c r.2)) ∧
    ∀ deduction credit, taxMoney (tax c t) (c * x) y (c * deduction) (c * credit) =
      (taxMoney t x y deduction credit).map fun r => (c * r.1, tax c r.2) :=
  ⟨marginalRate_tax hc t x y, marginalBracket_tax hc t x y, fun d k => taxMoney_tax hc t x y d k⟩

/-- **C116** (people). The tax of a person, of a couple, of any number of people - with personal
deductions, their own deductions and credits, and further ones given as numbers or per person - is the
old one in the new unit, or the same exception is raised. -/
theorem C116_tax (hc : 0 < c) {j j' : Jur K} (h : SameJur c j j') (i : Income K) (y : ℤ)
    (deduction credit : Option (Amount K)) :
    (Tax.call j' (income c i) y (deduction.map (amount c)) (credit.map (amount c))).map Prod.fst =
      (Tax.call j i y deduction credit).map (fun r => c * r.1) ∧
    ∀ r, Tax.call j i y deduction credit = .ok r →
      ∃ r', Tax.call j' (income c i) y (deduction.map (amount c)) (credit.map (amount c)) = .ok r' ∧
        r'.1 = c * r.1 ∧ r'.2.tax = tax c r.2.tax := by
  rw [call_jur hc h]
  constructor
  · cases Tax.call j i y deduction credit <;> rfl
  · intro r hr
    rw [hr]
    exact ⟨_, rfl, rfl, rfl⟩

/-- **C116** (which jurisdictions). This holds for a plain `Tax` and for a Canadian jurisdiction, with
its pension income credit and its spousal amount. -/
theorem C116_jurisdictions (hc : 0 < c) (t : Tax K) (E : CanEnv K) :
    SameJur c (base t) (base (tax c t)) ∧
    SameJur c (canadaJur E t) (canadaJur (canEnv c E) (tax c t)) :=
  ⟨base_same t, canada_same hc E t⟩

theorem multiCall_jur (hc : 0 < c) {js js' : List (Jur K)} (h : List.Forall₂ (SameJur c) js js')
    (i : Income K) (y : ℤ) (d k : Dict ℕ (Amount K)) :
    (multiCall js' (income c i) y (Dict.mapVals (amount c) d) (Dict.mapVals (amount c) k)).map
        Prod.fst =
      (multiCall js i y d k).map (fun r => c * r.1) := by
  unfold multiCall
  have key : ∀ (js js' : List (Jur K)) (n : ℕ), List.Forall₂ (SameJur c) js js' →
      ((js'.zipIdx n).mapM fun ji => Tax.call ji.1 (income c i) y
        (Dict.get? (Dict.mapVals (amount c) d) ji.2) (Dict.get? (Dict.mapVals (amount c) k) ji.2)).map
          (List.map Prod.fst) =
      ((js.zipIdx n).mapM fun ji => Tax.call ji.1 i y (Dict.get? d ji.2) (Dict.get? k ji.2)).map
          (List.map fun r => c * r.1) := by
    intro js js' n h
    induction h generalizing n with
    | nil => rfl
    | @cons a b l l' hab _ ih =>
      rw [List.zipIdx_cons, List.zipIdx_cons, List.mapM_cons, List.mapM_cons]
      simp only [Dict.get?_mapVals] at ih ⊢
      rw [call_jur hc hab]
      cases Tax.call a i y (Dict.get? d n) (Dict.get? k n) with
      | error e => rfl
      | ok r =>
        have := ih (n + 1)
        simp only [Except.map, ok_bind] at this ⊢
        cases h1 : (l'.zipIdx (n + 1)).mapM fun ji => Tax.call ji.1 (income c i) y
            ((Dict.get? d ji.2).map (amount c)) ((Dict.get? k ji.2).map (amount c)) with
        | error e =>
          rw [h1] at this
          cases h2 : (l.zipIdx (n + 1)).mapM fun ji => Tax.call ji.1 i y (Dict.get? d ji.2)
              (Dict.get? k ji.2) with
          | error e' => rw [h2] at this; cases this; rfl
          | ok rs => rw [h2] at this; cases this
        | ok rs' =>
          rw [h1] at this
          cases h2 : (l.zipIdx (n + 1)).mapM fun ji => Tax.call ji.1 i y (Dict.get? d ji.2)
              (Dict.get? k ji.2) with
          | error e' => rw [h2] at this; cases this
          | ok rs =>
            rw [h2] at this
            have h3 := Except.ok.inj this
            show Except.ok (_ :: _) = Except.ok (_ :: _)
            rw [h3]
            rfl
  have := key js js' 0 h
  cases h1 : (js'.zipIdx.mapM fun ji => Tax.call ji.1 (income c i) y
        (Dict.get? (Dict.mapVals (amount c) d) ji.2) (Dict.get? (Dict.mapVals (amount c) k) ji.2)) with
  | error e =>
    rw [h1] at this
    cases h2 : (js.zipIdx.mapM fun ji => Tax.call ji.1 i y (Dict.get? d ji.2) (Dict.get? k ji.2)) with
    | error e' => rw [h2] at this; cases this; rfl
    | ok rs => rw [h2] at this; cases this
  | ok rs' =>
    rw [h1] at this
    cases h2 : (js.zipIdx.mapM fun ji => Tax.call ji.1 i y (Dict.get? d ji.2) (Dict.get? k ji.2)) with
    | error e' => rw [h2] at this; cases this
    | ok rs =>
      rw [h2] at this
      have h3 : rs'.map Prod.fst = rs.map fun r => c * r.1 := Except.ok.inj this
      simp only [Except.map, ok_bind, Except.ok.injEq, h3]
      have := sum_mul (c := c) (rs.map Prod.fst)
      rw [List.map_map] at this
      exact this

/-- **C116** (Canada). Federal and provincial tax together, with whatever deductions and credits are
given for each of them. -/
theorem C116_canada (hc : 0 < c) {fed fed' prov prov' : Jur K} (hf : SameJur c fed fed')
    (hp : SameJur c prov prov') (i : Income K) (y : ℤ) (fd fc pd pc : Option (Amount K))
    (ded cred : Option (Dict ℕ (Amount K))) :
    (canadaCall fed' prov' (income c i) y (fd.map (amount c)) (fc.map (amount c))
        (pd.map (amount c)) (pc.map (amount c)) (ded.map (Dict.mapVals (amount c)))
        (cred.map (Dict.mapVals (amount c)))).1.map Prod.fst =
      (canadaCall fed prov i y fd fc pd pc ded cred).1.map fun r => c * r.1 := by
  have hset : ∀ (d : Dict ℕ (Amount K)) (n : ℕ) (v : Option (Amount K)),
      setOpt (Dict.mapVals (amount c) d) n (v.map (amount c)) =
        Dict.mapVals (amount c) (setOpt d n v) := by
    intro d n v
    cases v with
    | none => rfl
    | some v => exact set_mapVals (amount c) d n v
  have hget : ∀ d : Option (Dict ℕ (Amount K)), (d.map (Dict.mapVals (amount c))).getD [] =
      Dict.mapVals (amount c) (d.getD []) := by
    intro d; cases d <;> rfl
  unfold canadaCall
  simp only [hget, hset]
  exact multiCall_jur hc (.cons hf (.cons hp .nil)) i y _ _

/-! ### Living expenses -/

open Forecaster.Expenses

/-- What a living expenses strategy reads of a person. -/
def plannee (c : K) (p : Plannee K) : Plannee K :=
  { p with
    netIncome := c * p.netIncome
    grossIncome := c * p.grossIncome
    netIncomeHistory := dict c p.netIncomeHistory
    grossIncomeHistory := dict c p.grossIncomeHistory }

/-- A strategy: its `base_amount` is an amount of money, its `rate` is not. -/
def strat (c : K) (s : Expenses.Strat K) : Expenses.Strat K := { s with baseAmount := c * s.baseAmount }

/-- A schedule of strategies. -/
def plan (c : K) : Expenses.Plan K → Expenses.Plan K
  | .strategy s => .strategy (strat c s)
  | .schedule w r => .schedule (plan c w) (plan c r)
  | .scheduleMin w r m => .scheduleMin (plan c w) (plan c r) (plan c m)

theorem sumM_mul {α : Type} {f f' : α → Except PyErr K} (h : ∀ x, f' x = (f x).map (c * ·)) (l : List α) :
    sumM f' l = (sumM f l).map (c * ·) := by
  induction l with
  | nil => simp [sumM, Except.map]
  | cons x l ih =>
    simp only [sumM, h, ih]
    cases f x with
    | error e => rfl
    | ok a =>
      cases sumM f l with
      | error e => rfl
      | ok b => simp [Except.map, mul_add]

theorem sumM_map {α β : Type} (g : α → β) (f : β → Except PyErr K) (l : List α) :
    sumM f (l.map g) = sumM (fun x => f (g x)) l := by
  induction l with
  | nil => rfl
  | cons x l ih => simp only [List.map_cons, sumM, ih]

theorem atYear_dict (d : Dict ℤ K) (y : Option ℤ) :
    atYear (dict c d) y = (atYear d y).map (c * ·) := by
  cases y with
  | none => rfl
  | some y =>
    simp only [atYear, get?_dict]
    cases Dict.get? d y <;> rfl

theorem each_plannee (people : Option (List (Plannee K))) :
    each (people.map (List.map (plannee c))) = (each people).map (List.map (plannee c)) := by
  cases people <;> rfl

theorem sum_plannee {f : Plannee K → K} (hf : ∀ p, f (plannee c p) = c * f p) (l : List (Plannee K)) :
    ((l.map (plannee c)).map f).sum = c * (l.map f).sum := by
  rw [List.map_map]
  induction l with
  | nil => simp
  | cons p l ih => simp only [List.map_cons, List.sum_cons, Function.comp, hf] at ih ⊢; rw [ih, mul_add]

theorem formula_strat (s : Expenses.Strat K) (balances : ℕ → Dict ℤ K)
    (people : Option (List (Plannee K))) (accounts : Option (List ℕ)) (year ret : Option ℤ) :
    formula (strat c s) (fun a => dict c (balances a)) (people.map (List.map (plannee c))) accounts
        year ret =
      (formula s balances people accounts year ret).map (c * ·) := by
  have hn := fun l => sum_plannee (c := c) (f := Plannee.netIncome) (fun _ => rfl) l
  have hg := fun l => sum_plannee (c := c) (f := Plannee.grossIncome) (fun _ => rfl) l
  obtain ⟨k, b, r, adj⟩ := s
  cases k <;> simp only [formula, strat, each_plannee]
  case constContribution =>
    cases each people with
    | error e => rfl
    | ok l =>
      simp only [Except.map, ok_bind, hn]
      cases adj year none with
      | error e => rfl
      | ok k => simp only [ok_bind, Except.ok.injEq]; ring
  case constLivingExpenses =>
    cases adj year none with
    | error e => rfl
    | ok k => simp only [ok_bind, Except.map, Except.ok.injEq]; ring
  case netPercent =>
    cases each people with
    | error e => rfl
    | ok l => simp only [Except.map, ok_bind, hn, Except.ok.injEq]; ring
  case grossPercent =>
    cases each people with
    | error e => rfl
    | ok l => simp only [Except.map, ok_bind, hg, Except.ok.injEq]; ring
  case percentOverBase =>
    cases adj year none with
    | error e => rfl
    | ok k =>
      cases each people with
      | error e => rfl
      | ok l => simp only [Except.map, ok_bind, hn, Except.ok.injEq]; ring
  case principalPercentRet =>
    cases accounts with
    | none => rfl
    | some accs =>
      simp only
      rw [sumM_mul (fun a => atYear_dict (balances a) ret)]
      cases sumM (fun a => atYear (balances a) ret) accs with
      | error e => rfl
      | ok z =>
        cases adj year ret with
        | error e => rfl
        | ok k => simp only [Except.map, ok_bind, Except.ok.injEq]; ring
  case netPercentRet =>
    cases each people with
    | error e => rfl
    | ok l =>
      simp only [Except.map, ok_bind, sumM_map]
      rw [sumM_mul (f := fun p : Plannee K => atYear p.netIncomeHistory ret)
        (f' := fun p : Plannee K => atYear (plannee c p).netIncomeHistory ret)
        (fun p => atYear_dict p.netIncomeHistory ret)]
      cases sumM (fun p : Plannee K => atYear p.netIncomeHistory ret) l with
      | error e => rfl
      | ok z =>
        cases adj year ret with
        | error e => rfl
        | ok k => simp only [Except.map, ok_bind, Except.ok.injEq]; ring
  case grossPercentRet =>
    cases each people with
    | error e => rfl
    | ok l =>
      simp only [Except.map, ok_bind, sumM_map]
      rw [sumM_mul (f := fun p : Plannee K => atYear p.grossIncomeHistory ret)
        (f' := fun p : Plannee K => atYear (plannee c p).grossIncomeHistory ret)
        (fun p => atYear_dict p.grossIncomeHistory ret)]
      cases sumM (fun p : Plannee K => atYear p.grossIncomeHistory ret) l with
      | error e => rfl
      | ok z =>
        cases adj year ret with
        | error e => rfl
        | ok k => simp only [Except.map, ok_bind, Except.ok.injEq]; ring

theorem call_strat (hc : 0 < c) (s : Expenses.Strat K) (balances : ℕ → Dict ℤ K)
    (people : Option (List (Plannee K))) (year ret : Option ℤ) :
    Expenses.call (strat c s) (fun a => dict c (balances a)) (people.map (List.map (plannee c))) year
        ret =
      (Expenses.call s balances people year ret).map (c * ·) := by
  unfold Expenses.call
  have ha : allAccounts (people.map (List.map (plannee c))) = allAccounts people := by
    cases people with
    | none => rfl
    | some l =>
      cases l with
      | nil => rfl
      | cons p l =>
        simp only [Option.map_some, List.map_cons, allAccounts, List.flatMap_cons, List.flatMap_map]
        rfl
  rw [ha]
  cases allAccounts people with
  | error e => rfl
  | ok accs =>
    simp only [ok_bind, formula_strat]
    cases formula s balances people accs year ret with
    | error e => rfl
    | ok x =>
      simp only [Except.map, ok_bind, Except.ok.injEq]
      rw [mul_max_of_nonneg _ _ hc.le, mul_zero]

/-- **C116** (living expenses). Each of the eight living expenses strategies, and each schedule of
them however nested, asks for the old amount in the new unit - or raises the same exception. -/
theorem C116_living_expenses (hc : 0 < c) (s : Expenses.Plan K) (balances : ℕ → Dict ℤ K)
    (people : Option (List (Plannee K))) (year ret : Option ℤ) :
    (plan c s).call (fun a => dict c (balances a)) (people.map (List.map (plannee c))) year ret =
      (s.call balances people year ret).map (c * ·) := by
  induction s with
  | strategy s => exact call_strat hc s balances people year ret
  | schedule w r ihw ihr =>
    simp only [plan, Plan.call]
    split_ifs
    · exact ihr
    · exact ihw
  | scheduleMin w r m ihw ihr ihm =>
    simp only [plan, Plan.call]
    have two : ∀ x : Except PyErr K,
        (do let a ← x.map (c * ·)
            let b ← (m.call balances people year ret).map (c * ·)
            Except.ok (max a b)) =
        (do let a ← x
            let b ← m.call balances people year ret
            Except.ok (max a b) : Except PyErr K).map (c * ·) := by
      intro x
      cases x with
      | error e => rfl
      | ok x =>
        cases m.call balances people year ret with
        | error e => rfl
        | ok z =>
          simp only [Except.map, ok_bind, Except.ok.injEq]
          rw [mul_max_of_nonneg _ _ hc.le]
    rw [ihm, ihr, ihw]
    split_ifs
    · exact two _
    · exact two _

section examples

/-- 10 % up to 100, 20 % above, on an income of 300 with a deduction of 50 and a credit of 5: in
dollars and in cents, in a year the table is extended to. -/
def dollars : Except PyErr (Tax ℚ) :=
  Tax.init [(2020, [(0, 1 / 10), (100, 1 / 5)])] [(2020, 50)] [(2020, 1)] (fun y b => .ok (1 + (y - b) / 10))

example : (do let t ← dollars; (taxMoney t 300 2021 50 5).map Prod.fst) = .ok 34 ∧
    (do let t ← dollars; (taxMoney (tax 100 t) 30000 2021 5000 500).map Prod.fst) = .ok 3400 := by
  decide +kernel

/-- Half of the earnings above 40 are spent. -/
example : (Plan.strategy ⟨.percentOverBase, 40, 1 / 2, fun _ _ => .ok 1⟩ : Expenses.Plan ℚ).call
      (fun _ => []) (some [⟨100, 120, [], [], []⟩]) (some 2020) none = .ok 70 ∧
    (plan 100 (.strategy ⟨.percentOverBase, 40, 1 / 2, fun _ _ => .ok 1⟩) : Expenses.Plan ℚ).call
      (fun _ => []) (some [⟨10000, 12000, [], [], []⟩]) (some 2020) none = .ok 7000 := by
  decide +kernel

end examples

end Forecaster.Units
