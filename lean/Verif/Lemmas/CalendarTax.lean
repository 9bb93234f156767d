import Verif.Lemmas.Calendar
import Verif.Lemmas.UnitsTax

/-!
# Scenarios and taxes in other years

Lemmas for `Props/CalendarTax.lean`: scenarios and tax treatments commute with moving all years by a
constant.
-/

set_option linter.unusedSectionVars false

namespace Forecaster.Calendar

open Forecaster Forecaster.Inflation Forecaster.Tax

variable {K : Type} [Field K] [LinearOrder K] [IsStrictOrderedRing K] {k : ℤ}

/-! ## The change of year -/

/-- A rate argument of `Scenario`: only a dict says for which years its rates are. -/
def rateArg (k : ℤ) : RateArg K → RateArg K
  | .dict d => .dict (years k d)
  | r => r

/-- The rates of a scenario. -/
def rates (k : ℤ) (r : Rates K) : Rates K := { r with entries := years k r.entries }

/-- A scenario. -/
def scenario (k : ℤ) (s : Scenario K) : Scenario K :=
  { initialYear := s.initialYear + k
    numYears := s.numYears
    inflation := rates k s.inflation
    stockReturn := rates k s.stockReturn
    bondReturn := rates k s.bondReturn
    otherReturn := rates k s.otherReturn
    managementFees := rates k s.managementFees }

/-- An inflation adjustment. -/
def adjust (k : ℤ) (f : Adjust K) : Adjust K := fun target base => f (target - k) (base - k)

/-- A tax: the years its tables are for and the years it remembers. -/
def tax (k : ℤ) (t : Tax K) : Tax K :=
  { brackets := years k t.brackets
    accum := years k t.accum
    personal := years k t.personal
    creditRates := years k t.creditRates
    adjust := adjust k t.adjust }

/-- What the tax treatment reads from a person. -/
def payer (k : ℤ) (p : Payer K) : Payer K :=
  { p with
    taxableIncome := fun y => p.taxableIncome (y - k)
    taxDeduction := fun y => p.taxDeduction (y - k)
    taxCredit := fun y => p.taxCredit (y - k) }

/-- What is taxed. -/
def income (k : ℤ) : Income K → Income K
  | .money x => .money x
  | .person p => .person (payer k p)
  | .people l => .people (l.map (payer k))

/-- Two jurisdictions that differ only in the years. -/
structure SameJurLater (k : ℤ) (j j' : Jur K) : Prop where
  tax : j'.tax = tax k j.tax
  credit : ∀ t p y, j'.credit (Calendar.tax k t) (payer k p) (y + k) = j.credit t p y

/-! ## Tables -/

theorem keys_years {V : Type} (d : Dict ℤ V) : Dict.keys (years k d) = (Dict.keys d).map (· + k) := by
  unfold Dict.keys years
  rw [List.map_map, List.map_map]
  rfl

theorem mapVals_years {V V' : Type} (f : V → V') (d : Dict ℤ V) :
    Dict.mapVals f (years k d) = years k (Dict.mapVals f d) := by
  unfold Dict.mapVals years
  rw [List.map_map, List.map_map]
  rfl

theorem mem_years (l : List ℤ) (y : ℤ) : y + k ∈ l.map (· + k) ↔ y ∈ l := by
  simp only [List.mem_map]
  constructor
  · rintro ⟨x, hx, h⟩
    have : x = y := by omega
    exact this ▸ hx
  · intro h
    exact ⟨y, h, rfl⟩

theorem min?_years (l : List ℤ) : (l.map (· + k)).min? = l.min?.map (· + k) := by
  cases l with
  | nil => rfl
  | cons x l =>
    simp only [List.map_cons, List.min?_cons', Option.map_some, Option.some.injEq]
    induction l generalizing x with
    | nil => rfl
    | cons y l ih =>
      simp only [List.map_cons, List.foldl_cons]
      rw [← ih, min_add_add_right]

theorem filter_lt (l : List ℤ) (y : ℤ) : (l.map (· + k)).filter (fun x => decide (x < y + k)) =
    (l.filter fun x => decide (x < y)).map (· + k) := by
  rw [List.filter_map]
  congr 1
  apply List.filter_congr
  intro x _
  simp

theorem filter_gt (l : List ℤ) (y : ℤ) : (l.map (· + k)).filter (fun x => decide (x > y + k)) =
    (l.filter fun x => decide (x > y)).map (· + k) := by
  rw [List.filter_map]
  congr 1
  apply List.filter_congr
  intro x _
  simp

theorem nearestYear_years {V : Type} (d : Dict ℤ V) (y : ℤ) :
    nearestYear (years k d) (y + k) = (nearestYear d y).map (· + k) := by
  unfold nearestYear
  have he : (years k d).isEmpty = d.isEmpty := by cases d <;> rfl
  simp only [he, keys_years, mem_years]
  by_cases h1 : d.isEmpty = true
  · simp only [h1, if_true, Option.map_none]
  · simp only [h1, if_false, Bool.false_eq_true]
    by_cases h2 : y ∈ Dict.keys d
    · simp only [h2, if_true, Option.map_some]
    · simp only [h2, if_false, filter_lt, filter_gt, max?_years, min?_years]
      cases ((Dict.keys d).filter fun x => decide (x < y)).max? <;> rfl

theorem extend_years (d : Dict ℤ (Val K)) (f : Adjust K) (y : ℤ) :
    extendInflationAdjusted (years k d) (adjust k f) (y + k) = extendInflationAdjusted d f y := by
  unfold extendInflationAdjusted
  rw [get?_years, nearestYear_years]
  cases Dict.get? d y with
  | some v => rfl
  | none =>
    cases nearestYear d y with
    | none => rfl
    | some base =>
      have h : base + k ≠ y + k ↔ base ≠ y := by omega
      simp only [Option.map_some, h, get?_years, adjust, add_sub_cancel_right]

/-! ## Scenarios -/

theorem buildDict_years (y : ℤ) (r : RateArg K) :
    buildDict (y + k) (rateArg k r) = (buildDict y r).map (rates k) := by
  cases r with
  | none => rfl
  | scalar x => rfl
  | dict d => rfl
  | list l =>
    simp only [rateArg, buildDict, Except.map, rates, Except.ok.injEq, Rates.mk.injEq, and_true]
    unfold years
    rw [List.map_zipWith]
    congr 1
    funext i v
    simp only [Prod.mk.injEq, and_true]
    ring

theorem scenario_init (y n : ℤ) (a b c d e : RateArg K) :
    Scenario.init (y + k) n (rateArg k a) (rateArg k b) (rateArg k c) (rateArg k d) (rateArg k e) =
      (Scenario.init y n a b c d e).map (scenario k) := by
  unfold Scenario.init
  by_cases hn : n < 1
  · simp only [hn, if_true]; rfl
  · simp only [hn, if_false, buildDict_years]
    cases buildDict y a with
    | error x => rfl
    | ok ra =>
      cases buildDict y b with
      | error x => rfl
      | ok rb =>
        cases buildDict y c with
        | error x => rfl
        | ok rc =>
          cases buildDict y d with
          | error x => rfl
          | ok rd => cases buildDict y e <;> rfl

theorem get_rates (r : Rates K) (y : ℤ) : (rates k r).get (y + k) = r.get y := by
  unfold Rates.get
  have h1 : (rates k r).entries = years k r.entries := rfl
  have h2 : (rates k r).default = r.default := rfl
  rw [h1, h2, get?_years]

theorem pyRange_years (a b : ℤ) : pyRange (a + k) (b + k) = (pyRange a b).map (· + k) := by
  unfold pyRange
  have : b + k - (a + k) = b - a := by ring
  rw [this, List.map_map]
  apply List.map_congr_left
  intro i _
  simp only [Function.comp]
  ring

theorem accumLoop_rates (r : Rates K) (a b : ℤ) :
    accumLoop (rates k r) (a + k) (b + k) = accumLoop r a b := by
  unfold accumLoop
  rw [pyRange_years, List.foldlM_map]
  simp only [get_rates]

theorem accumulation_rates (r : Rates K) (a b : ℤ) :
    accumulationFunction (rates k r) (a + k) (b + k) = accumulationFunction r a b := by
  unfold accumulationFunction
  simp only [accumLoop_rates, add_le_add_iff_right]

theorem inflationAdjust_scenario (s : Scenario K) (target : ℤ) (base : Option ℤ) :
    (scenario k s).inflationAdjust (target + k) (base.map (· + k)) = s.inflationAdjust target base := by
  unfold Scenario.inflationAdjust
  cases base with
  | none => exact accumulation_rates _ _ _
  | some b => exact accumulation_rates _ _ _

theorem years_scenario (s : Scenario K) : (scenario k s).years = s.years.map (· + k) := by
  unfold Scenario.years
  rw [← pyRange_years]
  have h1 : (scenario k s).initialYear = s.initialYear + k := rfl
  have h2 : (scenario k s).numYears = s.numYears := rfl
  rw [h1, h2]
  congr 1
  ring

theorem adjust_scenario (s : Scenario K) :
    (fun y b => (scenario k s).inflationAdjust y (some b)) =
      adjust k fun y b => s.inflationAdjust y (some b) := by
  funext y b
  have := inflationAdjust_scenario (k := k) s (y - k) (some (b - k))
  simp only [Option.map_some, sub_add_cancel] at this
  exact this

/-! ## Taxes -/

theorem addBrackets_tax (t : Tax K) (B : Dict K K) (y : ℤ) :
    addBrackets (tax k t) B (y + k) = (addBrackets t B y).map (tax k) := by
  unfold addBrackets
  cases accumTable B with
  | error e => rfl
  | ok a =>
    have h1 : (tax k t).brackets = years k t.brackets := rfl
    have h2 : (tax k t).accum = years k t.accum := rfl
    simp only [ok_bind, h1, h2, set_years]
    rfl

theorem orDefault_years (table : Dict ℤ K) (brackets : Dict ℤ (Dict K K)) (v : K) :
    Tax.orDefault (years k table) (years k brackets) v = (Tax.orDefault table brackets v).map (years k) := by
  cases table with
  | cons e l => rfl
  | nil =>
    show (match (Dict.keys (years k brackets)).min? with
      | none => Except.error PyErr.valueError
      | some y => Except.ok [(y, v)]) = (match (Dict.keys brackets).min? with
      | none => Except.error PyErr.valueError
      | some y => Except.ok [(y, v)]).map (years k)
    rw [keys_years, min?_years]
    cases (Dict.keys brackets).min? <;> rfl

theorem init_tax (brackets : Dict ℤ (Dict K K)) (personal creditRates : Dict ℤ K) (f : Adjust K) :
    Tax.init (years k brackets) (years k personal) (years k creditRates) (adjust k f) =
      (Tax.init brackets personal creditRates f).map (tax k) := by
  unfold Tax.init
  have h := Units.foldlM_map' (f := fun t kv => addBrackets t kv.2 kv.1)
    (f' := fun t kv => addBrackets t kv.2 kv.1) (g := tax k)
    (k := fun e : ℤ × Dict K K => (e.1 + k, e.2)) brackets
    (fun s x _ => addBrackets_tax s x.2 x.1) (⟨[], [], [], [], f⟩ : Tax K)
  have h0 : (⟨[], [], [], [], adjust k f⟩ : Tax K) = tax k ⟨[], [], [], [], f⟩ := rfl
  have h1 : years k brackets = brackets.map fun e : ℤ × Dict K K => (e.1 + k, e.2) := rfl
  rw [h0, h1, h]
  cases brackets.foldlM (fun t kv => addBrackets t kv.2 kv.1) (⟨[], [], [], [], f⟩ : Tax K) with
  | error e => rfl
  | ok t =>
    have h2 : (tax k t).brackets = years k t.brackets := rfl
    simp only [Except.map, ok_bind, h2, orDefault_years]
    cases Tax.orDefault personal t.brackets 0 with
    | error e => rfl
    | ok pd =>
      cases Tax.orDefault creditRates t.brackets 1 <;> rfl

/-- An answer together with the tax that gave it. -/
def ans {V : Type} (k : ℤ) (r : V × Tax K) : V × Tax K := (r.1, tax k r.2)

theorem taxBrackets_tax (t : Tax K) (y : ℤ) :
    taxBrackets (tax k t) (y + k) = (taxBrackets t y).map (ans k) := by
  unfold taxBrackets
  have h1 : (tax k t).brackets = years k t.brackets := rfl
  have h2 : (tax k t).adjust = adjust k t.adjust := rfl
  rw [h1, h2, get?_years, nearestYear_years]
  cases Dict.get? t.brackets y with
  | some B => rfl
  | none =>
    cases nearestYear t.brackets y with
    | none => rfl
    | some b =>
      simp only [Option.map_some, get?_years, adjust, add_sub_cancel_right]
      cases Dict.get? t.brackets b with
      | none => rfl
      | some B =>
        cases t.adjust y b with
        | error e => rfl
        | ok c =>
          simp only [ok_bind, addBrackets_tax]
          cases addBrackets t (scaleKeys c B) y <;> rfl

theorem accum_tax (t : Tax K) (y : ℤ) : accum (tax k t) (y + k) = (accum t y).map (ans k) := by
  unfold accum
  have h1 : (tax k t).brackets = years k t.brackets := rfl
  have h2 : (tax k t).adjust = adjust k t.adjust := rfl
  have h3 : ∀ t : Tax K, (tax k t).accum = years k t.accum := fun _ => rfl
  rw [h1, h2, h3, get?_years, mapVals_years, extend_years]
  cases Dict.get? t.accum y with
  | some a => rfl
  | none =>
    cases extendInflationAdjusted (Dict.mapVals Val.dict t.brackets) t.adjust y with
    | error e => rfl
    | ok v =>
      cases v with
      | scalar x => rfl
      | list l => rfl
      | dict B =>
        simp only [ok_bind, addBrackets_tax]
        cases addBrackets t B y with
        | error e => rfl
        | ok t' =>
          simp only [Except.map, ok_bind, h3, get?_years]
          cases Dict.get? t'.accum y <;> rfl

theorem personalDeduction_tax (t : Tax K) (y : ℤ) :
    personalDeduction (tax k t) (y + k) = personalDeduction t y := by
  unfold personalDeduction
  have h1 : (tax k t).personal = years k t.personal := rfl
  have h2 : (tax k t).adjust = adjust k t.adjust := rfl
  rw [h1, h2, mapVals_years, extend_years]

theorem creditRate_tax (t : Tax K) (y : ℤ) : creditRate (tax k t) (y + k) = creditRate t y := by
  unfold creditRate
  have h1 : (tax k t).creditRates = years k t.creditRates := rfl
  rw [h1, nearestYear_years]
  cases nearestYear t.creditRates y with
  | none => rfl
  | some b => simp only [Option.map_some, get?_years]

theorem marginalBracket_tax (t : Tax K) (x : K) (y : ℤ) :
    marginalBracket (tax k t) x (y + k) = (marginalBracket t x y).map (ans k) := by
  unfold marginalBracket
  rw [taxBrackets_tax]
  cases taxBrackets t y with
  | error e => rfl
  | ok r =>
    simp only [Except.map, ok_bind, ans]
    cases pickBracket r.1 x <;> rfl

theorem marginalRate_tax (t : Tax K) (x : K) (y : ℤ) :
    marginalRate (tax k t) x (y + k) = (marginalRate t x y).map (ans k) := by
  unfold marginalRate
  rw [taxBrackets_tax]
  cases taxBrackets t y with
  | error e => rfl
  | ok r =>
    simp only [Except.map, ok_bind, ans, marginalBracket_tax]
    cases marginalBracket r.2 x y with
    | error e => rfl
    | ok b =>
      simp only [Except.map, ok_bind, ans]
      cases getItem r.1 b.1 <;> rfl

theorem taxMoney_tax (t : Tax K) (x : K) (y : ℤ) (d c : K) :
    taxMoney (tax k t) x (y + k) d c = (taxMoney t x y d c).map (ans k) := by
  unfold taxMoney
  simp only [taxBrackets_tax]
  cases taxBrackets t y with
  | error e => rfl
  | ok r =>
    simp only [Except.map, ok_bind, ans, marginalBracket_tax]
    cases marginalBracket r.2 (x - d) y with
    | error e => rfl
    | ok b =>
      simp only [Except.map, ok_bind, ans]
      cases getItem r.1 b.1 with
      | error e => rfl
      | ok rate =>
        simp only [ok_bind, accum_tax]
        cases accum b.2 y with
        | error e => rfl
        | ok a =>
          simp only [Except.map, ok_bind, ans]
          cases getItem a.1 b.1 with
          | error e => rfl
          | ok acc =>
            simp only [ok_bind, creditRate_tax]
            cases creditRate a.2 y <;> rfl

/-! ## People -/

theorem hist_years (h : ℤ → Option K) (y : ℤ) : hist (fun y => h (y - k)) (y + k) = hist h y := by
  unfold hist
  simp only [add_sub_cancel_right]

theorem deductionFor_tax (t : Tax K) (p : Payer K) (y : ℤ) :
    deductionFor (tax k t) (payer k p) (y + k) = deductionFor t p y := by
  unfold deductionFor
  have h1 : (payer k p).taxDeduction = fun y => p.taxDeduction (y - k) := rfl
  rw [personalDeduction_tax, h1, hist_years]

/-- The later jurisdiction, with what the earlier one remembers. -/
def jur (k : ℤ) (j' j : Jur K) : Jur K := { j' with tax := tax k j.tax }

/-- An answer together with the jurisdiction. -/
def jans (k : ℤ) (j' : Jur K) (r : K × Jur K) : K × Jur K := (r.1, jur k j' r.2)

variable {j j' : Jur K}

theorem SameJurLater.jur (h : SameJurLater k j j') : Calendar.jur k j' j = j' := by
  unfold Calendar.jur
  rw [← h.tax]

theorem SameJurLater.after (h : SameJurLater k j j') {j1 : Jur K} (h1 : j1.credit = j.credit) :
    SameJurLater k j1 (Calendar.jur k j' j1) :=
  ⟨rfl, fun t p y => by rw [h1]; exact h.credit t p y⟩

theorem taxPerson_jur (h : SameJurLater k j j') (p : Payer K) (y : ℤ) (d c : K) :
    taxPerson j' (payer k p) (y + k) d c = (taxPerson j p y d c).map (jans k j') := by
  unfold taxPerson
  have h1 : (payer k p).taxDeduction = fun y => p.taxDeduction (y - k) := rfl
  have h2 : (payer k p).taxableIncome = fun y => p.taxableIncome (y - k) := rfl
  have h3 : (payer k p).taxCredit = fun y => p.taxCredit (y - k) := rfl
  rw [h1, h2, h3, hist_years, hist_years, hist_years, h.tax, deductionFor_tax, h.credit]
  cases hist p.taxableIncome y with
  | error e => rfl
  | ok x =>
    cases hist p.taxDeduction y with
    | error e => rfl
    | ok d1 =>
      cases deductionFor j.tax p y with
      | error e => rfl
      | ok d2 =>
        cases hist p.taxCredit y with
        | error e => rfl
        | ok c1 =>
          cases j.credit j.tax p y with
          | error e => rfl
          | ok c2 =>
            simp only [ok_bind, taxMoney_tax]
            cases taxMoney j.tax x y (d1 + d2 + d) (c1 + c2 + c) <;> rfl

theorem taxOne_jur (h : SameJurLater k j j') (p : Payer K) (y : ℤ) (d c : Dict ℕ K) :
    taxOne j' (payer k p) (y + k) d c = (taxOne j p y d c).map (jans k j') :=
  taxPerson_jur h p y _ _

theorem taxOne_credit {r : K × Jur K} {p : Payer K} {y : ℤ} {d c : Dict ℕ K}
    (h : taxOne j p y d c = .ok r) : r.2.credit = j.credit := Units.taxPerson_credit h

theorem taxSpouses_aux (h : SameJurLater k j j') (l : List (Payer K)) (y : ℤ) (d c : Dict ℕ K) (x : K)
    (j1 : Jur K) (h1 : j1.credit = j.credit) :
    (l.map (payer k)).foldlM (fun (acc : K × Jur K) p => do
        let (x, j) ← taxOne acc.2 p (y + k) d c
        .ok (acc.1 + x, j)) (x, Calendar.jur k j' j1) =
      (l.foldlM (fun (acc : K × Jur K) p => do
        let (x, j) ← taxOne acc.2 p y d c
        .ok (acc.1 + x, j)) (x, j1)).map (jans k j') ∧
    ∀ r, (l.foldlM (fun (acc : K × Jur K) p => do
        let (x, j) ← taxOne acc.2 p y d c
        .ok (acc.1 + x, j)) (x, j1)) = .ok r → r.2.credit = j.credit := by
  induction l generalizing x j1 with
  | nil => exact ⟨rfl, fun r hr => by cases hr; exact h1⟩
  | cons p l ih =>
    simp only [List.map_cons, List.foldlM_cons]
    rw [taxOne_jur (h.after h1)]
    cases hp : taxOne j1 p y d c with
    | error e => exact ⟨rfl, fun r hr => by cases hr⟩
    | ok r =>
      have h2 : r.2.credit = j.credit := (taxOne_credit hp).trans h1
      exact ih (x + r.1) r.2 h2

theorem taxSpouses_jur (h : SameJurLater k j j') (l : List (Payer K)) (y : ℤ) (d c : Dict ℕ K) :
    taxSpouses j' (l.map (payer k)) (y + k) d c = (taxSpouses j l y d c).map (jans k j') ∧
    ∀ r, taxSpouses j l y d c = .ok r → r.2.credit = j.credit := by
  have := taxSpouses_aux h l y d c 0 j rfl
  rw [h.jur] at this
  exact this

theorem filter_payer (l : List (Payer K)) (f : ℕ → Bool) :
    (l.map (payer k)).filter (fun r => f r.id) = (l.filter fun r => f r.id).map (payer k) := by
  rw [List.filter_map]
  rfl

theorem find_payer (l : List (Payer K)) (s : ℕ) :
    (l.map (payer k)).find? (fun q => q.id == s) = (l.find? fun q => q.id == s).map (payer k) := by
  rw [List.find?_map]
  rfl

theorem taxPeopleAux_jur (y : ℤ) (d c : Dict ℕ K) (n : ℕ) (j j' : Jur K) (h : SameJurLater k j j')
    (l : List (Payer K)) :
    taxPeopleAux n j' (l.map (payer k)) (y + k) d c = (taxPeopleAux n j l y d c).map (jans k j') := by
  induction n generalizing j j' l with
  | zero =>
    cases l with
    | nil =>
      simp only [List.map_nil, taxPeopleAux, Except.map, jans, h.jur]
    | cons p ps => rfl
  | succ n ih =>
    cases l with
    | nil => simp only [List.map_nil, taxPeopleAux, Except.map, jans, h.jur]
    | cons p ps =>
      rw [List.map_cons, taxPeopleAux, taxPeopleAux]
      have hs : (payer k p).spouse = p.spouse := rfl
      have hid : ∀ q : Payer K, (payer k q).id = q.id := fun _ => rfl
      have hf : ((payer k p).spouse.bind fun s => (payer k p :: ps.map (payer k)).find? fun q => q.id == s) =
          (p.spouse.bind fun s => (p :: ps).find? fun q => q.id == s).map (payer k) := by
        rw [hs, ← List.map_cons]
        cases p.spouse with
        | none => rfl
        | some s => exact find_payer _ s
      rw [hf]
      cases p.spouse.bind fun s => (p :: ps).find? fun q => q.id == s with
      | some q =>
        simp only [Option.map_some, hid, ← List.map_cons]
        have hif : (if q.id = p.id then [payer k p] else [payer k p, payer k q]) =
            (if q.id = p.id then [p] else [p, q]).map (payer k) := by split_ifs <;> rfl
        rw [hif]
        obtain ⟨e1, e2⟩ := taxSpouses_jur h (if q.id = p.id then [p] else [p, q]) y d c
        rw [e1]
        cases hx : taxSpouses j (if q.id = p.id then [p] else [p, q]) y d c with
        | error e => rfl
        | ok r =>
          simp only [Except.map, ok_bind, jans]
          rw [filter_payer (p :: ps) (fun i => i != p.id && i != q.id),
            ih r.2 (Calendar.jur k j' r.2) (h.after (e2 r hx))]
          cases taxPeopleAux n r.2 ((p :: ps).filter fun r => r.id != p.id && r.id != q.id) y d c <;> rfl
      | none =>
        simp only [Option.map_none, hid, ← List.map_cons]
        rw [taxOne_jur h]
        cases hx : taxOne j p y d c with
        | error e => rfl
        | ok r =>
          simp only [Except.map, ok_bind, jans]
          rw [filter_payer (p :: ps) (fun i => i != p.id),
            ih r.2 (Calendar.jur k j' r.2) (h.after (taxOne_credit hx))]
          cases taxPeopleAux n r.2 ((p :: ps).filter fun r => r.id != p.id) y d c <;> rfl

theorem call_jur (h : SameJurLater k j j') (i : Income K) (y : ℤ) (d c : Option (Amount K)) :
    Tax.call j' (income k i) (y + k) d c = (Tax.call j i y d c).map (jans k j') := by
  cases i with
  | money x =>
    simp only [income, Tax.call]
    cases Amount.asScalar d with
    | error e => rfl
    | ok d =>
      cases Amount.asScalar c with
      | error e => rfl
      | ok c =>
        simp only [ok_bind, h.tax, taxMoney_tax]
        cases taxMoney j.tax x y d c <;> rfl
  | person p =>
    simp only [income, Tax.call]
    cases Amount.asScalar d with
    | error e => rfl
    | ok d =>
      cases Amount.asScalar c with
      | error e => rfl
      | ok c => exact taxPerson_jur h p y d c
  | people l =>
    cases l with
    | nil =>
      simp only [income, List.map_nil, Tax.call, Except.map, jans, h.jur]
    | cons p l =>
      simp only [income, List.map_cons, Tax.call]
      cases Amount.asDict d with
      | error e => rfl
      | ok d =>
        cases Amount.asDict c with
        | error e => rfl
        | ok c =>
          simp only [ok_bind, taxPeople]
          have := taxPeopleAux_jur y d c (p :: l).length j j' h (p :: l)
          simp only [List.map_cons] at this
          simpa using this

/-! ## Canada -/

/-- What a Canadian jurisdiction looks at. -/
def canEnv (k : ℤ) (E : CanEnv K) : CanEnv K :=
  { E with
    pensionCap := years k E.pensionCap
    spousalAmount := years k E.spousalAmount
    payer := fun n => (E.payer n).map (payer k) }

theorem base_later (t : Tax K) : SameJurLater k (base t) (base (tax k t)) :=
  ⟨rfl, fun _ p y => hist_years p.taxCredit y⟩

theorem canada_later (E : CanEnv K) (t : Tax K) :
    SameJurLater k (canadaJur E t) (canadaJur (canEnv k E) (tax k t)) := by
  refine ⟨rfl, fun t p y => ?_⟩
  show canadaCredit (canEnv k E) (tax k t) (payer k p) (y + k) = canadaCredit E t p y
  unfold canadaCredit creditFor pensionCredit
  have h0 : (payer k p).taxCredit = fun y => p.taxCredit (y - k) := rfl
  have h1 : (canEnv k E).pensionCap = years k E.pensionCap := rfl
  have h2 : (tax k t).adjust = adjust k t.adjust := rfl
  have h3 : (canEnv k E).rrspOutflows (payer k p).id = E.rrspOutflows p.id := rfl
  have h4 : (payer k p).spouse.bind (canEnv k E).payer = (p.spouse.bind E.payer).map (payer k) := by
    show p.spouse.bind (fun n => (E.payer n).map (payer k)) = _
    cases p.spouse <;> rfl
  rw [h0, hist_years, h1, h2, h3, h4, mapVals_years, extend_years]
  cases hist p.taxCredit y with
  | error e => rfl
  | ok c =>
    simp only [ok_bind]
    cases p.spouse.bind E.payer with
    | none => rfl
    | some s =>
      simp only [Option.map_some]
      congr 1
      funext pc
      congr 1
      unfold spousalCredit
      have h5 : (canEnv k E).spousalAmount = years k E.spousalAmount := rfl
      simp only [h5, h2, mapVals_years, extend_years, deductionFor_tax]
      rfl

end Forecaster.Calendar
