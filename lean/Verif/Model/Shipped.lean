import Verif.Model.Tax
import Verif.Model.Allocation
import Verif.Model.Expenses
import Verif.Model.Registered

/-!
# The shipped numbers

`forecaster/settings.py`, `forecaster/canada/constants.py` and the files in `forecaster/data`
(which contain the same numbers, and 2017 for the year), with the objects that are built from them:
`canada/tax.py:13-34, 162-185` and, for the defaults of `Forecaster`, `forecaster.py:45-79`.
How the files are read is modelled in `Model/Reader.lean`, how `Forecaster` fills in the settings in
`Model/Builder.lean`.
-/

namespace Forecaster.Shipped

open Forecaster Forecaster.Inflation

variable {K : Type} [Field K] [LinearOrder K] [IsStrictOrderedRing K]

/-! ### Canadian tax -/

/-- The jurisdictions with shipped constants (canada/constants.py:135-176). -/
inductive Place
  | federal | bc
  deriving DecidableEq

/-- `TAX_BRACKETS` (canada/constants.py:147-166, data/canada.constants.json:79-98). -/
def taxBrackets : Place → Dict ℤ (Dict K K)
  | .federal => [(2017, [(0, 15 / 100), (4596123 / 100, 205 / 1000), (9192145 / 100, 26 / 100),
      (14249382 / 100, 29 / 100), (203000, 33 / 100)])]
  | .bc => [(2017, [(0, 15 / 100), (4596123 / 100, 205 / 1000), (9192145 / 100, 26 / 100),
      (14249382 / 100, 29 / 100), (203000, 33 / 100)])]

/-- `TAX_PERSONAL_DEDUCTION` (canada/constants.py:135-138). -/
def personalDeduction : Place → Dict ℤ K
  | .federal => [(2017, 11635)]
  | .bc => [(2017, 10208)]

/-- `TAX_PENSION_CREDIT` (canada/constants.py:139-142). -/
def pensionCap : Place → Dict ℤ K
  | .federal => [(2017, 2000)]
  | .bc => [(2017, 1000)]

/-- `TAX_CREDIT_RATE` (canada/constants.py:143-146). -/
def creditRate : Place → Dict ℤ K
  | .federal => [(2017, 15 / 100)]
  | .bc => [(2017, 506 / 10000)]

/-- `TAX_SPOUSAL_AMOUNT` (canada/constants.py:168-171). -/
def spousalAmount : Place → Dict ℤ K
  | .federal => [(2017, 11635)]
  | .bc => [(2017, 9614)]

/-- What a `TaxCanadaJurisdiction` sees of the household: the outflows of each person's RRSPs, the
persons, their current taxable incomes and the order of their memory addresses
(canada/tax.py:64-149). -/
structure Household (K : Type) where
  rrspOutflows : ℕ → List K
  payer : ℕ → Option (Tax.Payer K)
  income : ℕ → K
  idLt : ℕ → ℕ → Bool

/-- `TaxCanadaJurisdiction.__init__` (canada/tax.py:13-34) with the shipped constants: the `Tax`
object. -/
def jurisdiction (p : Place) (adj : Adjust K) : Except PyErr (Tax.Tax K) :=
  Tax.init (taxBrackets p) (personalDeduction p) (creditRate p) adj

/-- The constants and the household as the credits see them (canada/tax.py:64-149). -/
def canEnv (p : Place) (h : Household K) : Tax.CanEnv K :=
  ⟨pensionCap p, spousalAmount p, h.rrspOutflows, h.payer, h.income, h.idLt⟩

/-- `TaxCanada.__init__` (canada/tax.py:162-185) with the shipped constants and the province of
British Columbia (the default). -/
def taxCanada (adj : Adjust K) : Except PyErr (Tax.Tax K × Tax.Tax K) := do
  let f ← jurisdiction .federal adj
  let p ← jurisdiction .bc adj
  .ok (f, p)

/-- `TaxCanada.__call__` for one person and no further arguments (canada/tax.py:189-250). `f` and
`p` are the present states of the federal and the provincial object. -/
def canadianTax (h : Household K) (f p : Tax.Tax K) (person : Tax.Payer K) (year : ℤ) :
    Except PyErr K :=
  (Tax.canadaCall (Tax.canadaJur (canEnv .federal h) f) (Tax.canadaJur (canEnv .bc h) p)
    (.person person) year none none none none none none).1.map Prod.fst

/-! ### The default settings -/

/-- The default `Scenario` (settings.py:130-141, data/settings.json, forecaster.py:46-53). -/
def scenario : Except PyErr (Scenario K) :=
  Scenario.init 2017 100 (.scalar (2 / 100)) (.scalar (7 / 100)) (.scalar (4 / 100))
    (.scalar (3 / 100)) (.scalar (5 / 1000))

/-- The default `AllocationStrategy` (settings.py:157-164, forecaster.py:65-72). -/
def allocation : Except PyErr (Allocation.Strat K) :=
  Allocation.init (.str "n-age") 65 (3 / 10) (3 / 10) 65 20 true

/-- The returns that `RateFunction` reads from a scenario (strategy/allocation.py:41-48); the
management fees are not read. -/
def returnsOf (s : Scenario K) (year : ℤ) : Except PyErr (Allocation.Returns K) := do
  let a ← s.stockReturn.get year
  let b ← s.bondReturn.get year
  let c ← s.otherReturn.get year
  .ok ⟨a, b, c⟩

/-- `RateFunction.__call__` (strategy/allocation.py:27-48). -/
def rateFunction (st : Allocation.Strat K) (s : Scenario K) (age : ℤ → Except PyErr K)
    (retirementAge : Option K) (year : ℤ) : Except PyErr K :=
  Allocation.rate st (age year) retirementAge (returnsOf s year)

/-- The inflation adjustment of a scenario as `LivingExpensesStrategy` calls it: a missing year
would be `None`, with which `range` fails (scenario.py:263-288). -/
def adjustOf (s : Scenario K) : Option ℤ → Option ℤ → Except PyErr K
  | some y, base => s.inflationAdjust y base
  | none, _ => .error .typeError

/-- The default `LivingExpensesStrategy` (settings.py:143-147, forecaster.py:54-58). -/
def livingExpenses (s : Scenario K) : Except PyErr (Expenses.Strat K) :=
  Expenses.init (.str "Constant living expenses") 60000 (2 / 10) (some (adjustOf s))

/-- The default `Tax` (settings.py:170-173, forecaster.py:73-78). -/
def plainTax (s : Scenario K) : Except PyErr (Tax.Tax K) :=
  Tax.init [(2017, [(0, 0)])] [(2017, 0)] [(2017, 0)] fun y b => s.inflationAdjust y (some b)

/-! ### Registered accounts -/

/-- The `TFSA_*` constants (canada/constants.py:99-115). -/
def tfsa : Registered.TfsaConst K :=
  ⟨[(2009, 5000), (2010, 5000), (2011, 5000), (2012, 5000), (2013, 5500), (2014, 5500),
    (2015, 10000), (2016, 5500), (2017, 5500)], 18, 500⟩

/-- `RRSP_RRIF_WITHDRAWAL_MIN` (canada/constants.py:71-97). -/
def rrifMin : Dict ℤ K :=
  [(71, 528 / 10000), (72, 540 / 10000), (73, 553 / 10000), (74, 567 / 10000), (75, 582 / 10000),
   (76, 598 / 10000), (77, 617 / 10000), (78, 636 / 10000), (79, 658 / 10000), (80, 682 / 10000),
   (81, 708 / 10000), (82, 738 / 10000), (83, 771 / 10000), (84, 808 / 10000), (85, 851 / 10000),
   (86, 899 / 10000), (87, 955 / 10000), (88, 1021 / 10000), (89, 1099 / 10000),
   (90, 1192 / 10000), (91, 1306 / 10000), (92, 1449 / 10000), (93, 1634 / 10000),
   (94, 1879 / 10000), (95, 2000 / 10000)]

/-- The `RRSP_*` constants (canada/constants.py:58-97). -/
def rrsp : Registered.RrspConst K :=
  ⟨18 / 100, [(2017, 2575055 / 100)], [(2017, [(0, 1 / 10), (5000, 2 / 10), (15000, 3 / 10)])], 71,
    rrifMin⟩

end Forecaster.Shipped
