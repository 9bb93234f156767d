import Verif.Model.Dict
import Verif.Model.Err
import Mathlib.Data.Rat.Floor

/-!
# `forecaster/forecaster.py` and `canada/forecaster.py`

Objects are numbers in a heap; a built object is recorded with its type and the arguments it was
built with.

Simplifications. Dot-delimited names are split already: `"settings.initial_year"` is
`("settings", ["initial_year"])`. `default_builders` is empty in every class, so `_special_builder`
has no effect and is left out. What constructors do with their arguments, other than rejecting an
argument given twice, is a parameter (`construct`), and so are the attributes of settings,
scenarios etc. (`getattr`). Recursion is limited by `fuel` (Python's recursion limit). The copies
that `run_forecast` makes of people, accounts and debts (lines 232-236) are not modelled; the copies
are the arguments of `run` here.
-/

namespace Forecaster.Builder

open Forecaster

/-- The classes of parameters (forecaster.py:82-88, canada/forecaster.py:17); another class is given
by its name and whether it takes `high_precision`. -/
inductive Ty
  | scenario | livingExpenses | transaction | allocation | tax | taxCanada
  | other (name : String) (highPrecision : Bool)
  deriving DecidableEq

/-- `issubclass(param_type, ...)` for any of `HIGHPRECISIONTYPES` (forecaster.py:97-103). -/
def Ty.highPrecision : Ty → Bool
  | .scenario => false
  | .other _ b => b
  | _ => true

/-- The leading positional parameters of the constructors (scenario.py:34-37,
gross_transaction.py:69-71, transaction/strategy.py:70-73, allocation.py:121-124, tax.py:114-117,
canada/tax.py:162-163). -/
def Ty.positional : Ty → List String
  | .scenario => ["initial_year", "num_years", "inflation", "stock_return", "bond_return",
      "other_return", "management_fees"]
  | .livingExpenses => ["strategy", "base_amount", "rate", "inflation_adjust"]
  | .transaction => ["strategy", "weights", "debt_strategy", "high_interest_threshold"]
  | .allocation => ["strategy", "target", "min_equity", "max_equity", "standard_retirement_age",
      "risk_transition_period", "adjust_for_retirement_plan"]
  | .tax => ["tax_brackets", "personal_deduction", "credit_rate", "inflation_adjust",
      "refund_timing", "payment_timing"]
  | .taxCanada => ["inflation_adjust", "province", "constants"]
  | .other _ _ => []

/-- Python floats. -/
inductive Flt
  | fin (q : ℚ) | inf (neg : Bool) | nan
  deriving DecidableEq

/-- Values: `None`, strings, numbers, values given by the user, objects built here, classes. -/
inductive Val
  | none
  | str (s : String)
  | int (n : ℤ)
  | float (x : Flt)
  | given (n : ℕ)
  | obj (n : ℕ)
  | cls (t : Ty)
  deriving DecidableEq

/-- A built object: its class and the arguments of its constructor. -/
structure Obj where
  ty : Ty
  args : List Val
  kwargs : Dict String Val
  deriving DecidableEq

/-- A `Forecaster` (forecaster.py:134-165). `attrs` holds `settings` and the parameters. -/
structure Fc where
  attrs : Dict String Val
  highPrecision : Val
  defaults : Dict String (Dict String (String × List String))
  types : Dict String Ty
  deriving DecidableEq

/-- The forecaster, the objects built so far and the `memo` in use. -/
structure St where
  fc : Fc
  heap : List Obj
  memo : Dict String Val
  deriving DecidableEq

/-- What the methods rest on. -/
structure Env where
  /-- `getattr(value, name)` -/
  getattr : Val → String → Except PyErr Val
  /-- Exceptions raised by constructors. -/
  construct : Ty → List Val → Dict String Val → Except PyErr Unit
  /-- `float(str)`; `none` is a `ValueError`. -/
  float : String → Option Flt
  /-- Calling the `high_precision` callable. -/
  high : Val → Except PyErr Val

/-- Programs that change the state and may raise. -/
def M (α : Type) : Type := St → Except PyErr α × St

/-- Sequencing. -/
def M.bind {α β : Type} (m : M α) (f : α → M β) : M β := fun s =>
  match m s with
  | (.ok a, s') => f a s'
  | (.error e, s') => (.error e, s')

/-- Returning. -/
def M.pure {α : Type} (a : α) : M α := fun s => (.ok a, s)

instance : Monad M where
  pure := M.pure
  bind := M.bind

/-- Raising. -/
def raise {α : Type} (e : PyErr) : M α := fun s => (.error e, s)

/-- A step that does not change the state. -/
def lift {α : Type} (x : Except PyErr α) : M α := fun s => (x, s)

/-- `getattr(self, name)` of the forecaster. -/
def selfAttr (name : String) : M Val := fun s =>
  match Dict.get? s.fc.attrs name with
  | some v => (.ok v, s)
  | none => (.error .attributeError, s)

/-- `reduce(getattr, names, attr)` (forecaster.py:202). -/
def follow (E : Env) (v : Val) (names : List String) : Except PyErr Val :=
  names.foldlM (fun v n => E.getattr v n) v

/-- Building an optional attribute that has not been provided (forecaster.py:195-196). -/
def orBuild (build : String → M Val) (name : String) (attr : Val) : M Val := fun s =>
  if attr = .none ∧ name ∈ Dict.keys s.fc.defaults then build name s else (.ok attr, s)

/-- `_get_attr_recursive` (forecaster.py:167-202); `build` is `build_param`. -/
def getAttrRec (E : Env) (build : String → M Val) (name : String × List String) : M Val := do
  let attr ← selfAttr name.1
  let attr ← orBuild build name.1 attr
  lift (follow E attr name.2)

/-- The loop over the defaults (forecaster.py:349-350). -/
def readDefaults (E : Env) (build : String → M Val) :
    Dict String (String × List String) → M (Dict String Val)
  | [] => pure []
  | (key, value) :: rest => do
    let v ← getAttrRec E build value
    let vs ← readDefaults E build rest
    pure ((key, v) :: vs)

/-- `param_type(*args, **kwargs)` (forecaster.py:366): an argument must not be given twice. -/
def construct (E : Env) (ty : Ty) (args : List Val) (kwargs : Dict String Val) : M Val := fun s =>
  if (ty.positional.take args.length).any (fun n => decide (n ∈ Dict.keys kwargs)) then
    (.error .typeError, s)
  else
    match E.construct ty args kwargs with
    | .error e => (.error e, s)
    | .ok () => (.ok (.obj s.heap.length), { s with heap := s.heap ++ [⟨ty, args, kwargs⟩] })

/-- The arguments after filling in `high_precision` (forecaster.py:360-365). -/
def withPrecision (ty : Ty) (kwargs : Dict String Val) : M (Dict String Val) := fun s =>
  (.ok (if ty.highPrecision ∧ "high_precision" ∉ Dict.keys kwargs then
    Dict.set kwargs "high_precision" s.fc.highPrecision else kwargs), s)

/-- The class of the parameter (forecaster.py:358-359). -/
def typeOf (name : String) (ty : Option Ty) : M Ty := fun s =>
  match ty with
  | some t => (.ok t, s)
  | none =>
    match Dict.get? s.fc.types name with
    | some t => (.ok t, s)
    | none => (.error .keyError, s)

/-- The keyword arguments: defaults, overridden by explicit ones (forecaster.py:343-354). -/
def fillIn (E : Env) (build : String → M Val) (name : String) (kwargs : Dict String Val) :
    M (Dict String Val) := fun s =>
  match Dict.get? s.fc.defaults name with
  | none => (.ok kwargs, s)
  | some ds => (do
      let vs ← readDefaults E build ds
      pure (Dict.update vs kwargs) : M (Dict String Val)) s

/-- `memo[param_name] = param` (forecaster.py:367). -/
def remember (name : String) (v : Val) : M Unit := fun s =>
  (.ok (), { s with memo := Dict.set s.memo name v })

/-- `build_param` (forecaster.py:290-368) with a `memo`. -/
def buildParam (E : Env) : ℕ → String → List Val → Option Ty → Dict String Val → M Val
  | 0, _, _, _, _ => raise .recursionError
  | fuel + 1, name, args, ty, kwargs => fun s =>
    match Dict.get? s.memo name with
    | some v => (.ok v, s)
    | none => (do
        let kwargs ← fillIn E (fun n => buildParam E fuel n [] none []) name kwargs
        let t ← typeOf name ty
        let kwargs ← withPrecision t kwargs
        let param ← construct E t args kwargs
        remember name param
        pure param : M Val) s

/-- A call without a `memo` (forecaster.py:330-331): a new one, thrown away afterwards. -/
def ownMemo {α : Type} (m : M α) : M α := fun s =>
  let r := m { s with memo := [] }
  (r.1, { r.2 with memo := s.memo })

/-- `int(x)` of a float. -/
def toInt : Flt → Except PyErr ℤ
  | .fin q => .ok (if 0 ≤ q then ⌊q⌋ else ⌈q⌉)
  | .inf _ => .error .overflowError
  | .nan => .error .valueError

/-- The conversion of strings at the end of `get_param` (forecaster.py:405-438). -/
def convert (E : Env) (highPrecision : Val) (v : Val) : Except PyErr Val :=
  match v with
  | .str s =>
    match E.float s with
    | none => .ok v
    | some x => do
      let n ← toInt x
      if x = .fin (n : ℚ) then .ok (.int n)
      else if highPrecision ≠ .none then
        match E.high v with
        | .ok w => .ok w
        | .error _ => E.high (.float x)
      else .ok (.float x)
  | v => .ok v

/-- The conversion as a step. -/
def converted (E : Env) (v : Val) : M Val := fun s => (convert E s.fc.highPrecision v, s)

/-- Building the parameter if it has not been assigned (forecaster.py:402-403). -/
def orDefault (E : Env) (fuel : ℕ) (name : String) (attr : Val) : M Val := fun s =>
  if attr = .none then buildParam E fuel name [] none [] s else (.ok attr, s)

/-- `get_param` (forecaster.py:370-438) with a `memo`. -/
def getParam (E : Env) (fuel : ℕ) (name : String) : M Val := do
  let attr ← selfAttr name
  let attr ← orDefault E fuel name attr
  converted E attr

/-- `setattr(self, name, value)`. -/
def setAttr (name : String) (v : Val) : M Unit := fun s =>
  (.ok (), { s with fc := { s.fc with attrs := Dict.set s.fc.attrs name v } })

/-- `set_param` (forecaster.py:440-478) with a `memo`. -/
def setParam (E : Env) (fuel : ℕ) (name : String) (args : List Val) (ty : Option Ty)
    (kwargs : Dict String Val) : M Unit := do
  let param ← buildParam E fuel name args ty kwargs
  setAttr name param

/-- `build_allocation_strategy` (forecaster.py:480-495): the class itself is passed as the first
positional argument. -/
def buildAllocationStrategy (E : Env) (fuel : ℕ) (args : List Val) (kwargs : Dict String Val) :
    M Val :=
  ownMemo (buildParam E fuel "allocation_strategy" (.cls .allocation :: args) none kwargs)

/-- The arguments of the sub-forecasts and of the forecast (forecaster.py:252-285). -/
structure Run where
  incomeYear : Val
  incomePeople : Val
  livingExpensesYear : Val
  livingExpensesPeople : Val
  livingExpensesStrategy : Val
  savingYear : Val
  savingAccounts : Val
  savingDebts : Val
  savingStrategy : Val
  withdrawalYear : Val
  withdrawalPeople : Val
  withdrawalAccounts : Val
  withdrawalStrategy : Val
  taxYear : Val
  taxPeople : Val
  taxTreatment : Val
  scenario : Val
  precisions : List Val
  deriving DecidableEq

/-- The calls of the constructors of the sub-forecasts and of the forecast
(forecaster.py:252-285). -/
def assemble (year people accounts debts scenario living saving withdrawal tax : Val) : M Run :=
  fun s => (.ok
    { incomeYear := year
      incomePeople := people
      livingExpensesYear := year
      livingExpensesPeople := people
      livingExpensesStrategy := living
      savingYear := year
      savingAccounts := accounts
      savingDebts := debts
      savingStrategy := saving
      withdrawalYear := year
      withdrawalPeople := people
      withdrawalAccounts := accounts
      withdrawalStrategy := withdrawal
      taxYear := year
      taxPeople := people
      taxTreatment := tax
      scenario := scenario
      precisions := List.replicate 6 s.fc.highPrecision }, s)

/-- `run_forecast` (forecaster.py:204-288), up to the creation of the forecast. -/
def run (E : Env) (fuel : ℕ) (people accounts debts : Val) : M Run := ownMemo do
  let scenario ← getParam E fuel "scenario"
  let year ← lift (E.getattr scenario "initial_year")
  let living ← getParam E fuel "living_expenses_strategy"
  let saving ← getParam E fuel "saving_strategy"
  let withdrawal ← getParam E fuel "withdrawal_strategy"
  let tax ← getParam E fuel "tax_treatment"
  assemble year people accounts debts scenario living saving withdrawal tax

/-- `DEFAULTVALUES` (forecaster.py:45-79). -/
def defaultValues : Dict String (Dict String (String × List String)) :=
  [("scenario",
      [("initial_year", ("settings", ["initial_year"])),
       ("inflation", ("settings", ["inflation"])),
       ("stock_return", ("settings", ["stock_return"])),
       ("bond_return", ("settings", ["bond_return"])),
       ("other_return", ("settings", ["other_return"])),
       ("management_fees", ("settings", ["management_fees"])),
       ("num_years", ("settings", ["num_years"]))]),
   ("living_expenses_strategy",
      [("strategy", ("settings", ["living_expenses_strategy"])),
       ("base_amount", ("settings", ["living_expenses_base_amount"])),
       ("rate", ("settings", ["living_expenses_rate"])),
       ("inflation_adjust", ("scenario", ["inflation_adjust"]))]),
   ("saving_strategy",
      [("strategy", ("settings", ["saving_strategy"])),
       ("weights", ("settings", ["saving_weights"]))]),
   ("withdrawal_strategy",
      [("strategy", ("settings", ["withdrawal_strategy"])),
       ("weights", ("settings", ["withdrawal_weights"]))]),
   ("allocation_strategy",
      [("strategy", ("settings", ["allocation_strategy"])),
       ("target", ("settings", ["allocation_target"])),
       ("min_equity", ("settings", ["allocation_min_equity"])),
       ("max_equity", ("settings", ["allocation_max_equity"])),
       ("standard_retirement_age", ("settings", ["allocation_std_retirement_age"])),
       ("risk_transition_period", ("settings", ["allocation_risk_trans_period"])),
       ("adjust_for_retirement_plan", ("settings", ["allocation_adjust_retirement"]))]),
   ("tax_treatment",
      [("tax_brackets", ("settings", ["tax_brackets"])),
       ("personal_deduction", ("settings", ["tax_personal_deduction"])),
       ("credit_rate", ("settings", ["tax_credit_rate"])),
       ("inflation_adjust", ("scenario", ["inflation_adjust"])),
       ("payment_timing", ("settings", ["tax_payment_timing"]))])]

/-- `DEFAULTTYPES` (forecaster.py:82-88). -/
def defaultTypes : Dict String Ty :=
  [("scenario", .scenario), ("living_expenses_strategy", .livingExpenses),
   ("saving_strategy", .transaction), ("withdrawal_strategy", .transaction),
   ("allocation_strategy", .allocation), ("tax_treatment", .tax)]

/-- `Forecaster.__init__` (forecaster.py:134-165); `builtin` is a new `Settings()`. -/
def init (builtin settings scenario livingExpenses saving withdrawal tax highPrecision : Val) : Fc where
  attrs := [("settings", if settings = .none then builtin else settings), ("scenario", scenario),
    ("living_expenses_strategy", livingExpenses), ("saving_strategy", saving),
    ("withdrawal_strategy", withdrawal), ("tax_treatment", tax), ("allocation_strategy", .none)]
  highPrecision := highPrecision
  defaults := defaultValues
  types := defaultTypes

/-- `ForecasterCanada.__init__` (canada/forecaster.py:10-33) with keyword arguments; `builtin` is a
new `SettingsCanada()`. -/
def initCanada (builtin settings scenario livingExpenses saving withdrawal tax highPrecision : Val) :
    Fc :=
  let settings := if settings = .none then builtin else settings
  let fc := init .none settings scenario livingExpenses saving withdrawal tax highPrecision
  { fc with
    defaults := Dict.update fc.defaults
      [("tax_treatment",
        [("inflation_adjust", ("scenario", ["inflation_adjust"])),
         ("province", ("settings", ["tax_province"]))])]
    types := Dict.update fc.types [("tax_treatment", .taxCanada)] }

end Forecaster.Builder
