import Verif.Model.Tax
import Verif.Model.Timing

/-!
# The rest of `TaxMulti` (`forecaster/tax.py:587-796`)

`Model/Tax.lean` has `__call__`, `tax_money`, `marginal_rate`, `marginal_bracket` and
`tax_brackets(year)`. Here are the other methods. As there, jurisdictions are identified by their
position (the code uses the `Tax` objects as keys). A `TaxMulti` among the jurisdictions of another
is not modelled: the methods of `TaxMulti` do not take the keywords `deduction` and `credit` with
which the jurisdictions are called, so that every one of these calls raises `TypeError`.
-/

namespace Forecaster.Tax

open Forecaster Forecaster.Inflation Forecaster.Timing

variable {K : Type} [Field K] [LinearOrder K] [IsStrictOrderedRing K]

/-- `sum(method(tax) for tax in self.jurisdictions)`. -/
def sumOver {J : Type} (js : List J) (f : J → ℕ → Except PyErr (K × J)) :
    Except PyErr (K × List J) := do
  let rs ← js.zipIdx.mapM fun ji => f ji.1 ji.2
  .ok ((rs.map Prod.fst).sum, rs.map Prod.snd)

/-- `TaxMulti.tax_people` (tax.py:758-768). What is missing for a jurisdiction is `None`, which
`Tax.tax_people` takes for an empty dict (tax.py:435-438). -/
def multiTaxPeople (js : List (Jur K)) (people : List (Payer K)) (year : ℤ)
    (ded cred : Dict ℕ (Dict ℕ K)) : Except PyErr (K × List (Jur K)) :=
  sumOver js fun j i => taxPeople j people year ((Dict.get? ded i).getD []) ((Dict.get? cred i).getD [])

/-- `TaxMulti.tax_spouses` (tax.py:770-780). -/
def multiTaxSpouses (js : List (Jur K)) (people : List (Payer K)) (year : ℤ)
    (ded cred : Dict ℕ (Dict ℕ K)) : Except PyErr (K × List (Jur K)) :=
  sumOver js fun j i => taxSpouses j people year ((Dict.get? ded i).getD []) ((Dict.get? cred i).getD [])

/-- `number + x`, where `x` may be `None`. -/
def plusNone (a : K) (x : Option K) : Except PyErr K :=
  match x with
  | some v => .ok (a + v)
  | none => .error .typeError

/-- `Tax.tax_person(person, year, deduction=..., credit=...)` (tax.py:384-414) with `None` for what is
missing: the additions raise `TypeError`, after what comes before them has been evaluated. -/
def taxPersonNone (j : Jur K) (p : Payer K) (year : ℤ) (deduction credit : Option K) :
    Except PyErr (K × Jur K) := do
  let income ← hist p.taxableIncome year
  let d1 ← hist p.taxDeduction year
  let d2 ← deductionFor j.tax p year
  let d ← plusNone (d1 + d2) deduction
  let c1 ← hist p.taxCredit year
  let c2 ← j.credit j.tax p year
  let c ← plusNone (c1 + c2) credit
  let (x, t) ← taxMoney j.tax income year d c
  .ok (x, { j with tax := t })

/-- `TaxMulti.tax_person` (tax.py:745-756). -/
def multiTaxPerson (js : List (Jur K)) (p : Payer K) (year : ℤ) (ded cred : Dict ℕ K) :
    Except PyErr (K × List (Jur K)) :=
  sumOver js fun j i => taxPersonNone j p year (Dict.get? ded i) (Dict.get? cred i)

/-- `Tax.tax_brackets(year, bracket)` (tax.py:194-211). -/
def bracketRate (t : Tax K) (year : ℤ) (bracket : K) : Except PyErr (K × Tax K) := do
  let (B, t) ← taxBrackets t year
  let r ← getItem B bracket
  .ok (r, t)

/-- `TaxMulti.tax_brackets(year, bracket)` (tax.py:669-675). -/
def multiBracketRate (js : List (Tax K)) (year : ℤ) (bracket : K) :
    Except PyErr (K × List (Tax K)) :=
  sumOver js fun t _ => bracketRate t year bracket

/-- `Tax.accum(year, bracket)` (tax.py:213-224). -/
def accumAt (t : Tax K) (year : ℤ) (bracket : K) : Except PyErr (K × Tax K) := do
  let (a, t) ← accum t year
  let v ← getItem a bracket
  .ok (v, t)

/-- `TaxMulti.accum(year, bracket)` (tax.py:692-696). Without a bracket the `accum` of the first
jurisdiction, a dict, is added to `0`, which raises `TypeError`. -/
def multiAccum (js : List (Tax K)) (year : ℤ) (bracket : Option K) :
    Except PyErr (K × List (Tax K)) :=
  match bracket with
  | some b => sumOver js fun t _ => accumAt t year b
  | none =>
    match js with
    | [] => .ok (0, [])
    | t :: _ => do
      let _ ← accum t year
      .error .typeError

/-- `self.jurisdictions[0]`. -/
def firstOf {J : Type} (js : List J) : Except PyErr J :=
  match js with
  | [] => .error .indexError
  | j :: _ => .ok j

/-- `TaxMulti.personal_deduction` (tax.py:698-700). -/
def multiPersonalDeduction (js : List (Tax K)) (year : ℤ) : Except PyErr K := do
  let t ← firstOf js
  personalDeduction t year

/-- `TaxMulti.credit_rate` (tax.py:716-718). -/
def multiCreditRate (js : List (Tax K)) (year : ℤ) : Except PyErr K := do
  let t ← firstOf js
  creditRate t year

/-- `TaxMulti.deduction(person, year)` (tax.py:702-705) calls the method `deductions` of the first
jurisdiction, which no `Tax` has. -/
def multiDeduction (js : List (Jur K)) (_p : Payer K) (_year : ℤ) : Except PyErr K := do
  let _ ← firstOf js
  .error .attributeError

/-- `TaxMulti.credit(person, year, deduction)` (tax.py:707-714): what the first jurisdiction says; the
deduction is handed on, but `credit` does not use it (tax.py:253-268, canada/tax.py:37-62). -/
def multiCredit (js : List (Jur K)) (p : Payer K) (year : ℤ) (_deduction : Option (Dict ℕ K)) :
    Except PyErr K := do
  let j ← firstOf js
  j.credit j.tax p year

/-! ### payment and refund timing -/

/-- A `Tax` object with its two timings (tax.py:189-192, 276-279, 286-289). -/
structure Authority (K : Type) where
  jur : Jur K
  payment : Dict K K
  refund : Dict K K

/-- `Tax.payment_timing = val` (tax.py:281-284). -/
def Authority.setPayment (a : Authority K) (val : Arg K) : Except PyErr (Authority K) := do
  let d ← Timing.init val (.num 1)
  .ok { a with payment := d }

/-- `Tax.refund_timing = val` (tax.py:291-294). -/
def Authority.setRefund (a : Authority K) (val : Arg K) : Except PyErr (Authority K) := do
  let d ← Timing.init val (.num 1)
  .ok { a with refund := d }

/-- `TaxMulti.payment_timing` (tax.py:649-652). -/
def multiPayment (as : List (Authority K)) : Except PyErr (Dict K K) := do
  let a ← firstOf as
  .ok a.payment

/-- `TaxMulti.refund_timing` (tax.py:659-662). -/
def multiRefund (as : List (Authority K)) : Except PyErr (Dict K K) := do
  let a ← firstOf as
  .ok a.refund

/-- `TaxMulti.payment_timing = val` (tax.py:654-657). -/
def multiSetPayment (as : List (Authority K)) (val : Arg K) : Except PyErr (List (Authority K)) :=
  match as with
  | [] => .error .indexError
  | a :: as => do
    let a ← a.setPayment val
    .ok (a :: as)

/-- `TaxMulti.refund_timing = val` (tax.py:664-667). -/
def multiSetRefund (as : List (Authority K)) (val : Arg K) : Except PyErr (List (Authority K)) :=
  match as with
  | [] => .error .indexError
  | a :: as => do
    let a ← a.setRefund val
    .ok (a :: as)

end Forecaster.Tax
