import Verif.Model.Person

/-!
# The dates, the tax treatment and the creation of a `Person` (`forecaster/person.py`)

`Model/Person` has the values computed by the setters. Here are the attributes themselves, with
what an assignment that raises leaves behind, and the constructor, with what it leaves behind when
it raises half-way.

Dates are given as a `datetime` or as a four-digit year; other strings are not modelled, nor the
years 1 to 9999 to which `datetime` is confined.
-/

namespace Forecaster.Person

open Forecaster Forecaster.Account

/-- How a date is given: a `datetime`, or something that `dateutil` reads as a year. -/
inductive DateArg
  | date (d : Date)
  | year (y : ℤ)
  deriving DecidableEq

/-- The `birth_date` setter (person.py:166-184): with a bare year, January 1 at midnight. -/
def birthOf : DateArg → Date
  | .date d => d
  | .year y => ⟨y, 1, 1, 0⟩

/-- The parsing in the `retirement_date` setter (person.py:212-216): with a bare year, the month,
day and time of birth. -/
def retirementOf (birth : Date) : DateArg → Date
  | .date d => d
  | .year y => birth.inYear y

/-- What can be given as a tax treatment: `None`, something callable, something else. -/
inductive TaxArg (T : Type)
  | none
  | callable (t : T)
  | other

/-- `_birth_date`, `_retirement_date` and `_tax_treatment` (person.py:136-142). -/
structure Profile (T : Type) where
  birth : Date
  retirement : Option Date
  treatment : Option T

/-- The `retirement_date` setter (person.py:191-222). For `None` it stores `None` and then
raises. -/
def assignRetirement {T : Type} (p : Profile T) : Option DateArg → Profile T × Except PyErr Unit
  | none =>
    ({ p with
        retirement := none }, .error .notImplementedError)
  | some a =>
    let d := retirementOf p.birth a
    if d.Before p.birth then (p, .error .valueError)
    else
      ({ p with
          retirement := some d }, .ok ())

/-- The `tax_treatment` setter (person.py:311-319). -/
def assignTreatment {T : Type} (p : Profile T) : TaxArg T → Profile T × Except PyErr Unit
  | .none =>
    ({ p with
        treatment := none }, .ok ())
  | .callable t =>
    ({ p with
        treatment := some t }, .ok ())
  | .other => (p, .error .typeError)

/-- An assignment to one of the attributes. -/
inductive Assign (T : Type)
  | birth (a : DateArg)
  | retirement (a : Option DateArg)
  | retirementAge (n : Option ℤ)
  | treatment (a : TaxArg T)

/-- The effect of an assignment (person.py:161-239, 306-319). The `retirement_age` setter goes
through the one of `retirement_date` (person.py:229-239); the `birth_date` setter looks at nothing
else (person.py:166-184). -/
def assign {T : Type} (p : Profile T) : Assign T → Profile T × Except PyErr Unit
  | .birth a =>
    ({ p with
        birth := birthOf a }, .ok ())
  | .retirement a => assignRetirement p a
  | .retirementAge none => assignRetirement p none
  | .retirementAge (some n) =>
    assignRetirement p (some (.date (p.birth.inYear (p.birth.year + n))))
  | .treatment a => assignTreatment p a

/-- A program of assignments; it catches what they raise. -/
def assignAll {T : Type} (p : Profile T) (l : List (Assign T)) : Profile T :=
  l.foldl (fun p a => (assign p a).1) p

/-- `retirement_age` (person.py:224-227). `relativedelta(None, birth)` is an empty interval, of 0
years; otherwise the whole years between, for a retirement not before birth. -/
def Profile.retirementAge {T : Type} (p : Profile T) : ℤ :=
  match p.retirement with
  | none => 0
  | some d => Person.retirementAge p.birth d

/-- The value `gross_income` computes for a new year from last year's and the raise
(person.py:325-340). -/
def Profile.incomeIn {T K : Type} [Field K] (p : Profile T) (year : ℤ) (last rate : K) : K :=
  match p.retirement with
  | none => last * (1 + rate)
  | some d => if d.year < year then 0 else last * (1 + rate)

section Create

variable {K : Type} [Field K] [LinearOrder K] [IsStrictOrderedRing K] {P : Type} [DecidableEq P]

/-- The rest of `Person.__init__` after the spouse (person.py:149-154). -/
def createIncome (year : ℤ) (p : Profile (K → ℤ → Except PyErr K)) (ret : Date)
    (raise : RaiseArg K) (tax : TaxArg (K → ℤ → Except PyErr K)) (income : K) :
    Except PyErr (Profile (K → ℤ → Except PyErr K) × Earner K) :=
  match assignTreatment p tax with
  | (_, .error e) => .error e
  | (p', .ok _) => do
    let e ← Earner.init year ret raise p'.treatment income
    .ok (p', e)

/-- `Person.__init__` (person.py:112-159) of the new object `self`: birth date, retirement date,
raise, spouse, tax treatment, gross income, net income, in this order. What it did to the spouse
stays done when it raises later. -/
def create (s : Couples P) (self : P) (year : ℤ) (birth : DateArg) (ret : Option DateArg)
    (raise : RaiseArg K) (spouse : SpouseArg P) (tax : TaxArg (K → ℤ → Except PyErr K))
    (income : K) :
    Couples P × Except PyErr (Profile (K → ℤ → Except PyErr K) × Earner K) :=
  let s0 := put s self none
  let p0 : Profile (K → ℤ → Except PyErr K) :=
    { birth := birthOf birth, retirement := none, treatment := none }
  match assignRetirement p0 ret with
  | (_, .error e) => (s0, .error e)
  | (p1, .ok _) =>
    match setSpouse s0 self spouse with
    | (s1, .error e) => (s1, .error e)
    | (s1, .ok _) =>
      match p1.retirement with
      | none => (s1, .error .notImplementedError)
      | some d => (s1, createIncome year p1 d raise tax income)

end Create

end Forecaster.Person
