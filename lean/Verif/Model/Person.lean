import Verif.Model.Account
import Mathlib.Data.Prod.Lex

/-!
# `forecaster/person.py`

Dates are proleptic Gregorian dates with a time of day (`datetime`). Of `dateutil` only two things
are used and modelled, as documented: `parse("<year>", default=d)` takes everything but the year
from `d` and falls back to the last day of the month if the day does not exist, and
`relativedelta(years=n)` adds years with the same fallback.

Not modelled: parsing of other strings, `payment_timing`, `accounts` and `data` (only their sums
matter here), `inputs`.
-/

namespace Forecaster.Person

open Forecaster Forecaster.Account

/-- A `datetime`; `time` is the time of day in microseconds. -/
structure Date where
  year : ℤ
  month : ℕ
  day : ℕ
  time : ℕ
  deriving DecidableEq

/-- The Gregorian rule for leap years. -/
def leap (y : ℤ) : Bool := decide (y % 4 = 0 ∧ (y % 100 ≠ 0 ∨ y % 400 = 0))

/-- `calendar.monthrange(y, m)[1]`. -/
def daysIn (y : ℤ) (m : ℕ) : ℕ :=
  if m = 2 then (if leap y then 29 else 28)
  else if m = 4 ∨ m = 6 ∨ m = 9 ∨ m = 11 then 30 else 31

/-- A date that exists. -/
def Date.Valid (d : Date) : Prop := 1 ≤ d.month ∧ d.month ≤ 12 ∧ 1 ≤ d.day ∧ d.day ≤ daysIn d.year d.month

/-- The part of the date that is compared after the year. -/
def Date.rest (d : Date) : ℕ ×ₗ ℕ ×ₗ ℕ := toLex (d.month, toLex (d.day, d.time))

/-- `a < b` for datetimes. -/
def Date.Before (a b : Date) : Prop := a.year < b.year ∨ (a.year = b.year ∧ a.rest < b.rest)

instance (a b : Date) : Decidable (a.Before b) := by unfold Date.Before; infer_instance

/-- `date.replace(y)`: `ValueError` if there is no such day in year `y`. -/
def Date.replaceYear (d : Date) (y : ℤ) : Except PyErr Date :=
  if d.day ≤ daysIn y d.month then .ok { d with year := y } else .error .valueError

/-- `parse(str(y), default=d)` for a year `y`, and also `d + relativedelta(years=y - d.year)`: the
day falls back to the end of the month. -/
def Date.inYear (d : Date) (y : ℤ) : Date := { d with year := y, day := min d.day (daysIn y d.month) }

/-- `Person.age` for a `datetime` (person.py:357-388). -/
def age (birth date : Date) : Except PyErr ℤ := do
  let d ← date.replaceYear birth.year
  .ok (if d.Before birth then date.year - birth.year - 1 else date.year - birth.year)

/-- `Person.age` for a year (person.py:377-379): the year is parsed first. -/
def ageInYear (birth : Date) (year : ℤ) : Except PyErr ℤ := age birth (birth.inYear year)

/-- `Person.retirement_date` setter for a `datetime` or `None` (person.py:191-222). -/
def setRetirementDate (birth : Date) (val : Option Date) : Except PyErr Date :=
  match val with
  | none => .error .notImplementedError
  | some d => if d.Before birth then .error .valueError else .ok d

/-- `Person.retirement_age` setter (person.py:229-239). -/
def setRetirementAge (birth : Date) (val : Option ℤ) : Except PyErr Date :=
  match val with
  | none => setRetirementDate birth none
  | some n => setRetirementDate birth (some (birth.inYear (birth.year + n)))

/-- `Person.retirement_age` (person.py:233-236): `relativedelta(retirement, birth).years`, for
`retirement` not before `birth`: the whole years between the two, where the anniversary of a day
that does not exist is the last day of the month. -/
def retirementAge (birth retirement : Date) : ℤ :=
  if retirement.Before (birth.inYear retirement.year) then retirement.year - birth.year - 1
  else retirement.year - birth.year

/-! ### Income -/

section Income

variable {K : Type} [Field K] [LinearOrder K] [IsStrictOrderedRing K]

/-- The argument of the `raise_rate_callable` setter (person.py:251-275). -/
inductive RaiseArg (K : Type)
  | none
  | scalar (x : K)
  | dict (d : Dict ℤ K)
  | callable (f : ℤ → Except PyErr K)

/-- The `raise_rate_callable` setter (person.py:251-275). For `None` the setter first installs 0 and
then goes on and installs a function returning `precision_convert(None)`, which is `None`
(the `none` of the result). -/
def raiseCallable : RaiseArg K → ℤ → Except PyErr (Option K)
  | .none => fun _ => .ok Option.none
  | .scalar x => fun _ => .ok (some x)
  | .dict d => fun y => do let v ← look d y; .ok (some v)
  | .callable f => fun y => do let v ← f y; .ok (some v)

/-- The part of a `Person` that has to do with income (person.py:112-157). `tax` is
`tax_treatment`. -/
structure Earner (K : Type) where
  year : ℤ
  retirement : Date
  raise : ℤ → Except PyErr (Option K)
  tax : Option (K → ℤ → Except PyErr K)
  gross : Dict ℤ K
  raises : Dict ℤ (Option K)
  net : Dict ℤ K

/-- `raise_rate` (person.py:352-355), cached. -/
def raiseRate (p : Earner K) : Except PyErr (Option K × Earner K) :=
  match Dict.get? p.raises p.year with
  | some r => .ok (r, p)
  | Option.none => do
    let r ← p.raise p.year
    .ok (r, { p with raises := Dict.set p.raises p.year r })

/-- `gross_income` (person.py:325-340), cached. -/
def grossIncome (p : Earner K) : Except PyErr (K × Earner K) :=
  match Dict.get? p.gross p.year with
  | some g => .ok (g, p)
  | Option.none =>
    if p.retirement.year < p.year then
      .ok (0, { p with gross := Dict.set p.gross p.year 0 })
    else do
      let g0 ← look p.gross (p.year - 1)
      let r ← raiseRate p
      match r.1 with
      | Option.none => .error .typeError
      | some x =>
        .ok (g0 * (1 + x), { r.2 with gross := Dict.set r.2.gross p.year (g0 * (1 + x)) })

/-- `tax_withheld` (person.py:414-421). -/
def taxWithheld (p : Earner K) : Except PyErr (K × Earner K) :=
  match p.tax with
  | some t => do
    let g ← grossIncome p
    let x ← t g.1 p.year
    .ok (x, g.2)
  | Option.none => .ok (0, p)

/-- `net_income` (person.py:346-350), cached. -/
def netIncome (p : Earner K) : Except PyErr (K × Earner K) :=
  match Dict.get? p.net p.year with
  | some n => .ok (n, p)
  | Option.none => do
    let g ← grossIncome p
    let t ← taxWithheld g.2
    let n := g.1 - t.1
    .ok (n, { t.2 with net := Dict.set t.2.net p.year n })

/-- `p.raise_rate_callable = val` (person.py:251-275). -/
def setRaise (p : Earner K) (val : RaiseArg K) : Earner K := { p with raise := raiseCallable val }

/-- `if raise_rate is None: raise_rate = 0` (person.py:123-124). -/
def RaiseArg.orZero : RaiseArg K → RaiseArg K
  | .none => .scalar 0
  | r => r

/-- The income part of `Person.__init__` (person.py:112-152); there `raise_rate=None` is 0. -/
def Earner.init (year : ℤ) (retirement : Date) (raise : RaiseArg K)
    (tax : Option (K → ℤ → Except PyErr K)) (income : K) : Except PyErr (Earner K) := do
  let p : Earner K := { year, retirement, tax,
                        raise := raiseCallable raise.orZero,
                        gross := [(year, income)], raises := [], net := [] }
  let t ← taxWithheld p
  .ok { t.2 with net := [(year, income - t.1)] }

/-- `next_year` (ledger/base.py:94-111): the recorded properties are evaluated in an unspecified
order; being cached, their values do not depend on it. -/
def Earner.nextYear (p : Earner K) : Except PyErr (Earner K) := do
  let r ← raiseRate p
  let g ← grossIncome r.2
  let n ← netIncome g.2
  .ok { n.2 with year := p.year + 1 }

/-- What a program does with a person: read the income, go on to next year. -/
inductive Op
  | readGross
  | readNet
  | readRaise
  | nextYear

/-- Effect of one operation. -/
def step (p : Earner K) : Op → Except PyErr (Earner K)
  | .readGross => do let r ← grossIncome p; .ok r.2
  | .readNet => do let r ← netIncome p; .ok r.2
  | .readRaise => do let r ← raiseRate p; .ok r.2
  | .nextYear => p.nextYear

/-- Effect of a program; operations that raise change nothing. -/
def run (p : Earner K) (ops : List Op) : Earner K :=
  ops.foldl (fun p op => match step p op with | .ok p' => p' | .error _ => p) p

end Income

/-! ### Spouses -/

section Spouse

variable {P : Type} [DecidableEq P]

/-- The `_spouse` attribute of everybody. -/
abbrev Couples (P : Type) := P → Option P

/-- `p._spouse = v`. -/
def put (s : Couples P) (p : P) (v : Option P) : Couples P := fun q => if q = p then v else s q

/-- The value assigned: `None`, a `Person`, or something else. -/
inductive SpouseArg (P : Type)
  | none
  | person (p : P)
  | other

/-- The `spouse` setter (person.py:287-304). The effects before the exception persist. -/
def setSpouse (s : Couples P) (self : P) (val : SpouseArg P) : Couples P × Except PyErr Unit :=
  let s1 := match s self with
    | some old => put s old none
    | none => s
  match val with
  | .none => (put s1 self none, .ok ())
  | .other => (s1, .error .typeError)
  | .person p => (put (put s1 p (some self)) self (some p), .ok ())

/-- A sequence of assignments `(self, value)`. -/
def marryAll (s : Couples P) (l : List (P × SpouseArg P)) : Couples P :=
  l.foldl (fun s x => (setSpouse s x.1 x.2).1) s

end Spouse

end Forecaster.Person
