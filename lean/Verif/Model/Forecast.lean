import Verif.Model.Timing
import Verif.Model.Person

/-!
# `forecaster/forecast/base.py`

A `Forecast` drives objects that are modelled elsewhere (sub-forecasts, people, accounts).
Here the state of all of them is `W`; `C` names them.  What a `Forecast` uses of them is
listed in `World`: calling a sub-forecast, advancing a component by a year, reading its
year, and the tax figures.  Any of these may raise and may change the whole of `W`.

Not modelled: the recorded histories of the `Forecast` itself (`Verif/Model/Ledger.lean`
has the recording) beyond the fact that recording may raise or change caches in `W`.
-/

namespace Forecaster.Forecast

open Forecaster Forecaster.Timing

variable {K : Type} [Field K] [LinearOrder K] [IsStrictOrderedRing K]
variable {W C : Type}

/-- What a `Forecast` uses of the objects it is built from. -/
structure World (K W C : Type) where
  /-- the five sub-forecasts, in order (forecast/base.py:156-161) -/
  forecasts : List C
  /-- `income_forecast.people` (forecast/base.py:171-174) -/
  people : List C
  /-- `assets.union(debts)`, in the order of that set (forecast/base.py:176-179, 210) -/
  accounts : List C
  /-- `component.this_year` -/
  year : C → W → ℤ
  /-- `component.next_year()` -/
  advance : C → W → Except PyErr W
  /-- `forecast(available)` -/
  call : C → W → Dict K K → Except PyErr (W × Dict K K)
  /-- `tax_forecast.tax_adjustment`; `none` if it has no such attribute -/
  taxAdjustment : W → Except PyErr (Option K × W)
  /-- `tax_forecast.tax_refund_timing`; `none` if it has no such attribute -/
  refundTiming : W → Option (Dict K K)
  /-- `tax_forecast.tax_payment_timing`; `none` if it has no such attribute -/
  paymentTiming : W → Option (Dict K K)
  /-- reading the forecast's own recorded properties (ledger/base.py:94-111) -/
  record : W → Dict K K → Except PyErr W

/-- The state of a `Forecast`: the year, `available`, and everything else. -/
structure FS (K W : Type) where
  year : ℤ
  available : Dict K K
  w : W

/-- `call_subforecasts` (forecast/base.py:186-189). -/
def callSubforecasts (V : World K W C) (s : FS K W) : Except PyErr (FS K W) :=
  V.forecasts.foldlM (fun s c => do
    let r ← V.call c s.w s.available
    .ok { s with w := r.1, available := r.2 }) s

/-- `while component.this_year < self.this_year: component.next_year()`
(forecast/base.py:203-204, 208-209, 211-212). `fuel` = the number of years the component is
behind, which is enough for a component whose year grows by one each time. -/
def catchUp (V : World K W C) (year : ℤ) (c : C) : ℕ → W → Except PyErr W
  | fuel, w =>
    if V.year c w < year then
      match fuel with
      | 0 => .error .recursionError
      | n + 1 => do
        let w' ← V.advance c w
        catchUp V year c n w'
    else .ok w

/-- Advance one component to the forecast's year. -/
def bring (V : World K W C) (year : ℤ) (w : W) (c : C) : Except PyErr W :=
  catchUp V year c (year - V.year c w).toNat w

/-- `_carryover_tax` (forecast/base.py:239-260). `Timing(0)` is `{0: 1}`. -/
def carryoverTax (V : World K W C) (w : W) (available : Dict K K) (adj : Option K) :
    Except PyErr (Dict K K) :=
  match adj with
  | none => .ok available
  | some x =>
    if x > 0 then do
      let t ← timeSeries ((V.refundTiming w).getD [(0, 1)]) x none
      .ok (addTransactions available t)
    else if x < 0 then do
      let t ← timeSeries ((V.paymentTiming w).getD [(0, 1)]) x none
      .ok (addTransactions available t)
    else .ok available

/-- `next_year` (forecast/base.py:191-218). `available` is cleared and gets one entry, dated
0, holding everything left over (`_carrover_overflow`, lines 233-237). -/
def nextYear (V : World K W C) (s : FS K W) : Except PyErr (FS K W) := do
  let r ← V.taxAdjustment s.w
  let w1 ← V.record r.2 s.available
  let w2 ← (V.forecasts ++ V.people ++ V.accounts).foldlM (bring V (s.year + 1)) w1
  let available ← carryoverTax V w2 [(0, 0 + Dict.total s.available)] r.1
  .ok { year := s.year + 1, available, w := w2 }

/-- The `while` loop of `__init__` (forecast/base.py:166-168); `fuel` = the number of years
left. -/
def runYears (V : World K W C) (last : ℤ) : ℕ → FS K W → Except PyErr (FS K W)
  | fuel, s =>
    if s.year < last then
      match fuel with
      | 0 => .error .recursionError
      | n + 1 => do
        let s1 ← callSubforecasts V s
        let s2 ← nextYear V s1
        runYears V last n s2
    else .ok s

/-- `Forecast.__init__` (forecast/base.py:113-169): `years` are the years of the scenario,
`initial` its `initial_year`. `max` of an empty scenario raises `ValueError`. -/
def init (V : World K W C) (initial : ℤ) (years : List ℤ) (w : W) : Except PyErr (FS K W) :=
  match years.max? with
  | none => .error .valueError
  | some last => do
    let s ← runYears V last (last - initial).toNat { year := initial, available := [], w }
    callSubforecasts V s

/-- `retirement_year` (forecast/base.py:262-277): the year of the latest retirement date, by
the order of dates; `None.year` raises `AttributeError`. -/
def retirementYear (dates : List (Option Person.Date)) : Except PyErr ℤ :=
  match dates.filterMap id with
  | [] => .error .attributeError
  | d :: ds => .ok (ds.foldl (fun m d => if m.Before d then d else m) d).year

/-- `savings` (forecast/base.py:289-295). -/
def savings (income livingExpenses : K) : K := max (income - livingExpenses) 0

/-- `principal` (forecast/base.py:297-302). -/
def principal (balances : List K) : K := balances.foldl (· + ·) 0

end Forecaster.Forecast
