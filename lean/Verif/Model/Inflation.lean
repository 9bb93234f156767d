import Verif.Model.Dict
import Verif.Model.Err

/-!
# `forecaster/utility/inflation.py` and `forecaster/scenario.py`

Years are integers; rates and factors are elements of an ordered field `K`.
-/

namespace Forecaster.Inflation

open Forecaster

variable {K : Type} [Field K] [LinearOrder K] [IsStrictOrderedRing K]

/-- `nearest_year` (inflation.py:9-43); `none` is Python's `None`. -/
def nearestYear {V : Type} (vals : Dict ℤ V) (year : ℤ) : Option ℤ :=
  if vals.isEmpty then none
  else if year ∈ Dict.keys vals then some year
  else
    match ((Dict.keys vals).filter fun k => decide (k < year)).max? with
    | some k => some k
    | none => ((Dict.keys vals).filter fun k => decide (k > year)).min?

/-- A value of a `{year: val}` table: scalar, dict or other iterable (inflation.py:66-76). -/
inductive Val (K : Type)
  | scalar (x : K)
  | dict (d : Dict K K)
  | list (l : List K)
  deriving DecidableEq

/-- The scaling at inflation.py:96-106: every element times the adjustment. -/
def Val.scale (c : K) : Val K → Val K
  | .scalar x => .scalar (x * c)
  | .dict d => .dict (Dict.mapVals (fun v => v * c) d)
  | .list l => .list (l.map fun v => v * c)

/-- An `inflation_adjust(target_year, base_year)` callable; it may raise. -/
abbrev Adjust (K : Type) := ℤ → ℤ → Except PyErr K

/-- `extend_inflation_adjusted` (inflation.py:46-110). For an empty table
`nearest_year` returns `None` and `vals[None]` raises `KeyError` (line 95).
Simplification: the adjustment is evaluated once, also for an empty inner
dict/list (where Python would not call it). -/
def extendInflationAdjusted (vals : Dict ℤ (Val K)) (adj : Adjust K) (target : ℤ) :
    Except PyErr (Val K) :=
  match Dict.get? vals target with
  | some v => .ok v
  | none =>
    match nearestYear vals target with
    | none => .error .keyError
    | some base =>
      if base ≠ target then
        match Dict.get? vals base with
        | none => .error .keyError
        | some v => do
          let c ← adj target base
          .ok (v.scale c)
      else .error .valueError

/-- Argument of `build_inflation_adjust` (inflation.py:120-124). -/
inductive AdjArg (K : Type)
  | none
  | dict (d : Dict ℤ K)
  | callable (f : ℤ → Option ℤ → Except PyErr K)
  | other

/-- The lookup-and-divide of the dict case (inflation.py:153-156). -/
def tableRatio (d : Dict ℤ K) (target base : ℤ) : Except PyErr K :=
  match Dict.get? d target, Dict.get? d base with
  | some t, some b => if b = 0 then .error .zeroDivisionError else .ok (t / b)
  | _, _ => .error .keyError

/-- `build_inflation_adjust` (inflation.py:113-166). The result takes an optional
base year; `min` of an empty dict raises `ValueError` at build time. -/
def buildInflationAdjust : AdjArg K → Except PyErr (ℤ → Option ℤ → Except PyErr K)
  | .none => .ok fun _ _ => .ok 1
  | .dict d =>
    match (Dict.keys d).min? with
    | none => .error .valueError
    | some defaultBase => .ok fun target base => tableRatio d target (base.getD defaultBase)
  | .callable f => .ok f
  | .other => .error .typeError

/-! ## Scenario -/

/-- A rate argument of `Scenario` (scenario.py:40-52). -/
inductive RateArg (K : Type)
  | none
  | scalar (x : K)
  | list (l : List K)
  | dict (d : Dict ℤ K)

/-- A (default)dict of yearly rates (scenario.py:88-170): explicit entries and an
optional default. Looking up a missing year of a `defaultdict` also inserts the
default; that does not change any later lookup and is not modelled. -/
structure Rates (K : Type) where
  entries : Dict ℤ K
  default : Option K

/-- `Scenario._build_dict(in_val, initial_year)` (scenario.py:87-170), as called by
`__init__` (no `default`). -/
def buildDict (initialYear : ℤ) : RateArg K → Except PyErr (Rates K)
  | .none => .error .valueError
  | .dict d => .ok ⟨d, Option.none⟩
  | .list l => .ok ⟨(List.range l.length).zipWith (fun (i : ℕ) v => (initialYear + (i : ℤ), v)) l,
      Option.none⟩
  | .scalar x => .ok ⟨[], some x⟩

/-- `rates[year]`. -/
def Rates.get (r : Rates K) (year : ℤ) : Except PyErr K :=
  match Dict.get? r.entries year with
  | some v => .ok v
  | Option.none =>
    match r.default with
    | some v => .ok v
    | Option.none => .error .keyError

/-- The attributes of a `Scenario` (scenario.py:74-85). -/
structure Scenario (K : Type) where
  initialYear : ℤ
  numYears : ℤ
  inflation : Rates K
  stockReturn : Rates K
  bondReturn : Rates K
  otherReturn : Rates K
  managementFees : Rates K

/-- `Scenario.__init__` (scenario.py:34-85); `num_years` is an integer here. -/
def Scenario.init (initialYear numYears : ℤ) (infl stock bond other fees : RateArg K) :
    Except PyErr (Scenario K) := do
  if numYears < 1 then .error .valueError else
  let i ← buildDict initialYear infl
  let s ← buildDict initialYear stock
  let b ← buildDict initialYear bond
  let o ← buildDict initialYear other
  let m ← buildDict initialYear fees
  .ok ⟨initialYear, numYears, i, s, b, o, m⟩

/-- Python's `range(a, b)`. -/
def pyRange (a b : ℤ) : List ℤ := (List.range (b - a).toNat).map fun (i : ℕ) => a + (i : ℤ)

/-- The product loop of `accumulation_function` (scenario.py:187-188, 191-192);
`discount_rate(year)` is `inflation[year]` (scenario.py:172-177). -/
def accumLoop (r : Rates K) (a b : ℤ) : Except PyErr K :=
  (pyRange a b).foldlM (fun accum year => do
    let rate ← r.get year
    .ok (accum * (1 + rate))) 1

/-- `Scenario.accumulation_function` (scenario.py:179-193). -/
def accumulationFunction (r : Rates K) (year1 year2 : ℤ) : Except PyErr K :=
  if year1 ≤ year2 then accumLoop r year1 year2
  else do
    let accum ← accumLoop r year2 year1
    if accum = 0 then .error .zeroDivisionError else .ok (1 / accum)

/-- `Scenario.__iter__` and `__len__` (scenario.py:230-243). -/
def Scenario.years (s : Scenario K) : List ℤ := pyRange s.initialYear (s.initialYear + s.numYears)

/-- `Scenario.inflation_adjustments` (scenario.py:195-206). -/
def Scenario.inflationAdjustments (s : Scenario K) (base : ℤ) : Except PyErr (Dict ℤ K) :=
  s.years.foldlM (fun d year => do
    let x ← accumulationFunction s.inflation year base
    .ok (Dict.set d year x)) []

/-- `Scenario.inflation_adjust`, called: `InflationAdjust.__call__` (scenario.py:208-228, 259-288). -/
def Scenario.inflationAdjust (s : Scenario K) (target : ℤ) (base : Option ℤ) : Except PyErr K :=
  accumulationFunction s.inflation (base.getD s.initialYear) target

end Forecaster.Inflation
