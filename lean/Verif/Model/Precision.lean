import Verif.Model.Err
import Mathlib.Logic.Function.Basic

/-!
# `forecaster/utility/precision.py`

One descriptor is shared by all instances of the class that declares it (and of its subclasses), so
the state consists of the private attributes of every object and one cache.
-/

namespace Forecaster.Precision

open Forecaster

/-- Objects `O`, conversion callables `C` (compared with `==`), native values `V`. -/
structure State (O C V : Type) where
  /-- `obj.high_precision`; the outer `none`: the attribute is missing -/
  highPrecision : O → Option (Option C)
  /-- the private attribute; outer `none`: not set, inner `none`: Python's `None` -/
  value : O → Option (Option V)
  /-- `_high_precision_value_cache` (precision.py:113) -/
  cachedValue : Option V
  /-- `_high_precision_cache` (precision.py:112) -/
  cachedConv : Option C

variable {O C V : Type} [DecidableEq O] [DecidableEq C]

/-- `HighPrecisionOptionalProperty.__get__` (precision.py:61-88), which reads the private attribute
first; `convert c v` is `c(v)`. -/
def get (convert : C → V → V) (s : State O C V) (o : O) : Except PyErr (Option V) :=
  match s.value o with
  | none => .error .attributeError
  | some v =>
    match s.highPrecision o with
    | none => .error .attributeError
    | some none => .ok v
    | some (some c) => .ok (v.map (convert c))

/-- `HighPrecisionOptionalProperty.__set__` (precision.py:90-92). -/
def set (s : State O C V) (o : O) (v : Option V) : State O C V :=
  { s with value := Function.update s.value o (some v) }

/-- `HighPrecisionOptionalPropertyCached.__get__` (precision.py:115-148). -/
def getCached (convert : C → V → V) (s : State O C V) (o : O) :
    Except PyErr (Option V) × State O C V :=
  match s.highPrecision o with
  | none => (.error .attributeError, s)
  | some none =>
    match s.value o with
    | none => (.error .attributeError, s)
    | some v => (.ok v, s)
  | some (some c) =>
    if s.cachedValue.isSome ∧ s.cachedConv = some c then (.ok s.cachedValue, s)
    else
      match s.value o with
      | none => (.error .attributeError, s)
      | some v =>
        let r := v.map (convert c)
        (.ok r, { s with cachedValue := r, cachedConv := some c })

/-- `HighPrecisionOptionalPropertyCached.__set__` (precision.py:151-154). -/
def setCached (s : State O C V) (o : O) (v : Option V) : State O C V :=
  { set s o v with cachedValue := none }

/-- Anything client code can do with the property and the `high_precision` attribute. -/
inductive Op (O C V : Type)
  | read (o : O)
  | write (o : O) (v : Option V)
  | precision (o : O) (c : Option C)

/-- One step on the cached property. -/
def step (convert : C → V → V) (s : State O C V) : Op O C V → State O C V
  | .read o => (getCached convert s o).2
  | .write o v => setCached s o v
  | .precision o c => { s with highPrecision := Function.update s.highPrecision o (some c) }

/-- The state when the class has just been defined and there are no objects. -/
def start : State O C V := ⟨fun _ => none, fun _ => none, none, none⟩

/-- A history of steps. -/
def run (convert : C → V → V) (ops : List (Op O C V)) : State O C V := ops.foldl (step convert) start

end Forecaster.Precision
