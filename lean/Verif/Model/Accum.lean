import Mathlib.Analysis.SpecialFunctions.Pow.Real
import Mathlib.Analysis.SpecialFunctions.Log.Base
import Verif.Model.Ext
import Verif.Model.Timing

/-!
# `forecaster/accounts/util.py`: interest theory, over the reals

`nper = none` is Python's `None` (continuous compounding).
-/

namespace Forecaster.Accum

open Forecaster Forecaster.Timing

/-- `accumulation_function` (accounts/util.py:19-73). Python's `**` is the real power
whenever the base `1 + rate/nper` is positive; for a non-positive base (a loss of more
than 100% per compounding period) Python may return a complex number or raise, so the
theorems all assume a positive base. -/
noncomputable def accumulationFunction (t rate : ℝ) (nper : Option ℝ) : ℝ :=
  match nper with
  | none => Real.exp (rate * t)
  | some n => (1 + rate / n) ^ (n * t)

/-- `accumulation_function_inverse` (accounts/util.py:75-125). `math.log` raises
`ValueError` outside its domain. -/
noncomputable def accumulationInverse (accum rate : ℝ) (nper : Option ℝ) :
    Except PyErr (Ext ℝ) :=
  if accum < 0 then .error .valueError
  else if rate = 0 then
    if accum = 1 then .ok (.fin 0)
    else if accum < 1 then .ok .negInf
    else .ok .posInf
  else if accum = 0 then .error .valueError
  else match nper with
    | none => .ok (.fin (Real.log accum / rate))
    | some n =>
      if 1 + rate / n ≤ 0 then .error .valueError
      else .ok (.fin (Real.logb (1 + rate / n) accum / n))

/-- `value_at_time` (accounts/util.py:127-150). -/
noncomputable def valueAtTime (value rate : ℝ) (now time : When ℝ) (nper : Option ℝ) :
    Except PyErr ℝ := do
  let t ← whenConv time
  let s ← whenConv now
  .ok (value * accumulationFunction (t - s) rate nper)

/-- `time_to_value` (accounts/util.py:153-168). -/
noncomputable def timeToValue (rate valueNow valueThen : ℝ) (nper : Option ℝ) :
    Except PyErr (Ext ℝ) :=
  if valueNow = 0 then .error .zeroDivisionError
  else accumulationInverse (valueThen / valueNow) rate nper

end Forecaster.Accum
