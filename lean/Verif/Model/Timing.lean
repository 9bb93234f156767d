import Verif.Model.Dict
import Verif.Model.Err

/-!
# `forecaster/utility/timing.py`

`K` is the numeric type (the code is generic: `float` or whatever
`high_precision` produces); here any linearly ordered field.  The
`high_precision` conversions of the literals 0 and 1 are the `0` and `1` of `K`.
-/

namespace Forecaster.Timing

open Forecaster

variable {K : Type} [Field K] [LinearOrder K] [IsStrictOrderedRing K]

/-- A scalar `when` argument: a number or a string (timing.py:31-33, 390-392). -/
inductive When (K : Type)
  | num (x : K)
  | str (s : String)

/-- First argument of `Timing(...)` (timing.py:43-49): another `Timing`, a plain
dict, or a scalar. -/
inductive Arg (K : Type)
  | timing (d : Dict K K)
  | dict (d : Dict K K)
  | scalar (w : When K)

/-- A `frequency`/`nper` argument (timing.py:440-442): `None`, a code or a number. -/
inductive Freq
  | none
  | str (s : String)
  | num (q : ℚ)

/-- `WHEN_DEFAULT = 0.5` (timing.py:7). -/
def whenDefault : When K := .num (1 / 2)

/-- `FREQUENCY_MAPPING` (timing.py:424-435). -/
def frequencyMapping : Dict String (Option ℕ) :=
  [("C", none), ("D", some 365), ("W", some 52), ("BW", some 26), ("SM", some 24),
   ("M", some 12), ("BM", some 6), ("Q", some 4), ("SA", some 2), ("A", some 1)]

/-- `when_conv` (timing.py:381-420). Comparing any other string with a number
raises `TypeError` (line 417). -/
def whenConv : When K → Except PyErr K
  | .str s =>
    if s = "end" then .ok 1
    else if s = "start" then .ok 0
    else .error .typeError
  | .num x => if x > 1 ∨ x < 0 then .error .valueError else .ok x

/-- Python's `int(q)`: truncation towards zero. -/
def pyInt (q : ℚ) : ℤ := Int.tdiv q.num q.den

/-- `frequency_conv` (timing.py:437-468). `ok none` is Python's `None`
(continuous). -/
def frequencyConv : Freq → Except PyErr (Option ℕ)
  | .none => .ok none
  | .str s =>
    match Dict.get? frequencyMapping s with
    | none => .error .valueError
    | some n => .ok n
  | .num q =>
    if ¬ q = (pyInt q : ℚ) then .error .typeError
    else if q ≤ 0 then .error .valueError
    else .ok (some (pyInt q).toNat)

/-- One pass of the first loop of `_accum_inflows` (timing.py:287-289). `val`
stands for `when[timing]`; `timing` ranges over the keys of `when`. -/
def accumStep (w : Dict K K) (st : Dict K K × K) (t : K) : Dict K K × K :=
  let tally := st.2 + Dict.val w t
  (Dict.set st.1 t tally, tally)

/-- One pass of the second loop of `_accum_inflows` (timing.py:294-309). The
state is `(result, accum, tally)`; `min` of an empty sequence raises
`ValueError`. -/
def inflowStep (st : Dict K K × Dict K K × K) (t : K) :
    Except PyErr (Dict K K × Dict K K × K) :=
  match (Dict.vals (st.2.1.filter fun kv => decide (kv.1 ≥ t))).min? with
  | none => .error .valueError
  | some m =>
    if m > 0 then
      .ok (Dict.set st.1 t m,
           st.2.1.map (fun kv => if kv.1 ≥ t then (kv.1, kv.2 - m) else kv),
           st.2.2 + m)
    else .ok st

/-- `_accum_inflows` (timing.py:241-310). -/
def accumInflows (w : Dict K K) : Except PyErr (Dict K K) := do
  let ks := (Dict.keys w).insertionSort (· ≤ ·)
  let accum := (ks.foldl (accumStep w) ([], 0)).1
  let r ← ks.foldlM inflowStep (([], accum, 0) : Dict K K × Dict K K × K)
  pure r.1

/-- One pass of the loop of `_accum_outflows` (timing.py:353-357); the state is
`(accum, result)`. -/
def outflowStep (w : Dict K K) (st : K × Dict K K) (t : K) : K × Dict K K :=
  let accum := st.1 + Dict.val w t
  if accum < 0 then (0, Dict.set st.2 t (-accum)) else (accum, st.2)

/-- `_accum_outflows` (timing.py:312-358). -/
def accumOutflows (w : Dict K K) : Dict K K :=
  (((Dict.keys w).insertionSort (· ≤ ·)).foldl (outflowStep w) (0, [])).2

/-- `_convert_dict` (timing.py:173-239). -/
def convertDict (w : Dict K K) : Except PyErr (Dict K K) :=
  if w = [] then .ok []
  else if ∀ v ∈ Dict.vals w, v = 0 then .ok (w.map fun kv => (kv.1, 1))
  else if ∀ v ∈ Dict.vals w, v ≥ 0 then .ok w
  else if ∀ v ∈ Dict.vals w, v ≤ 0 then .ok (Dict.mapVals (fun v => -v) w)
  else
    let total := Dict.total w
    if total = 0 then .ok []
    else if total > 0 then accumInflows w
    else .ok (accumOutflows w)

/-- The scalar branch of `Timing.__init__` (timing.py:82-91), after argument
swapping. `one / None` raises `TypeError` for the continuous frequency. -/
def initScalar (w : When K) (f : Freq) : Except PyErr (Dict K K) := do
  let when ← whenConv w
  let freq ← frequencyConv f
  match freq with
  | none => .error .typeError
  | some n =>
    let weight : K := 1 / (n : K)
    .ok ((List.range n).foldl
      (fun d (time : ℕ) => Dict.set d (((time : K) + when) / (n : K)) weight) [])

/-- `Timing.__init__` (timing.py:41-91). The new dict starts empty, so
`self.update(d)` copies `d`. -/
def init (a : Arg K) (f : Freq) : Except PyErr (Dict K K) :=
  match a with
  | .timing d => .ok (Dict.update [] d)
  | .dict d => do
      let c ← convertDict d
      .ok (Dict.update [] c)
  | .scalar (.str s) =>
      if s ∈ Dict.keys frequencyMapping then initScalar whenDefault (.str s)
      else initScalar (.str s) f
  | .scalar (.num x) => initScalar (.num x) f

/-- `self[key]`, raising `KeyError` (timing.py:117-118). -/
def lookup (d : Dict K K) (k : K) : Except PyErr K :=
  match Dict.get? d k with
  | some v => .ok v
  | none => .error .keyError

/-- One entry of the dict comprehension at timing.py:118. -/
def normStep (d : Dict K K) (n : K) (acc : Dict K K) (k : K) : Except PyErr (Dict K K) := do
  let v ← lookup d k
  if n = 0 then .error .zeroDivisionError else .ok (Dict.set acc k (v / n))

/-- `Timing._normalized` (timing.py:93-118). -/
def normalizedCore (d : Dict K K) (keys : Option (List K)) : Except PyErr (Dict K K) := do
  let ks := keys.getD (Dict.keys d)
  let vs ← ks.mapM (lookup d)
  ks.foldlM (normStep d vs.sum) []

/-- `Timing.normalized` (timing.py:120-139). -/
def normalized (d : Dict K K) (keys : Option (List K)) : Except PyErr (Dict K K) := do
  let c ← normalizedCore d keys
  init (.dict c) (.num 1)

/-- `Timing.time_series` (timing.py:141-171). -/
def timeSeries (d : Dict K K) (scalar : K) (keys : Option (List K)) :
    Except PyErr (Dict K K) := do
  let c ← normalizedCore d keys
  .ok (Dict.mapVals (fun v => v * scalar) c)

/-- `transactions_from_timing` (timing.py:360-379) on a `Timing`; a division by a
zero weight sum raises `ZeroDivisionError` unless the comprehension is empty. -/
def transactionsFromTiming (timing : Dict K K) (total : K) : Except PyErr (Dict K K) :=
  let normalization := Dict.total timing
  if normalization = 0 ∧ timing ≠ [] then .error .zeroDivisionError
  else .ok (Dict.mapVals (fun weight => total * (weight / normalization)) timing)

/-- `transactions_from_timing` on any timing-like argument (timing.py:373-374). -/
def transactionsFromArg (a : Arg K) (total : K) : Except PyErr (Dict K K) := do
  let t ← init a (.num 1)
  transactionsFromTiming t total

/-- One pass of `add_transactions` (timing.py:495-498). -/
def addOne {κ : Type} [DecidableEq κ] (base : Dict κ K) (kv : κ × K) : Dict κ K :=
  match Dict.get? base kv.1 with
  | some x => Dict.set base kv.1 (x + kv.2)
  | none => Dict.set base kv.1 kv.2

/-- `add_transactions` (timing.py:470-498): the new value of the mutated `base`. -/
def addTransactions {κ : Type} [DecidableEq κ] (base added : Dict κ K) : Dict κ K :=
  added.foldl addOne base

/-- One pass of `subtract_transactions` (timing.py:524-527). -/
def subOne {κ : Type} [DecidableEq κ] (base : Dict κ K) (kv : κ × K) : Dict κ K :=
  match Dict.get? base kv.1 with
  | some x => Dict.set base kv.1 (x - kv.2)
  | none => Dict.set base kv.1 (-kv.2)

/-- `subtract_transactions` (timing.py:500-527): the new value of the mutated `base`. -/
def subtractTransactions {κ : Type} [DecidableEq κ] (base added : Dict κ K) : Dict κ K :=
  added.foldl subOne base

end Forecaster.Timing
