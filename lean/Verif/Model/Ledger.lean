import Verif.Model.Dict

/-!
# `forecaster/ledger/base.py` and `forecaster/ledger/recorded_property.py`

A ledger object is a class description (`Cls`) together with a state (`St`): the
current year, one history dict per recorded property, the `inputs` given at
construction and the rest of the object (and of the program), `σ`, which getters
and custom setters may read and change arbitrarily.
-/

namespace Forecaster.Ledger

open Forecaster

/-- What the metaclass collects about a `Ledger` subclass (base.py:16-38) and the
user-supplied accessor functions (recorded_property.py:26): which properties are
recorded, which are cached, their getters (which may have side effects on `σ`) and
optional custom setters/deleters. -/
structure Cls (P V σ : Type) where
  props : List P
  cached : P → Bool
  fget : P → ℤ → σ → V × σ
  fset : P → Option (V → σ → σ)
  fdel : P → Option (σ → σ)

/-- The state of a ledger object (base.py:77-92). -/
structure St (P V σ : Type) where
  initialYear : ℤ
  year : ℤ
  inputs : P → Option (Dict ℤ V)
  hist : P → Dict ℤ V
  world : σ

variable {P V σ : Type} [DecidableEq P]

/-- `Ledger.__init__` (base.py:60-92). -/
def init (y : ℤ) (inputs : P → Option (Dict ℤ V)) (w : σ) : St P V σ :=
  { initialYear := y, year := y, inputs := inputs,
    hist := fun p => match inputs p with
      | some d => Dict.update [] d
      | none => [],
    world := w }

/-- Assign `history_dict[this_year] = v` for property `p`. -/
def St.record (s : St P V σ) (p : P) (v : V) : St P V σ :=
  { s with hist := fun q => if q = p then Dict.set (s.hist p) s.year v else s.hist q }

/-- `self.__name__ in obj.inputs and obj.this_year in obj.inputs[self.__name__]`
(recorded_property.py:70-72, 97-99). -/
def St.isInput (s : St P V σ) (p : P) : Bool :=
  match s.inputs p with
  | none => false
  | some d => (Dict.get? d s.year).isSome

/-- `obj.<p>`: the getter (recorded_property.py:59-65), with the caching wrapper of
`recorded_property_cached` (recorded_property.py:152-157). -/
def read (c : Cls P V σ) (s : St P V σ) (p : P) : V × St P V σ :=
  match Dict.get? (s.hist p) s.year with
  | some v => (v, s)
  | none =>
    let r := c.fget p s.year s.world
    let s' := { s with world := r.2 }
    if c.cached p then (r.1, s'.record p r.1) else (r.1, s')

/-- `del history_dict[this_year]` if present (recorded_property.py:84-85, 104-105). -/
def St.drop (s : St P V σ) (p : P) : St P V σ :=
  { s with hist := fun q => if q = p then Dict.del (s.hist p) s.year else s.hist q }

/-- `obj.<p> = v` (recorded_property.py:67-92). -/
def set (c : Cls P V σ) (s : St P V σ) (p : P) (v : V) : St P V σ :=
  if s.isInput p then s
  else match c.fset p with
    | none => s.record p v
    | some f => { s.drop p with world := f v s.world }

/-- `del obj.<p>` (recorded_property.py:94-107). -/
def delete (c : Cls P V σ) (s : St P V σ) (p : P) : St P V σ :=
  if s.isInput p then s
  else match c.fdel p with
    | none => s.drop p
    | some f => { s.drop p with world := f s.world }

/-- `obj.<p>_history` (recorded_property.py:111-122; cached: 168-173). The returned
value is a snapshot; aliasing of the returned dict is not modelled. -/
def history (c : Cls P V σ) (s : St P V σ) (p : P) : Dict ℤ V × St P V σ :=
  match Dict.get? (s.hist p) s.year with
  | some _ => (s.hist p, s)
  | none =>
    let r := c.fget p s.year s.world
    let s' := { s with world := r.2 }
    if c.cached p then
      let s'' := s'.record p r.1
      (s''.hist p, s'')
    else (Dict.set (s.hist p) s.year r.1, s')

/-- One pass of the recording loop of `Ledger.next_year` (base.py:100-109). -/
def recordStep (c : Cls P V σ) (s : St P V σ) (p : P) : St P V σ :=
  match Dict.get? (s.hist p) s.year with
  | some _ => s
  | none =>
    let r := read c s p
    r.2.record p r.1

/-- `Ledger.next_year` (base.py:94-111). -/
def nextYear (c : Cls P V σ) (s : St P V σ) : St P V σ :=
  let s' := c.props.foldl (recordStep c) s
  { s' with year := s'.year + 1 }

/-- `Ledger.clear_cache` (base.py:113-118). -/
def clearCache (c : Cls P V σ) (s : St P V σ) : St P V σ :=
  (c.props.filter fun p => c.cached p).foldl (delete c) s

/-- Everything that can happen to a ledger object: `poke` is any change to the rest of
the object or of the program. -/
inductive Op (P V σ : Type)
  | read (p : P)
  | set (p : P) (v : V)
  | delete (p : P)
  | history (p : P)
  | nextYear
  | clearCache
  | poke (f : σ → σ)

/-- Effect of one operation. -/
def step (c : Cls P V σ) (s : St P V σ) : Op P V σ → St P V σ
  | .read p => (read c s p).2
  | .set p v => set c s p v
  | .delete p => delete c s p
  | .history p => (history c s p).2
  | .nextYear => nextYear c s
  | .clearCache => clearCache c s
  | .poke f => { s with world := f s.world }

/-- Effect of a program. -/
def run (c : Cls P V σ) (s : St P V σ) (ops : List (Op P V σ)) : St P V σ :=
  ops.foldl (step c) s

end Forecaster.Ledger
