import Verif.Model.Dict
import Verif.Model.Err

/-!
# Ledgers whose properties read each other

`Verif/Model/Ledger.lean` models one ledger whose getters are black boxes.  Here there are any
number of ledger objects (people, accounts, forecasts, ...), each in its own year, and getters are
programs that read recorded properties, of the same or of other objects, and so fill caches
(`balance` reads `rate`, a person's `taxable_income` reads that of every account, ...).
Sources: `ledger/base.py`, `ledger/recorded_property.py`.

Simplifications: getters change nothing but caches; values are immutable; custom setters and
deleters are in `Verif/Model/Ledger.lean` only.
-/

namespace Forecaster.Recorded

open Forecaster

/-- What a getter does: it returns or raises (`done`), reads a recorded property (`ask`), or looks
into a history dict (`past`; e.g. `self._balance_history[self.this_year - 1]`,
accounts/base.py:233). -/
inductive Prog (κ V : Type)
  | done (r : Except PyErr V)
  | ask (k : κ) (next : V → Prog κ V)
  | past (k : κ) (y : ℤ) (next : Option V → Prog κ V)

/-- The classes of all objects: a key is a property of an object; `props o` are those of object `o`,
in the order in which Python iterates over the set (ledger/base.py:22-38); `fget k years world` is
the getter. -/
structure Sys (O κ V σ : Type) where
  obj : κ → O
  props : O → List κ
  cached : κ → Bool
  fget : κ → (O → ℤ) → σ → Prog κ V

/-- The state of all objects (ledger/base.py:77-92); `world` is everything else. -/
structure St (O κ V σ : Type) where
  year : O → ℤ
  inputs : κ → Option (Dict ℤ V)
  hist : κ → Dict ℤ V
  world : σ

variable {O κ V σ : Type} [DecidableEq O] [DecidableEq κ]

/-- New objects (ledger/base.py:60-92). -/
def init (year : O → ℤ) (inputs : κ → Option (Dict ℤ V)) (world : σ) : St O κ V σ :=
  { year, inputs, world, hist := fun k => match inputs k with
      | some d => Dict.update [] d
      | none => [] }

/-- The recorded value of `k` for the year its object is in. -/
def St.now (c : Sys O κ V σ) (s : St O κ V σ) (k : κ) : Option V :=
  Dict.get? (s.hist k) (s.year (c.obj k))

/-- `history_dict[obj.this_year] = v` -/
def St.record (c : Sys O κ V σ) (s : St O κ V σ) (k : κ) (v : V) : St O κ V σ :=
  { s with hist := fun q => if q = k then Dict.set (s.hist k) (s.year (c.obj k)) v else s.hist q }

/-- Running a getter; `rd` reads a property. -/
def exec (rd : κ → St O κ V σ → Except PyErr V × St O κ V σ) :
    Prog κ V → St O κ V σ → Except PyErr V × St O κ V σ
  | .done r, s => (r, s)
  | .ask k next, s =>
    match rd k s with
    | (.ok v, s') => exec rd (next v) s'
    | (.error e, s') => (.error e, s')
  | .past k y next, s => exec rd (next (Dict.get? (s.hist k) y)) s

/-- What happens to the result of a getter: `recorded_property_cached` puts it into the history
(recorded_property.py:152-157). -/
def keep (c : Sys O κ V σ) (k : κ) : Except PyErr V × St O κ V σ → Except PyErr V × St O κ V σ
  | (.ok v, s) => (.ok v, if c.cached k then s.record c k v else s)
  | (.error e, s) => (.error e, s)

/-- `obj.<p>` (recorded_property.py:59-65, 152-157). The first argument is Python's recursion
limit. -/
def read (c : Sys O κ V σ) : ℕ → κ → St O κ V σ → Except PyErr V × St O κ V σ
  | 0, _, s => (.error .recursionError, s)
  | n + 1, k, s =>
    match s.now c k with
    | some v => (.ok v, s)
    | none => keep c k (exec (read c n) (c.fget k s.year s.world) s)

/-- `obj.<p>_history` (recorded_property.py:111-122, 168-173). -/
def history (c : Sys O κ V σ) (n : ℕ) (k : κ) (s : St O κ V σ) :
    Except PyErr (Dict ℤ V) × St O κ V σ :=
  match read c n k s with
  | (.ok v, s') => (.ok (Dict.set (s'.hist k) (s'.year (c.obj k)) v), s')
  | (.error e, s') => (.error e, s')

/-- One pass of the loop of `Ledger.next_year` (ledger/base.py:100-109). -/
def recordOne (c : Sys O κ V σ) (n : ℕ) (k : κ) (s : St O κ V σ) : Option PyErr × St O κ V σ :=
  match s.now c k with
  | some _ => (none, s)
  | none =>
    match read c n k s with
    | (.ok v, s') => (none, s'.record c k v)
    | (.error e, s') => (some e, s')

/-- The loop. -/
def recordAll (c : Sys O κ V σ) (n : ℕ) : List κ → St O κ V σ → Option PyErr × St O κ V σ
  | [], s => (none, s)
  | k :: ks, s =>
    match recordOne c n k s with
    | (none, s') => recordAll c n ks s'
    | (some e, s') => (some e, s')

/-- `self.this_year += 1`. -/
def St.advance (s : St O κ V σ) (o : O) : St O κ V σ :=
  { s with year := fun o' => if o' = o then s.year o + 1 else s.year o' }

/-- `obj.next_year()` (ledger/base.py:94-111). -/
def nextYear (c : Sys O κ V σ) (n : ℕ) (o : O) (s : St O κ V σ) : Option PyErr × St O κ V σ :=
  match recordAll c n (c.props o) s with
  | (none, s') => (none, s'.advance o)
  | (some e, s') => (some e, s')

/-- Whether `inputs` has a value for the current year (recorded_property.py:70-72, 97-99). -/
def St.isInput (c : Sys O κ V σ) (s : St O κ V σ) (k : κ) : Bool :=
  match s.inputs k with
  | none => false
  | some d => (Dict.get? d (s.year (c.obj k))).isSome

/-- `obj.<p> = v` (recorded_property.py:67-92). -/
def set (c : Sys O κ V σ) (k : κ) (v : V) (s : St O κ V σ) : St O κ V σ :=
  if s.isInput c k then s else s.record c k v

/-- `del obj.<p>` (recorded_property.py:94-107). -/
def delete (c : Sys O κ V σ) (k : κ) (s : St O κ V σ) : St O κ V σ :=
  if s.isInput c k then s
  else { s with hist := fun q =>
    if q = k then Dict.del (s.hist k) (s.year (c.obj k)) else s.hist q }

/-- `obj.clear_cache()` (ledger/base.py:113-118). -/
def clearCache (c : Sys O κ V σ) (o : O) (s : St O κ V σ) : St O κ V σ :=
  ((c.props o).filter fun k => c.cached k).foldl (fun s k => delete c k s) s

/-- Everything that can happen; `poke` is any change to the rest of the program. A call that raises
leaves the state it has reached. -/
inductive Op (O κ V σ : Type)
  | read (k : κ)
  | nextYear (o : O)
  | set (k : κ) (v : V)
  | delete (k : κ)
  | clearCache (o : O)
  | poke (f : σ → σ)

/-- One operation. -/
def step (c : Sys O κ V σ) (n : ℕ) (s : St O κ V σ) : Op O κ V σ → St O κ V σ
  | .read k => (read c n k s).2
  | .nextYear o => (nextYear c n o s).2
  | .set k v => set c k v s
  | .delete k => delete c k s
  | .clearCache o => clearCache c o s
  | .poke f => { s with world := f s.world }

/-- A program. -/
def run (c : Sys O κ V σ) (n : ℕ) (s : St O κ V σ) (ops : List (Op O κ V σ)) : St O κ V σ :=
  ops.foldl (step c n) s

end Forecaster.Recorded
