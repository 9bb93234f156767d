import Verif.Model.Dict
import Verif.Model.Decorated
import Mathlib.Data.List.Sort

/-!
# The metaclasses: `LedgerType` (`forecaster/ledger/base.py`) and `StrategyType`
(`forecaster/strategy/base.py`)

A class is its own namespace (a dict from attribute names to attributes); what
`getattr(cls, name)` finds is the first entry along the method resolution order, of which
the head is the class itself. The method resolution order is given, as a list of class
namespaces: how Python computes it is not modelled, and neither are attributes found on the
metaclass.
-/

namespace Forecaster.Discovery

open Forecaster

/-- `getattr(cls, name)`: the first class along the method resolution order with that name. -/
def lookup {A : Type} (mro : List (Dict String A)) (n : String) : Option A :=
  mro.findSome? fun d => Dict.get? d n

/-- The sorted names of a class, as `inspect.getmembers` goes through them. -/
def dirNames {A : Type} (mro : List (Dict String A)) : List String :=
  ((mro.flatMap Dict.keys).dedup).insertionSort (· ≤ ·)

/-- `inspect.getmembers(cls, predicate)`: the attributes on which `f` is defined, in the
sorted order of their names (base.py:25-26; strategy/base.py:61-63). -/
def members {A B : Type} (f : A → Option B) (mro : List (Dict String A)) : List (String × B) :=
  (dirNames mro).filterMap fun n => (lookup mro n).bind fun a => (f a).map fun b => (n, b)

/-! ## Ledger classes -/

/-- A recorded property object: its identity, `__name__`, and whether it is a
`recorded_property_cached`. -/
structure RProp where
  ident : ℕ
  name : String
  cached : Bool
  deriving DecidableEq, Repr

/-- `self.history_prop_name` (recorded_property.py:54). -/
def RProp.histName (p : RProp) : String := p.name ++ "_history"

/-- What an attribute of a ledger class can be: a recorded property, the `history_property`
of one, or anything else (told apart by a number). -/
inductive Attr
  | recorded (p : RProp)
  | historyOf (p : RProp)
  | other (i : ℕ)
  deriving DecidableEq, Repr

/-- `hasattr(x, 'history_property')` (base.py:26). -/
def Attr.recorded? : Attr → Option RProp
  | .recorded p => some p
  | _ => none

/-- `cls._recorded_properties` (base.py:21, 33): a set. -/
def recordedProps (mro : List (Dict String Attr)) : List RProp :=
  ((members Attr.recorded? mro).map Prod.snd).dedup

/-- `cls._recorded_properties_cached` (base.py:22, 34-35). -/
def recordedCached (mro : List (Dict String Attr)) : List RProp :=
  (recordedProps mro).filter (·.cached)

/-- The namespace of a class once `LedgerType.__init__` is through with it
(base.py:16-38): for each recorded property found, in the order of the attribute names,
`setattr(cls, prop.history_prop_name, prop.history_property)`. `bases` is the method
resolution order after the class itself. -/
def makeClass (body : Dict String Attr) (bases : List (Dict String Attr)) : Dict String Attr :=
  ((members Attr.recorded? (body :: bases)).map Prod.snd).foldl
    (fun d p => Dict.set d p.histName (.historyOf p)) body

/-- The history attributes that `Ledger.__init__` gives an instance (base.py:81-92): one for
each recorded property, with the user's inputs of that name if there are any. As a mapping
from the name of the property. -/
def instanceHist {V : Type} (props : List RProp) (inputs : String → Option (ℤ → Option V)) :
    String → Option (ℤ → Option V) := fun n =>
  if n ∈ props.map RProp.name then
    match inputs n with
    | some d => some d
    | none => some fun _ => none
  else none

/-- A new instance of a class with the method resolution order `mro`, as the decorators see
it (base.py:60-92). -/
def newObj {V R : Type} (mro : List (Dict String Attr)) (year : ℤ)
    (inputs : String → Option (ℤ → Option V)) (rest : R) : Decorated.Obj V R :=
  { year := year, inputs := inputs, hist := instanceHist (recordedProps mro) inputs,
    rest := rest }

/-! ## Strategy classes -/

/-- An attribute of a strategy class: anything, told apart by a number, with the
`strategy_key` that the decorator `strategy_method` put on it, if any
(strategy/base.py:11-36). -/
structure SAttr where
  ident : ℕ
  key : Option String
  deriving DecidableEq, Repr

/-- The `strategies` dict of a class (strategy/base.py:54-64): a dict comprehension over the
members that have a key, in the order of the attribute names. -/
def strategies (mro : List (Dict String SAttr)) : Dict String SAttr :=
  (members (fun a => a.key.map fun k => (k, a)) mro).foldl
    (fun d m => Dict.set d m.2.1 m.2.2) []

/-- What may be passed as `strategy`: a string, an object with a `strategy_key`, anything
else. -/
inductive Choice
  | str (s : String)
  | method (a : SAttr)
  | junk
  deriving DecidableEq, Repr

/-- `Strategy.__init__` (strategy/base.py:84-102): the key that the object will use. -/
def chooseStrategy (mro : List (Dict String SAttr)) (c : Choice) : Except PyErr String :=
  let key : Option String := match c with
    | .str s => some s
    | .method a => a.key
    | .junk => none
  match key with
  | none => .error .typeError
  | some k => if (Dict.get? (strategies mro) k).isSome then .ok k else .error .valueError

/-- `Strategy.__call__` (strategy/base.py:104-109): the method that runs. -/
def callStrategy (mro : List (Dict String SAttr)) (k : String) : Except PyErr SAttr :=
  match Dict.get? (strategies mro) k with
  | some a => .ok a
  | none => .error .keyError

end Forecaster.Discovery
