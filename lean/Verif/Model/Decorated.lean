import Verif.Model.Err
import Mathlib.Data.Int.Notation

/-!
# The `recorded_property` decorators (`forecaster/ledger/recorded_property.py`)

`Model/Ledger.lean` starts from "a getter, perhaps a setter, perhaps a deleter". This file
models how Python arrives there: `recorded_property.__init__` wraps the three functions in
closures of its own, and `@x.setter`, `@x.deleter` and `@x.getter` (inherited from
`property`) build a *new* recorded property out of the already wrapped functions of the old
one, so that wrappers nest.

Simplified: history dicts are compared as mappings (a function from years to recorded
values), not by insertion order; docstrings are left out; the first argument `fget` is
always given, as it is whenever the class is used as a decorator.
-/

namespace Forecaster.Decorated

open Forecaster

/-- The part of an object that the decorators touch: `this_year`, `inputs`, the attributes
`_<name>_history` (by `<name>`; `none` if the attribute does not exist) and everything else
(base.py:77-92). -/
structure Obj (V R : Type) where
  year : ℤ
  inputs : String → Option (ℤ → Option V)
  hist : String → Option (ℤ → Option V)
  rest : R

/-- A Python call on an object: a result or an exception, and the object afterwards. -/
abbrev Act (V R α : Type) := Obj V R → Except PyErr α × Obj V R

variable {V R α β : Type}

/-- Sequencing: an exception stops the call, what was done before it stays done. -/
def Act.bind (m : Act V R α) (f : α → Act V R β) : Act V R β := fun o =>
  match m o with
  | (.ok a, o') => f a o'
  | (.error e, o') => (.error e, o')

/-- A function with its `__name__`. -/
structure Fn (F : Type) where
  name : String
  run : F

/-- A getter, a setter, a deleter. -/
abbrev Getter (V R : Type) := Fn (Act V R V)
/-- A setter. -/
abbrev Setter (V R : Type) := Fn (V → Act V R Unit)
/-- A deleter. -/
abbrev Deleter (V R : Type) := Fn (Act V R Unit)

/-- `getattr(obj, self.history_dict_name)` (recorded_property.py:61, 76, 103, 115, 154). -/
def getHist (n : String) : Act V R (ℤ → Option V) := fun o =>
  match o.hist n with
  | none => (.error .attributeError, o)
  | some d => (.ok d, o)

/-- `history_dict[obj.this_year] = val` (recorded_property.py:80, 156, 172). -/
def store (n : String) (v : V) : Act V R Unit := fun o =>
  (.ok (), { o with
    hist := fun m =>
      if m = n then (o.hist n).map (fun d y => if y = o.year then some v else d y)
      else o.hist m })

/-- `if obj.this_year in history_dict: del history_dict[obj.this_year]`
(recorded_property.py:84-85, 104-105). -/
def erase (n : String) : Act V R Unit := fun o =>
  (.ok (), { o with
    hist := fun m =>
      if m = n then (o.hist n).map (fun d y => if y = o.year then none else d y)
      else o.hist m })

/-- `self.__name__ in obj.inputs and obj.this_year in obj.inputs[self.__name__]`
(recorded_property.py:70-72, 97-99). -/
def isInput (n : String) (o : Obj V R) : Bool :=
  match o.inputs n with
  | none => false
  | some d => (d o.year).isSome

/-- The inner function `getter` of `recorded_property.__init__`
(recorded_property.py:59-65). -/
def wrapGet (n : String) (fget : Act V R V) : Act V R V :=
  Act.bind (getHist n) fun d => fun o =>
    match d o.year with
    | some v => (.ok v, o)
    | none => fget o

/-- The inner function `setter` (recorded_property.py:67-86). -/
def wrapSet (n : String) (fset : Option (Setter V R)) (v : V) : Act V R Unit := fun o =>
  if isInput n o then (.ok (), o)
  else Act.bind (getHist n) (fun _ =>
    match fset with
    | none => store n v
    | some f => Act.bind (erase n) fun _ => f.run v) o

/-- The inner function `deleter` (recorded_property.py:94-107). -/
def wrapDel (n : String) (fdel : Option (Deleter V R)) : Act V R Unit := fun o =>
  if isInput n o then (.ok (), o)
  else Act.bind (getHist n) (fun _ =>
    Act.bind (erase n) fun _ =>
      match fdel with
      | none => fun o => (.ok (), o)
      | some f => f.run) o

/-- The inner function `history` of `recorded_property.__init__`
(recorded_property.py:111-122): the history dict, or a copy of it with this year added. -/
def histPlain (n : String) (fget : Act V R V) : Act V R (ℤ → Option V) :=
  Act.bind (getHist n) fun d => fun o =>
    match d o.year with
    | some _ => (.ok d, o)
    | none => Act.bind fget (fun v => fun o' =>
        (.ok (fun y => if y = o'.year then some v else d y), o')) o

/-- The inner function `history` of `recorded_property_cached.__init__`
(recorded_property.py:168-173): the dict itself, this year having been added to it. -/
def histCached (n : String) (fget : Act V R V) : Act V R (ℤ → Option V) :=
  Act.bind (getHist n) fun d => fun o =>
    match d o.year with
    | some _ => (.ok d, o)
    | none => Act.bind fget (fun v => Act.bind (store n v) fun _ => getHist n) o

/-- The inner function `getter` of `recorded_property_cached.__init__`
(recorded_property.py:152-157). -/
def cacheGet (n : String) (fget : Act V R V) : Act V R V :=
  Act.bind (getHist n) fun _ => Act.bind fget fun v => Act.bind (store n v) fun _ =>
    fun o => (.ok v, o)

/-- The property object: `isinstance(prop, recorded_property_cached)`, `prop.__name__`,
`prop.fget`, `prop.fset`, `prop.fdel` and the getter of `prop.history_property`. -/
structure Prop' (V R : Type) where
  cached : Bool
  name : String
  fget : Getter V R
  fset : Setter V R
  fdel : Deleter V R
  history : Act V R (ℤ → Option V)

/-- Which of the three functions lends its name to the property
(recorded_property.py:43-51). -/
def propName (fget : Getter V R) (fset : Option (Setter V R)) (fdel : Option (Deleter V R)) :
    String :=
  if fget.name ≠ "getter" then fget.name
  else match fset.filter (fun f => f.name ≠ "setter") with
    | some f => f.name
    | none => match fdel.filter (fun f => f.name ≠ "deleter") with
      | some f => f.name
      | none => fget.name

/-- `recorded_property.__init__` (recorded_property.py:26-130). -/
def initPlain (fget : Getter V R) (fset : Option (Setter V R)) (fdel : Option (Deleter V R)) :
    Prop' V R :=
  let n := propName fget fset fdel
  { cached := false, name := n,
    fget := ⟨"getter", wrapGet n fget.run⟩,
    fset := ⟨"setter", wrapSet n fset⟩,
    fdel := ⟨"deleter", wrapDel n fdel⟩,
    history := histPlain n fget.run }

/-- `recorded_property_cached.__init__` (recorded_property.py:147-181): the given getter is
wrapped in one that caches, under the same `__name__`, before `recorded_property.__init__`
sees it; the history property is then replaced. -/
def initCached (fget : Getter V R) (fset : Option (Setter V R)) (fdel : Option (Deleter V R)) :
    Prop' V R :=
  let n := propName ⟨fget.name, fget.run⟩ fset fdel
  { initPlain ⟨fget.name, cacheGet n fget.run⟩ fset fdel with
    cached := true
    history := histCached n fget.run }

/-- The constructor of either class. -/
def initProp (cached : Bool) (fget : Getter V R) (fset : Option (Setter V R))
    (fdel : Option (Deleter V R)) : Prop' V R :=
  if cached then initCached fget fset fdel else initPlain fget fset fdel

/-- What a programmer can write: `@recorded_property` (or `_cached`) over a getter, or the
constructor called with a setter and a deleter as well, followed by any number of
`@x.getter`, `@x.setter`, `@x.deleter`. -/
inductive Chain (V R : Type)
  | base (cached : Bool) (g : Getter V R) (s : Option (Setter V R)) (d : Option (Deleter V R))
  | getter (c : Chain V R) (g : Getter V R)
  | setter (c : Chain V R) (s : Setter V R)
  | deleter (c : Chain V R) (d : Deleter V R)

/-- The property object that results. `property.getter`, `.setter` and `.deleter` call
`type(self)(fget, fset, fdel)` with one of the three replaced and the other two taken from
the existing object, that is, already wrapped. -/
def build : Chain V R → Prop' V R
  | .base c g s d => initProp c g s d
  | .getter c g => initProp (build c).cached g (some (build c).fset) (some (build c).fdel)
  | .setter c s => initProp (build c).cached (build c).fget (some s) (some (build c).fdel)
  | .deleter c d => initProp (build c).cached (build c).fget (some (build c).fset) (some d)

end Forecaster.Decorated
