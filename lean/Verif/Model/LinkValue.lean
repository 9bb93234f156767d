import Verif.Model.Link

/-!
# `AccountLink` as a value (forecaster/accounts/link.py)

The constructor with everything it may be given, `is_linked`, and `__eq__` and `__hash__` as `==`, sets
and dicts use them.
-/

namespace Forecaster.Link

open Forecaster

variable {O T Acc V : Type} [DecidableEq O] [DecidableEq T] [DecidableEq Acc]

/-- What the constructor finds out about the two objects in a link tuple: `asOwner` whether the first
has a `data` attribute, `asToken` whether the second can be looked up in a dict (link.py:36-38). -/
structure Objects (I O T : Type) where
  asOwner : I → Option O
  asToken : I → Option T

/-- The argument `link` of the constructor (link.py:66-74): an `AccountLink`, a `LinkTuple`, any other
sequence (a tuple, a list, a string), or something else. -/
inductive LinkArg (I O T V : Type)
  | link (l : AccountLink O T V)
  | named (owner token : I)
  | sequence (items : List I)
  | other

/-- The second half of `__init__` (link.py:80-88) for a link that is not registered yet or already is;
`self.token in self.owner.data` (link.py:134-136) first reads `self.owner.data`. -/
def newFrom {I : Type} (E : Objects I O T) (s : Store O T Acc V) (owner token : I) (default : V) :
    Except PyErr (AccountLink O T V × Store O T Acc V) :=
  match E.asOwner owner with
  | none => .error .attributeError
  | some o =>
    match E.asToken token with
    | none => .error .typeError
    | some t => .ok (⟨o, t, default⟩, register s ⟨o, t, default⟩)

/-- `AccountLink.__init__` (link.py:66-88). `factory` is what the argument `default_factory()` returns,
if it is given; `empty` is the `{}` a `LinkRecord` gets without one (link.py:14, 147). -/
def new {I : Type} (E : Objects I O T) (empty : V) (s : Store O T Acc V) (arg : LinkArg I O T V)
    (factory : Option V) : Except PyErr (AccountLink O T V × Store O T Acc V) :=
  match arg with
  | .link l =>
    let l' : AccountLink O T V := ⟨l.owner, l.token, factory.getD l.default⟩
    .ok (l', register s l')
  | .named o t => newFrom E s o t (factory.getD empty)
  | .sequence [o, t] => newFrom E s o t (factory.getD empty)
  | .sequence _ => .error .typeError
  | .other => .error .typeError

/-- `AccountLink.is_linked` (link.py:160-164); `None` has no `group`. -/
def isLinked (s : Store O T Acc V) (l : AccountLink O T V) (a : Acc) : Except PyErr Bool :=
  match record s l with
  | some r => .ok (decide (a ∈ r.group))
  | none => .error .attributeError

/-- What an `AccountLink` may be compared with: another one, a `LinkTuple` (which also has an `owner`
and a `token`), a plain tuple of the two, or an object without such attributes (`None`, a string). -/
inductive Value (O T V : Type)
  | link (l : AccountLink O T V)
  | named (o : O) (t : T)
  | plain (o : O) (t : T)
  | other (n : ℕ)

/-- Owner and token, if the value has them. -/
def Value.key : Value O T V → Option (O × T)
  | .link l => some (l.owner, l.token)
  | .named o t => some (o, t)
  | .plain o t => some (o, t)
  | .other _ => none

/-- `x == y`: `AccountLink.__eq__` (link.py:184-189) reads `other.owner`, which a plain tuple and other
objects do not have; tuples and other objects leave a comparison with an `AccountLink` to it. -/
def eq : Value O T V → Value O T V → Except PyErr Bool
  | .link l, .link m => .ok (decide ((l.owner, l.token) = (m.owner, m.token)))
  | .link l, .named o t => .ok (decide ((l.owner, l.token) = (o, t)))
  | .named o t, .link l => .ok (decide ((l.owner, l.token) = (o, t)))
  | .link _, .plain _ _ => .error .attributeError
  | .plain _ _, .link _ => .error .attributeError
  | .link _, .other _ => .error .attributeError
  | .other _, .link _ => .error .attributeError
  | .other n, .other m => .ok (decide (n = m))
  | x, y => .ok (decide (x.key = y.key))

/-- `hash(x)` (link.py:191-193): that of the tuple `(owner, token)`. -/
def hash (H : O × T → ℕ) (Ho : ℕ → ℕ) : Value O T V → ℕ
  | .link l => H (l.owner, l.token)
  | .named o t => H (o, t)
  | .plain o t => H (o, t)
  | .other n => Ho n

/-- `x in s` for a `set` `s` (of entries in the order they are probed): entries with another hash are
passed over (link.py:181-182: "to be easily added to a set without duplication"). -/
def contains (H : O × T → ℕ) (Ho : ℕ → ℕ) (x : Value O T V) : List (Value O T V) → Except PyErr Bool
  | [] => .ok false
  | e :: s =>
    if hash H Ho e = hash H Ho x then do
      let b ← eq e x
      if b then .ok true else contains H Ho x s
    else contains H Ho x s

/-- `s.add(x)` for a `set` (link.py:181-182). -/
def add (H : O × T → ℕ) (Ho : ℕ → ℕ) (s : List (Value O T V)) (x : Value O T V) :
    Except PyErr (List (Value O T V)) := do
  let b ← contains H Ho x s
  .ok (if b then s else s ++ [x])

end Forecaster.Link
