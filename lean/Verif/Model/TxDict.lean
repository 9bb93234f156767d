import Verif.Model.SubForecast

/-!
# `TransactionDict` (forecast/subforecast.py:9-77) and the history of a sub-forecast's transactions

A `defaultdict` that takes unhashable keys by their `id`.  `H` are the hashable keys, compared by
`==` (accounts, `None`; the `id`s, being numbers, are hashable too); `U` are the unhashable objects
(dicts); `idOf` is Python's `id`.
-/

namespace Forecaster.TxDict

open Forecaster

variable {H U V : Type} [DecidableEq H]

/-- Something used as a key: `isinstance(key, Hashable)` or not. -/
inductive Obj (H U : Type)
  | hashable (h : H)
  | unhashable (u : U)
  deriving DecidableEq

/-- A `TransactionDict`: the underlying dict and `_unhashablekeys` (subforecast.py:38-41). -/
structure TD (H U V : Type) where
  base : Dict H V
  unhashablekeys : Dict H U

/-- `TransactionDict(factory)` (subforecast.py:38-41). -/
def new : TD H U V := ⟨[], []⟩

/-- The key that the underlying dict sees. -/
def under (idOf : U → H) : Obj H U → H
  | .hashable h => h
  | .unhashable u => idOf u

/-- `if id(key) not in self._unhashablekeys: self._unhashablekeys[id(key)] = key`
(subforecast.py:47-48, 56-57). -/
def remember (idOf : U → H) (t : TD H U V) : Obj H U → TD H U V
  | .hashable _ => t
  | .unhashable u =>
    match Dict.get? t.unhashablekeys (idOf u) with
    | some _ => t
    | none => { t with unhashablekeys := Dict.set t.unhashablekeys (idOf u) u }

/-- `defaultdict.__getitem__`: a missing key is inserted with what the factory makes. -/
def baseGet (dflt : V) (t : TD H U V) (h : H) : V × TD H U V :=
  match Dict.get? t.base h with
  | some v => (v, t)
  | none => (dflt, { t with base := Dict.set t.base h dflt })

/-- `d[key]` (subforecast.py:43-51). -/
def getItem (idOf : U → H) (dflt : V) (t : TD H U V) (k : Obj H U) : V × TD H U V :=
  baseGet dflt (remember idOf t k) (under idOf k)

/-- `d[key] = v` (subforecast.py:53-60). -/
def setItem (idOf : U → H) (t : TD H U V) (k : Obj H U) (v : V) : TD H U V :=
  let t' := remember idOf t k
  { t' with base := Dict.set t'.base (under idOf k) v }

/-- A change in place of the object `d[key]`, such as `d[key][when] += value`
(subforecast.py:354, 370). -/
def alter (idOf : U → H) (dflt : V) (t : TD H U V) (k : Obj H U) (f : V → V) : TD H U V :=
  let r := getItem idOf dflt t k
  { r.2 with base := Dict.set r.2.base (under idOf k) (f r.1) }

/-- What iteration makes of a key of the underlying dict (subforecast.py:64-68). -/
def shown (t : TD H U V) (h : H) : Obj H U :=
  match Dict.get? t.unhashablekeys h with
  | some u => .unhashable u
  | none => .hashable h

/-- `list(d)` (subforecast.py:62-68). -/
def iter (t : TD H U V) : List (Obj H U) := (Dict.keys t.base).map (shown t)

/-- `d.keys()` (subforecast.py:69-76) for keys that cannot be ordered, as accounts, dicts and `None`
cannot: `sorted` compares as soon as there are two. -/
def keys (t : TD H U V) : Except PyErr (List (Obj H U)) :=
  match iter t with
  | [] => .ok []
  | [k] => .ok [k]
  | _ => .error .typeError

/-- `key in d`: inherited; hashing an unhashable key raises `TypeError`. -/
def contains (t : TD H U V) : Obj H U → Except PyErr Bool
  | .hashable h => .ok (Dict.get? t.base h).isSome
  | .unhashable _ => .error .typeError

/-- `del d[key]`: inherited. -/
def delItem (t : TD H U V) : Obj H U → Except PyErr (TD H U V)
  | .hashable h =>
    match Dict.get? t.base h with
    | some _ => .ok { t with base := Dict.del t.base h }
    | none => .error .keyError
  | .unhashable _ => .error .typeError

/-- `list(d.items())`: inherited, not translated. -/
def items (t : TD H U V) : List (H × V) := t.base

/-- `d.clear()`: inherited; `_unhashablekeys` stays as it is. -/
def clear (t : TD H U V) : TD H U V := { t with base := [] }

/-- What the package does with a `TransactionDict`. -/
inductive Op (H U V : Type)
  | get (k : Obj H U)
  | set (k : Obj H U) (v : V)
  | alter (k : Obj H U) (f : V → V)
  | clear

/-- One operation, with the value it returns if it returns one. -/
def step (idOf : U → H) (dflt : V) (t : TD H U V) : Op H U V → Option V × TD H U V
  | .get k => let r := getItem idOf dflt t k; (some r.1, r.2)
  | .set k v => (none, setItem idOf t k v)
  | .alter k f => (none, alter idOf dflt t k f)
  | .clear => (none, clear t)

/-- A program: what its operations return, and the dict in the end. -/
def run (idOf : U → H) (dflt : V) : TD H U V → List (Op H U V) → List (Option V) × TD H U V
  | t, [] => ([], t)
  | t, op :: ops =>
    let r := step idOf dflt t op
    let rs := run idOf dflt r.2 ops
    (r.1 :: rs.1, rs.2)

/-! ### The recorded property `transactions` of a sub-forecast -/

/-- `_transactions` and the recorded history of `transactions` (subforecast.py:148-149, 156-159):
references to dicts, and the dicts. -/
structure Kept (P K : Type) where
  year : ℤ
  hist : Dict ℤ ℕ
  ref : ℕ
  heap : ℕ → Dict (Option P) (Dict K K)

/-- `SubForecast.__init__` (subforecast.py:130-154). -/
def newKept {P K : Type} (year : ℤ) : Kept P K := ⟨year, [], 0, fun _ => []⟩

/-- `self.transactions`: the dict on record for the year, or `_transactions`
(recorded_property.py:59-65; subforecast.py:156-159). -/
def Kept.transactions {P K : Type} (s : Kept P K) : ℕ := (Dict.get? s.hist s.year).getD s.ref

/-- A change in place of a dict. -/
def Kept.put {P K : Type} (s : Kept P K) (r : ℕ) (d : Dict (Option P) (Dict K K)) : Kept P K :=
  { s with heap := fun q => if q = r then d else s.heap q }

variable {P K : Type} [DecidableEq P] [Field K] [LinearOrder K]

/-- `self.transactions[account][when] += value` (subforecast.py:354, 370). -/
def Kept.add (s : Kept P K) (o : Option P) (when value : K) : Kept P K :=
  s.put s.transactions (SubForecast.recAdd (s.heap s.transactions) o when value)

/-- `SubForecast.next_year` (subforecast.py:161-174): `Ledger.next_year` records the *object*
(ledger/base.py:100-111), which is then cleared. -/
def Kept.nextYear (s : Kept P K) : Kept P K :=
  let t := { s with hist := Dict.set s.hist s.year s.transactions
                    year := s.year + 1 }
  t.put t.transactions []

/-- What happens to a sub-forecast's transactions. -/
inductive KOp (P K : Type)
  | add (o : Option P) (when value : K)
  | nextYear

/-- One of them. -/
def Kept.step (s : Kept P K) : KOp P K → Kept P K
  | .add o w v => s.add o w v
  | .nextYear => s.nextYear

/-- A sequence of them. -/
def Kept.run (s : Kept P K) (ops : List (KOp P K)) : Kept P K := ops.foldl Kept.step s

/-- `sub_forecast.transactions_history[y]` for a year that is over. -/
def Kept.past (s : Kept P K) (y : ℤ) : Option (Dict (Option P) (Dict K K)) :=
  (Dict.get? s.hist y).map s.heap

end Forecaster.TxDict
