import Verif.Model.Err
import Mathlib.Data.List.Nodup
import Mathlib.Data.List.Dedup

/-!
# Owners of accounts: `Account.owner` and `Person.accounts`

Sources: accounts/base.py:146-197, person.py:156-158. `person.accounts` is a set, here a list without
duplicates. Not modelled: code that changes `person.accounts` by itself (there is none in /repo).
-/

namespace Forecaster.Owners

open Forecaster

/-- What can be assigned to `account.owner`. -/
inductive Val (N : Type)
  | none
  | person (i : N)
  /-- anything that is not a `Person` -/
  | other

/-- `account._owner` of every account and `person.accounts` of every person. -/
structure St (N A : Type) where
  owner : A → Option N
  accounts : N → List A

variable {N A : Type} [DecidableEq N] [DecidableEq A]

/-- Nobody owns anything (accounts/base.py:158, person.py:158). -/
def empty : St N A := ⟨fun _ => none, fun _ => []⟩

/-- `person.accounts.remove(account)`; `KeyError` if it is not in the set. -/
def remove (i : N) (a : A) (s : St N A) : Except PyErr (St N A) :=
  if a ∈ s.accounts i then
    .ok { s with accounts := fun j => if j = i then (s.accounts i).erase a else s.accounts j }
  else .error .keyError

/-- `person.accounts.add(account)` -/
def add (i : N) (a : A) (s : St N A) : St N A :=
  { s with accounts := fun j =>
      if j = i then (if a ∈ s.accounts i then s.accounts i else s.accounts i ++ [a]) else s.accounts j }

/-- `self._owner = val` -/
def setOwner (a : A) (v : Option N) (s : St N A) : St N A :=
  { s with owner := fun b => if b = a then v else s.owner b }

/-- The part of the setter that deals with the former owner (accounts/base.py:185-187). -/
def leave (a : A) (s : St N A) : Except PyErr (St N A) :=
  match s.owner a with
  | some i => remove i a s
  | none => .ok s

/-- `account.owner = val` (accounts/base.py:182-197); a call that raises leaves the state it has
reached. -/
def assign (a : A) (v : Val N) (s : St N A) : Option PyErr × St N A :=
  match leave a s with
  | .error e => (some e, s)
  | .ok s' =>
    match v with
    | .none => (none, setOwner a none s')
    | .person i => (none, setOwner a (some i) (add i a s'))
    | .other => (some .typeError, s')

/-- Any assignments, also by constructors (accounts/base.py:167); exceptions are caught. -/
def run (s : St N A) (ops : List (A × Val N)) : St N A := ops.foldl (fun s op => (assign op.1 op.2 s).2) s

end Forecaster.Owners
