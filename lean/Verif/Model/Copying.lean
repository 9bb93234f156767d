import Verif.Model.Dict
import Verif.Model.Err

/-!
# How `run_forecast` copies its arguments (forecaster.py:228-232)

`people`, `accounts` and `debts` are copied with Python's `copy.deepcopy` (CPython's
`Lib/copy.py`) and one shared `memo`.  Objects live in a heap, a list; a reference is an index.
What matters of an object is how `deepcopy` goes about it (`Shape`) and the values it holds, in
the order in which they are copied.

Simplifications: an instance's `__dict__` is part of the instance; a copy gets its contents at
once when they are ready instead of one by one (nothing looks at it in between); a bound method
is a `tuple` of its object (`_deepcopy_method`; a method whose object is its own copy is itself
unchanged, up to an equal method object).
-/

namespace Forecaster.Copying

open Forecaster

/-- A value: a number, string, date, `None` (an `atom`), or a reference to an object. -/
inductive Val
  | atom (n : ℕ)
  | ref (i : ℕ)
  deriving DecidableEq

/-- How an object is copied.
* `inst`: instances (`Person`, `Account`, `AccountLink`, `RateFunction`, ...), dicts, lists: the
  copy is put into the memo before its contents are copied (`_reconstruct`, `_deepcopy_dict`,
  `_deepcopy_list`).
* `set`: the contents are copied before there is a copy (`_reconstruct` with arguments).
* `tuple`: likewise, but the memo is looked at again, and a tuple with unchanged contents is its
  own copy (`_deepcopy_tuple`).
* `pure`: classes and functions that only compute numbers (`lambda: self.precision_convert(0)`,
  accounts/base.py:160-161); they are not copied (`_deepcopy_atomic`).
* `closure`: any other function, with what it has captured; not copied either. -/
inductive Shape
  | inst | set | tuple | pure | closure
  deriving DecidableEq

/-- An object; `label` stands for its class and the names of its attributes. -/
structure Obj where
  shape : Shape
  label : ℕ
  items : List Val
  deriving DecidableEq

/-- The heap and `memo`. -/
structure St where
  heap : List Obj
  memo : Dict ℕ ℕ
  deriving DecidableEq

/-- Copying one value after the other. -/
def copyList (f : Val → St → Except PyErr (Val × St)) : List Val → St → Except PyErr (List Val × St)
  | [], s => .ok ([], s)
  | v :: vs, s => do
    let r ← f v s
    let q ← copyList f vs r.2
    .ok (r.1 :: q.1, q.2)

/-- A new object in the heap and in the memo (as the copy of `i`). -/
def push (s : St) (i : ℕ) (o : Obj) : St := ⟨s.heap ++ [o], Dict.set s.memo i s.heap.length⟩

/-- A copied instance gets its contents. -/
def fill (j : ℕ) (o : Obj) (q : List Val × St) : Val × St :=
  (.ref j, { q.2 with heap := q.2.heap.set j { o with items := q.1 } })

/-- A set is made of the copies of its elements. -/
def build (i : ℕ) (o : Obj) (q : List Val × St) : Val × St :=
  (.ref q.2.heap.length, push q.2 i { o with items := q.1 })

/-- The end of `_deepcopy_tuple`. -/
def buildTuple (i : ℕ) (o : Obj) (q : List Val × St) : Val × St :=
  match Dict.get? q.2.memo i with
  | some j => (.ref j, q.2)
  | none => if q.1 = o.items then (.ref i, q.2) else build i o q

/-- `deepcopy(x, memo)` of an object that is not in the memo. -/
def copyObj (f : Val → St → Except PyErr (Val × St)) (i : ℕ) (o : Obj) (s : St) :
    Except PyErr (Val × St) :=
  match o.shape with
  | .pure => .ok (.ref i, s)
  | .closure => .ok (.ref i, s)
  | .inst => (copyList f o.items (push s i { o with items := [] })).map (fill s.heap.length o)
  | .set => (copyList f o.items s).map (build i o)
  | .tuple => (copyList f o.items s).map (buildTuple i o)

/-- `deepcopy(x, memo)`; `fuel` is Python's recursion limit. (There are no dangling references
in Python; here they would raise `KeyError`.) -/
def copy : ℕ → Val → St → Except PyErr (Val × St)
  | 0, _, _ => .error .recursionError
  | _ + 1, .atom n, s => .ok (.atom n, s)
  | fuel + 1, .ref i, s =>
    match Dict.get? s.memo i with
    | some j => .ok (.ref j, s)
    | none =>
      match s.heap[i]? with
      | none => .error .keyError
      | some o => copyObj (copy fuel) i o s

/-- The copies that `run_forecast` makes (forecaster.py:229-232): people, accounts, debts, with
one memo. -/
def copyArgs (fuel : ℕ) (people accounts debts : Val) (heap : List Obj) :
    Except PyErr (List Val × St) :=
  copyList (copy fuel) [people, accounts, debts] ⟨heap, []⟩

/-! ### What happens to objects afterwards

The rest of `run_forecast` (forecaster.py:234-288) as far as objects are concerned: it follows
references it has, makes objects, and changes objects it has got hold of. -/

/-- One thing that code can do; numbers are positions in the list of values it has. -/
inductive Act
  /-- have a number, string, ... -/
  | note (n : ℕ)
  /-- get the `k`-th value held by an object, e.g. read an attribute; calling a function gives it
  what the function has captured -/
  | look (a k : ℕ)
  /-- make an object -/
  | make (shape : Shape) (label : ℕ) (bs : List ℕ)
  /-- change what an object holds; tuples and functions do not change -/
  | write (a : ℕ) (bs : List ℕ)

/-- The heap, and the values code has got hold of. -/
structure World where
  heap : List Obj
  known : List Val

/-- The values at some positions. -/
def World.pick (w : World) (bs : List ℕ) : List Val := bs.filterMap fun b => w.known[b]?

/-- The object at a position. -/
def World.at (w : World) (a : ℕ) : Option (ℕ × Obj) :=
  match w.known[a]? with
  | some (.ref i) => (w.heap[i]?).map fun o => (i, o)
  | _ => none

/-- Whether an object's contents can be changed. -/
def Shape.mutable : Shape → Bool
  | .inst | .set => true
  | _ => false

/-- One step. -/
def World.act (w : World) : Act → World
  | .note n => { w with known := w.known ++ [.atom n] }
  | .look a k =>
    match w.at a with
    | some (_, o) =>
      if o.shape = .pure then w else { w with known := w.known ++ (o.items[k]?).toList }
    | none => w
  | .make shape label bs =>
    { heap := w.heap ++ [⟨shape, label, w.pick bs⟩], known := w.known ++ [.ref w.heap.length] }
  | .write a bs =>
    match w.at a with
    | some (i, o) =>
      if o.shape.mutable then { w with heap := w.heap.set i { o with items := w.pick bs } } else w
    | none => w

/-- A program. -/
def World.run (w : World) (acts : List Act) : World := acts.foldl World.act w

end Forecaster.Copying
