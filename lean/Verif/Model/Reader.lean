import Verif.Model.Dict
import Verif.Model.Err

/-!
# `forecaster/value_reader.py`

The JSON text itself (`json.load`, `json.dump`) is not modelled here: a file is the tree of values it
encodes (see `Model/Storage.lean` for number literals and for files). The parsing of a number from a string (`float(s)`, `float_val % 1 == 0`, `int(float_val)`,
`high_precision(s)`) is a parameter, with the three possible outcomes the code distinguishes.
-/

namespace Forecaster.Reader

open Forecaster

/-- What value_reader.py:331-349 makes of a string: not a number; an integer; another number (in
the high-precision type if there is one - that conversion may raise). -/
inductive StrClass (N : Type)
  | text
  | int (n : ℤ)
  | num (x : Except PyErr N)

/-- A key of a dict in such a tree. -/
inductive Key (N : Type)
  | str (s : String)
  | int (n : ℤ)
  | num (x : N)
  deriving DecidableEq

/-- A value: what `json.load` produces, and what the conversion makes of it. `num` is a `float` or
a high-precision number. -/
inductive Val (N : Type)
  | dict (l : List (Key N × Val N))
  | list (l : List (Val N))
  | str (s : String)
  | int (n : ℤ)
  | num (x : N)
  | bool (b : Bool)
  | null

variable {N : Type}

/-- `_numeric_convert` of a string (value_reader.py:329-349). -/
def convStr (cls : String → StrClass N) (s : String) : Except PyErr (Val N) :=
  match cls s with
  | .text => .ok (.str s)
  | .int n => .ok (.int n)
  | .num (.ok x) => .ok (.num x)
  | .num (.error e) => .error e

/-- `_numeric_convert` of a key. -/
def convKey (cls : String → StrClass N) : Key N → Except PyErr (Key N)
  | .str s =>
    match cls s with
    | .text => .ok (.str s)
    | .int n => .ok (.int n)
    | .num (.ok x) => .ok (.num x)
    | .num (.error e) => .error e
  | k => .ok k

mutual
/-- `ValueReader._numeric_convert` (value_reader.py:300-349). In the dict comprehension later entries
overwrite the value of equal keys. -/
def conv [DecidableEq N] (cls : String → StrClass N) : Val N → Except PyErr (Val N)
  | .dict l => do
    let l' ← convItems cls l
    .ok (.dict (Dict.update [] l'))
  | .list l => do
    let l' ← convList cls l
    .ok (.list l')
  | .str s => convStr cls s
  | .int n => .ok (.int n)
  | .num x => .ok (.num x)
  | .bool b => .ok (.bool b)
  | .null => .ok .null
/-- The items of the dict comprehension (value_reader.py:318-320). -/
def convItems [DecidableEq N] (cls : String → StrClass N) :
    List (Key N × Val N) → Except PyErr (List (Key N × Val N))
  | [] => .ok []
  | (k, v) :: l => do
    let k' ← convKey cls k
    let v' ← conv cls v
    let l' ← convItems cls l
    .ok ((k', v') :: l')
/-- The items of the list comprehension (value_reader.py:323). -/
def convList [DecidableEq N] (cls : String → StrClass N) : List (Val N) → Except PyErr (List (Val N))
  | [] => .ok []
  | v :: l => do
    let v' ← conv cls v
    let l' ← convList cls l
    .ok (v' :: l')
end

/-! ## `write` -/

/-- How numbers are written as strings; `highPrecision` says whether the numbers are of a
high-precision type (which JSON does not know). -/
structure Format (N : Type) where
  highPrecision : Bool
  showInt : ℤ → String
  showNum : N → String

/-- A key in the file: JSON keys are strings; `json.dump` raises `TypeError` for a key of a
high-precision type. -/
def emitKey (f : Format N) : Key N → Except PyErr (Key N)
  | .str s => .ok (.str s)
  | .int n => .ok (.str (f.showInt n))
  | .num x => if f.highPrecision then .error .typeError else .ok (.str (f.showNum x))

/-- `sort_keys=True` compares the keys: strings and numbers are not comparable. -/
def sortable (l : List (Key N × Val N)) : Bool :=
  l.all (fun kv => match kv.1 with | .str _ => true | _ => false) ||
  l.all (fun kv => match kv.1 with | .str _ => false | _ => true)

mutual
/-- The tree in the file that `ValueReader.write` produces (value_reader.py:351-386, with
`HighPrecisionJSONEncoder.default`, 126-135): high-precision numbers are written as strings, other
numbers as numbers. The order of the keys in the file (sorted) is not modelled: it does not matter
to a reader, dicts compare as sets of items. A dict whose keys cannot be sorted is a `TypeError`. -/
def emit (f : Format N) : Val N → Except PyErr (Val N)
  | .dict l =>
    if sortable l then do
      let l' ← emitItems f l
      .ok (.dict l')
    else .error .typeError
  | .list l => do
    let l' ← emitList f l
    .ok (.list l')
  | .str s => .ok (.str s)
  | .int n => .ok (.int n)
  | .num x => .ok (if f.highPrecision then .str (f.showNum x) else .num x)
  | .bool b => .ok (.bool b)
  | .null => .ok .null
/-- The items of a dict. -/
def emitItems (f : Format N) : List (Key N × Val N) → Except PyErr (List (Key N × Val N))
  | [] => .ok []
  | (k, v) :: l => do
    let k' ← emitKey f k
    let v' ← emit f v
    let l' ← emitItems f l
    .ok ((k', v') :: l')
/-- The elements of a list. -/
def emitList (f : Format N) : List (Val N) → Except PyErr (List (Val N))
  | [] => .ok []
  | v :: l => do
    let v' ← emit f v
    let l' ← emitList f l
    .ok (v' :: l')
end

/-! ## `read` and the managed attributes -/

/-- The state of a `ValueReader`: its `values` (normally a dict) and `use_defaults`. -/
structure Obj (N : Type) where
  values : Val N
  useDefaults : Bool

/-- `self.values.clear()` (value_reader.py:241): dicts and lists can be cleared, other values have no
such method. -/
def cleared : Val N → Except PyErr (Val N)
  | .dict _ => .ok (.dict [])
  | .list _ => .ok (.list [])
  | _ => .error .attributeError

/-- `ValueReader.read` (value_reader.py:212-259) of a file: `none` if there is no such file, otherwise
what `json.load` makes of its text, or the exception it raises. The values are cleared first. -/
def read [DecidableEq N] (cls : String → StrClass N) (o : Obj N) (file : Option (Except PyErr (Val N)))
    (numericConvert : Bool) : Except PyErr Unit × Obj N :=
  match cleared o.values with
  | .error e => (.error e, o)
  | .ok empty =>
    match file with
    | none => (.error .fileNotFoundError, { o with values := empty })
    | some (.error e) => (.error e, { o with values := empty })
    | some (.ok v) =>
      match if numericConvert then conv cls v else .ok v with
      | .error e => (.error e, { o with values := v })
      | .ok (.dict l) => (.ok (), { o with values := .dict l })
      | .ok w => (.error .typeError, { o with values := w })

/-- The default of an attribute, or the lookup that fails (value_reader.py:44-52). -/
def orDefault (default : Option (Val N)) (o : Obj N) (e : PyErr) : Except PyErr (Val N) :=
  match default with
  | some d => if o.useDefaults then .ok d else .error e
  | none => .error e

/-- `ValueReaderAttribute.__get__` (value_reader.py:40-52). If the values are no dict, `in` looks for an
element of a list or a part of a string, and fails for the rest; the lookup itself fails. -/
def attrGet [DecidableEq N] (name : String) (default : Option (Val N)) (o : Obj N) :
    Except PyErr (Val N) :=
  match o.values with
  | .dict l =>
    match Dict.get? l (.str name) with
    | some v => .ok v
    | none => orDefault default o .keyError
  | .list l =>
    if l.any (fun v => match v with | .str s => decide (s = name) | _ => false) then .error .typeError
    else orDefault default o .typeError
  | .str s =>
    if name.toList <:+: s.toList then .error .typeError else orDefault default o .typeError
  | _ => .error .typeError

/-- `ValueReaderAttribute.__set__` (value_reader.py:54-56): only a dict has places for names. -/
def attrSet [DecidableEq N] (name : String) (v : Val N) (o : Obj N) : Except PyErr (Obj N) :=
  match o.values with
  | .dict l => .ok { o with values := .dict (Dict.set l (.str name) v) }
  | _ => .error .typeError

/-- `ValueReaderAttribute.__delete__` (value_reader.py:58-62). The second `del` always raises: the
descriptor is not in the object's `__dict__`. -/
def attrDelete [DecidableEq N] (name : String) (o : Obj N) : Except PyErr Unit × Obj N :=
  match o.values with
  | .dict l =>
    match Dict.get? l (.str name) with
    | none => (.error .keyError, o)
    | some _ => (.error .keyError, { o with values := .dict (Dict.del l (.str name)) })
  | _ => (.error .typeError, o)

end Forecaster.Reader
