import Verif.Model.Reader

/-!
# Files written and read by `ValueReader` (`forecaster/value_reader.py`)

`Model/Reader.lean` has the conversion of values; this file has the literals for numbers, the files
and what happens when writing or reading fails.

A file holds the tree that its text denotes, or a text that is no JSON. Simplifications: `encoder_cls`
and `decoder_cls` are the defaults; directories exist and can be written to; numbers other than
integers are all of one type, floats or (in high-precision mode) the high-precision type, which is not
a kind of `float`.
-/

namespace Forecaster.Storage

open Forecaster Forecaster.Reader

/-- Literals for numbers other than integers: JSON floats and the constants `Infinity`, `-Infinity`
and `NaN` that `json` accepts and, with `allow_nan`, emits (value_reader.py:369, 284-298). -/
inductive Lit
  | float (token : String)
  | inf (negative : Bool)
  | nan
  deriving DecidableEq

/-- The text of a JSON file: the keys of dicts are strings. -/
inductive Json
  | dict (l : List (String × Json))
  | list (l : List Json)
  | str (s : String)
  | int (n : ℤ)
  | num (x : Lit)
  | bool (b : Bool)
  | null

variable {F N : Type}

/-- How literals become numbers. `F` are floats; `high` is the `high_precision` argument, which is
called with strings and floats; `plain` makes a number of a float when there is none. -/
structure Parse (F N : Type) where
  float : String → F
  infinity : F
  plain : F → N
  neg : N → N
  high : Option (String ⊕ F → Except PyErr N)

/-- `_parse_float` (value_reader.py:261-282). -/
def parseFloat (P : Parse F N) (token : String) : Except PyErr N :=
  match P.high with
  | none => .ok (P.plain (P.float token))
  | some h =>
    match h (.inl token) with
    | .ok x => .ok x
    | .error _ => h (.inr (P.float token))

/-- The value for `Infinity` (value_reader.py:287-289). -/
def parseInf (P : Parse F N) : Except PyErr N :=
  match P.high with
  | none => .ok (P.plain P.infinity)
  | some h => h (.inr P.infinity)

/-- `_parse_float` and `_parse_constant` (value_reader.py:261-298). -/
def parseLit (P : Parse F N) : Lit → Except PyErr N
  | .float token => parseFloat P token
  | .inf negative => do
    let x ← parseInf P
    .ok (if negative then P.neg x else x)
  | .nan => do
    let _ ← parseInf P
    .error .valueError

mutual
/-- `json.load` with these methods (value_reader.py:247-252). Of equal keys the last one counts. -/
def load [DecidableEq N] (P : Parse F N) : Json → Except PyErr (Val N)
  | .dict l => do
    let l' ← loadItems P l
    .ok (.dict (Dict.update [] l'))
  | .list l => do
    let l' ← loadList P l
    .ok (.list l')
  | .str s => .ok (.str s)
  | .int n => .ok (.int n)
  | .num x => do
    let y ← parseLit P x
    .ok (.num y)
  | .bool b => .ok (.bool b)
  | .null => .ok .null
/-- The items of a dict. -/
def loadItems [DecidableEq N] (P : Parse F N) :
    List (String × Json) → Except PyErr (List (Key N × Val N))
  | [] => .ok []
  | (k, v) :: l => do
    let v' ← load P v
    let l' ← loadItems P l
    .ok ((.str k, v') :: l')
/-- The elements of a list. -/
def loadList [DecidableEq N] (P : Parse F N) : List Json → Except PyErr (List (Val N))
  | [] => .ok []
  | v :: l => do
    let v' ← load P v
    let l' ← loadList P l
    .ok (v' :: l')
end

/-- How numbers are written: as keys and, in high-precision mode, as strings (`format`); otherwise as
literals. -/
structure Writer (N : Type) where
  format : Format N
  lit : N → Lit

/-- A key in the file (see `Reader.emitKey`). -/
def dumpKey (W : Writer N) : Key N → Except PyErr String
  | .str s => .ok s
  | .int n => .ok (W.format.showInt n)
  | .num x => if W.format.highPrecision then .error .typeError else .ok (W.format.showNum x)

mutual
/-- `json.dump` with the `HighPrecisionJSONEncoder` (value_reader.py:96-135, 366-386); see
`Reader.emit`. -/
def dump (W : Writer N) : Val N → Except PyErr Json
  | .dict l =>
    if sortable l then do
      let l' ← dumpItems W l
      .ok (.dict l')
    else .error .typeError
  | .list l => do
    let l' ← dumpList W l
    .ok (.list l')
  | .str s => .ok (.str s)
  | .int n => .ok (.int n)
  | .num x => .ok (if W.format.highPrecision then .str (W.format.showNum x) else .num (W.lit x))
  | .bool b => .ok (.bool b)
  | .null => .ok .null
/-- The items of a dict. -/
def dumpItems (W : Writer N) : List (Key N × Val N) → Except PyErr (List (String × Json))
  | [] => .ok []
  | (k, v) :: l => do
    let k' ← dumpKey W k
    let v' ← dump W v
    let l' ← dumpItems W l
    .ok ((k', v') :: l')
/-- The elements of a list. -/
def dumpList (W : Writer N) : List (Val N) → Except PyErr (List Json)
  | [] => .ok []
  | v :: l => do
    let v' ← dump W v
    let l' ← dumpList W l
    .ok (v' :: l')
end

/-- What is in a file: JSON, or a text that is not. -/
inductive File
  | text (j : Json)
  | broken

/-- The files, by absolute path. -/
abbrev Files := Dict String File

/-- `resolve_path` (value_reader.py:11-22); `data` is `DATA_PATH`. Two paths are one file only if they are
the same text: links and `..` are not modelled. -/
def resolve (data name : String) : String :=
  if name.toList.head? = some '/' then name else data ++ name

/-- The `vals` argument of `write`: nothing, a tree of values, or another `ValueReader`. -/
inductive Arg (N : Type)
  | none
  | vals (v : Val N)
  | reader (o : Obj N)

/-- What is to be written (value_reader.py:361-362, 385-386): the encoder does not know the class
`ValueReader`, so `JSONEncoder.default` raises `TypeError` (value_reader.py:126-135). -/
def content (W : Writer N) (o : Obj N) : Arg N → Except PyErr Json
  | .none => dump W o.values
  | .vals v => dump W v
  | .reader _ => .error .typeError

/-- `ValueReader.write` (value_reader.py:351-386). The file is opened, which empties it, before
`json.dump` starts; if that raises, the file holds the beginning of the text, with the outermost
bracket open (or nothing at all). -/
def write (W : Writer N) (data : String) (fs : Files) (o : Obj N) (name : String) (arg : Arg N) :
    Except PyErr Unit × Files :=
  match content W o arg with
  | .ok j => (.ok (), Dict.set fs (resolve data name) (.text j))
  | .error e => (.error e, Dict.set fs (resolve data name) .broken)

/-- What `json.load` makes of a file; a text that is no JSON is a `JSONDecodeError`, which is a
`ValueError`. -/
def opened [DecidableEq N] (P : Parse F N) (fs : Files) (path : String) :
    Option (Except PyErr (Val N)) :=
  match Dict.get? fs path with
  | none => none
  | some .broken => some (.error .valueError)
  | some (.text j) => some (load P j)

/-- `ValueReader.read` (value_reader.py:212-259). -/
def read [DecidableEq N] (cls : String → StrClass N) (P : Parse F N) (data : String) (fs : Files)
    (o : Obj N) (name : String) (numericConvert : Bool) : Except PyErr Unit × Obj N :=
  Reader.read cls o (opened P fs (resolve data name)) numericConvert

/-- `ValueReader.__init__` (value_reader.py:194-210): a new reader, and what reading the file, if one is
named, does. -/
def new [DecidableEq N] (cls : String → StrClass N) (P : Parse F N) (data : String) (fs : Files)
    (name : Option String) (numericConvert useDefaults : Bool) : Except PyErr (Obj N) :=
  let o : Obj N := { values := .dict [], useDefaults := useDefaults }
  match name with
  | none => .ok o
  | some n =>
    match read cls P data fs o n numericConvert with
    | (.ok _, o') => .ok o'
    | (.error e, _) => .error e

end Forecaster.Storage
