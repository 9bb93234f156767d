import Mathlib.Algebra.BigOperators.Group.List.Basic
import Mathlib.Algebra.Order.Field.Basic
import Mathlib.Data.List.Sort

/-!
# Python dictionaries

The semantics of the built-in `dict` that the whole code base relies on
(`/repo/forecaster` uses plain `dict`s for transactions, timings, brackets,
histories ...).  A dict is an insertion-ordered list of key/value pairs; a real
dict always has distinct keys (`Dict.WF`), and every operation below preserves
that (`Verif/Lemmas/Dict.lean`).
-/

namespace Forecaster

universe u v

/-- A Python `dict`: insertion-ordered association list. -/
abbrev Dict (κ : Type u) (ν : Type v) := List (κ × ν)

namespace Dict

variable {κ : Type u} {ν : Type v}

/-- `d.keys()`. -/
def keys (d : Dict κ ν) : List κ := d.map Prod.fst

/-- `d.values()`. -/
def vals (d : Dict κ ν) : List ν := d.map Prod.snd

/-- The representation invariant of every real dict: keys are distinct. -/
def WF (d : Dict κ ν) : Prop := (keys d).Nodup

/-- `d.get(k)` (`none` = absent; `d[k]` raises `KeyError` there). -/
def get? [DecidableEq κ] : Dict κ ν → κ → Option ν
  | [], _ => none
  | (k', v) :: d, k => if k' = k then some v else get? d k

/-- `d[k] = v`: overwrite in place, or append at the end. -/
def set [DecidableEq κ] : Dict κ ν → κ → ν → Dict κ ν
  | [], k, v => [(k, v)]
  | (k', v') :: d, k, v => if k' = k then (k', v) :: d else (k', v') :: set d k v

/-- `del d[k]` / `d.pop(k)` for a present key; the identity for an absent one
(callers model the `KeyError` themselves). -/
def del [DecidableEq κ] : Dict κ ν → κ → Dict κ ν
  | [], _ => []
  | (k', v') :: d, k => if k' = k then d else (k', v') :: del d k

/-- `d.update(e)`. -/
def update [DecidableEq κ] (d e : Dict κ ν) : Dict κ ν :=
  e.foldl (fun acc kv => set acc kv.1 kv.2) d

/-- `{k: f(v) for k, v in d.items()}`. -/
def mapVals {μ : Type*} (f : ν → μ) (d : Dict κ ν) : Dict κ μ :=
  d.map fun kv => (kv.1, f kv.2)

/-- `sum(d.values())`. -/
def total [AddMonoid ν] (d : Dict κ ν) : ν := (vals d).sum

/-- Specification helper: the amount recorded at key `k` (0 if absent). -/
def val [DecidableEq κ] [Zero ν] (d : Dict κ ν) (k : κ) : ν := (get? d k).getD 0

/-- Specification helper: the running total of all entries dated at or before
`t`, i.e. the balance of a pool of transactions at time `t`. -/
def cum [LE κ] [DecidableLE κ] [AddMonoid ν] (d : Dict κ ν) (t : κ) : ν :=
  total (d.filter fun kv => decide (kv.1 ≤ t))

end Dict
end Forecaster
