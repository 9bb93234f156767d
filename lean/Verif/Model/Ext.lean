import Mathlib.Algebra.Order.Field.Basic
import Mathlib.Tactic.Linarith

/-!
# Numbers with infinities

`float('inf')` / `Decimal('Infinity')` are used by the code as "no limit"
(e.g. accounts/base.py:425, 435).  `Ext K` is `K` with the two infinities and the
arithmetic Python gives them.  There is no NaN: the code drops zero weights
(accounts/base.py:571-573) precisely so that `inf * 0` never happens.
-/

namespace Forecaster

/-- A numeric value that may be infinite. -/
inductive Ext (K : Type)
  | negInf
  | fin (x : K)
  | posInf
  deriving DecidableEq, Repr

namespace Ext

variable {K : Type} [LinearOrder K]

/-- Python's `<=` on floats with infinities. -/
def le : Ext K → Ext K → Prop
  | negInf, _ => True
  | _, posInf => True
  | fin x, fin y => x ≤ y
  | _, _ => False

instance : LE (Ext K) := ⟨le⟩

instance decLe : ∀ a b : Ext K, Decidable (a ≤ b)
  | negInf, negInf => isTrue trivial
  | negInf, fin _ => isTrue trivial
  | negInf, posInf => isTrue trivial
  | fin _, negInf => isFalse id
  | fin x, fin y => inferInstanceAs (Decidable (x ≤ y))
  | fin _, posInf => isTrue trivial
  | posInf, negInf => isFalse id
  | posInf, fin _ => isFalse id
  | posInf, posInf => isTrue trivial

instance : LinearOrder (Ext K) where
  le_refl a := by cases a <;> simp [LE.le, le]
  le_trans a b c := by
    cases a <;> cases b <;> cases c <;> simp [LE.le, le]
    exact le_trans
  le_antisymm a b := by
    cases a <;> cases b <;> simp [LE.le, le]
    exact le_antisymm
  le_total a b := by
    cases a <;> cases b <;> simp [LE.le, le]
    exact le_total _ _
  toDecidableLE := decLe

@[simp] theorem fin_le_fin {x y : K} : (fin x : Ext K) ≤ fin y ↔ x ≤ y := Iff.rfl
@[simp] theorem negInf_le (a : Ext K) : negInf ≤ a := by cases a <;> trivial
@[simp] theorem le_posInf (a : Ext K) : a ≤ posInf := by cases a <;> trivial
@[simp] theorem not_posInf_le_fin {x : K} : ¬ (posInf : Ext K) ≤ fin x := id
@[simp] theorem not_posInf_le_negInf : ¬ (posInf : Ext K) ≤ negInf := id
@[simp] theorem not_fin_le_negInf {x : K} : ¬ (fin x : Ext K) ≤ negInf := id
@[simp] theorem fin_lt_fin {x y : K} : (fin x : Ext K) < fin y ↔ x < y := by
  rw [← not_le, ← not_le, fin_le_fin]
@[simp] theorem min_fin_fin (x y : K) : min (fin x : Ext K) (fin y) = fin (min x y) := by
  rcases le_total x y with h | h
  · rw [min_eq_left (a := x) h]; exact min_eq_left (fin_le_fin.2 h)
  · rw [min_eq_right (a := x) h]; exact min_eq_right (fin_le_fin.2 h)
@[simp] theorem max_fin_fin (x y : K) : max (fin x : Ext K) (fin y) = fin (max x y) := by
  rcases le_total x y with h | h
  · rw [max_eq_right (a := x) h]; exact max_eq_right (fin_le_fin.2 h)
  · rw [max_eq_left (a := x) h]; exact max_eq_left (fin_le_fin.2 h)
@[simp] theorem min_posInf_left (a : Ext K) : min posInf a = a := min_eq_right (le_posInf a)
@[simp] theorem min_posInf_right (a : Ext K) : min a posInf = a := min_eq_left (le_posInf a)
@[simp] theorem max_negInf_left (a : Ext K) : max negInf a = a := max_eq_right (negInf_le a)
@[simp] theorem max_negInf_right (a : Ext K) : max a negInf = a := max_eq_left (negInf_le a)
@[simp] theorem max_posInf_left (a : Ext K) : max posInf a = posInf := max_eq_left (le_posInf a)
@[simp] theorem max_posInf_right (a : Ext K) : max a posInf = posInf := max_eq_right (le_posInf a)
@[simp] theorem min_negInf_left (a : Ext K) : min negInf a = negInf := min_eq_left (negInf_le a)
@[simp] theorem min_negInf_right (a : Ext K) : min a negInf = negInf := min_eq_right (negInf_le a)

variable [Field K]

/-- `a - x` for a finite `x`. -/
def subFin : Ext K → K → Ext K
  | negInf, _ => negInf
  | fin a, x => fin (a - x)
  | posInf, _ => posInf

/-- `a * w` for a finite nonzero `w` (see the module comment about `inf * 0`). -/
def mulFin : Ext K → K → Ext K
  | fin a, w => fin (a * w)
  | negInf, w => if w < 0 then posInf else negInf
  | posInf, w => if w < 0 then negInf else posInf

/-- `a + b`; `inf + -inf` (NaN in Python) does not occur in the modelled code. -/
def add : Ext K → Ext K → Ext K
  | fin a, fin b => fin (a + b)
  | posInf, _ => posInf
  | _, posInf => posInf
  | negInf, _ => negInf
  | _, negInf => negInf

end Ext
end Forecaster
