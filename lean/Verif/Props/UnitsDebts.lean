import Verif.Props.Units
import Verif.Model.DebtPayment

/-!
# Debt payment strategies in another unit of money (C115)
-/

set_option linter.unusedSectionVars false

namespace Forecaster.Units

open Forecaster Forecaster.Timing Forecaster.Account Forecaster.Traversal

variable {K : Type} [Field K] [LinearOrder K] [IsStrictOrderedRing K] {c : K}
variable {A : Type} [DecidableEq A]

/-- The money available to a `DebtPaymentStrategy`, in another unit. -/
def available (c : K) : DebtPayment.Available K → DebtPayment.Available K
  | .amount x => .amount (c * x)
  | .dated d => .dated (dict c d)

theorem sorted_congr {D : Type} {key key' : D → K} (h : ∀ a b, key' a ≤ key' b ↔ key a ≤ key b)
    (l : List D) : Expenses.sortedBy key' l = Expenses.sortedBy key l := by
  unfold Expenses.sortedBy
  simp only [h]

/-- Which debt comes first depends neither on the unit of money, nor on the unit in which interest
rates are stated (per cent or per mille), nor on a change of all rates by the same amount. -/
theorem C115_debt_order (hc : 0 < c) (m : DebtPayment.Method) (rate balance : A → K) (debts : List A)
    {k : K} (hk : 0 < k) (s : K) :
    m.order (fun a => k * rate a + s) (fun a => c * balance a) debts = m.order rate balance debts := by
  cases m with
  | snowball =>
    show Expenses.sortedBy _ _ = Expenses.sortedBy _ _
    apply sorted_congr
    intro a b
    show |c * balance a| ≤ |c * balance b| ↔ _
    rw [abs_mul, abs_mul, abs_of_pos hc]
    exact mul_le_mul_iff_right₀ hc
  | avalanche =>
    show (Expenses.sortedBy _ _).reverse = (Expenses.sortedBy _ _).reverse
    congr 1
    apply sorted_congr
    intro a b
    rw [add_le_add_iff_right]
    exact mul_le_mul_iff_right₀ hk

/-- What a `DebtPaymentStrategy` pays to each debt, and when, is the same plan in another unit of
money, if the balances, the money available, the debts' limits and the precision are converted. -/
theorem C115_debt_payments [FloorRing K] (hc : 0 < c) (m : DebtPayment.Method) (rate balance : A → K)
    {E E' : Traversal.Env (List ℕ) A K} (h : SameTraversal c E E') (fuel : ℕ) (debts : List A)
    (x : DebtPayment.Available K) :
    DebtPayment.call m rate (fun a => c * balance a) E' fuel debts (available c x) =
      (DebtPayment.call m rate balance E fuel debts x).map (dict2 c) := by
  cases x with
  | amount x => rfl
  | dated d =>
    have ho : m.order rate (fun a => c * balance a) debts = m.order rate balance debts := by
      have := C115_debt_order hc m rate balance debts (k := 1) one_pos 0
      simpa using this
    show Traversal.call { E' with tree := (TxStrategy.Src.list
        ((m.order rate (fun a => c * balance a) debts).map .acct)).toTree } fuel
        (Dict.total (dict c d)) = (Traversal.call { E with tree := (TxStrategy.Src.list
          ((m.order rate balance debts).map .acct)).toTree } fuel (Dict.total d)).map (dict2 c)
    rw [ho, total_dict]
    have hS : SameTraversal c
        { E with tree := (TxStrategy.Src.list ((m.order rate balance debts).map .acct)).toTree }
        { E' with tree := (TxStrategy.Src.list ((m.order rate balance debts).map .acct)).toTree } :=
      ⟨rfl, rfl, fun n lim => rfl, h.precision, h.limitOf, h.txOf, h.groupOf,
      h.solve, h.setOrder, h.acctOrder⟩
    exact call_same hc hS fuel _

/-- Two debts of 100 and 20: the order is the same in cents. -/
example : DebtPayment.Method.order .snowball (fun _ : Bool => (0 : ℚ)) (fun b => if b then -100 else -20)
    [true, false] = [false, true] ∧
    DebtPayment.Method.order .snowball (fun _ : Bool => (0 : ℚ))
      (fun b => if b then -10000 else -2000) [true, false] = [false, true] := by
  decide +kernel

end Forecaster.Units
