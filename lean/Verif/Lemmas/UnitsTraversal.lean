import Verif.Lemmas.Units
import Verif.Lemmas.Traversal
import Verif.Model.TxStrategy

/-!
# A traversal in another unit of money

The flow problem a traversal sets up counts money in multiples of its `precision`.  If the amounts
and the precision are both multiplied by `c`, the flow problem does not change at all.
-/

namespace Forecaster.Units

open Forecaster Forecaster.Timing Forecaster.Traversal

variable {K : Type} [Field K] [LinearOrder K] [IsStrictOrderedRing K] [FloorRing K]
variable {N A : Type} [DecidableEq N] [DecidableEq A] {c : K}

/-- Two traversals that differ only in the unit of money (the precision is an amount of money). -/
structure SameTraversal (c : K) (E E' : Traversal.Env N A K) : Prop where
  root : E'.tree.root = E.tree.root
  kind : E'.tree.kind = E.tree.kind
  limits : ∀ n lim, E'.tree.limits n lim = (E.tree.limits n lim).map (c * ·)
  precision : E'.precision = c * E.precision
  limitOf : ∀ a lim, E'.limitOf a lim = (E.limitOf a lim).map (ext c)
  txOf : ∀ a lim x, E'.txOf a lim (c * x) = (E.txOf a lim x).map (dict c)
  groupOf : E'.groupOf = E.groupOf
  solve : E'.solve = E.solve
  setOrder : E'.setOrder = E.setOrder
  acctOrder : E'.acctOrder = E.acctOrder

variable {E E' : Traversal.Env N A K}

theorem scale_ext (hc : 0 < c) (p : K) (x : Ext K) : scale (c * p) (ext c x) = scale p x := by
  cases x with
  | fin x =>
    show Ext.fin (c * x / (c * p)) = _
    rw [mul_div_mul_left _ _ hc.ne']
    rfl
  | negInf => rfl
  | posInf => rfl

theorem units_ext (hc : 0 < c) (p : K) (x : Ext K) :
    Traversal.units (c * p) (ext c x) = Traversal.units p x := by
  cases x with
  | fin x =>
    show Ext.fin ((pyInt (c * x / (c * p)) : ℤ) : K) = _
    rw [mul_div_mul_left _ _ hc.ne']
    rfl
  | negInf => rfl
  | posInf => rfl

theorem addAccount_same (hc : 0 < c) (h : SameTraversal c E E') (lim : Lim) (memo : Flows N A)
    (g : Graph N A) (a : A) : addAccount E' lim memo g a = addAccount E lim memo g a := by
  unfold addAccount
  rw [h.limitOf, h.groupOf, h.precision]
  cases E.limitOf a lim with
  | error e => rfl
  | ok x => simp only [Except.map, ok_bind, scale_ext hc]

theorem embedLimit_same (hc : 0 < c) (h : SameTraversal c E E') (lim : Lim) (memo : Flows N A)
    (g : Graph N A) (n : N) (x : K) : embedLimit E' lim memo g n x = embedLimit E lim memo g n x := by
  unfold embedLimit
  rw [h.limits, h.precision]
  cases E.tree.limits n lim with
  | none => rfl
  | some l => simp only [Option.map_some, mul_div_mul_left _ _ hc.ne']

theorem addSuccessors_same (hc : 0 < c) (h : SameTraversal c E E') (lim : Lim) (memo : Flows N A)
    (overflow : Bool) (fuel : ℕ) :
    addSuccessors E' lim memo overflow fuel = addSuccessors E lim memo overflow fuel := by
  induction fuel with
  | zero =>
    funext g n x cs
    rw [addSuccessors, addSuccessors]
  | succ fuel ih =>
    funext g n x cs
    rw [addSuccessors, addSuccessors]
    simp only [embedLimit_same hc h, addAccount_same hc h, h.kind, ih]

theorem childNodes_same (h : SameTraversal c E E') (n : N) : childNodes E' n = childNodes E n := by
  unfold childNodes
  rw [h.kind]

theorem weightedNodes_same (h : SameTraversal c E E') (fuel : ℕ) (l : List N) :
    weightedNodes E' fuel l = weightedNodes E fuel l := by
  induction fuel generalizing l with
  | zero => cases l <;> simp only [weightedNodes]
  | succ fuel ih =>
    cases l with
    | nil => simp only [weightedNodes]
    | cons n q => simp only [weightedNodes, ih, childNodes_same h, h.kind]

theorem balanceRecurse_same (hc : 0 < c) (h : SameTraversal c E E') (lim : Lim) (memo : Flows N A)
    (fuel : ℕ) (again : Graph N A → List N → Except PyErr (Graph N A)) (g : Graph N A) (n : N)
    (cs : Dict N K) (children : List N) (flows : Flows N A) :
    balanceRecurse E' lim memo fuel again g n cs children flows =
      balanceRecurse E lim memo fuel again g n cs children flows := by
  unfold balanceRecurse restrictOverflow
  simp only [addSuccessors_same hc h, childNodes_same h]

theorem balanceFlows_same (hc : 0 < c) (h : SameTraversal c E E') (lim : Lim) (memo : Flows N A)
    (n : N) (cs : Dict N K) (fuel : ℕ) :
    balanceFlows E' lim memo n cs fuel = balanceFlows E lim memo n cs fuel := by
  induction fuel with
  | zero =>
    funext g children all
    rw [balanceFlows, balanceFlows]
  | succ fuel ih =>
    funext g children all
    cases children <;>
    simp only [balanceFlows, balanceRecurse_same hc h, h.solve, h.setOrder, ih]

theorem balanceAll_same (hc : 0 < c) (h : SameTraversal c E E') (lim : Lim) (memo : Flows N A)
    (fuel : ℕ) (g : Graph N A) : balanceAll E' lim memo fuel g = balanceAll E lim memo fuel g := by
  unfold balanceAll
  simp only [weightedNodes_same h, balanceFlows_same hc h, h.kind, h.root]

theorem buildGraph_same (hc : 0 < c) (h : SameTraversal c E E') (lim : Lim) (memo : Flows N A)
    (fuel : ℕ) (total : Ext K) :
    buildGraph E' lim memo fuel (ext c total) = buildGraph E lim memo fuel total := by
  unfold buildGraph
  simp only [addSuccessors_same hc h, balanceAll_same hc h, h.root, h.precision, units_ext hc]

theorem getAccounts_same (h : SameTraversal c E E') (fuel : ℕ) (n : N) :
    getAccounts E' fuel n = getAccounts E fuel n := by
  induction fuel generalizing n with
  | zero => rw [getAccounts, getAccounts]
  | succ fuel ih =>
    have : getAccounts E' fuel = getAccounts E fuel := funext ih
    rw [getAccounts, getAccounts, h.kind, this]

theorem amountFor_same (hc : 0 < c) (h : SameTraversal c E E') (total : Ext K) (d : Dict (G N A) ℤ) :
    amountFor E' (ext c total) d = c * amountFor E total d := by
  unfold amountFor
  have : ext c total < .fin 0 ↔ total < .fin 0 := by
    have := ext_lt hc (x := total) (y := .fin 0)
    rwa [ext_zero] at this
  rw [h.precision]
  by_cases ht : total < .fin 0
  · rw [if_pos ht, if_pos (this.2 ht)]; ring
  · rw [if_neg ht, if_neg (fun h' => ht (this.1 h'))]; ring

theorem convertFlows_same (hc : 0 < c) (h : SameTraversal c E E') (lim : Lim) (total : Ext K)
    (flows : Flows N A) (accounts : List A) :
    convertFlows E' lim (ext c total) flows accounts =
      (convertFlows E lim total flows accounts).map (dict2 c) := by
  unfold convertFlows
  refine foldlM_map (g := dict2 c) accounts (fun r a _ => ?_) []
  cases Dict.get? flows (.acct a) with
  | none => rfl
  | some d =>
    simp only [amountFor_same hc h, h.txOf]
    cases E.txOf a lim (amountFor E total d) with
    | error e => rfl
    | ok t =>
      simp only [Except.map, ok_bind, Except.ok.injEq]
      exact set_mapVals _ _ _ _

theorem traverse_same (hc : 0 < c) (h : SameTraversal c E E') (fuel : ℕ) (lim : Lim) (total : Ext K)
    (memo : Flows N A) :
    Traversal.traverse E' fuel lim (ext c total) memo =
      (Traversal.traverse E fuel lim total memo).map fun r => (dict2 c r.1, r.2) := by
  unfold Traversal.traverse
  simp only [buildGraph_same hc h, h.solve, getAccounts_same h, h.root, h.acctOrder,
    convertFlows_same hc h]
  cases buildGraph E lim memo fuel total with
  | error e => rfl
  | ok g =>
    simp only [ok_bind]
    cases E.solve g with
    | error e => rfl
    | ok f =>
      simp only [ok_bind]
      cases getAccounts E fuel E.tree.root with
      | error e => rfl
      | ok l =>
        simp only [ok_bind]
        cases convertFlows E lim total f (E.acctOrder l.dedup) <;> rfl

omit [FloorRing K] [DecidableEq N] in
theorem combine_dict2 (x y : Dict A (Dict K K)) :
    combine (dict2 c x) (dict2 c y) = dict2 c (combine x y) := by
  unfold combine
  induction x generalizing y with
  | nil => rfl
  | cons e x ih =>
    have h0 : dict2 c (e :: x) = (e.1, dict c e.2) :: dict2 c x := rfl
    rw [h0, List.foldl_cons, List.foldl_cons, ← ih]
    congr 1
    unfold combineOne
    have h1 : Dict.get? (dict2 c y) e.1 = (Dict.get? y e.1).map (dict c) := Dict.get?_mapVals _ _ _
    simp only [h1]
    cases Dict.get? y e.1 with
    | none => exact set_mapVals (dict c) y e.1 e.2
    | some d =>
      simp only [Option.map_some, addTransactions_dict]
      exact set_mapVals (dict c) y e.1 _

theorem call_same (hc : 0 < c) (h : SameTraversal c E E') (fuel : ℕ) (total : K) :
    Traversal.call E' fuel (c * total) = (Traversal.call E fuel total).map (dict2 c) := by
  unfold Traversal.call
  rw [h.precision]
  have h1 : c * total > c * E.precision ↔ total > E.precision := mul_lt_mul_iff_right₀ hc
  have h2 : c * total < -(c * E.precision) ↔ total < -E.precision := by
    rw [← mul_neg]; exact mul_lt_mul_iff_right₀ hc
  have hf : (Ext.fin (c * total)) = ext c (.fin total) := rfl
  have hn : (Ext.negInf : Ext K) = ext c .negInf := rfl
  have key : ∀ l1 l2 (t1 t2 : Ext K),
      (do let r ← Traversal.traverse E' fuel l1 (ext c t1) []
          let r' ← Traversal.traverse E' fuel l2 (ext c t2) r.2
          Except.ok (combine r.1 r'.1)) =
      (do let r ← Traversal.traverse E fuel l1 t1 []
          let r' ← Traversal.traverse E fuel l2 t2 r.2
          Except.ok (combine r.1 r'.1) : Except PyErr _).map (dict2 c) := by
    intro l1 l2 t1 t2
    rw [traverse_same hc h]
    cases Traversal.traverse E fuel l1 t1 [] with
    | error e => rfl
    | ok r =>
      simp only [Except.map, ok_bind, traverse_same hc h]
      cases Traversal.traverse E fuel l2 t2 r.2 with
      | error e => rfl
      | ok r' => simp only [Except.map, ok_bind, combine_dict2]
  by_cases hp : total > E.precision
  · rw [if_pos hp, if_pos (h1.2 hp)]
    exact key _ _ (.fin total) (.fin total)
  · rw [if_neg hp, if_neg (fun h' => hp (h1.1 h'))]
    by_cases hm : total < -E.precision
    · rw [if_pos hm, if_pos (h2.2 hm)]
      exact key _ _ .negInf (.fin total)
    · rw [if_neg hm, if_neg (fun h' => hm (h2.1 h'))]
      rfl

end Forecaster.Units
