import Verif.Model.Traversal

/-!
# The limit on recursion changes nothing but `RecursionError`

`Le x y`: `x` ran out of recursion, or `x` and `y` are the same (answer or exception).
-/

set_option linter.unusedSectionVars false

namespace Forecaster.Traversal

open Forecaster

variable {K : Type} [Field K] [LinearOrder K] [IsStrictOrderedRing K] [FloorRing K]
variable {N A : Type} [DecidableEq N] [DecidableEq A]

/-- `x` ran out of recursion, or is the same as `y`. -/
def Le {α : Type} (x y : Except PyErr α) : Prop := x = .error .recursionError ∨ x = y

theorem Le.rfl {α : Type} {x : Except PyErr α} : Le x x := .inr _root_.rfl

theorem Le.out {α : Type} {y : Except PyErr α} : Le (.error .recursionError) y := .inl _root_.rfl

theorem Le.trans {α : Type} {x y z : Except PyErr α} (h : Le x y) (h' : Le y z) : Le x z := by
  rcases h with h | h
  · exact .inl h
  · rw [h]; exact h'

theorem Le.bind {α β : Type} {x y : Except PyErr α} {f f' : α → Except PyErr β} (h : Le x y)
    (hf : ∀ a, Le (f a) (f' a)) : Le (x >>= f) (y >>= f') := by
  rcases h with h | h
  · rw [h]; exact .out
  · rw [h]
    cases y with
    | error e => exact .inr _root_.rfl
    | ok a => exact hf a

theorem Le.ite {α : Type} {p : Prop} [Decidable p] {x y x' y' : Except PyErr α} (h : Le x x')
    (h' : Le y y') : Le (if p then x else y) (if p then x' else y') := by
  by_cases hp : p
  · rw [if_pos hp, if_pos hp]; exact h
  · rw [if_neg hp, if_neg hp]; exact h'

theorem Le.foldlM {α β : Type} {f f' : β → α → Except PyErr β} (h : ∀ b a, Le (f b a) (f' b a))
    (l : List α) : ∀ b, Le (l.foldlM f b) (l.foldlM f' b) := by
  induction l with
  | nil => exact fun _ => .rfl
  | cons a l ih =>
    intro b
    rw [List.foldlM_cons, List.foldlM_cons]
    exact (h b a).bind ih

theorem Le.mapM {α β : Type} {f f' : α → Except PyErr β} (h : ∀ a, Le (f a) (f' a))
    (l : List α) : Le (l.mapM f) (l.mapM f') := by
  induction l with
  | nil => exact .rfl
  | cons a l ih =>
    rw [List.mapM_cons, List.mapM_cons]
    exact (h a).bind fun _ => ih.bind fun _ => .rfl

omit [DecidableEq N] [DecidableEq A] in
/-- Functions with fuel: enough to go from `n` to `n + 1`. -/
theorem Le.of_succ {α : Type} {f : ℕ → Except PyErr α} (h : ∀ n, Le (f n) (f (n + 1))) {m n : ℕ}
    (hmn : m ≤ n) : Le (f m) (f n) := by
  induction hmn with
  | refl => exact .rfl
  | step _ ih => exact ih.trans (h _)

theorem sumWeight_le (g : Graph N A) : ∀ fuel u, Le (sumWeight g fuel u) (sumWeight g (fuel + 1) u) := by
  intro fuel
  induction fuel with
  | zero => exact fun _ => .out
  | succ fuel ih =>
    intro u
    rw [sumWeight, sumWeight]
    exact Le.foldlM (fun w (e : (G N A × G N A) × Edge) => (ih e.1.2).bind fun _ => .rfl) _ _

theorem orderedStep_le {next next' : Graph N A → N → Except PyErr (Graph N A)}
    (h : ∀ g c, Le (next g c) (next' g c)) (fuel : ℕ) (n : N) (capacity : K) (st : Graph N A × ℤ)
    (c : N) : Le (orderedStep next fuel n capacity st c)
      (orderedStep next' (fuel + 1) n capacity st c) := by
  unfold orderedStep
  exact (h _ _).bind fun _ => (sumWeight_le _ _ _).bind fun _ => .rfl

theorem childEdges_le {next next' : Graph N A → N → Except PyErr (Graph N A)}
    (h : ∀ g c, Le (next g c) (next' g c)) (n : N) (g : Graph N A) (totals : Dict N K) :
    Le (childEdges next n g totals) (childEdges next' n g totals) :=
  Le.foldlM (fun _ _ => h _ _) _ _

theorem addWeightedChildren_le {next next' : Graph N A → N → Except PyErr (Graph N A)}
    (h : ∀ g c, Le (next g c) (next' g c)) (memo : Flows N A) (n : N) :
    ∀ fuel (g : Graph N A) (children : Dict N K) (capacity : K),
      Le (addWeightedChildren memo next n fuel g children capacity)
        (addWeightedChildren memo next' n fuel g children capacity) := by
  intro fuel
  induction fuel with
  | zero =>
    intro g children capacity
    rw [addWeightedChildren.eq_def, addWeightedChildren.eq_def memo next']
    exact Le.rfl.bind fun _ => Le.ite .rfl (Le.ite .out (childEdges_le h _ _ _))
  | succ fuel ih =>
    intro g children capacity
    rw [addWeightedChildren.eq_def, addWeightedChildren.eq_def memo next']
    exact Le.rfl.bind fun _ => Le.ite .rfl (Le.ite ((ih _ _ _).bind fun _ => childEdges_le h _ _ _)
      (childEdges_le h _ _ _))

theorem addWeighted_le {next next' : Graph N A → N → Except PyErr (Graph N A)}
    (h : ∀ g c, Le (next g c) (next' g c)) (memo : Flows N A) (fuel : ℕ) (n : N) (overflow : Bool)
    (g : Graph N A) (children : Dict N K) (capacity : K) :
    Le (addWeighted memo next fuel n overflow g children capacity)
      (addWeighted memo next' (fuel + 1) n overflow g children capacity) := by
  unfold addWeighted
  refine Le.ite ((addWeightedChildren_le h _ _ _ _ _ _).bind fun g => ?_)
    (addWeightedChildren_le h _ _ _ _ _ _)
  unfold overflowWeight
  exact (Le.mapM (fun c => sumWeight_le _ _ _) _).bind fun _ => .rfl

theorem addSuccessors_le (E : Env N A K) (lim : Lim) (memo : Flows N A) (overflow : Bool) :
    ∀ fuel g n capacity children, Le (addSuccessors E lim memo overflow fuel g n capacity children)
      (addSuccessors E lim memo overflow (fuel + 1) g n capacity children) := by
  intro fuel
  induction fuel with
  | zero => exact fun _ _ _ _ => .out
  | succ fuel ih =>
    intro g n capacity children
    rw [addSuccessors, addSuccessors]
    cases E.tree.kind n with
    | weighted cs => exact addWeighted_le (fun g c => ih g c none none) _ _ _ _ _ _ _
    | ordered cs =>
      exact (Le.foldlM (fun st c => orderedStep_le (fun g c => ih g c none none) _ _ _ st c) _ _).bind
        fun _ => .rfl
    | leaf a => exact .rfl

theorem weightedNodes_le (E : Env N A K) : ∀ fuel q,
    Le (weightedNodes E fuel q) (weightedNodes E (fuel + 1) q) := by
  intro fuel
  induction fuel with
  | zero =>
    intro q
    cases q with
    | nil => exact .inr (by rw [weightedNodes, weightedNodes])
    | cons n q => rw [weightedNodes]; exact .out
  | succ fuel ih =>
    intro q
    cases q with
    | nil => exact .inr (by rw [weightedNodes, weightedNodes])
    | cons n q =>
      rw [weightedNodes, weightedNodes]
      exact (ih _).bind fun _ => .rfl

theorem balanceRecurse_le (E : Env N A K) (lim : Lim) (memo : Flows N A) (fuel : ℕ)
    {again again' : Graph N A → List N → Except PyErr (Graph N A)}
    (h : ∀ g cs, Le (again g cs) (again' g cs)) (g : Graph N A) (n : N) (cs : Dict N K)
    (children : List N) (flows : Flows N A) :
    Le (balanceRecurse E lim memo fuel again g n cs children flows)
      (balanceRecurse E lim memo (fuel + 1) again' g n cs children flows) := by
  unfold balanceRecurse
  exact Le.rfl.bind fun _ => Le.rfl.bind fun _ => (addSuccessors_le _ _ _ _ _ _ _ _ _).bind
    fun _ => Le.ite (h _ _) .rfl

theorem balanceFlows_le (E : Env N A K) (lim : Lim) (memo : Flows N A) (n : N) (cs : Dict N K) :
    ∀ fuel g children all, Le (balanceFlows E lim memo n cs fuel g children all)
      (balanceFlows E lim memo n cs (fuel + 1) g children all) := by
  intro fuel
  induction fuel with
  | zero => exact fun _ _ _ => .out
  | succ fuel ih =>
    intro g children all
    rw [balanceFlows.eq_def, balanceFlows.eq_def E lim memo n cs (fuel + 1 + 1)]
    simp only
    cases children with
    | nil => exact .rfl
    | cons c l =>
      simp only
      refine Le.rfl.bind fun flows => Le.rfl.bind fun classes => ?_
      refine Le.ite .rfl (Le.ite ?_ (Le.ite .rfl ?_))
      · exact balanceRecurse_le _ _ _ _ (fun g cs' => ih g cs' false) _ _ _ _ _
      · exact (balanceRecurse_le _ _ _ _ (fun g cs' => ih g cs' true) _ _ _ _ _).bind fun g =>
          Le.rfl.bind fun _ => balanceRecurse_le _ _ _ _ (fun g cs' => ih g cs' true) _ _ _ _ _

theorem buildGraph_le (E : Env N A K) (lim : Lim) (memo : Flows N A) (fuel : ℕ) (total : Ext K) :
    Le (buildGraph E lim memo fuel total) (buildGraph E lim memo (fuel + 1) total) := by
  unfold buildGraph
  refine (addSuccessors_le _ _ _ _ _ _ _ _ _).bind fun g => ?_
  unfold balanceAll
  refine (weightedNodes_le _ _ _).bind fun ns => Le.foldlM (fun g n => ?_) _ _
  cases E.tree.kind n with
  | weighted cs => exact balanceFlows_le _ _ _ _ _ _ _ _ _
  | ordered cs => exact .rfl
  | leaf a => exact .rfl

theorem getAccounts_le (E : Env N A K) : ∀ fuel n,
    Le (getAccounts E fuel n) (getAccounts E (fuel + 1) n) := by
  intro fuel
  induction fuel with
  | zero => exact fun _ => .out
  | succ fuel ih =>
    intro n
    rw [getAccounts, getAccounts]
    cases E.tree.kind n with
    | weighted cs => exact (Le.mapM ih _).bind fun _ => .rfl
    | ordered cs => exact (Le.mapM ih _).bind fun _ => .rfl
    | leaf a => exact .rfl

theorem traverse_le (E : Env N A K) (fuel : ℕ) (lim : Lim) (total : Ext K) (memo : Flows N A) :
    Le (traverse E fuel lim total memo) (traverse E (fuel + 1) lim total memo) := by
  unfold traverse
  exact (buildGraph_le _ _ _ _ _).bind fun _ => Le.rfl.bind fun _ => (getAccounts_le _ _ _).bind
    fun _ => .rfl

theorem call_le (E : Env N A K) (total : K) {m n : ℕ} (h : m ≤ n) :
    Le (call E m total) (call E n total) := by
  refine Le.of_succ (f := fun k => call E k total) (fun k => ?_) h
  unfold call
  exact Le.ite ((traverse_le _ _ _ _ _).bind fun _ => (traverse_le _ _ _ _ _).bind fun _ => .rfl)
    (Le.ite ((traverse_le _ _ _ _ _).bind fun _ => (traverse_le _ _ _ _ _).bind fun _ => .rfl) .rfl)

end Forecaster.Traversal
