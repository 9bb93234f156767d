import Verif.Props.Completes
import Verif.Props.SolvencyStrategy
import Verif.Props.TxStrategyTotal
import Verif.Props.Defaults

/-!
# C96, continued: the strategies of the program always answer
-/

set_option linter.unusedSectionVars false

namespace Forecaster.Household

open Forecaster Forecaster.Timing Forecaster.Account Forecaster.SubForecast Forecaster.CashFlow
open Forecaster.TxStrategy (High KeyOf)

variable {K : Type} [Field K] [LinearOrder K] [IsStrictOrderedRing K] [FloorRing K]
variable {A : Type} [DecidableEq A]

/-- Specification: a `TransactionStrategy` that has what it needs: it knows how to order debts, it
has an account to work with, its weights are positive if they are used as weights, the flow algorithm
answers for every network that it accepts, and recursion may go deep enough for its accounts. -/
structure Equipped (limits : A → Acct K → Limits K) (S : TxStrategy.Strat K)
    (info : (Option A → Pool K) → A → TxStrategy.Info K) (order : List A → List A)
    (E : (Option A → Pool K) → Traversal.Env (List ℕ) A K) (fuel : ℕ) (accounts : List A) :
    Prop where
  debts : S.debtStrategy = "Avalanche" ∨ S.debtStrategy = "Snowball"
  works : ∀ q, Real limits q → ∃ a ∈ accounts, (High S (info q a) ∧ S.kind = .ordered) ∨
    (¬ High S (info q a) ∧ ∃ k, KeyOf S.weights (info q a) k)
  weights : S.kind = .weighted → ∀ k w, Dict.get? S.weights k = some w → 0 < w
  order : ∀ l, (order l).Perm l
  sets : ∀ q l, ((E q).setOrder l).Perm l
  solves : ∀ q, Traversal.Complete (E q)
  depth : 4 * accounts.length + 23 ≤ fuel

/-- C96: a household's `TransactionStrategy` always answers: about its accounts, and with dates
within the year. -/
theorem C96_strategies_decide {owed : A → Bool} {limits : A → Acct K → Limits K}
    {S : TxStrategy.Strat K} {info : (Option A → Pool K) → A → TxStrategy.Info K}
    {order : List A → List A} {E : (Option A → Pool K) → Traversal.Env (List ℕ) A K} {fuel : ℕ}
    {accounts : List A}
    {strategy : ℤ → (Option A → Pool K) → Except PyErr (Dict A (Dict K K))}
    (h : Employs owed limits S info order E fuel accounts strategy)
    (he : Equipped limits S info order E fuel accounts) {reach : List A}
    (hreach : ∀ a ∈ accounts, a ∈ reach) : Decisive limits reach strategy := by
  refine ⟨fun y q hq => ?_, fun y q d hq hs e hed => ?_⟩
  · rw [h.call]
    by_cases h0 : Dict.total (q none).txns = 0
    · exact ⟨_, TxStrategy.C90_small_change he.order
        (he.debts.imp id .inl) (by rw [h0, abs_zero]; exact (h.precision q).le) fuel⟩
    obtain ⟨x, -, ho, hf⟩ := traverses_fits h.traverses y q hq h0
    have hw : Traversal.Willing (E q) := by
      have := Traversal.accounts_willing ho fun a => (hf a).imp fun _ ⟨_, h1, _⟩ => h1
      exact ⟨this.limit, this.inflow, this.outflow⟩
    exact TxStrategy.C90_recursion_depth he.order (he.debts.imp id .inl) (he.works q hq)
      he.weights hw (he.solves q) (h.flows q) (he.sets q) (h.precision q) he.depth
  · have hne : d ≠ [] := by rintro rfl; simp at hed
    obtain ⟨x, -, ho, hwf, hA, hev⟩ := traverses_evens h.traverses y q d hq hs hne
    have hat := Dict.get?_of_mem hwf hed
    refine ⟨?_, ?_⟩
    · have hc := h.traverses.call y q d hs
      rw [h.call] at hs
      unfold TxStrategy.call at hs
      cases hb : TxStrategy.buildTree S (info q) order accounts with
      | error e => rw [hb] at hs; cases hs
      | ok src =>
        have henv : strategyEnv S (info q) order (E q) accounts
            = { E q with tree := src.toTree } := by
          unfold strategyEnv; rw [hb]; rfl
        have hleaf : Traversal.LeafBelow src.toTree [] e.1 := by
          by_cases h1 : (E q).precision < Dict.total (q none).txns
          · have := ((Traversal.C42_inflows_total (h.traverses.sound y q) hA (h.precision q) h1
              hc).1 _ _ hat).1
            rw [henv] at this
            exact this
          by_cases h2 : Dict.total (q none).txns < -(E q).precision
          · have := ((Traversal.C42_outflows_total (h.traverses.sound y q) hA (h.precision q) h2
              hc).1 _ _ hat).1
            rw [henv] at this
            exact this
          · rw [Traversal.C42_nothing (E := strategyEnv S (info q) order (E q) accounts)
              (not_lt.1 h1) (not_lt.1 h2)] at hc
            exact absurd (Except.ok.inj hc).symm hne
        exact hreach _ (((TxStrategy.C71_accounts he.order hb).2 _).1
          (Defaults.leafBelow_accounts hleaf)).1
    · obtain ⟨tm, nt, -, -, -, h4⟩ := hev e.1
      exact (h4 e.2 hat).rng

/-- `C96_household_completes` for households whose taxes are known as long as their accounts are `Good`. -/
theorem household_completes_if {N : Type} [DecidableEq N] {owed : A → Bool} {E : Env N A K}
    {Good J : (A → Acct K) → Prop}
    {S S' : TxStrategy.Strat K} {info info' : (Option A → Pool K) → A → TxStrategy.Info K}
    {order order' : List A → List A}
    {T T' : (Option A → Pool K) → Traversal.Env (List ℕ) A K} {fuel fuel' : ℕ}
    (hs : Employs owed E.limits S info order T fuel (holdings E) E.saving)
    (hs' : Equipped E.limits S info order T fuel (holdings E))
    (hw : Employs owed E.limits S' info' order' T' fuel' E.assets E.withdrawal)
    (hw' : Equipped E.limits S' info' order' T' fuel' E.assets)
    (people : E.people ≠ [])
    (paid : ∀ i y, Dated (E.earner i y).timing ∧ Dict.total (E.earner i y).timing ≠ 0)
    (timing : Dated (E.default .income) ∧ Dict.total (E.default .income) ≠ 0)
    (refund : Dated E.refund ∧ Dict.total E.refund ≠ 0)
    (payment : Dated E.payment ∧ Dict.total E.payment ≠ 0)
    (expenses : ∀ y (acc : A → Acct K), (∀ a, Inv (acc a) ∧ IsGrowth (acc a).A) →
      ∃ x, E.expenses y acc = .ok x)
    (owing : ∀ y (acc : A → Acct K), (∀ a, Inv (acc a) ∧ IsGrowth (acc a).A) → Good acc →
      ∃ x, E.owing y acc = .ok x)
    (tells : ∀ (a : Acct K) b v, IsGrowth a.A → 0 < b → 0 < v → ∃ r, E.ttv a b v = .ok r)
    {initial : ℤ} {n : ℕ} {accounts : A → Acct K} (hacc : ∀ a, Reachable (accounts a))
    (hyear : ∀ a ∈ holdings E, (accounts a).year = initial)
    (hfresh : ∀ a ∈ holdings E, (accounts a).txns = [])
    (hg : ∀ a y, IsGrowth ((accounts a).growth y))
    (hrate : ∀ a ∈ holdings E, ∀ y, Monotone ((accounts a).growth y) ∨
      Antitone ((accounts a).growth y))
    (hJ : Carries E accounts Good J) (hj : J accounts) :
    (∃ s, forecast E initial (Forecast.scenarioYears initial (n + 1)) accounts = .ok s) ↔
      ∀ k : ℕ, k ≤ n → incomeIn E (initial + k) ≠ 0 :=
  (completes_if ⟨people, paid, timing, refund, payment,
      traversals_prudent (fun _ h => by cases h) hs.traverses,
      traversals_prudent (fun _ h => by cases h) hw.traverses⟩
    ⟨C96_strategies_decide hs hs' fun _ h => h, C96_strategies_decide hw hw' fun _ h => h,
      expenses, owing, tells⟩ hacc hyear hfresh hg hrate hJ hj).1

/-- C96, put together: the forecast of a household whose strategies are `TransactionStrategy`s with
what they need completes exactly if somebody earns something, net, in every year. -/
theorem C96_household_completes {N : Type} [DecidableEq N] {owed : A → Bool} {E : Env N A K}
    {S S' : TxStrategy.Strat K} {info info' : (Option A → Pool K) → A → TxStrategy.Info K}
    {order order' : List A → List A}
    {T T' : (Option A → Pool K) → Traversal.Env (List ℕ) A K} {fuel fuel' : ℕ}
    (hs : Employs owed E.limits S info order T fuel (holdings E) E.saving)
    (hs' : Equipped E.limits S info order T fuel (holdings E))
    (hw : Employs owed E.limits S' info' order' T' fuel' E.assets E.withdrawal)
    (hw' : Equipped E.limits S' info' order' T' fuel' E.assets)
    (people : E.people ≠ [])
    (paid : ∀ i y, Dated (E.earner i y).timing ∧ Dict.total (E.earner i y).timing ≠ 0)
    (timing : Dated (E.default .income) ∧ Dict.total (E.default .income) ≠ 0)
    (refund : Dated E.refund ∧ Dict.total E.refund ≠ 0)
    (payment : Dated E.payment ∧ Dict.total E.payment ≠ 0)
    (expenses : ∀ y (acc : A → Acct K), (∀ a, Inv (acc a) ∧ IsGrowth (acc a).A) →
      ∃ x, E.expenses y acc = .ok x)
    (owing : ∀ y (acc : A → Acct K), (∀ a, Inv (acc a) ∧ IsGrowth (acc a).A) →
      ∃ x, E.owing y acc = .ok x)
    (tells : ∀ (a : Acct K) b v, IsGrowth a.A → 0 < b → 0 < v → ∃ r, E.ttv a b v = .ok r)
    {initial : ℤ} {n : ℕ} {accounts : A → Acct K} (hacc : ∀ a, Reachable (accounts a))
    (hyear : ∀ a ∈ holdings E, (accounts a).year = initial)
    (hfresh : ∀ a ∈ holdings E, (accounts a).txns = [])
    (hg : ∀ a y, IsGrowth ((accounts a).growth y))
    (hrate : ∀ a ∈ holdings E, ∀ y, Monotone ((accounts a).growth y) ∨
      Antitone ((accounts a).growth y)) :
    (∃ s, forecast E initial (Forecast.scenarioYears initial (n + 1)) accounts = .ok s) ↔
      ∀ k : ℕ, k ≤ n → incomeIn E (initial + k) ≠ 0 :=
  (C96_completes ⟨people, paid, timing, refund, payment,
      traversals_prudent (fun _ h => by cases h) hs.traverses,
      traversals_prudent (fun _ h => by cases h) hw.traverses⟩
    ⟨C96_strategies_decide hs hs' fun _ h => h, C96_strategies_decide hw hw' fun _ h => h,
      expenses, owing, tells⟩ hacc hyear hfresh hg hrate).1

/-! ### Where it does not -/

/-- C96 (refuted for arbitrary transfers): the strategies must not take out what is not there yet.
Moving money out of an account that is empty at the time, but has more than that later in the year,
is not a matter of waiting: it raises `ZeroDivisionError`, as `time_to_value` divides by the
balance. -/
theorem C96_empty_account_refuted {P : Type} [DecidableEq P]
    {ttv : Acct K → K → K → Except PyErr (Ext K)}
    (hz : ∀ x v, ttv x 0 v = .error .zeroDivisionError) (default : Dict K K) {year : ℤ}
    {growth : ℤ → K → K} (hA : IsGrowth (growth year)) {b v now later : K} (h0 : 0 ≤ now)
    (h1 : now < later) (h2 : later ≤ 1) (hv : 0 < v) (hb : v < b) {x : Acct K}
    (hx : applyAll (Account.init year 0 growth []) [(later, b)] = .ok x) {s : St P K} {p : P}
    (hp : s.pools p = .acct plainLimits x) (dst : Option P) :
    SubForecast.addTransaction ttv default s
      { value := v, timing := some (.timing [(now, 1)]), src := some p, dst := dst }
      = (s, some .zeroDivisionError) := by
  have hw : Within [(later, b)] := by
    intro k hk
    simp only [Dict.keys, List.map_cons, List.map_nil, List.mem_singleton] at hk
    rw [hk]; exact ⟨h0.trans h1.le, h2⟩
  rw [applyAll_eq _ hw] at hx
  have hi : Inv x := by
    rw [← Except.ok.inj hx]
    have := inv_init year (0 : K) growth []
    exact ⟨⟨Timing.wf_add this.tx.wf _, within_add this.tx.rng hw⟩, this.future, this.opening⟩
  have htx : x.txns = [(later, b)] := by rw [← Except.ok.inj hx]; rfl
  have hxA : x.A = growth year := by rw [← Except.ok.inj hx]; rfl
  have hop : opening x = 0 := by
    rw [← Except.ok.inj hx]
    have : balance (Account.init year (0 : K) growth []) = .ok 0 := by
      unfold balance; simp [Account.init, Dict.get?_cons]
    unfold opening
    rw [balance_txns_irrel (a := Account.init year (0 : K) growth []), this]
    rfl
  have e1 : balanceAtTime x (.num now) none = .ok 0 := by
    rw [balance_at hi ⟨h0, h1.le.trans h2⟩, hop, htx, grown_cons, grown_nil,
      if_neg (not_le.2 h1)]
    simp
  have e2 : balanceAtTime x (.num later) none = .ok b := by
    rw [balance_at hi ⟨h0.trans h1.le, h2⟩, hop, htx, grown_cons, grown_nil, if_pos le_rfl,
      sub_self, hxA, hA.zero]
    simp
  have m1 : accumEntry plainLimits x now = .ok (now, .fin 0) := by
    unfold accumEntry maxOutflow
    rw [e1]
    simp [plainLimits, negExt]
  have m2 : accumEntry plainLimits x later = .ok (later, .fin b) := by
    unfold accumEntry maxOutflow
    rw [e2]
    simp [plainLimits, negExt, (hv.trans hb).le]
  have hmat : (materialTimes x.txns now).dedup = [now, later] := by
    rw [htx]
    simp [materialTimes, Dict.keys, h1.le, h1.ne]
  have htt : timeToBalance ttv x v (x.txns.length + 1) now = .error .zeroDivisionError := by
    rw [timeToBalance, whenConv_ok h0 (h1.le.trans h2), ok_bind, e1, ok_bind, hz]
    rfl
  have hshift : shiftWhen ttv (s.pools p) v now = .error .zeroDivisionError := by
    rw [hp]
    unfold shiftWhen accumAccount
    simp only
    rw [hmat, List.mapM_cons, m1, ok_bind, List.mapM_cons, m2, ok_bind, List.mapM_nil]
    simp only [pure_bind, bind_assoc]
    have hs : ([now, later] : List K).insertionSort (· ≤ ·) = [now, later] := by
      simp [List.orderedInsert, h1.le]
    have hk : Dict.keys [(now, (Ext.fin 0 : Ext K)), (later, .fin b)] = [now, later] := rfl
    have hint : interpolate ttv plainLimits x v [(now, (Ext.fin 0 : Ext K)), (later, .fin b)]
        (now, later) = .error .zeroDivisionError := by
      unfold interpolate
      have l1 : look [(now, (Ext.fin 0 : Ext K)), (later, .fin b)] now = .ok (.fin 0) := by
        simp [look, Dict.get?_cons]
      have l2 : look [(now, (Ext.fin 0 : Ext K)), (later, .fin b)] later = .ok (.fin b) := by
        simp [look, Dict.get?_cons, h1.ne]
      simp only [l1, l2, ok_bind]
      rw [if_pos (.inl ⟨by simpa using hb, by simpa using hv⟩), htt]
      rfl
    simp only [hk, hs]
    simp only [List.tail_cons, List.zip_cons_cons, List.zip_nil_right, List.foldlM_cons, hint]
    rfl
  have hone : addTransaction1 ttv s (v * (1 / Dict.total [(now, (1 : K))])) now (some p) dst false
      = (s, some .zeroDivisionError) := by
    unfold addTransaction1 dateFor
    simp only [Dict.total, Dict.vals, List.map_cons, List.map_nil, List.sum_cons, List.sum_nil,
      add_zero, div_one, mul_one, Bool.false_eq_true, if_false, hshift]
  unfold SubForecast.addTransaction resolve orient
  simp only [if_neg (not_lt.2 hv.le)]
  rw [forEach]
  have ht : Dict.total [(now, (1 : K))] ≠ 0 := by simp [Dict.total, Dict.vals]
  rw [if_neg ht, hone]

/-- 100 come into an empty account in the middle of the year; 50 are to be taken out at its start. -/
example : ∃ x, applyAll (Account.init 2020 0 (fun _ _ => (1 : ℚ)) []) [(1 / 2, 100)] = .ok x ∧
    (SubForecast.addTransaction (P := Unit)
      (fun _ b v => if b = 0 then .error .zeroDivisionError else .ok (.fin (v / b))) []
      (fresh fun _ => .acct plainLimits x)
      { value := 50, timing := some (.timing [(0, 1)]), src := some () }).2 =
        some .zeroDivisionError := by
  refine ⟨_, applyAll_eq _ ?_, ?_⟩
  · intro k hk
    simp only [Dict.keys, List.map_cons, List.map_nil, List.mem_singleton] at hk
    rw [hk]; norm_num
  · rw [C96_empty_account_refuted (year := 2020) (growth := fun _ _ => (1 : ℚ)) (b := 100)
      (later := 1 / 2) (fun _ _ => if_pos rfl) []
      ⟨rfl, fun _ _ => (one_mul _).symm, fun _ => zero_lt_one⟩ le_rfl (by norm_num)
      (by norm_num) (by norm_num) (by norm_num) (applyAll_eq _ ?_) rfl none]
    intro k hk
    simp only [Dict.keys, List.map_cons, List.map_nil, List.mem_singleton] at hk
    rw [hk]; norm_num

/-! ### A household -/

section examples

/-- The account of somebody's strategy. -/
noncomputable def realLeaf (q : Option Bool → Pool ℝ) (a : Bool) : Traversal.Leaf ℝ :=
  match q (some a) with
  | .acct L x => ⟨x, L, !a⟩
  | .dict _ _ => ⟨Account.init 0 0 (fun _ _ => 1) [], plainLimits, !a⟩

/-- What a strategy for a savings account and a loan gets to know about them. -/
noncomputable def realInfo (q : Option Bool → Pool ℝ) (a : Bool) : TxStrategy.Info ℝ :=
  ⟨if a then ["Account"] else ["Debt", "Account"], !a, opening (realLeaf q a).acct, 1 / 10⟩

/-- What it gets besides the tree. -/
noncomputable def realGiven
    (solve : Traversal.Graph (List ℕ) Bool → Except PyErr (Traversal.Flows (List ℕ) Bool))
    (q : Option Bool → Pool ℝ) : Traversal.Env (List ℕ) Bool ℝ where
  tree := ⟨[], fun _ => .ordered [], fun _ _ => none⟩
  precision := 1 / 100
  limitOf a lim := Traversal.accountLimit (realLeaf q a) (some (.dict (q none).txns)) lim
  txOf a lim x := Traversal.accountTx (realLeaf q a) (some (.dict (q none).txns)) lim x
  groupOf _ _ := none
  solve := solve

/-- Savings before debts, except for debts at more than 15 %. -/
noncomputable def realSettings : TxStrategy.Strat ℝ :=
  ⟨.ordered, [("Account", 1), ("Debt", 2)], "Avalanche", some (3 / 20)⟩

/-- Somebody with a savings account `true` and a loan `false`, who earns `income y` in the year `y`
and spends 110. -/
noncomputable def realFamily (income : ℤ → ℝ)
    (solve : Traversal.Graph (List ℕ) Bool → Except PyErr (Traversal.Flows (List ℕ) Bool)) :
    Env Unit Bool ℝ where
  people := [()]
  assets := [true]
  debts := [false]
  owner _ := some ()
  earner _ y := { gross := income y, withheld := 0, net := income y, timing := [(1 / 2, 1)],
                  accounts := [some true, some false] }
  limits _ _ := plainLimits
  default _ := [(1 / 2, 1)]
  ttv _ b v := if b = 0 then .error .zeroDivisionError else .ok (.fin (v / b))
  expenses _ _ := .ok 110
  saving _ q := TxStrategy.call realSettings (realInfo q) id (realGiven solve q) 1000 [true, false]
    (q none).txns
  withdrawal _ q := TxStrategy.call realSettings (realInfo q) id (realGiven solve q) 1000 [true]
    (q none).txns
  accountTax _ _ := 0
  owing _ _ := .ok 0
  refund := [(1 / 2, 1)]
  payment := [(1 / 2, 1)]

/-- Their accounts: savings of 100 at 5 %, a loan of 50. -/
noncomputable def realAccounts : Bool → Acct ℝ := fun a =>
  Account.init 2020 (if a then 100 else -50) (fun _ t => Real.exp (t * Real.log (21 / 20))) []

/-- All the hypotheses of `C96_household_completes` are met by this household: it completes its
forecast of any number of years if there is an income in each of them, and else it does not. -/
example : ∃ solve, ∀ (income : ℤ → ℝ) (n : ℕ),
    (∃ s, forecast (realFamily income solve) 2020 (Forecast.scenarioYears 2020 (n + 1))
      realAccounts = .ok s) ↔ ∀ k : ℕ, k ≤ n → income (2020 + k) ≠ 0 := by
  obtain ⟨solve, h1, h2⟩ := Traversal.C88_solver_exists (N := List ℕ) (A := Bool)
  refine ⟨solve, fun income n => ?_⟩
  have hin : ∀ y, incomeIn (realFamily income solve) y = income y := by
    intro y; simp [incomeIn, realFamily]
  have hhold : holdings (realFamily income solve) = [true, false] := by
    show ([true] ++ [false] : List Bool).dedup = [true, false]
    decide
  have half : (0 : ℝ) ≤ 1 / 2 ∧ (1 / 2 : ℝ) ≤ 1 := by norm_num
  have dated : Dated [((1 / 2 : ℝ), (1 : ℝ))] ∧ Dict.total [((1 / 2 : ℝ), (1 : ℝ))] ≠ 0 := by
    refine ⟨⟨by simp [Dict.WF, Dict.keys], fun x hx => ?_⟩, by simp [Dict.total, Dict.vals]⟩
    simp only [Dict.keys, List.map_cons, List.map_nil, List.mem_singleton] at hx
    rw [hx]; exact half
  have emp : ∀ l, Employs (fun a => !a) (fun _ _ => plainLimits) realSettings realInfo id
      (realGiven solve) 1000 l (fun _ q => TxStrategy.call realSettings (realInfo q) id
        (realGiven solve q) 1000 l (q none).txns) := by
    intro l
    refine ⟨fun _ _ => rfl, fun q x hx => ?_, fun q g f h => (h1 g f h).feasible,
      fun _ _ _ h => h, fun _ _ _ h => h, fun _ => ?_, fun _ _ _ => rfl, fun _ _ _ => ?_⟩
    · have : realLeaf q = fun a => ⟨x a, plainLimits, !a⟩ := by
        funext a; unfold realLeaf; rw [hx a]
      exact ⟨fun a lim z => by
          show Traversal.accountTx (realLeaf q a) _ lim z = _; rw [this],
        fun a lim => by show Traversal.accountLimit (realLeaf q a) _ lim = _; rw [this]⟩
    · show (0 : ℝ) < 1 / 100; norm_num
    · show (Ext.fin (0 : ℝ)) ≤ .posInf; simp
  have equ : ∀ l, true ∈ l → l.length ≤ 2 → Equipped (fun _ _ => plainLimits) realSettings
      realInfo id (realGiven solve) 1000 l := by
    intro l hl hlen
    refine ⟨.inl rfl, fun q _ => ⟨true, hl, .inr ⟨?_, "Account", ?_⟩⟩, (fun h => by cases h),
      fun _ => .refl _, fun _ _ => .refl _, fun _ => h2, by omega⟩
    · simp [High, realInfo]
    · exact ⟨by simp [realSettings, Dict.keys], [], [], rfl, by simp⟩
  have main := C96_household_completes (E := realFamily income solve) (owed := fun a => !a)
    (S := realSettings) (S' := realSettings) (info := realInfo) (info' := realInfo) (order := id)
    (order' := id) (T := realGiven solve) (T' := realGiven solve) (fuel := 1000) (fuel' := 1000)
    (by rw [hhold]; exact emp _) (by rw [hhold]; exact equ _ (by simp) (by simp))
    (emp [true]) (equ [true] (by simp) (by simp)) (by simp [realFamily]) (fun _ _ => dated) dated
    dated dated (fun _ _ _ => ⟨_, rfl⟩) (fun _ _ _ => ⟨_, rfl⟩)
    (fun _ b v _ hb _ => ⟨_, if_neg hb.ne'⟩) (initial := 2020) (n := n)
    (accounts := realAccounts) (fun a => ⟨_, _, _, _, [], rfl⟩) (fun _ _ => rfl) (fun _ _ => rfl)
    (fun _ _ => ?_) (fun _ _ _ => .inl ?_)
  · simpa only [hin] using main
  · refine ⟨by simp [realAccounts, Account.init], fun s t => ?_, fun t => Real.exp_pos _⟩
    show Real.exp _ = Real.exp _ * Real.exp _
    rw [add_mul, Real.exp_add]
  · intro s t hst
    show Real.exp _ ≤ Real.exp _
    exact Real.exp_le_exp.2 (mul_le_mul_of_nonneg_right hst (Real.log_nonneg (by norm_num)))

end examples

end Forecaster.Household
