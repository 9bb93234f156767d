import Verif.Model.DebtPayment
import Verif.Props.SolvencyStrategy
import Verif.Props.TxStrategyFill
import Verif.Props.TxStrategyTotal
import Verif.Props.Expenses
import Verif.Props.Defaults

/-!
# C110: paying debts

What a `DebtPaymentStrategy` does with money: minimum payments, then the rest, in the order of the
strategy.
-/

set_option linter.unusedSectionVars false

namespace Forecaster.DebtPayment

open Forecaster Forecaster.Timing Forecaster.Account Forecaster.Traversal Forecaster.TxStrategy
open Forecaster.Allocation (StrategyArg strategyInit)
open Forecaster.Defaults (leafBelow_accounts)
open Forecaster.Household (within_add)
open Forecaster.Expenses (Ordered C41_avalanche C41_snowball)
open Forecaster.Household (closing_end closing_apply limit_in tx_even call_parts moved_eq_given closing Even moved)

variable {K : Type} [Field K] [LinearOrder K] [IsStrictOrderedRing K] [FloorRing K]
variable {A : Type} [DecidableEq A]

/-! ## Specification -/

/-- The debts are debts: real accounts with nothing overpaid, whose payments are limited by a minimum
payment and a further payment that is not negative, and whose limits are not shared; and the money has
dates within the year. -/
structure Loans (E : Env (List ℕ) A K) (leaf : A → Leaf K) (available : Dict K K) (debts : List A) :
    Prop where
  dates : Dated available
  asks : OfAccounts E leaf (some (.dict available))
  real : ∀ a, Reachable (leaf a).acct ∧ IsGrowth (leaf a).acct.A
  debt : ∀ a ∈ debts, (leaf a).debt = true ∧ ∃ mp ap, (leaf a).limits = debtLimits mp ap ∧ .fin 0 ≤ ap
  owing : ∀ a ∈ debts, ∃ e, balanceAtTime (leaf a).acct (.str "end") none = .ok e ∧ e ≤ 0
  alone : ∀ a ∈ debts, ∀ lim, E.groupOf a lim = none

/-- `l` are the debts in the order of the strategy: smallest amount owed first, or highest rate first;
equally ranked ones as they were given. -/
def InOrder (m : Method) (rate balance : A → K) (debts l : List A) : Prop :=
  match m with
  | .snowball => Ordered (fun d => |balance d|) (· ≤ ·) debts l
  | .avalanche => Ordered rate (· ≥ ·) debts l

/-! ## Helpers -/

theorem order_ordered (m : Method) (rate balance : A → K) (debts : List A) :
    InOrder m rate balance debts (m.order rate balance debts) := by
  cases m with
  | snowball => exact C41_snowball balance debts
  | avalanche => exact C41_avalanche rate debts

theorem order_perm (m : Method) (rate balance : A → K) (debts : List A) :
    (m.order rate balance debts).Perm debts := by
  cases m with
  | snowball => exact (C41_snowball balance debts).perm
  | avalanche => exact (C41_avalanche rate debts).perm

theorem accountsL_accts (l : List A) : Src.accountsL (l.map (.acct : A → Src A K)) = l := by
  induction l with
  | nil => rfl
  | cons a l ih => simp [Src.accountsL, Src.accounts, ih]

theorem plainL_accts (l : List A) : Src.PlainL (l.map (.acct : A → Src A K)) := by
  induction l with
  | nil => trivial
  | cons a l ih => exact ⟨trivial, ih⟩

theorem sum_le_sum (u : List ℤ) : ∀ (v : List ℤ) (hl : u.length = v.length),
    (∀ (k : ℕ) (hk : k < u.length), u[k] ≤ v[k]) → u.sum ≤ v.sum := by
  induction u with
  | nil =>
    intro v hl _
    cases v with
    | nil => simp
    | cons b v => simp at hl
  | cons a u ih =>
    intro v hl hle
    cases v with
    | nil => simp at hl
    | cons b v =>
      simp only [List.sum_cons]
      have h0 : a ≤ b := hle 0 (by simp)
      have := ih v (by simpa using hl) fun k hk => hle (k + 1) (by simpa using hk)
      omega

theorem sum_lt_sum (u : List ℤ) : ∀ (v : List ℤ) (hl : u.length = v.length),
    (∀ (k : ℕ) (hk : k < u.length), u[k] ≤ v[k]) →
    (∃ (k : ℕ) (hk : k < u.length), u[k] < v[k]) → u.sum < v.sum := by
  induction u with
  | nil => rintro v - - ⟨k, hk, -⟩; simp at hk
  | cons a u ih =>
    intro v hl hle hex
    cases v with
    | nil => simp at hl
    | cons b v =>
      simp only [List.sum_cons]
      have h0 : a ≤ b := hle 0 (by simp)
      have hl' : u.length = v.length := by simpa using hl
      have hle' : ∀ (k : ℕ) (hk : k < u.length), u[k] ≤ v[k] :=
        fun k hk => hle (k + 1) (by simpa using hk)
      have hs := sum_le_sum u v hl' hle'
      obtain ⟨k, hk, hlt⟩ := hex
      cases k with
      | zero =>
        have : a < b := hlt
        omega
      | succ k =>
        have := ih v hl' hle' ⟨k, by simpa using hk, hlt⟩
        omega

theorem twoPass_facts {T : ℤ} (hT : 0 ≤ T) (lo hi : List ℤ) (hlen : lo.length = hi.length)
    (h : ∀ (i : ℕ) (h1 : i < lo.length) (h2 : i < hi.length), 0 ≤ lo[i] ∧ lo[i] ≤ hi[i]) :
    ∃ hx : (twoPass T lo (hi.map some)).length = lo.length,
      (twoPass T lo (hi.map some)).sum ≤ T ∧
      ∀ (i : ℕ) (h1 : i < lo.length),
        0 ≤ (twoPass T lo (hi.map some))[i] ∧
        (twoPass T lo (hi.map some))[i] ≤ hi[i]'(hlen ▸ h1) ∧
        ((twoPass T lo (hi.map some))[i] < hi[i]'(hlen ▸ h1) →
          (twoPass T lo (hi.map some)).sum = T ∧
          ∀ (j : ℕ) (hj : j < lo.length), i < j → (twoPass T lo (hi.map some))[j] ≤ lo[j]) ∧
        (lo.sum ≤ T → lo[i] ≤ (twoPass T lo (hi.map some))[i]) := by
  obtain ⟨f1, f2, f3⟩ := fill_facts (lo.map some) T hT (by
    intro c hc
    obtain ⟨x, hx, rfl⟩ := List.mem_map.1 hc
    obtain ⟨i, hi', rfl⟩ := List.getElem_of_mem hx
    exact (h i hi' (hlen ▸ hi')).1)
  have hfl : (fill T (lo.map some)).length = lo.length := by simp
  set f := fill T (lo.map some) with hf
  have hF : ∀ (i : ℕ) (h1 : i < lo.length), 0 ≤ f[i] ∧ f[i] ≤ lo[i] := by
    intro i h1
    obtain ⟨⟨a, b⟩, -⟩ := f3 i (by simpa using h1)
    exact ⟨a, by simpa [Within] using b⟩
  have hzl : (List.zipWith roomLeft (hi.map some) f).length = lo.length := by
    simp [hlen, hfl]
  obtain ⟨s1, s2, s3⟩ := fill_facts (List.zipWith roomLeft (hi.map some) f) (T - f.sum) (by omega) (by
    intro c hc
    obtain ⟨i, hi', rfl⟩ := List.getElem_of_mem hc
    have h1 : i < lo.length := by rw [← hzl]; exact hi'
    simp only [List.getElem_zipWith, List.getElem_map, roomLeft, Within]
    have := (hF i h1).2
    have := (h i h1 (hlen ▸ h1)).2
    omega)
  have hsl : (fill (T - f.sum) (List.zipWith roomLeft (hi.map some) f)).length = lo.length := by
    rw [fill_length, hzl]
  obtain ⟨s, hs, hsl, s1, s2, hS⟩ : ∃ s : List ℤ,
      fill (T - f.sum) (List.zipWith roomLeft (hi.map some) f) = s ∧
      ∃ hsl : s.length = lo.length, 0 ≤ s.sum ∧ s.sum ≤ T - f.sum ∧
      ∀ (i : ℕ) (h1 : i < lo.length), 0 ≤ s[i] ∧ s[i] ≤ hi[i] - f[i] ∧
        (s[i] < hi[i] - f[i] → s.sum = T - f.sum ∧
          ∀ (j : ℕ) (hj : j < lo.length), i < j → s[j] = 0) := by
    refine ⟨_, rfl, hsl, s1, s2, fun i h1 => ?_⟩
    obtain ⟨⟨s4, s5⟩, s6⟩ := s3 i (by rw [hzl]; exact h1)
    simp only [List.getElem_zipWith, List.getElem_map, roomLeft, Within, Room] at s5 s6
    exact ⟨s4, s5, fun hlt => ⟨(s6 hlt).1, fun j hj hij => (s6 hlt).2 j (by rw [hzl]; exact hj) hij⟩⟩
  clear s3
  have hx : twoPass T lo (hi.map some) = List.zipWith (· + ·) f s := by
    rw [← hs]; rfl
  have hsum : (List.zipWith (· + ·) f s).sum = f.sum + s.sum := by
    have : ∀ (u v : List ℤ), u.length = v.length →
        (List.zipWith (· + ·) u v).sum = u.sum + v.sum := by
      intro u
      induction u with
      | nil => intro v hv; cases v <;> simp_all
      | cons a u ih =>
        intro v hv
        cases v with
        | nil => simp at hv
        | cons b v =>
          simp only [List.zipWith_cons_cons, List.sum_cons]
          rw [ih v (by simpa using hv)]
          ring
    exact this f s (by rw [hfl, hsl])
  have hxl : (twoPass T lo (hi.map some)).length = lo.length := by
    rw [hx, List.length_zipWith, hfl, hsl, min_self]
  refine ⟨hxl, by rw [hx, hsum]; omega, fun i h1 => ?_⟩
  have hxi : ∀ (j : ℕ) (hj : j < lo.length),
      (twoPass T lo (hi.map some))[j] = f[j] + s[j] := by
    intro j hj
    simp [hx]
  have h2 := hF i h1
  obtain ⟨s4, s5, s6⟩ := hS i h1
  rw [hxi i h1]
  refine ⟨by omega, by omega, fun hlt => ?_, fun hle => ?_⟩
  · obtain ⟨t1, t2⟩ := s6 (by omega)
    refine ⟨by rw [hx, hsum]; omega, fun j hj hij => ?_⟩
    rw [hxi j hj, t2 j hj hij]
    have := (hF j hj).2
    omega
  · by_contra hcon
    have hroom : f[i] < lo[i] := by omega
    obtain ⟨t1, -⟩ := (f3 i (by simpa using h1)).2 (by simpa [Room] using hroom)
    rw [← hf] at t1
    have : f.sum < lo.sum := by
      exact sum_lt_sum f lo hfl (fun k hk => (hF k (hfl ▸ hk)).2) ⟨i, by rw [hfl]; exact h1, hroom⟩
    omega

section

variable {m : Method} {rate balance : A → K} {E : Env (List ℕ) A K} {fuel : ℕ} {debts : List A}
  {leaf : A → Leaf K} {available : Dict K K} {r : Dict A (Dict K K)}

theorem Loans.fit (h : Loans E leaf available debts) (ht : Dict.total available ≠ 0) (a : A) :
    ∃ tm nt, Fit (leaf a).acct (some (.dict available)) none tm ∧
        normalizedWeights tm = .ok nt ∧ Weights nt := by
  obtain ⟨tm, h1, h2⟩ := (ready_timing (leaf a).acct available h.dates
    (by rintro rfl; exact ht rfl)).2.1 fun _ => ht
  have hf : Fit (leaf a).acct (some (.dict available)) none tm :=
    ⟨(h.real a).1.inv, (h.real a).2, h1, h2, by simp⟩
  obtain ⟨nt, ref, hnt, hw, -⟩ := core hf
  exact ⟨tm, nt, hf, hnt, hw⟩

/-- The environment of the traversal. -/
abbrev over (E : Env (List ℕ) A K) (l : List A) : Env (List ℕ) A K :=
  { E with tree := (Src.list (l.map .acct)).toTree }

theorem Loans.limits (h : Loans E leaf available debts) (ht : Dict.total available ≠ 0) {a : A}
    (ha : a ∈ debts) {tm nt : Dict K K}
    (hf : Fit (leaf a).acct (some (.dict available)) none tm) (hnt : normalizedWeights tm = .ok nt)
    (hw : Weights nt) {ref : K}
    (href : balanceAtTime (leaf a).acct (.str "end") none = .ok ref) :
    ∃ lo hi, E.limitOf a .minIn = .ok (.fin lo) ∧ E.limitOf a .maxIn = .ok (.fin hi) ∧
      0 ≤ lo ∧ lo ≤ hi ∧ ref + hi * weightedAccum (leaf a).acct.A nt ≤ 0 := by
  obtain ⟨h1, mp, ap, h2, h3⟩ := h.debt a ha
  obtain ⟨e, he, h4⟩ := h.owing a ha
  rw [href] at he
  cases he
  refine limit_in h.asks (a := a) hf hnt hw href h4 h1 ?_
  rw [h2]
  unfold debtLimits
  simp only
  cases ap with
  | fin x => simpa [Ext.add] using h3
  | posInf => simp [Ext.add]
  | negInf => simp at h3

theorem inOrder_perm {l : List A} (h : InOrder m rate balance debts l) : l.Perm debts := by
  cases m with
  | snowball => exact Ordered.perm h
  | avalanche => exact Ordered.perm h

/-- What the debts are paid, in units. -/
theorem units_paid {l : List A} {lo hi : A → K} (hp : 0 < E.precision)
    (ht : E.precision < Dict.total available)
    (hlim : ∀ a ∈ debts,
      accountLimit (leaf a) (some (.dict available)) .minIn = .ok (.fin (lo a)) ∧
      accountLimit (leaf a) (some (.dict available)) .maxIn = .ok (.fin (hi a)) ∧
      0 ≤ lo a ∧ lo a ≤ hi a) (hperm : l.Perm debts)
    (hpay : l.map (given r) = (twoPass ⌊Dict.total available / E.precision⌋
      (l.map fun a => ⌊lo a / E.precision⌋)
      (l.map fun a => some ⌊hi a / E.precision⌋)).map fun x : ℤ => E.precision * (x : K)) :
    ∃ (x : List ℤ) (hx : x.length = l.length),
      (∀ (i : ℕ) (h : i < l.length), given r l[i] = E.precision * (x[i] : K)) ∧
      (l.map (given r)).sum = E.precision * (x.sum : K) ∧
      ∀ (i : ℕ) (h : i < l.length),
        (x[i] < ⌊hi l[i] / E.precision⌋ → x.sum = ⌊Dict.total available / E.precision⌋ ∧
          ∀ (j : ℕ) (hj : j < l.length), i < j → x[j] ≤ ⌊lo l[j] / E.precision⌋) ∧
        ((l.map fun a => ⌊lo a / E.precision⌋).sum ≤ ⌊Dict.total available / E.precision⌋ →
          ⌊lo l[i] / E.precision⌋ ≤ x[i]) := by
  have hfl : ∀ a ∈ l, 0 ≤ ⌊lo a / E.precision⌋ ∧ ⌊lo a / E.precision⌋ ≤ ⌊hi a / E.precision⌋ := by
    intro a ha
    obtain ⟨-, -, h3, h4⟩ := hlim a (hperm.mem_iff.1 ha)
    exact ⟨Int.floor_nonneg.2 (div_nonneg h3 hp.le),
      Int.floor_le_floor (div_le_div_of_nonneg_right h4 hp.le)⟩
  obtain ⟨hx, -, hall⟩ := twoPass_facts (T := ⌊Dict.total available / E.precision⌋)
    (Int.floor_nonneg.2 (div_nonneg (hp.trans ht).le hp.le))
    (l.map fun a => ⌊lo a / E.precision⌋) (l.map fun a => ⌊hi a / E.precision⌋) (by simp)
    (fun i h1 h2 => by
      simp only [List.getElem_map]
      exact hfl _ (List.getElem_mem _))
  have hs : (l.map fun a => ⌊hi a / E.precision⌋).map some =
      l.map fun a => some ⌊hi a / E.precision⌋ := by simp
  simp only [hs] at hx hall
  refine ⟨_, by simpa using hx, fun i h => ?_, ?_, fun i h => ?_⟩
  · have := congrArg (fun z => z[i]?) hpay
    simp only [List.getElem?_map, List.getElem?_eq_getElem h, Option.map_some] at this
    rw [List.getElem?_eq_getElem (by rw [hx]; simpa using h)] at this
    simpa using this
  · rw [hpay, List.sum_map_mul_left, Int.cast_list_sum]
  · obtain ⟨-, -, h3, h4⟩ := hall i (by simpa using h)
    simp only [List.getElem_map] at h3 h4
    exact ⟨fun hlt => ⟨(h3 hlt).1, fun j hj hij => by
      simpa using (h3 hlt).2 j (by simpa using hj) hij⟩, h4⟩

theorem limit_out_zero {E : Env (List ℕ) A K} {leaf : A → Leaf K} {timing : Option (Arg K)}
    (h : OfAccounts E leaf timing) {a : A} {tm nt : Dict K K} {ref : K}
    (hf : Fit (leaf a).acct timing none tm) (hnt : normalizedWeights tm = .ok nt)
    (hw : Weights nt) (href : balanceAtTime (leaf a).acct (.str "end") none = .ok ref)
    (h0 : ref ≤ 0) : E.limitOf a .maxOut = .ok (.fin 0) := by
  have hW := weightedAccum_pos hf.growth hw
  rw [h.limit]
  unfold accountLimit
  have hct : flowsOf (leaf a) .maxOut { timing := timing } =
      transactionsToBalance (leaf a).acct (.fin 0) timing (some (.fin 0))
        (some (outCap (leaf a).limits.maxOut (outflows (leaf a).acct none) none)) none := rfl
  rw [hct, ttb_eq href hf.resolves hnt hf.growth hw, ok_bind, Traversal.sum_spread hw]
  simp only [Ext.subFin, mulFin_fin]
  rw [Ext.min_fin_fin, min_eq_right (mul_nonneg (by linarith) (inv_nonneg.2 hW.le)),
    max_eq_left (by unfold outCap; exact min_le_right _ _)]

/-! ## The theorems -/

/-- **C110.** With money to spend, each debt is first paid its `min_inflows` and then up to its
`max_inflows`, both in the order of the strategy and as far as the money goes, in whole units of the
precision. -/
theorem C110_pays_in_order (hn : debts.Nodup) (hE : Optimal E) (hL : Loans E leaf available debts)
    (hp : 0 < E.precision) (ht : E.precision < Dict.total available)
    (h : call m rate balance E fuel debts (.dated available) = .ok r) :
    ∃ (l : List A) (lo hi : A → K), InOrder m rate balance debts l ∧
      (∀ a ∈ debts,
        accountLimit (leaf a) (some (.dict available)) .minIn = .ok (.fin (lo a)) ∧
        accountLimit (leaf a) (some (.dict available)) .maxIn = .ok (.fin (hi a)) ∧
        0 ≤ lo a ∧ lo a ≤ hi a) ∧
      l.map (given r) = (twoPass ⌊Dict.total available / E.precision⌋
        (l.map fun a => ⌊lo a / E.precision⌋)
        (l.map fun a => some ⌊hi a / E.precision⌋)).map fun x : ℤ => E.precision * (x : K) := by
  have hne : Dict.total available ≠ 0 := (hp.trans ht).ne'
  have hlim : ∀ a : A, ∃ lo hi : K, a ∈ debts →
      E.limitOf a .minIn = .ok (.fin lo) ∧ E.limitOf a .maxIn = .ok (.fin hi) ∧ 0 ≤ lo ∧ lo ≤ hi := by
    intro a
    by_cases ha : a ∈ debts
    · obtain ⟨tm, nt, h1, h2, h3⟩ := hL.fit hne a
      obtain ⟨e, he, -⟩ := hL.owing a ha
      obtain ⟨lo, hi, l1, l2, l3, l4, -⟩ := hL.limits hne ha h1 h2 h3 he
      exact ⟨lo, hi, fun _ => ⟨l1, l2, l3, l4⟩⟩
    · exact ⟨0, 0, fun h => absurd h ha⟩
  choose lo hi hlh using hlim
  set l := m.order rate balance debts with hl
  have hperm : l.Perm debts := order_perm m rate balance debts
  refine ⟨l, lo, hi, order_ordered m rate balance debts, fun a ha => ?_, ?_⟩
  · obtain ⟨l1, l2, l3⟩ := hlh a ha
    rw [hL.asks.limit] at l1 l2
    exact ⟨l1, l2, l3⟩
  have hA : Answers E := (accounts_answer hL.asks fun a => by
    obtain ⟨tm, nt, h1, -⟩ := hL.fit hne a; exact ⟨tm, h1⟩).1
  have hX : Exact E := accounts_exact hL.asks fun a => by
    obtain ⟨tm, nt, h1, -⟩ := hL.fit hne a; exact ⟨tm, h1⟩
  have hacc := Src.forestL_accs (l.map (.acct : A → Src A K)) (plainL_accts l) [] 0
  rw [accountsL_accts] at hacc
  have hnest : ∀ lim, Nested (over E l) lim (Src.forestL (l.map .acct) [] 0) := fun lim =>
    nested_of_plain (l.map .acct) rfl (plainL_accts l)
      (by rw [accountsL_accts]; exact hperm.nodup_iff.2 hn)
      (fun a ha => by
        rw [accountsL_accts] at ha
        exact hL.alone a (hperm.mem_iff.1 ha) lim)
  have := C70_inflows_in_order (E := over E l) (total := Dict.total available) (r := r) (fuel := fuel)
    ⟨hE.solver, hE.sets, hE.accts⟩ ⟨hA.inflow, hA.outflow⟩ ⟨hX.inflow, hX.outflow⟩ hp ht
    (hnest _) (hnest _) (forestL_accts_edges l [] 0 true) lo (fun a => .fin (hi a))
    (fun a ha => by
      rw [hacc] at ha
      obtain ⟨l1, l2, l3, l4⟩ := hlh a (hperm.mem_iff.1 ha)
      exact ⟨l1, l3⟩)
    (fun a ha => by
      rw [hacc] at ha
      obtain ⟨l1, l2, l3, l4⟩ := hlh a (hperm.mem_iff.1 ha)
      exact ⟨l2, by simpa using l4⟩) h
  rw [hacc] at this
  exact this

/-- **C110.** Minimum payments come first: if the money covers them all (in whole units of the
precision), every debt is paid its minimum, up to less than one unit. -/
theorem C110_minimums_first (hn : debts.Nodup) (hE : Optimal E) (hL : Loans E leaf available debts)
    (hp : 0 < E.precision) (ht : E.precision < Dict.total available)
    (h : call m rate balance E fuel debts (.dated available) = .ok r) (lo : A → K)
    (hlo : ∀ a ∈ debts, accountLimit (leaf a) (some (.dict available)) .minIn = .ok (.fin (lo a)))
    (hall : (debts.map fun a => ⌊lo a / E.precision⌋).sum ≤ ⌊Dict.total available / E.precision⌋) :
    ∀ a ∈ debts, lo a - E.precision < given r a := by
  obtain ⟨l, lo', hi, hord, hlim, hpay⟩ := C110_pays_in_order hn hE hL hp ht h
  have hperm := inOrder_perm hord
  intro a ha
  obtain ⟨i, hi1, hi2⟩ := List.getElem_of_mem (hperm.mem_iff.2 ha)
  obtain ⟨x, hx, hg, -, f⟩ := units_paid hp ht hlim hperm hpay
  have hlo' : ∀ b ∈ debts, lo' b = lo b := by
    intro b hb
    have h1 := (hlim b hb).1
    rw [hlo b hb] at h1
    simpa using (Except.ok.inj h1).symm
  have hle := (f i hi1).2 (by
    refine le_of_eq_of_le ?_ hall
    rw [← (hperm.map _).sum_eq]
    congr 1
    refine List.map_congr_left fun b hb => ?_
    rw [hlo' b (hperm.mem_iff.1 hb)])
  have hg := hg i hi1
  rw [hi2] at hle hg
  rw [hg, ← hlo' a ha]
  have h1 : lo' a / E.precision < (⌊lo' a / E.precision⌋ : K) + 1 := Int.lt_floor_add_one _
  rw [div_lt_iff₀ hp] at h1
  have h3 := mul_le_mul_of_nonneg_left ((Int.cast_le (R := K)).2 hle) hp.le
  linarith

/-- **C110.** A later debt waits for an earlier one: if a debt could still take another unit, there is
less than a unit of money left, and every debt after it is paid no more than its minimum. -/
theorem C110_priority (hn : debts.Nodup) (hE : Optimal E) (hL : Loans E leaf available debts)
    (hp : 0 < E.precision) (ht : E.precision < Dict.total available)
    (h : call m rate balance E fuel debts (.dated available) = .ok r) :
    ∃ l, InOrder m rate balance debts l ∧
      ∀ pre a post, l = pre ++ a :: post →
      ∀ hi, accountLimit (leaf a) (some (.dict available)) .maxIn = .ok (.fin hi) →
      given r a + E.precision ≤ hi →
      Dict.total available - E.precision < (debts.map (given r)).sum ∧
      ∀ b ∈ post, ∀ lo, accountLimit (leaf b) (some (.dict available)) .minIn = .ok (.fin lo) →
        given r b ≤ lo := by
  obtain ⟨l, lo', hi', hord, hlim, hpay⟩ := C110_pays_in_order hn hE hL hp ht h
  have hperm := inOrder_perm hord
  refine ⟨l, hord, ?_⟩
  rintro pre a post rfl hi hhi hroom
  have ha : a ∈ debts := hperm.mem_iff.1 (by simp)
  have hia : hi' a = hi := by
    have h1 := (hlim a ha).2.1
    rw [hhi] at h1
    simpa using (Except.ok.inj h1).symm
  have hi1 : pre.length < (pre ++ a :: post).length := by simp
  have hi2 : (pre ++ a :: post)[pre.length] = a := by simp
  obtain ⟨x, hx, hg, hsum, f⟩ := units_paid hp ht hlim hperm hpay
  have hga := hg _ hi1
  have f2 := (f _ hi1).1
  rw [hi2] at hga f2
  obtain ⟨g1, g2⟩ := f2 (by
    rw [hga] at hroom
    have : ((x[pre.length] + 1 : ℤ) : K) ≤ hi' a / E.precision := by
      rw [le_div_iff₀ hp, hia]
      push_cast
      linarith
    have := Int.le_floor.2 this
    omega)
  constructor
  · rw [← (hperm.map _).sum_eq, hsum, g1]
    have := Int.lt_floor_add_one (Dict.total available / E.precision)
    rw [div_lt_iff₀ hp] at this
    linarith
  · intro b hb lo hlo
    obtain ⟨j, hj, rfl⟩ := List.getElem_of_mem hb
    have hjb : post[j] ∈ debts := hperm.mem_iff.1 (by simp)
    have hlb : lo' post[j] = lo := by
      have h1 := (hlim _ hjb).1
      rw [hlo] at h1
      simpa using (Except.ok.inj h1).symm
    have hj1 : pre.length + 1 + j < (pre ++ a :: post).length := by simp; omega
    have hj2 : (pre ++ a :: post)[pre.length + 1 + j] = post[j] := by
      rw [List.getElem_append_right (by omega)]
      simp [show pre.length + 1 + j - pre.length = j + 1 by omega]
    have := g2 _ hj1 (by omega)
    rw [hj2] at this
    have hgj := hg _ hj1
    rw [hj2] at hgj
    rw [hgj, ← hlb]
    have h2 := (Int.cast_le (R := K)).2 this
    have h3 : (⌊lo' post[j] / E.precision⌋ : K) ≤ lo' post[j] / E.precision := Int.floor_le _
    have h4 := h2.trans h3
    rwa [le_div_iff₀ hp, mul_comm] at h4

/-- **C110.** Nothing is overpaid: only debts are paid, no payment is negative, together they are no
more than the money at hand, and after its payments a debt's balance at the end of the year is not
positive. -/
theorem C110_never_overpays (hE : Sound E) (hL : Loans E leaf available debts)
    (hp : 0 < E.precision) (ht : E.precision < Dict.total available)
    (h : call m rate balance E fuel debts (.dated available) = .ok r) :
    (∀ a t, Dict.get? r a = some t → a ∈ debts ∧ ∀ e ∈ t, 0 ≤ e.2) ∧
    moved r ≤ Dict.total available ∧
    ∀ a t, Dict.get? r a = some t → ∃ x' e, applyAll (leaf a).acct t = .ok x' ∧
      balanceAtTime x' (.str "end") none = .ok e ∧ e ≤ 0 := by
  have hne : Dict.total available ≠ 0 := (hp.trans ht).ne'
  have hs : Sound (over E (m.order rate balance debts)) := ⟨hE.solver, hE.sets, hE.accts⟩
  have ho : OfAccounts (over E (m.order rate balance debts)) leaf (some (.dict available)) :=
    ⟨hL.asks.tx, hL.asks.limit⟩
  have hA : Answers (over E (m.order rate balance debts)) := (accounts_answer ho fun a => by
    obtain ⟨tm, nt, h1, -⟩ := hL.fit hne a; exact ⟨tm, h1⟩).1
  obtain ⟨hwf, hparts⟩ := call_parts hs (h : Traversal.call (over E _) _ _ = _)
  obtain ⟨h1, h2⟩ := C42_inflows_total hs hA hp ht h
  have hmem : ∀ a t, Dict.get? r a = some t → a ∈ debts := by
    intro a t hat
    have := leafBelow_accounts (h1 a t hat).1
    rw [Src.accounts, accountsL_accts] at this
    exact (order_perm m rate balance debts).mem_iff.1 this
  refine ⟨fun a t hat => ⟨hmem a t hat, (h1 a t hat).2⟩, by rw [moved_eq_given hwf]; exact h2 _,
    fun a t hat => ?_⟩
  have ha := hmem a t hat
  obtain ⟨tm, nt, f1, f2, f3⟩ := hL.fit hne a
  have hev : Even (leaf a).acct nt t := by
    rcases hparts a t hat with ⟨lim, z, hz⟩ | ⟨t₁, t₂, l₁, l₂, z₁, z₂, rfl, hz₁, hz₂⟩
    · exact tx_even ho (a := a) f1 f2 f3 hz
    · exact (tx_even ho (a := a) f1 f2 f3 hz₂).add (tx_even ho (a := a) f1 f2 f3 hz₁)
  have hap := applyAll_eq (leaf a).acct hev.rng
  have hcl := closing_apply f1.inv hev hap
  obtain ⟨lo, hi, l1, l2, l3, l4, l5⟩ := hL.limits hne ha f1 f2 f3 (closing_end f1.inv)
  obtain ⟨-, hg⟩ := C42_inflows_account hs hA hp ht h a (hL.alone a ha _) lo hi l1 l2 l3 l4
  have hgiven : given r a = Dict.total t := by unfold Traversal.given; rw [hat]; rfl
  rw [hgiven] at hg
  refine ⟨_, _, hap, closing_end ⟨⟨Timing.wf_add f1.inv.tx.wf _,
    within_add f1.inv.tx.rng hev.rng⟩, f1.inv.future, f1.inv.opening⟩, ?_⟩
  rw [hcl]
  have := mul_le_mul_of_nonneg_right hg (weightedAccum_pos f1.growth f3).le
  linarith

/-- **C110.** A debt is not a source of money: asked to find money, the strategy draws nothing from any
debt. -/
theorem C110_nothing_withdrawn (hE : Sound E) (hL : Loans E leaf available debts)
    (hp : 0 < E.precision) (ht : Dict.total available < -E.precision)
    (h : call m rate balance E fuel debts (.dated available) = .ok r) (a : A) : given r a = 0 := by
  have hne : Dict.total available ≠ 0 := (by linarith : Dict.total available < 0).ne
  have hs : Sound (over E (m.order rate balance debts)) := ⟨hE.solver, hE.sets, hE.accts⟩
  have ho : OfAccounts (over E (m.order rate balance debts)) leaf (some (.dict available)) :=
    ⟨hL.asks.tx, hL.asks.limit⟩
  have hA : Answers (over E (m.order rate balance debts)) := (accounts_answer ho fun a => by
    obtain ⟨tm, nt, h1, -⟩ := hL.fit hne a; exact ⟨tm, h1⟩).1
  cases hat : Dict.get? r a with
  | none => unfold Traversal.given; rw [hat]; rfl
  | some t =>
    have ha : a ∈ debts := by
      have := leafBelow_accounts ((C42_outflows_total hs hA hp ht h).1 a t hat).1
      rw [Src.accounts, accountsL_accts] at this
      exact (order_perm m rate balance debts).mem_iff.1 this
    obtain ⟨tm, nt, f1, f2, f3⟩ := hL.fit hne a
    obtain ⟨e, he, h0⟩ := hL.owing a ha
    have := C42_outflows_account hs hA hp ht h
      (fun n => root_no_child (s := .list ((m.order rate balance debts).map .acct)) rfl n) rfl a 0
      (limit_out_zero ho f1 f2 f3 he h0) le_rfl
    exact le_antisymm this.1 this.2

/-- **C110.** With at least one debt there is an answer, whatever the amounts; an amount of at most the
precision is not distributed. -/
theorem C110_always_answers (hne : debts ≠ []) (hL : Loans E leaf available debts) (hC : Complete E)
    (hS : ∀ g f, E.solve g = .ok f → Feasible g f) (hset : ∀ l, (E.setOrder l).Perm l)
    (hp : 0 < E.precision) (hf : 2 * debts.length + 13 ≤ fuel) :
    ∃ r, call m rate balance E fuel debts (.dated available) = .ok r ∧
      (|Dict.total available| ≤ E.precision → r = []) := by
  by_cases hsmall : |Dict.total available| ≤ E.precision
  · obtain ⟨h1, h2⟩ := abs_le.1 hsmall
    exact ⟨[], C42_nothing (E := over E _) h2 h1 fuel, fun _ => rfl⟩
  have h0 : Dict.total available ≠ 0 := by
    intro h0; rw [h0] at hsmall; simp [hp.le] at hsmall
  have ho : OfAccounts (over E (m.order rate balance debts)) leaf (some (.dict available)) :=
    ⟨hL.asks.tx, hL.asks.limit⟩
  have hw : Willing (over E (m.order rate balance debts)) := accounts_willing ho fun a => by
    obtain ⟨tm, nt, h1, -⟩ := hL.fit h0 a; exact ⟨tm, h1⟩
  set l := m.order rate balance debts with hl
  have hlen : l.length = debts.length := (order_perm m rate balance debts).length_eq
  obtain ⟨a, ha⟩ := List.exists_mem_of_ne_nil debts hne
  have hleaf : HasLeaf (over E l) := hasLeaf_tree (s := .list (l.map .acct)) rfl (a := a) (by
    rw [Src.accounts, accountsL_accts]
    exact (order_perm m rate balance debts).mem_iff.2 ha)
  have hsound : (Src.list (l.map .acct) : Src A K).Sound := .list _ fun c hc => by
    obtain ⟨a, -, rfl⟩ := List.mem_map.1 hc; exact .acct a
  have hP : Proper (over E l) (fun p => 1 - p.length) := proper_depth rfl hsound (by
    intro u hu
    obtain ⟨a, -, rfl⟩ := List.mem_map.1 hu
    exact atMost_acct _ a)
  have hen : enough (over E l) (fun p => 1 - p.length) ≤ fuel := by
    have h1 : size (over E l) 1 [] = count 1 (.list (l.map .acct)) :=
      size_count (s := .list (l.map .acct)) rfl 1 [] _ rfl
    have h2 : enough (over E l) (fun p => 1 - p.length) = 3 * 1 + 2 * size (over E l) 1 [] + 8 := rfl
    have h3 : count 1 (.list (l.map .acct) : Src A K) ≤ l.length + 1 := by
      exact (count_flat (K := K) 1 (.list (l.map .acct)) l rfl).trans (by omega)
    omega
  have : ∃ r, Traversal.call (over E l) fuel (Dict.total available) = .ok r := by
    rcases lt_abs.1 (not_le.1 hsmall) with h1 | h1
    · exact inflows_enough hP hleaf hw hC hset hp h1 hen
    · exact outflows_enough hP hleaf hw hC hS hset hp
        (fun n => root_no_child (s := .list (l.map .acct)) rfl n) rfl (by linarith) hen
  obtain ⟨r, hr⟩ := this
  exact ⟨r, hr, fun h => absurd h hsmall⟩

/-- **C110, refuted.** Called with a plain amount, as documented, the strategy raises `AttributeError`,
whatever the debts. -/
theorem C110_amount_refuted (m : Method) (rate balance : A → K) (E : Env (List ℕ) A K) (fuel : ℕ)
    (debts : List A) (x : K) :
    call m rate balance E fuel debts (.amount x) = .error .attributeError := rfl

/-- **C110, refuted.** Without debts, money cannot be left alone: the flow algorithm is asked about a
network without a sink, which networkx refuses, and there is no answer. -/
theorem C110_no_debts_refuted (hp : 0 ≤ E.precision) (hbig : E.precision < |Dict.total available|)
    (hpicky : ∀ g, (∀ u, (u, G.sink) ∉ Dict.keys g) → ∃ e, E.solve g = .error e) :
    ∃ e, call m rate balance E fuel [] (.dated available) = .error e := by
  obtain ⟨e, he⟩ := (C90_no_accounts_refuted (S := ⟨.ordered, [], "Avalanche", none⟩)
    (info := fun _ => ⟨[], false, 0, 0⟩) (order := id) (E := E) (fun l => .refl l) hp hbig fuel).2 rfl
    hpicky
  refine ⟨e, ?_⟩
  rw [← he]
  cases m <;> rfl

/-- **C110.** A strategy is chosen by its key, or by the method of that key; other names are refused with
`ValueError`, other things with `TypeError`. -/
theorem C110_keys (s : StrategyArg) :
    init s = match s with
      | .other => .error .typeError
      | .str k | .method k =>
        if k = "Snowball" then .ok .snowball else if k = "Avalanche" then .ok .avalanche
        else .error .valueError := by
  cases s with
  | other => rfl
  | str k | method k =>
    simp only [init, strategyInit, Method.key, List.mem_cons, List.not_mem_nil, or_false]
    by_cases h1 : k = "Snowball"
    · subst h1; rfl
    · by_cases h2 : k = "Avalanche"
      · subst h2; rfl
      · rw [if_neg (by simp [h1, h2]), if_neg h1, if_neg h2]; rfl

end

/-! ## Concrete cases -/

section Cases

/-- Three debts, without interest, of 300, 100 and 200, each with a minimum payment of 10 and no maximum. -/
def loan (a : ℕ) : Leaf ℚ :=
  ⟨debtInit 2000 (if a = 0 then 300 else if a = 1 then 100 else 200) (fun _ _ => 1) [(1 / 2, 1)],
    debtLimits 10 .posInf, true⟩

def loanEnv (d : Dict ℚ ℚ) : Env (List ℕ) ℕ ℚ where
  tree := (Src.list []).toTree
  precision := 1
  limitOf a lim := accountLimit (loan a) (some (.dict d)) lim
  txOf a lim x := accountTx (loan a) (some (.dict d)) lim x
  groupOf _ _ := none
  solve := certified greedy

theorem loan_optimal (d : Dict ℚ ℚ) : Optimal (loanEnv d) :=
  ⟨fun _ _ h => certified_sound _ _ _ h, fun _ _ h => h, fun _ _ => Iff.rfl⟩

theorem loans (d : Dict ℚ ℚ) (hd : Dated d) : Loans (loanEnv d) loan d [0, 1, 2] where
  dates := hd
  asks := ⟨fun _ _ _ => rfl, fun _ _ => rfl⟩
  real a := by
    have h : Reachable (loan a).acct ∧ (loan a).acct.A = fun _ => 1 := by
      unfold loan debtInit Acct.A
      split_ifs <;> exact ⟨⟨_, _, _, _, [], rfl⟩, rfl⟩
    exact ⟨h.1, by rw [h.2]; exact ⟨rfl, fun _ _ => (one_mul _).symm, fun _ => zero_lt_one⟩⟩
  debt a _ := ⟨rfl, 10, .posInf, rfl, by simp⟩
  owing a ha := by
    simp only [List.mem_cons, List.not_mem_nil, or_false] at ha
    rcases ha with rfl | rfl | rfl
    · exact ⟨-300, by decide +kernel, by norm_num⟩
    · exact ⟨-100, by decide +kernel, by norm_num⟩
    · exact ⟨-200, by decide +kernel, by norm_num⟩
  alone _ _ _ := rfl

def owe (a : ℕ) : ℚ := if a = 0 then -300 else if a = 1 then -100 else -200

def rateOf (a : ℕ) : ℚ := if a = 1 then 1 / 100 else if a = 0 then 5 / 100 else 3 / 100

set_option maxRecDepth 100000 in
/-- 250 at the start of the year: 10 each, then the smallest debt, then the next. -/
theorem loan_snowball : call .snowball rateOf owe (loanEnv [(0, 250)]) 40 [0, 1, 2] (.dated [(0, 250)]) =
    .ok [(1, [(0, 100)]), (2, [(0, 140)]), (0, [(0, 10)])] := by decide +kernel

set_option maxRecDepth 100000 in
/-- 250 at the start of the year: 10 each, then the debt with the highest rate. -/
theorem loan_avalanche : call .avalanche rateOf owe (loanEnv [(0, 250)]) 40 [0, 1, 2] (.dated [(0, 250)]) =
    .ok [(0, [(0, 230)]), (2, [(0, 10)]), (1, [(0, 10)])] := by decide +kernel

theorem loan_dated (x : ℚ) : Dated [((0 : ℚ), x)] := ⟨by simp [Dict.WF, Dict.keys], by simp [Dict.keys]⟩

/-- The theorems apply to these payments. -/
example : ∀ a ∈ [0, 1, 2], (10 : ℚ) - 1 <
    given [(1, [((0 : ℚ), (100 : ℚ))]), (2, [(0, 140)]), (0, [(0, 10)])] a :=
  C110_minimums_first (E := loanEnv [(0, 250)]) (by decide) (loan_optimal _) (loans _ (loan_dated _))
    (by decide +kernel) (by decide +kernel) loan_snowball (fun _ => 10) (by decide +kernel)
    (by decide +kernel)

example : moved [(1, [((0 : ℚ), (100 : ℚ))]), (2, [(0, 140)]), (0, [(0, 10)])] ≤
    Dict.total [((0 : ℚ), (250 : ℚ))] :=
  (C110_never_overpays (E := loanEnv [(0, 250)]) (loan_optimal _).sound (loans _ (loan_dated _))
    (by decide +kernel) (by decide +kernel) loan_snowball).2.1

example : ∃ l, InOrder .avalanche rateOf owe [0, 1, 2] l ∧
    ∀ pre a post, l = pre ++ a :: post →
    ∀ hi, accountLimit (loan a) (some (.dict [(0, 250)])) .maxIn = .ok (.fin hi) →
    given [(0, [((0 : ℚ), (230 : ℚ))]), (2, [(0, 10)]), (1, [(0, 10)])] a + 1 ≤ hi →
    Dict.total [((0 : ℚ), (250 : ℚ))] - 1 <
      ([0, 1, 2].map (given [(0, [((0 : ℚ), (230 : ℚ))]), (2, [(0, 10)]), (1, [(0, 10)])])).sum ∧
    ∀ b ∈ post, ∀ lo, accountLimit (loan b) (some (.dict [(0, 250)])) .minIn = .ok (.fin lo) →
      given [(0, [((0 : ℚ), (230 : ℚ))]), (2, [(0, 10)]), (1, [(0, 10)])] b ≤ lo :=
  C110_priority (E := loanEnv [(0, 250)]) (by decide) (loan_optimal _) (loans _ (loan_dated _))
    (by decide +kernel) (by decide +kernel) loan_avalanche

set_option maxRecDepth 100000 in
/-- Asked for 250. -/
theorem loan_withdraw :
    call .avalanche rateOf owe (loanEnv [(0, -250)]) 40 [0, 1, 2] (.dated [(0, -250)]) =
      .ok [(0, [(0, 0)]), (2, [(0, 0)]), (1, [(0, 0)])] := by decide +kernel

example : given [(0, [((0 : ℚ), (0 : ℚ))]), (2, [(0, 0)]), (1, [(0, 0)])] 2 = 0 :=
  C110_nothing_withdrawn (E := loanEnv [(0, -250)]) (loan_optimal _).sound (loans _ (loan_dated _))
    (by decide +kernel) (by decide +kernel) loan_withdraw 2

/-- With a flow algorithm as in `C88_solver_exists` there is an answer for every amount. -/
example : ∃ solve, ∀ x : ℚ, ∃ r,
    call .snowball rateOf owe { loanEnv [(0, x)] with solve := solve } 19 [0, 1, 2] (.dated [(0, x)]) =
      .ok r := by
  obtain ⟨solve, h1, h2⟩ := C88_solver_exists (N := List ℕ) (A := ℕ)
  refine ⟨solve, fun x => ?_⟩
  have hL := loans [(0, x)] (loan_dated x)
  obtain ⟨r, hr, -⟩ := C110_always_answers (m := .snowball) (rate := rateOf) (balance := owe)
    (E := { loanEnv [(0, x)] with solve := solve }) (debts := [0, 1, 2]) (leaf := loan)
    (available := [(0, x)]) (fuel := 19) (by decide)
    ⟨hL.dates, ⟨hL.asks.tx, hL.asks.limit⟩, hL.real, hL.debt, hL.owing, hL.alone⟩ h2
    (fun g f h => (h1 g f h).1) (fun l => List.Perm.refl l) zero_lt_one (by decide)
  exact ⟨r, hr⟩

end Cases

end Forecaster.DebtPayment
