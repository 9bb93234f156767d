import Verif.Lemmas.CashFlow
import Verif.Props.Timing
import Mathlib.Data.Rat.Floor
import Mathlib.Algebra.Order.Ring.Rat

/-!
# C62–C67: income, living expenses, saving, withdrawals and tax of a year

Specification vocabulary (see also `Verif/Lemmas/SubForecast.lean`): `poolTotal s p` is the net
of the transactions of pool `p`, `amount s p t` what it holds at date `t`; `due txs p` is what a
strategy's result asks to be paid into account `p` (negative: taken out).
-/

set_option linter.unusedSectionVars false

namespace Forecaster.CashFlow

open Forecaster Forecaster.Timing Forecaster.Account Forecaster.SubForecast

variable {K : Type} [Field K] [LinearOrder K] [IsStrictOrderedRing K]
variable {P : Type} [DecidableEq P]
variable (ttv : Acct K → K → K → Except PyErr (Ext K)) (default : Dict K K)

/-- Specification: everybody is paid by a proper timing. -/
def PaidProperly (people : List (Earner P K)) : Prop :=
  ∀ e ∈ people, Dict.WF e.timing ∧ Dict.total e.timing ≠ 0

theorem foldl_add {α : Type} (f : α → K) (l : List α) (a : K) :
    l.foldl (fun a e => a + f e) a = a + (l.map f).sum := by
  induction l generalizing a with
  | nil => simp
  | cons x l ih => rw [List.foldl_cons, ih, List.map_cons, List.sum_cons]; ring

theorem netIncome_eq (people : List (Earner P K)) :
    netIncome people = (people.map Earner.net).sum := by
  unfold netIncome; rw [foldl_add]; simp

/-! ### C62: income -/

/-- C62 (income): calling the income forecast for the first time in a year always succeeds and
adds exactly everybody's net income to the available cash, at their payment dates and in the
proportions of their payment timings; it reports what was there before as the carryover, and
touches no other pool. -/
theorem C62_income {s : St P K} (hs : Good s) (hc : s.called = false) {available : P} {f : Bool}
    {d : Dict K K} (hd : s.pools available = .dict f d) (hdef : Dict.total default ≠ 0)
    (people : List (Earner P K)) (hp : PaidProperly people) :
    ∃ s', incomeCall ttv default available people s = (s', none) ∧
      poolTotal s' available = poolTotal s available + (people.map Earner.net).sum ∧
      carryover s' = .fin (poolTotal s available) ∧
      (∀ p, p ≠ available → s'.pools p = s.pools p) ∧
      ((∀ e ∈ people, 0 ≤ e.net) → ∀ t, amount s' available t = amount s available t
        + (people.map fun e => e.net * (Dict.val e.timing t / Dict.total e.timing)).sum) := by
  obtain ⟨x, hx, hxt⟩ := call_first hs hc available
  have hg := good_begin hs x
  set s0 : St P K := { s with called := true, totalAvailable := x } with hs0
  have hprop : ∀ q ∈ incomeReqs available people,
      Proper default q ∧ IsDict s0 q.src ∧ IsDict s0 q.dst := by
    have hav : IsDict s0 (some available) := fun p hp => by cases hp; exact ⟨f, d, hd⟩
    have hno : IsDict s0 (none : Option P) := fun p hp => by cases hp
    intro q hq
    rcases List.mem_cons.1 hq with rfl | hq
    · exact ⟨⟨default, rfl, hdef⟩, hno, hav⟩
    · obtain ⟨e, he, rfl⟩ := List.mem_map.1 hq
      exact ⟨⟨e.timing, rfl, (hp e he).2⟩, hno, hav⟩
  obtain ⟨s', hs'⟩ := requests_dict_ok ttv default hg hprop
  have hcall : incomeCall ttv default available people s = (s', none) := by
    unfold incomeCall callWith; rw [hx]; exact hs'
  obtain ⟨e1, -, -, e4⟩ := requests_effect ttv default (fun q hq => (hprop q hq).1) hg hs'
  refine ⟨s', hcall, ?_, ?_, fun p hpa => ?_, fun hnn t => ?_⟩
  · rw [e1 available]
    congr 1
    simp only [incomeReqs, List.map_cons, List.sum_cons, List.map_map, mul_zero, zero_add]
    congr 1
    apply List.map_congr_left
    intro e _
    simp [ind]
  · unfold carryover
    rw [e4]
    rw [hd] at hxt
    simp only [totalOf, Except.ok.injEq] at hxt
    rw [hs0, ← hxt]
    simp [poolTotal, hd, Pool.txns]
  · have := requests_frame ttv default (incomeReqs available people) s0 (p := p) (fun q hq => by
      rcases List.mem_cons.1 hq with rfl | hq
      · exact ⟨by simp, by simpa using Ne.symm hpa⟩
      · obtain ⟨e, he, rfl⟩ := List.mem_map.1 hq
        exact ⟨by simp, by simpa using Ne.symm hpa⟩)
    rw [hs'] at this
    exact this
  · obtain ⟨s1, h1, h2⟩ := forEach_cons_ok hs'
    have a1 : amount s1 available t = amount s available t := by
      obtain ⟨ws, -, b2, -⟩ := request_effect ttv default hg
        (q := { value := 0, dst := some available }) rfl hdef h1
      rw [b2]; simp [amount, hs0]
    have hg1 : Good s1 := (request_books ttv default hg h1).2
    rw [← a1]
    clear hprop hcall e1 e4 hs' h1 a1
    induction people generalizing s1 with
    | nil => cases h2; simp
    | cons e l ih =>
      obtain ⟨s2, h3, h4⟩ := forEach_cons_ok h2
      have hpe := hp e (List.mem_cons_self ..)
      have a2 := request_exact ttv default hg1
        (q := { value := e.net, timing := some (.timing e.timing), dst := some available })
        (timing := e.timing) rfl hpe.1 hpe.2 rfl (hnn e (List.mem_cons_self ..)) h3 available t
      rw [ih (fun e' he' => hp e' (List.mem_cons_of_mem _ he'))
        (fun e' he' => hnn e' (List.mem_cons_of_mem _ he')) s2 h4
        (request_books ttv default hg1 h3).2, a2]
      simp only [ind, if_true, one_mul, List.map_cons, List.sum_cons]
      ring

/-- C62 (figures): if everybody's net income is gross income less tax withheld, the same holds
for the household's figures, which are the sums over the people in any order. -/
theorem C62_figures (people others : List (Earner P K)) (hperm : people.Perm others)
    (h : ∀ e ∈ people, e.net = e.gross - e.withheld) :
    netIncome people = (people.map Earner.net).sum ∧
    netIncome people = grossIncome people - incomeTaxWithheld people ∧
    netIncome others = netIncome people ∧ grossIncome others = grossIncome people ∧
    incomeTaxWithheld others = incomeTaxWithheld people := by
  have e1 : ∀ l : List (Earner P K), grossIncome l = (l.map Earner.gross).sum := by
    intro l; unfold grossIncome; rw [foldl_add]; simp
  have e2 : ∀ l : List (Earner P K), incomeTaxWithheld l = (l.map Earner.withheld).sum := by
    intro l; unfold incomeTaxWithheld; rw [foldl_add]; simp
  refine ⟨netIncome_eq _, ?_, ?_, ?_, ?_⟩
  · rw [netIncome_eq, e1, e2]
    induction people generalizing others with
    | nil => simp
    | cons e l ih =>
      simp only [List.map_cons, List.sum_cons, h e (List.mem_cons_self ..),
        ih l (List.Perm.refl _) (fun e' he' => h e' (List.mem_cons_of_mem _ he'))]
      ring
  · rw [netIncome_eq, netIncome_eq, (hperm.map _).sum_eq]
  · rw [e1, e1, (hperm.map _).sum_eq]
  · rw [e2, e2, (hperm.map _).sum_eq]

/-! ### C63: living expenses -/

theorem sum_map_neg {α : Type} (f : α → K) (l : List α) :
    (l.map fun e => -(f e)).sum = -(l.map f).sum := by
  induction l with
  | nil => simp
  | cons e l ih => rw [List.map_cons, List.sum_cons, ih, List.map_cons, List.sum_cons]; ring

/-- C63 (living expenses): if the household has some income, calling the living expenses
forecast succeeds and takes exactly the year's living expenses out of the available cash, and
nothing else. -/
theorem C63_living_expenses {s : St P K} (hs : Good s) (hc : s.called = false) {available : P}
    {f : Bool} {d : Dict K K} (hd : s.pools available = .dict f d)
    (people : List (Earner P K)) (hp : PaidProperly people)
    (hn : (people.map Earner.net).sum ≠ 0) (x : K) :
    ∃ s', livingCall ttv default available people (.ok x) s = (s', none) ∧
      poolTotal s' available = poolTotal s available - x ∧
      recTotal s' none = recTotal s none + x ∧
      (∀ p, p ≠ available → s'.pools p = s.pools p) := by
  obtain ⟨y, hx, -⟩ := call_first hs hc available
  have hg := good_begin hs y
  set s0 : St P K := { s with called := true, totalAvailable := y } with hs0
  have hn' : netIncome people ≠ 0 := by rwa [netIncome_eq]
  let r : Earner P K → Req P K := fun e =>
    { value := x * (e.net / netIncome people), timing := some (.timing e.timing),
      src := some available }
  have hl : livingReqs available people (.ok x) = .ok (people.map r) := by
    unfold livingReqs
    cases people with
    | nil => simp at hn
    | cons e l => simp only [hn', if_false, ok_bind]; rfl
  have hprop : ∀ q ∈ people.map r, Proper default q ∧ IsDict s0 q.src ∧ IsDict s0 q.dst := by
    intro q hq
    obtain ⟨e, he, rfl⟩ := List.mem_map.1 hq
    exact ⟨⟨e.timing, rfl, (hp e he).2⟩, fun p hp => by cases hp; exact ⟨f, d, hd⟩,
      fun p hp => by cases hp⟩
  obtain ⟨s', hs'⟩ := requests_dict_ok ttv default hg hprop
  obtain ⟨e1, e2, -, -⟩ := requests_effect ttv default (fun q hq => (hprop q hq).1) hg hs'
  have hsum : (people.map fun e => x * (e.net / netIncome people)).sum = x := by
    have : ∀ l : List (Earner P K), (l.map fun e => x * (e.net / netIncome people)).sum
        = x * ((l.map Earner.net).sum / netIncome people) := by
      intro l
      induction l with
      | nil => simp
      | cons e l ih => simp only [List.map_cons, List.sum_cons, ih]; ring
    rw [this, ← netIncome_eq, div_self hn', mul_one]
  refine ⟨s', ?_, ?_, ?_, fun p hpa => ?_⟩
  · unfold livingCall; rw [hx]; simp only [hl]; exact hs'
  · rw [e1 available, List.map_map]
    have : ((fun q : Req P K => ((ind q.dst available : K) - ind q.src available) * q.value) ∘ r)
        = fun e => -(x * (e.net / netIncome people)) := by
      funext e; simp [ind, r]
    rw [this, sum_map_neg, hsum]
    simp [poolTotal, hs0, sub_eq_add_neg]
  · rw [e2 none, List.map_map]
    have : ((fun q : Req P K => (if q.dst = none then q.value else 0)
          - if q.src = none then q.value else 0) ∘ r)
        = fun e => x * (e.net / netIncome people) := by
      funext e; simp [r]
    rw [this, hsum]
    simp [recTotal, hs0]
  · have := requests_frame ttv default (people.map r) s0 (p := p) (fun q hq => by
      obtain ⟨e, he, rfl⟩ := List.mem_map.1 hq
      exact ⟨by simpa [r] using Ne.symm hpa, by simp [r]⟩)
    rw [hs'] at this
    exact this

/-- C63 (shares): the living expenses asked for are divided among the people in proportion to
their net incomes, at their payment dates. -/
theorem C63_shares (available : P) (people : List (Earner P K))
    (hn : (people.map Earner.net).sum ≠ 0) (x : K) :
    ∃ reqs : List (Req P K), livingReqs available people (.ok x) = .ok reqs ∧
      (reqs.map Req.value).sum = x ∧
      reqs.length = people.length ∧
      ∀ (i : ℕ) (e : Earner P K), people[i]? = some e → ∃ q : Req P K, reqs[i]? = some q ∧
        q.value * (people.map Earner.net).sum = x * e.net ∧ q.src = some available ∧
        q.dst = none ∧ q.timing = some (.timing e.timing) := by
  have hn' : netIncome people ≠ 0 := by rwa [netIncome_eq]
  let r : Earner P K → Req P K := fun e =>
    { value := x * (e.net / netIncome people), timing := some (.timing e.timing),
      src := some available }
  refine ⟨people.map r, ?_, ?_, by simp, fun i e he => ⟨r e, by simp [he], ?_, rfl, rfl, rfl⟩⟩
  · unfold livingReqs
    cases people with
    | nil => simp at hn
    | cons e l => simp only [hn', if_false, ok_bind]; rfl
  · rw [List.map_map]
    have : ∀ l : List (Earner P K), (l.map (Req.value ∘ r)).sum
        = x * ((l.map Earner.net).sum / netIncome people) := by
      intro l
      induction l with
      | nil => simp
      | cons e l ih => simp only [List.map_cons, List.sum_cons, ih, r, Function.comp]; ring
    rw [this, ← netIncome_eq, div_self hn', mul_one]
  · simp only [r]
    rw [netIncome_eq]
    field_simp

/-- C63 (no income): a household with no net income (for instance, everybody retired) cannot
be charged living expenses: `ZeroDivisionError`, whatever the expenses; no pool is changed. With
nobody at all, nothing happens. -/
theorem C63_no_income {s : St P K} (hs : Good s) (hc : s.called = false) (available : P)
    (expenses : Except PyErr K) :
    (∀ people : List (Earner P K), people ≠ [] → (people.map Earner.net).sum = 0 →
      ∃ s', livingCall ttv default available people expenses s = (s', some .zeroDivisionError) ∧
        s'.pools = s.pools) ∧
    ∃ s', livingCall ttv default available [] expenses s = (s', none) ∧ s'.pools = s.pools := by
  obtain ⟨y, hx, -⟩ := call_first hs hc available
  constructor
  · intro people hne h0
    refine ⟨{ s with called := true, totalAvailable := y }, ?_, rfl⟩
    have hl : livingReqs available people expenses = .error .zeroDivisionError := by
      unfold livingReqs
      cases people with
      | nil => exact absurd rfl hne
      | cons e l => rw [netIncome_eq]; simp only [h0, if_true]
    unfold livingCall
    rw [hx]
    simp only [hl]
  · exact ⟨{ s with called := true, totalAvailable := y }, by
      unfold livingCall; rw [hx]; rfl, rfl⟩

/-- C63 (retirement year): the year given to the strategy is the earliest retirement year; it
is refused if somebody has no retirement date, or if there is nobody. -/
theorem C63_first_retirement (years : List (Option ℤ)) (y : ℤ) :
    (firstRetirement years = .ok y ↔
      some y ∈ years ∧ ∀ o ∈ years, ∃ z, o = some z ∧ y ≤ z) ∧
    (none ∈ years → firstRetirement years = .error .attributeError) ∧
    firstRetirement [] = .error .valueError := by
  have hM : ∀ ys : List ℤ, (ys.map some).mapM yearOf = .ok ys := by
    intro ys
    induction ys with
    | nil => rfl
    | cons z ys ih => simp [List.mapM_cons, ih, yearOf]
  have hN : ∀ l : List (Option ℤ), none ∈ l →
      l.mapM yearOf = .error .attributeError := by
    intro l
    induction l with
    | nil => simp
    | cons o l ih =>
      intro h
      cases o with
      | none => simp [List.mapM_cons, yearOf]
      | some z =>
        have := ih (by simpa using h)
        simp [List.mapM_cons, this, yearOf]
  have hS : ∀ l : List (Option ℤ), none ∉ l → ∃ ys : List ℤ, l = ys.map some := by
    intro l
    induction l with
    | nil => exact fun _ => ⟨[], rfl⟩
    | cons o l ih =>
      intro h
      simp only [List.mem_cons, not_or] at h
      obtain ⟨ys, rfl⟩ := ih h.2
      cases o with
      | none => exact absurd rfl h.1
      | some z => exact ⟨z :: ys, rfl⟩
  refine ⟨?_, fun h => ?_, rfl⟩
  · by_cases h : none ∈ years
    · unfold firstRetirement
      rw [hN _ h]
      constructor
      · intro h; cases h
      · rintro ⟨-, h2⟩
        obtain ⟨z, hz, -⟩ := h2 _ h
        cases hz
    · obtain ⟨ys, rfl⟩ := hS years h
      unfold firstRetirement
      rw [hM, ok_bind]
      have hmin : ∀ z, ys.min? = some z ↔ z ∈ ys ∧ ∀ w ∈ ys, z ≤ w := by
        intro z
        rw [List.min?_eq_some_iff]
      constructor
      · intro h
        cases hm : ys.min? with
        | none => simp only [hm] at h; cases h
        | some z =>
          simp only [hm, Except.ok.injEq] at h
          subst h
          obtain ⟨a, b⟩ := (hmin z).1 hm
          refine ⟨List.mem_map_of_mem a, fun o ho => ?_⟩
          obtain ⟨w, hw, rfl⟩ := List.mem_map.1 ho
          exact ⟨w, rfl, b w hw⟩
      · rintro ⟨a, b⟩
        have : ys.min? = some y := (hmin y).2 ⟨by simpa using a, fun w hw => by
          obtain ⟨z, hz, hle⟩ := b (some w) (List.mem_map_of_mem hw)
          cases hz; exact hle⟩
        simp only [this]
  · unfold firstRetirement
    rw [hN _ h]; rfl

/-! ### C64: saving -/

/-- The effect of the loop over the accounts. -/
theorem moveAll_effect {txs : Dict P (Dict K K)} (hwf : Dict.WF txs) {available : P}
    (ha : available ∉ Dict.keys txs) {s s' : St P K} (hs : Good s)
    (h : moveAll ttv default available s txs = (s', none)) :
    (∀ p, p ≠ available → poolTotal s' p = poolTotal s p + due txs p) ∧
    poolTotal s' available = poolTotal s available - (txs.map fun e => Dict.total e.2).sum ∧
    (∀ p, p ≠ available → p ∉ Dict.keys txs → s'.pools p = s.pools p) ∧
    Good s' ∧ s'.totalAvailable = s.totalAvailable := by
  unfold moveAll at h
  induction txs generalizing s with
  | nil =>
    cases h
    exact ⟨fun p _ => by rw [due_nil, add_zero], by simp, fun _ _ _ => rfl, hs, rfl⟩
  | cons e l ih =>
    obtain ⟨s1, h1, h2⟩ := forEach_cons_ok h
    rw [Dict.wf_cons] at hwf
    rw [Dict.keys_cons, List.mem_cons, not_or] at ha
    obtain ⟨a1, a2, a3, -⟩ := series_effect ttv default hs h1
    obtain ⟨i1, i2, i3, i4, i5⟩ := ih hwf.2 ha.2 a2 h2
    refine ⟨fun p hp => ?_, ?_, fun p hp hk => ?_, i4, by rw [i5, a3]⟩
    · rw [i1 p hp, a1, due_cons]
      by_cases he : e.1 = p
      · subst he
        rw [due_not_mem hwf.1]
        simp [ind, Ne.symm hp]
      · simp [ind, Ne.symm hp, he]
    · rw [i2, a1]
      simp [ind, Ne.symm ha.1]
      ring
    · rw [Dict.keys_cons, List.mem_cons, not_or] at hk
      rw [i3 p hp hk.2]
      have := series_frame ttv default e.2 (src := some available) (dst := some e.1) false s (p := p)
        (by simpa using Ne.symm hp) (by simpa using Ne.symm hk.1)
      rw [h1] at this
      exact this

/-- C64 (saving): when the saving forecast succeeds, every account has received exactly what
the strategy allotted to it, every account it does not mention is untouched, and the available
cash has gone down by exactly the reported total. -/
theorem C64_saving {f f' : Alloc P K} (hs : Good f.s) (hc : f.s.called = false) {available : P}
    {strategy : (P → Pool K) → Except PyErr (Dict P (Dict K K))} {txs : Dict P (Dict K K)}
    (hst : strategy f.s.pools = .ok txs) (hwf : Dict.WF txs) (ha : available ∉ Dict.keys txs)
    (h : savingCall ttv default available strategy f = (f', none)) :
    f'.txs = txs ∧
    (∀ p, p ≠ available → poolTotal f'.s p = poolTotal f.s p + due txs p) ∧
    poolTotal f'.s available = poolTotal f.s available - savingTotal f' ∧
    savingTotal f' = ((Dict.keys txs).map (due txs)).sum ∧
    (∀ p, p ≠ available → p ∉ Dict.keys txs → f'.s.pools p = f.s.pools p) := by
  obtain ⟨y, hx, -⟩ := call_first hs hc available
  unfold savingCall at h
  rw [hx] at h
  simp only [hst, Prod.mk.injEq] at h
  obtain ⟨h1, h2⟩ := h
  have hm : moveAll ttv default available { f.s with called := true, totalAvailable := y } txs
      = (f'.s, none) := by
    rw [← h1, ← h2]
  have ht : f'.txs = txs := by rw [← h1]
  obtain ⟨e1, e2, e3, -, -⟩ := moveAll_effect ttv default hwf ha (good_begin hs y) hm
  have e4 : savingTotal f' = ((Dict.keys txs).map (due txs)).sum := by
    unfold savingTotal; rw [ht, sumOver_eq]
  exact ⟨ht, e1, by rw [e2, e4, sum_due_keys hwf]; rfl, e4, e3⟩

/-- C64 (figures): the retirement savings are what the retirement accounts received; if the
strategy pays only into retirement accounts and debts, and no account is both, the total is the
retirement savings plus what the debts received. -/
theorem C64_figures (f : Alloc P K) (hwf : Dict.WF f.txs) (retirement debts : List P)
    (hn : (retirement ++ debts).Nodup)
    (hk : ∀ p ∈ Dict.keys f.txs, p ∈ retirement ∨ p ∈ debts) :
    retirementSavings f retirement debts = (retirement.map (due f.txs)).sum ∧
    savingTotal f = retirementSavings f retirement debts + (debts.map (due f.txs)).sum := by
  refine ⟨sumOver_eq _ _, ?_⟩
  unfold savingTotal retirementSavings
  rw [sumOver_eq, sumOver_eq, ← List.sum_append, ← List.map_append]
  have hnk : (Dict.keys f.txs).Nodup := hwf
  have hz : ((retirement ++ debts).map (due f.txs)).sum
      = (((retirement ++ debts).filter fun p => decide (p ∈ Dict.keys f.txs)).map (due f.txs)).sum := by
    generalize retirement ++ debts = l
    induction l with
    | nil => rfl
    | cons p l ih =>
      rw [List.map_cons, List.sum_cons, List.filter_cons]
      split_ifs with h
      · rw [List.map_cons, List.sum_cons, ih]
      · rw [ih, due_not_mem (by simpa using h), zero_add]
  rw [hz]
  refine List.Perm.sum_eq (List.Perm.map _ ?_)
  refine (List.perm_ext_iff_of_nodup hnk (hn.filter _)).2 fun p => ?_
  simp only [List.mem_filter, List.mem_append, decide_eq_true_eq]
  exact ⟨fun h => ⟨hk p h, h⟩, fun h => h.2⟩

/-- C64 (debts, refuted): the reported debt repayment is not what the debts received: it is the
retirement savings. -/
theorem C64_debt_repayment_refuted :
    (∀ (f : Alloc P K) (r d : List P), debtRepayment f r d = retirementSavings f r d) ∧
    ∃ (f : Alloc Bool ℚ), debtRepayment f [false] [true] = 0 ∧ due f.txs true = 30 :=
  ⟨fun _ _ _ => rfl,
    ⟨fresh fun _ => .dict true [], [(true, [(1 / 2, 30)])], 0⟩, by decide +kernel, by decide +kernel⟩

/-! #### The calls succeed -/

theorem keys_poolAdd_dict {f : Bool} {d : Dict K K} {w x : K} :
    ∃ d', poolAdd (.dict f d) w x = .ok (.dict f d') ∧
      ∀ t, t ∈ Dict.keys d' ↔ t = w ∨ t ∈ Dict.keys d := by
  unfold poolAdd
  simp only
  cases Dict.get? d w with
  | none => exact ⟨_, rfl, fun t => Dict.mem_keys_set⟩
  | some y => exact ⟨_, rfl, fun t => Dict.mem_keys_set⟩

theorem poolAdd_ok (q : Pool K) {w : K} (h0 : 0 ≤ w) (h1 : w ≤ 1) (x : K) :
    ∃ q', poolAdd q w x = .ok q' := by
  cases q with
  | dict f d => exact ⟨_, keys_poolAdd_dict.choose_spec.1⟩
  | acct L a =>
    obtain ⟨a', ha⟩ := setItem_ok a h0 h1
      (if decide (w ∈ Dict.keys a.txns) then Dict.val a.txns w + x else x)
    refine ⟨.acct L a', ?_⟩
    simp only [poolAdd, contains, whenConv_ok h0 h1, ok_bind, ha]

/-- The cash is a dict all of whose dates are at most 1. -/
def InYear (s : St P K) (p : P) : Prop :=
  ∃ f d, s.pools p = .dict f d ∧ ∀ t ∈ Dict.keys d, t ≤ 1

theorem shift_in_year {d : Dict K K} (hd : Dict.WF d) (h1 : ∀ t ∈ Dict.keys d, t ≤ 1) {value when : K}
    (hw : when ≤ 1) : earliest (accumDict d when) value when ≤ 1 := by
  obtain ⟨-, a2, a3⟩ := earliest_dict hd value when
  by_cases h : ∃ s, when ≤ s ∧ ∀ r, s ≤ r → value ≤ Dict.cum d r
  · refine (a2 h).2 1 hw fun r hr => ?_
    obtain ⟨s, hs, hv⟩ := h
    have := hv (max s r) (le_max_left _ _)
    rw [Dict.cum_eq_total fun k hk => (h1 k hk).trans (hr.trans (le_max_right _ _))] at this
    rwa [Dict.cum_eq_total fun k hk => (h1 k hk).trans hr]
  · rw [a3 h]; exact hw

theorem pay1_ok {s : St P K} (hs : Good s) {available p : P} (hp : p ≠ available)
    (ha : InYear s available) {v w : K} (h0 : 0 ≤ w) (h1 : w ≤ 1) :
    ∃ s', addTransaction1 ttv s v w (some available) (some p) false = (s', none) ∧
      Good s' ∧ InYear s' available := by
  obtain ⟨f, d, hd, hk⟩ := ha
  have hwf : Dict.WF d := by have := hs.pools available; rw [hd] at this; exact this
  set w' := earliest (accumDict d w) v w with hw'
  have hle : w' ≤ 1 := shift_in_year hwf hk h1
  have hge : w ≤ w' := (earliest_dict hwf v w).1
  have hdate : dateFor ttv s v w (some available) false = .ok w' := by
    simp [dateFor, hd, shiftWhen, hw']
  obtain ⟨d', e1, e2⟩ := keys_poolAdd_dict (f := f) (d := d) (w := w') (x := -v)
  have l1 : leg s (some available) w' (-v)
      = .ok { setPool s available (.dict f d') with record := recAdd s.record (some available) w' (-v) } := by
    simp [leg, hd, e1]
  set s1 : St P K :=
    { setPool s available (.dict f d') with record := recAdd s.record (some available) w' (-v) } with hs1
  obtain ⟨q', e3⟩ := poolAdd_ok (s1.pools p) (h0.trans hge) hle v
  have l2 : leg s1 (some p) w' v
      = .ok { setPool s1 p q' with record := recAdd s1.record (some p) w' v } := by
    simp [leg, e3]
  have hadd : addTransaction1 ttv s v w (some available) (some p) false
      = ({ setPool s1 p q' with record := recAdd s1.record (some p) w' v }, none) := by
    simp only [addTransaction1, hdate, l1, l2]
  refine ⟨_, hadd, (leg_effect (leg_effect hs l1).good l2).good, f, d', ?_, fun t ht => ?_⟩
  · simp [setPool, Ne.symm hp, hs1]
  · rcases (e2 t).1 ht with rfl | h
    · exact hle
    · exact hk t h

theorem pay_ok {s : St P K} (hs : Good s) {available p : P} (hp : p ≠ available)
    (ha : InYear s available) {v w : K} (hv : 0 ≤ v) (h0 : 0 ≤ w) (h1 : w ≤ 1) :
    ∃ s', SubForecast.addTransaction ttv default s
        { value := v, timing := some (.scalar (.num w)), src := some available, dst := some p }
          = (s', none) ∧ Good s' ∧ InYear s' available := by
  obtain ⟨s', e1, e2⟩ := pay1_ok ttv hs hp ha (v := v * (1 / 1)) h0 h1
  refine ⟨s', ?_, e2⟩
  unfold SubForecast.addTransaction
  rw [resolve_scalar default h0 h1]
  simp only [orient, if_neg (not_lt.2 hv), Dict.total_cons, Dict.total_nil, add_zero, one_ne_zero,
    if_false, forEach, e1]

theorem payAll_ok {txs : Dict K K} (hv : ∀ e ∈ txs, 0 ≤ e.2 ∧ 0 ≤ e.1 ∧ e.1 ≤ 1) {s : St P K}
    (hs : Good s) {available p : P} (hp : p ≠ available) (ha : InYear s available) :
    ∃ s', SubForecast.addTransactions ttv default s txs (some available) (some p) false
      = (s', none) ∧ Good s' ∧ InYear s' available := by
  unfold SubForecast.addTransactions
  induction txs generalizing s with
  | nil => exact ⟨s, rfl, hs, ha⟩
  | cons e l ih =>
    obtain ⟨b1, b2, b3⟩ := hv e (List.mem_cons_self ..)
    obtain ⟨s1, e1, e2, e3⟩ := pay_ok ttv default hs hp ha b1 b2 b3
    obtain ⟨s', i1, i2⟩ := ih (fun e he => hv e (List.mem_cons_of_mem _ he)) e2 e3
    exact ⟨s', by simp only [forEach, e1, i1], i2⟩

/-- C64 (saving succeeds): if the cash is a dict whose dates are in the year, and the strategy
allots non-negative amounts at dates in the year to accounts, the saving forecast succeeds. -/
theorem C64_saving_succeeds {f : Alloc P K} (hs : Good f.s) (hc : f.s.called = false)
    {available : P} (hav : InYear f.s available)
    {strategy : (P → Pool K) → Except PyErr (Dict P (Dict K K))} {txs : Dict P (Dict K K)}
    (hst : strategy f.s.pools = .ok txs) (ha : available ∉ Dict.keys txs)
    (hv : ∀ e ∈ txs, ∀ tv ∈ e.2, 0 ≤ tv.2 ∧ 0 ≤ tv.1 ∧ tv.1 ≤ 1) :
    ∃ f', savingCall ttv default available strategy f = (f', none) := by
  obtain ⟨y, hx, -⟩ := call_first hs hc available
  have key : ∀ (l : Dict P (Dict K K)), available ∉ Dict.keys l →
      (∀ e ∈ l, ∀ tv ∈ e.2, 0 ≤ tv.2 ∧ 0 ≤ tv.1 ∧ tv.1 ≤ 1) → ∀ (s : St P K), Good s →
      InYear s available → ∃ s', moveAll ttv default available s l = (s', none) := by
    intro l
    unfold moveAll
    induction l with
    | nil => exact fun _ _ s _ _ => ⟨s, rfl⟩
    | cons e l ih =>
      intro h1 h2 s g1 g2
      rw [Dict.keys_cons, List.mem_cons, not_or] at h1
      obtain ⟨s1, e1, e2, e3⟩ := payAll_ok ttv default (h2 e (List.mem_cons_self ..)) g1
        (Ne.symm h1.1) g2
      obtain ⟨s', i1⟩ := ih h1.2 (fun e he => h2 e (List.mem_cons_of_mem _ he)) s1 e2 e3
      exact ⟨s', by simp only [forEach, e1, i1]⟩
  obtain ⟨s', h'⟩ := key txs ha hv { f.s with called := true, totalAvailable := y }
    (good_begin hs y) hav
  refine ⟨{ f with s := s', txs }, ?_⟩
  unfold savingCall
  rw [hx]
  simp only [hst, h']

/-! ### C65: withdrawals -/

/-- A schedule that can be rescaled: it is not a round trip. -/
def Rescalable (d : Dict K K) : Prop := Dict.WF d ∧ (Mixed d → Dict.total d ≠ 0)

theorem rescale_total {d r : Dict K K} (hd : Rescalable d) (hne : d ≠ []) {x : K}
    (h : transactionsFromArg (.dict d) x = .ok r) : Dict.total r = x := by
  obtain ⟨t, h1, h2⟩ := C05_weights_pos d hd.1 hne hd.2 (.num 1)
  obtain ⟨t', h1', hwf, -⟩ := C02_timing_of_dict d hd.1 (.num 1)
  rw [h1] at h1'; cases h1'
  unfold transactionsFromArg at h
  rw [h1, ok_bind] at h
  obtain ⟨r', -, e2, -, e4, -⟩ := C05_split_conserves t hwf (ne_of_gt h2) x
  rw [e2] at h; cases h
  exact e4

theorem updateTax_effect {available : P} {tax : P → Pool K → Except PyErr K} {f f' : Alloc P K}
    {p : P} {d : Dict K K} {old : K} (hs : Good f.s) (hd : Rescalable d)
    (hne : d = [] → tax p (f.s.pools p) = .ok old)
    (h : updateTaxWithheld ttv default available tax f p d old = (f', none)) :
    ∃ x, tax p (f.s.pools p) = .ok x ∧ f'.withheld = f.withheld + (x - old) ∧
      poolTotal f'.s available = poolTotal f.s available + (x - old) ∧
      (∀ q, q ≠ available → f'.s.pools q = f.s.pools q) ∧ Good f'.s ∧
      f'.s.totalAvailable = f.s.totalAvailable ∧ f'.txs = f.txs := by
  unfold updateTaxWithheld at h
  cases hx : tax p (f.s.pools p) with
  | error e => simp only [hx] at h; simp at h
  | ok x =>
    simp only [hx] at h
    refine ⟨x, rfl, ?_⟩
    by_cases he : x = old
    · rw [if_pos he] at h
      cases h
      simp [he, hs]
    · rw [if_neg he] at h
      have hd0 : d ≠ [] := by
        intro h0
        have := hne h0
        rw [hx] at this
        cases this
        exact he rfl
      cases ht : transactionsFromArg (.dict d) (x - old) with
      | error e => simp only [ht] at h; simp at h
      | ok t =>
        simp only [ht] at h
        have htot := rescale_total hd hd0 ht
        cases hm : SubForecast.addTransactions ttv default f.s t none (some available) false with
        | mk s' oe =>
          cases oe with
          | some e => simp only [hm] at h; simp at h
          | none =>
            simp only [hm] at h
            cases h
            obtain ⟨a1, a2, a3, -⟩ := series_effect ttv default hs hm
            refine ⟨rfl, ?_, fun q hq => ?_, a2, a3, rfl⟩
            · simp only [a1, htot, ind]; simp
            · have := series_frame ttv default t (src := none) (dst := some available) false f.s
                (p := q) (by simp) (by simpa using Ne.symm hq)
              rw [hm] at this; exact this

/-- Specification: the tax withheld by account `p` in the given state. -/
def taxAt (tax : P → Pool K → Except PyErr K) (s : St P K) (p : P) : K :=
  match tax p (s.pools p) with
  | .ok x => x
  | .error _ => 0

theorem withdrawAll_effect {available : P} {tax : P → Pool K → Except PyErr K} {old : Dict P K}
    {l : Dict P (Dict K K)} (hwf : Dict.WF l) (ha : available ∉ Dict.keys l)
    (hd : ∀ e ∈ l, Rescalable e.2) {f f' : Alloc P K} (hs : Good f.s)
    (ho : ∀ p ∈ Dict.keys l, ∀ o, Dict.get? old p = some o → tax p (f.s.pools p) = .ok o)
    (h : withdrawAll ttv default available tax old f l = (f', none)) :
    (∀ p, p ≠ available → poolTotal f'.s p = poolTotal f.s p + due l p) ∧
    poolTotal f'.s available = poolTotal f.s available - (l.map fun e => Dict.total e.2).sum
      + (f'.withheld - f.withheld) ∧
    f'.withheld - f.withheld = ((Dict.keys l).map fun p => taxAt tax f'.s p - taxAt tax f.s p).sum ∧
    (∀ p, p ≠ available → p ∉ Dict.keys l → f'.s.pools p = f.s.pools p) ∧
    (∀ p ∈ Dict.keys l, p ∈ Dict.keys old ∧ tax p (f'.s.pools p) = .ok (taxAt tax f'.s p)) ∧
    Good f'.s ∧ f'.s.totalAvailable = f.s.totalAvailable ∧ f'.txs = f.txs := by
  induction l generalizing f with
  | nil =>
    unfold withdrawAll at h
    cases h
    exact ⟨fun p _ => by rw [due_nil, add_zero], by simp, by simp, fun _ _ _ => rfl, by simp, hs,
      rfl, rfl⟩
  | cons e l ih =>
    unfold withdrawAll at h
    rw [Dict.wf_cons] at hwf
    rw [Dict.keys_cons, List.mem_cons, not_or] at ha
    cases hm : SubForecast.addTransactions ttv default f.s e.2 (some available) (some e.1) false with
    | mk s1 oe =>
      cases oe with
      | some er => simp only [hm] at h; simp at h
      | none =>
        simp only [hm] at h
        cases hg : Dict.get? old e.1 with
        | none => simp only [hg] at h; simp at h
        | some o =>
          simp only [hg] at h
          cases hu : updateTaxWithheld ttv default available tax { f with s := s1 } e.1 e.2 o with
          | mk f1 oe =>
            cases oe with
            | some er => simp only [hu] at h; simp at h
            | none =>
              simp only [hu] at h
              obtain ⟨a1, a2, a3, -⟩ := series_effect ttv default hs hm
              have fr : ∀ q, q ≠ available → q ≠ e.1 → s1.pools q = f.s.pools q := by
                intro q h1 h2
                have := series_frame ttv default e.2 (src := some available) (dst := some e.1)
                  false f.s (p := q) (by simpa using Ne.symm h1) (by simpa using Ne.symm h2)
                rw [hm] at this; exact this
              have ho1 := ho e.1 (by simp) o hg
              obtain ⟨x, b1, b2, b3, b4, b5, b6, b7⟩ := updateTax_effect ttv default
                (f := { f with s := s1 }) a2 (hd e (List.mem_cons_self ..)) (fun h0 => by
                  rw [h0] at hm
                  unfold SubForecast.addTransactions forEach at hm
                  cases hm
                  exact ho1) hu
              obtain ⟨i1, i2, i3, i4, i5, i6, i7, i8⟩ := ih hwf.2 ha.2
                (fun e he => hd e (List.mem_cons_of_mem _ he)) b5 (fun p hp o' ho' => by
                  have h1 : p ≠ available := by rintro rfl; exact ha.2 hp
                  have h2 : p ≠ e.1 := by rintro rfl; exact hwf.1 hp
                  rw [b4 p h1, fr p h1 h2]
                  exact ho p (by simp [hp]) o' ho') h
              have hea : e.1 ≠ available := Ne.symm ha.1
              have hpe : f'.s.pools e.1 = s1.pools e.1 := by
                rw [i4 e.1 hea hwf.1]; exact b4 e.1 hea
              have hxe : tax e.1 (f'.s.pools e.1) = .ok x := by rw [hpe]; exact b1
              have hte : taxAt tax f'.s e.1 = x := by unfold taxAt; rw [hxe]
              have hto : taxAt tax f.s e.1 = o := by unfold taxAt; rw [ho1]
              refine ⟨fun p hp => ?_, ?_, ?_, fun p hp hk => ?_, fun p hp => ?_, i6,
                by rw [i7]; exact b6.trans a3, by rw [i8, b7]⟩
              · rw [i1 p hp, due_cons]
                have : poolTotal f1.s p = poolTotal s1 p := by
                  unfold poolTotal; rw [b4 p hp]
                rw [this, a1]
                by_cases he : e.1 = p
                · subst he
                  rw [due_not_mem hwf.1]
                  simp [ind, Ne.symm hp]
                · simp [ind, Ne.symm hp, he]
              · rw [i2, b3, b2]
                simp only [a1, ind, List.map_cons, List.sum_cons]
                simp [hea]
                ring
              · rw [Dict.keys_cons, List.map_cons, List.sum_cons, hte, hto]
                have hrest : ((Dict.keys l).map fun p => taxAt tax f'.s p - taxAt tax f.s p).sum
                    = f'.withheld - f1.withheld := by
                  rw [i3]
                  congr 1
                  apply List.map_congr_left
                  intro p hp
                  have h1 : p ≠ available := by rintro rfl; exact ha.2 hp
                  have h2 : p ≠ e.1 := by rintro rfl; exact hwf.1 hp
                  have : f1.s.pools p = f.s.pools p := by rw [b4 p h1]; exact fr p h1 h2
                  simp only [taxAt, this]
                rw [hrest, b2]
                ring
              · rw [Dict.keys_cons, List.mem_cons, not_or] at hk
                rw [i4 p hp hk.2, b4 p hp]
                exact fr p hp hk.1
              · rw [Dict.keys_cons, List.mem_cons] at hp
                rcases hp with rfl | hp
                · refine ⟨?_, by rw [hxe, hte]⟩
                  rw [← Dict.get?_isSome, hg]; rfl
                · exact i5 p hp

theorem taxSnapshot_spec {tax : P → Pool K → Except PyErr K} {pools : P → Pool K}
    {accounts : List P} {old : Dict P K} (h : taxSnapshot tax pools accounts = .ok old) :
    ∀ p, (p ∈ Dict.keys old ↔ p ∈ accounts) ∧
      ∀ o, Dict.get? old p = some o → tax p (pools p) = .ok o := by
  have key : ∀ (l : List P) (d d' : Dict P K),
      l.foldlM (fun d p => do
        let x ← tax p (pools p)
        .ok (Dict.set d p x)) d = .ok d' →
      (∀ p o, Dict.get? d p = some o → tax p (pools p) = .ok o) →
      ∀ p, (p ∈ Dict.keys d' ↔ p ∈ Dict.keys d ∨ p ∈ l) ∧
        ∀ o, Dict.get? d' p = some o → tax p (pools p) = .ok o := by
    intro l
    induction l with
    | nil => intro d d' h hd p; cases h; exact ⟨by simp, hd p⟩
    | cons a l ih =>
      intro d d' h hd p
      rw [List.foldlM_cons] at h
      cases hx : tax a (pools a) with
      | error e => simp [hx] at h
      | ok x =>
        simp only [hx, ok_bind] at h
        obtain ⟨k1, k2⟩ := ih _ _ h (fun q o hq => by
          rw [Dict.get?_set] at hq
          split_ifs at hq with he
          · cases hq; subst he; exact hx
          · exact hd q o hq) p
        refine ⟨?_, k2⟩
        rw [k1, Dict.mem_keys_set, List.mem_cons]
        tauto
  intro p
  have := key accounts [] old h (by simp) p
  simpa using this

/-- C65 (withdrawals): when the withdrawal forecast succeeds, every account has changed by
exactly what the strategy asked (negative for a withdrawal), an account it does not mention is
untouched, and every account in the plan is one of the forecast's; the cash has gone up by what
was withdrawn, *plus* the change of the tax withheld, which is the change of the accounts'
`tax_withheld`. -/
theorem C65_withdrawal {f f' : Alloc P K} (hs : Good f.s) (hc : f.s.called = false)
    {available : P} {strategy : (P → Pool K) → Except PyErr (Dict P (Dict K K))}
    {tax : P → Pool K → Except PyErr K} {accounts : List P} {txs : Dict P (Dict K K)}
    (hst : strategy f.s.pools = .ok txs) (hwf : Dict.WF txs) (ha : available ∉ Dict.keys txs)
    (hd : ∀ e ∈ txs, Rescalable e.2)
    (h : withdrawalCall ttv default available strategy tax accounts f = (f', none)) :
    f'.txs = txs ∧ (∀ p ∈ Dict.keys txs, p ∈ accounts) ∧
    (∀ p, p ≠ available → poolTotal f'.s p = poolTotal f.s p + due txs p) ∧
    (∀ p, p ≠ available → p ∉ Dict.keys txs → f'.s.pools p = f.s.pools p) ∧
    f'.withheld = f.withheld
      + ((Dict.keys txs).map fun p => taxAt tax f'.s p - taxAt tax f.s p).sum ∧
    poolTotal f'.s available = poolTotal f.s available - ((Dict.keys txs).map (due txs)).sum
      + (f'.withheld - f.withheld) ∧
    (∀ p ∈ Dict.keys txs, tax p (f'.s.pools p) = .ok (taxAt tax f'.s p) ∧
      tax p (f.s.pools p) = .ok (taxAt tax f.s p)) := by
  obtain ⟨y, hx, -⟩ := call_first hs hc available
  unfold withdrawalCall at h
  rw [hx] at h
  simp only [hst, hc, Bool.false_eq_true, if_false] at h
  cases hsn : taxSnapshot tax f.s.pools accounts with
  | error e => simp only [hsn] at h; simp at h
  | ok old =>
    simp only [hsn] at h
    have hsp := taxSnapshot_spec hsn
    obtain ⟨e1, e2, e3, e4, e5, -, -, e8⟩ := withdrawAll_effect ttv default
      (f := { s := { f.s with called := true, totalAvailable := y }, txs, withheld := f.withheld })
      hwf ha hd (good_begin hs y) (fun p _ o ho => (hsp p).2 o ho) h
    refine ⟨e8, fun p hp => (hsp p).1.1 (e5 p hp).1, e1, e4, ?_, ?_, fun p hp => ⟨(e5 p hp).2, ?_⟩⟩
    · have : f'.withheld = f.withheld + (f'.withheld - f.withheld) := by ring
      rw [this, e3]; rfl
    · rw [e2, sum_due_keys hwf]; rfl
    · have := (e5 p hp).1
      rw [← Dict.get?_isSome] at this
      obtain ⟨o, ho⟩ := Option.isSome_iff_exists.1 this
      have h1 := (hsp p).2 o ho
      rw [h1]
      simp [taxAt, h1]

/-- C65 (figures): the reported gross withdrawals are the shortfall of cash found by the call
(not what was withdrawn); the net withdrawals are that plus the tax withheld. -/
theorem C65_figures {f f' : Alloc P K} (hs : Good f.s) (hc : f.s.called = false) {available : P}
    {b : Bool} {d : Dict K K} (hav : f.s.pools available = .dict b d)
    {strategy : (P → Pool K) → Except PyErr (Dict P (Dict K K))}
    {tax : P → Pool K → Except PyErr K} {accounts : List P} {txs : Dict P (Dict K K)}
    (hst : strategy f.s.pools = .ok txs) (hwf : Dict.WF txs) (ha : available ∉ Dict.keys txs)
    (hd : ∀ e ∈ txs, Rescalable e.2)
    (h : withdrawalCall ttv default available strategy tax accounts f = (f', none)) :
    grossWithdrawals f' = .fin (-poolTotal f.s available) ∧
    netWithdrawals f' = .fin (-poolTotal f.s available + f'.withheld) := by
  obtain ⟨y, hx, hy⟩ := call_first hs hc available
  rw [hav] at hy
  simp only [totalOf, Except.ok.injEq] at hy
  unfold withdrawalCall at h
  rw [hx] at h
  simp only [hst, hc, Bool.false_eq_true, if_false] at h
  cases hsn : taxSnapshot tax f.s.pools accounts with
  | error e => simp only [hsn] at h; simp at h
  | ok old =>
    simp only [hsn] at h
    obtain ⟨-, -, -, -, -, -, e7, -⟩ := withdrawAll_effect ttv default
      (f := { s := { f.s with called := true, totalAvailable := y }, txs, withheld := f.withheld })
      hwf ha hd (good_begin hs y) (fun p _ o ho => (taxSnapshot_spec hsn p).2 o ho) h
    have hg : grossWithdrawals f' = .fin (-poolTotal f.s available) := by
      unfold grossWithdrawals
      rw [e7]
      show negExt y = _
      rw [← hy]
      simp [negExt, poolTotal, hav, Pool.txns]
    exact ⟨hg, by unfold netWithdrawals; rw [hg]; rfl⟩

/-- C65 (again): calling the withdrawal forecast again in the same year is the same as undoing
its transactions, forgetting the tax withheld, and calling it. -/
theorem C65_rerun {f : Alloc P K} (hs : Good f.s) (hc : f.s.called = true) (available : P)
    (strategy : (P → Pool K) → Except PyErr (Dict P (Dict K K)))
    (tax : P → Pool K → Except PyErr K) (accounts : List P) :
    ∃ s1, undo f.s = (s1, none) ∧ Good s1 ∧ s1.called = false ∧
      (∀ p t, amount s1 p t = amount f.s p t - recorded f.s (some p) t) ∧
      withdrawalCall ttv default available strategy tax accounts f
        = withdrawalCall ttv default available strategy tax accounts
            { f with s := s1, withheld := 0 } := by
  obtain ⟨s1, u1, u2, -, u4, -, u6⟩ := undo_spec hs
  refine ⟨s1, u1, u2, u6, u4, ?_⟩
  obtain ⟨x, hx, -⟩ := call_first u2 u6 available
  have h1 : call f.s available = call s1 available := by
    rw [show call f.s available = begin s1 available by unfold call; rw [if_pos hc, u1]]
    unfold call; rw [u6]; rfl
  unfold withdrawalCall
  simp only [h1, hx, hc, u6, if_true, Bool.false_eq_true, if_false]

section C65_examples

/-- An account with 1000 that withholds a tenth of what is taken out of it, and cash. -/
def exTax : Bool → Pool ℚ → Except PyErr ℚ := fun _ q => .ok (-Dict.total q.txns / 10)

def exStrategy (x : ℚ) : (Bool → Pool ℚ) → Except PyErr (Dict Bool (Dict ℚ ℚ)) :=
  fun _ => .ok (if x = 0 then [] else [(false, [(1 / 2, -x)])])

def exAlloc : Alloc Bool ℚ := ⟨fresh exPools, [], 0⟩

/-- **C65.** A repeated call that raises before it asks the strategy: if undoing the first one
raised, the tax withheld is still the first call's; if it did not, there is none. Either way the
transactions on record are still those of the first call. -/
theorem C65_failed_rerun (f : Alloc P K) (hc : f.s.called = true) (available : P)
    (ttv : Acct K → K → K → Except PyErr (Ext K)) (default : Dict K K)
    (strategy : (P → Pool K) → Except PyErr (Dict P (Dict K K)))
    (tax : P → Pool K → Except PyErr K) (accounts : List P) :
    (∀ e s', undo f.s = (s', some e) →
      withdrawalCall ttv default available strategy tax accounts f =
        ({ s := s', txs := f.txs, withheld := f.withheld }, some e)) ∧
    (∀ s', undo f.s = (s', none) → ∀ e, totalOf (s'.pools available) = .error e →
      withdrawalCall ttv default available strategy tax accounts f =
        ({ s := { s' with called := true }, txs := f.txs, withheld := 0 }, some e)) := by
  constructor
  · intro e s' h
    simp [withdrawalCall, call, hc, h]
  · intro s' h e he
    simp [withdrawalCall, call, hc, h, begin, he]

/-- **C65.** If the strategy raises, the forecast keeps the transactions it had; if the strategy decides but
some account cannot say what tax it withholds, the forecast's transactions are those decided, although no money
has been moved: the accounts and the cash are as they were. -/
theorem C65_failed_plan (f : Alloc P K) (hc : f.s.called = false) (available : P) {x : Ext K}
    (hx : totalOf (f.s.pools available) = .ok x)
    (ttv : Acct K → K → K → Except PyErr (Ext K)) (default : Dict K K)
    (strategy : (P → Pool K) → Except PyErr (Dict P (Dict K K)))
    (tax : P → Pool K → Except PyErr K) (accounts : List P) :
    (∀ e, strategy f.s.pools = .error e → ∃ g,
      withdrawalCall ttv default available strategy tax accounts f = (g, some e) ∧
      g.txs = f.txs ∧ g.withheld = f.withheld ∧ g.s.pools = f.s.pools) ∧
    (∀ txs, strategy f.s.pools = .ok txs → ∀ p ∈ accounts, (∀ v, tax p (f.s.pools p) ≠ .ok v) → ∃ g e,
      withdrawalCall ttv default available strategy tax accounts f = (g, some e) ∧
      g.txs = txs ∧ g.withheld = f.withheld ∧ g.s.pools = f.s.pools) := by
  refine ⟨fun e h => ?_, fun txs h p hp hno => ?_⟩
  · simp [withdrawalCall, call, hc, h, begin, hx]
  · have hsn : ∃ e, taxSnapshot tax f.s.pools accounts = .error e := by
      cases hs : taxSnapshot tax f.s.pools accounts with
      | error e => exact ⟨e, rfl⟩
      | ok old =>
        have hsp := taxSnapshot_spec hs p
        obtain ⟨o, ho⟩ := Option.isSome_iff_exists.1 (Dict.get?_isSome.2 (hsp.1.2 hp))
        exact absurd (hsp.2 o ho) (hno o)
    obtain ⟨e, he⟩ := hsn
    simp [withdrawalCall, call, hc, h, begin, hx, he]

/-- Both cases of `C65_failed_plan`. -/
example : (withdrawalCall exTtv [(1 / 2, 1)] true (fun _ => .error .valueError) exTax [false] exAlloc).2
      = some .valueError ∧
    ((withdrawalCall exTtv [(1 / 2, 1)] true (exStrategy 10) (fun _ _ => .error .keyError) [false]
      exAlloc).1.txs, (withdrawalCall exTtv [(1 / 2, 1)] true (exStrategy 10) (fun _ _ => .error .keyError)
      [false] exAlloc).2) = ([(false, [(1 / 2, -10)])], some .keyError) := by
  decide +kernel

/-- The hypotheses of `C65_withdrawal` and `C65_figures` are met. -/
example : (withdrawalCall exTtv [(1 / 2, 1)] true (exStrategy 100) exTax [false] exAlloc).2 = none := by
  decide +kernel
example : Good exAlloc.s := good_fresh exPools_good
example : Rescalable [((1 / 2 : ℚ), (-100 : ℚ))] := by
  refine ⟨by unfold Dict.WF; decide +kernel, ?_⟩
  rintro ⟨⟨a, ha, hp⟩, -⟩
  simp only [List.mem_singleton] at ha
  subst ha
  norm_num at hp
/-- The hypothesis of `C65_rerun` is met. -/
example : (withdrawalCall exTtv [(1 / 2, 1)] true (exStrategy 100) exTax [false] exAlloc).1.s.called
    = true := by decide +kernel
/-- An account that is not one of the forecast's is refused. -/
example : (withdrawalCall exTtv [(1 / 2, 1)] true (exStrategy 100) exTax [] exAlloc).2
    = some .keyError := by decide +kernel

/-- C65 (tax, refuted): the tax withheld is not taken out of the cash, as documented, but paid
into it: withdrawing 100 at a tax of 10 puts 110 into the cash; and the reported net withdrawals
are *more* than the gross ones. -/
theorem C65_withholding_refuted :
    ∃ (f f' : Alloc Bool ℚ), Good f.s ∧ f.s.called = false ∧
      withdrawalCall exTtv [(1 / 2, 1)] true (exStrategy 100) exTax [false] f = (f', none) ∧
      poolTotal f'.s false = poolTotal f.s false - 100 ∧ f'.withheld = 10 ∧
      poolTotal f'.s true = poolTotal f.s true + 110 ∧
      grossWithdrawals f' < netWithdrawals f' := by
  refine ⟨exAlloc, _, good_fresh exPools_good, rfl,
    Prod.ext rfl (by decide +kernel), ?_, ?_, ?_, ?_⟩ <;> decide +kernel

/-- C65 (tax, next year, refuted): the tax withheld in one year is still there the next year,
when nothing is withdrawn. -/
theorem C65_next_year_refuted :
    ∃ (f f' : Alloc Bool ℚ), Good f.s ∧
      withdrawalCall exTtv [(1 / 2, 1)] true (exStrategy 100) exTax [false] exAlloc = (f, none) ∧
      withdrawalCall exTtv [(1 / 2, 1)] true (exStrategy 0) exTax [false] (allocNextYear f)
        = (f', none) ∧ f'.withheld = 10 := by
  refine ⟨_, _, ?_, Prod.ext rfl (by decide +kernel), Prod.ext rfl (by decide +kernel),
    by decide +kernel⟩
  have h : withdrawalCall exTtv [(1 / 2, 1)] true (exStrategy 100) exTax [false] exAlloc
    = ((withdrawalCall exTtv [(1 / 2, 1)] true (exStrategy 100) exTax [false] exAlloc).1, none) :=
    Prod.ext rfl (by decide +kernel)
  obtain ⟨y, hx, -⟩ := call_first (s := exAlloc.s) (good_fresh exPools_good) rfl true
  unfold withdrawalCall at h ⊢
  rw [hx] at h ⊢
  exact (withdrawAll_effect exTtv [(1 / 2, 1)] (by unfold Dict.WF; decide +kernel)
    (by decide +kernel) (fun e he => by
      simp only [show ((if (100 : ℚ) = 0 then [] else [(false, [((1 / 2 : ℚ), (-100 : ℚ))])]) :
        Dict Bool (Dict ℚ ℚ)) = [(false, [(1 / 2, -100)])] from by decide +kernel,
        List.mem_singleton] at he
      subst he
      refine ⟨by unfold Dict.WF; decide +kernel, ?_⟩
      rintro ⟨⟨a, ha, hp⟩, -⟩
      simp only [List.mem_singleton] at ha
      subst ha
      norm_num at hp) (good_begin (good_fresh exPools_good) y)
    (fun p hp o ho => by
      simp only [show exTax p = exTax false from rfl] at *
      revert ho
      cases p <;> simp_all [exTax]) h).2.2.2.2.2.1

end C65_examples

/-! ### C66: tax -/

/-- C66 (tax withheld): the tax withheld is what the people's income had withheld plus what
their accounts withheld, every account counted once, however many people own it and in whatever
order; with nobody it is refused. The adjustment and the tax owing add up to it. -/
theorem C66_tax_withheld (people : List (Earner P K)) (accountTax : P → K) :
    (people ≠ [] → taxWithheld people accountTax
      = .ok ((people.map Earner.withheld).sum
          + ∑ p ∈ (people.flatMap Earner.accounts).toFinset, accountTax p)) ∧
    taxWithheld ([] : List (Earner P K)) accountTax = .error .typeError ∧
    (∀ others, people.Perm others → taxWithheld others accountTax = taxWithheld people accountTax) ∧
    (∀ owing x, taxAdjustment people accountTax (.ok owing) = .ok x →
      taxWithheld people accountTax = .ok (owing + x)) := by
  have key : ∀ people : List (Earner P K), people ≠ [] → taxWithheld people accountTax
      = .ok ((people.map Earner.withheld).sum
          + ∑ p ∈ (people.flatMap Earner.accounts).toFinset, accountTax p) := by
    intro people hne
    have h1 : (people.flatMap Earner.accounts).dedup.foldl (fun a p => a + accountTax p)
        (people.foldl (fun a e => a + e.withheld) 0)
        = (people.map Earner.withheld).sum
          + ∑ p ∈ (people.flatMap Earner.accounts).toFinset, accountTax p := by
      rw [foldl_add, foldl_add, zero_add, ← List.sum_toFinset _ (List.nodup_dedup _)]
      congr 2
      ext p
      simp
    cases people with
    | nil => exact absurd rfl hne
    | cons e l => unfold taxWithheld; simp only; rw [h1]
  refine ⟨key people, rfl, fun others hp => ?_, fun owing x h => ?_⟩
  · cases people with
    | nil => rw [hp.nil_eq]
    | cons e l =>
      have h2 : others ≠ [] := by rintro rfl; exact absurd hp.length_eq (by simp)
      rw [key _ h2, key _ (by simp), (hp.map Earner.withheld).sum_eq,
        List.toFinset_eq_of_perm _ _ (hp.flatMap_right Earner.accounts)]
  · unfold taxAdjustment at h
    cases hw : taxWithheld people accountTax with
    | error e => rw [hw] at h; simp at h
    | ok w =>
      rw [hw] at h
      simp only [ok_bind, Except.ok.injEq] at h
      rw [← h]
      congr 1
      ring

/-- Two people with 20 and 5 withheld who share account 1 (which withheld 7), one of whom also
has account 2 (which withheld 1). -/
def exPeople : List (Earner ℕ ℚ) :=
  [{ gross := 100, withheld := 20, net := 80, timing := [(1 / 2, 1)], accounts := [1, 2] },
   { gross := 50, withheld := 5, net := 45, timing := [(1, 1)], accounts := [1] }]

example : taxWithheld exPeople (fun p => if p = 1 then 7 else 1) = .ok 33 := by decide +kernel
example : taxAdjustment exPeople (fun p => if p = 1 then 7 else 1) (.ok 30) = .ok 3 := by
  decide +kernel
example : ∀ e ∈ exPeople, e.net = e.gross - e.withheld := by decide +kernel

/-! ### C67: the year as a whole -/

/-- The sub-forecast, at the start of its year, given the pools as they are now. -/
def given (pools : P → Pool K) : St P K := fresh pools

/-- C67 (the year's cash): after income, living expenses, saving and withdrawals, the cash is
what it was, plus everybody's net income, less the living expenses, less the savings, plus what
was withdrawn, plus the tax withheld from withdrawals; every other pool has changed by what the
two strategies asked for. -/
theorem C67_year {pools : P → Pool K} (hp : ∀ p, GoodPool (pools p)) {available : P} {b : Bool}
    {d : Dict K K} (hav : pools available = .dict b d) (hdef : Dict.total default ≠ 0)
    {people : List (Earner P K)} (hpaid : PaidProperly people)
    (hn : (people.map Earner.net).sum ≠ 0) {x : K}
    {i l : St P K} {sv w : Alloc P K} {T T' : Dict P (Dict K K)} {W W' : K}
    {saving withdrawal : (P → Pool K) → Except PyErr (Dict P (Dict K K))}
    {tax : P → Pool K → Except PyErr K} {accounts : List P}
    (h1 : incomeCall ttv default available people (given pools) = (i, none))
    (h2 : livingCall ttv default available people (.ok x) (given i.pools) = (l, none))
    (h3 : savingCall ttv default available saving ⟨given l.pools, T', W'⟩ = (sv, none))
    (h4 : withdrawalCall ttv default available withdrawal tax accounts ⟨given sv.s.pools, T, W⟩
      = (w, none))
    (hs : ∀ q txs, saving q = .ok txs → Dict.WF txs ∧ available ∉ Dict.keys txs)
    (hw : ∀ q txs, withdrawal q = .ok txs → Dict.WF txs ∧ available ∉ Dict.keys txs ∧
      ∀ e ∈ txs, Rescalable e.2) :
    Dict.total (w.s.pools available).txns
      = Dict.total (pools available).txns + (people.map Earner.net).sum - x
        - ((Dict.keys sv.txs).map (due sv.txs)).sum - ((Dict.keys w.txs).map (due w.txs)).sum
        + (w.withheld - W) ∧
    ∀ p, p ≠ available → Dict.total (w.s.pools p).txns
      = Dict.total (pools p).txns + due sv.txs p + due w.txs p := by
  have g0 : Good (given pools) := good_fresh hp
  obtain ⟨i', a1, a2, -, a4, -⟩ := C62_income ttv default g0 rfl hav hdef people hpaid
  rw [h1] at a1; cases a1
  have gi : ∀ p, GoodPool (i.pools p) := by
    obtain ⟨y, hx, -⟩ := call_first g0 rfl available
    unfold incomeCall callWith at h1
    rw [hx] at h1
    have := (legs_requests ttv default _ (incomeReqs available people)).inv (good_begin g0 y)
    simp only at h1
    rw [h1] at this
    exact this.1.pools
  have hkind : ∃ b' d', i.pools available = .dict b' d' := by
    obtain ⟨y, hx, -⟩ := call_first g0 rfl available
    unfold incomeCall callWith at h1
    rw [hx] at h1
    have := (legs_requests ttv default _ (incomeReqs available people)).inv (good_begin g0 y)
    simp only at h1
    rw [h1] at this
    have hk := this.2.1 available
    simp only [given, fresh] at hk
    rw [hav] at hk
    cases hq : i.pools available with
    | dict f' d' => exact ⟨f', d', rfl⟩
    | acct L a => rw [hq] at hk; exact absurd hk (by simp [SameKind])
  obtain ⟨b', d', hav'⟩ := hkind
  have g1 : Good (given i.pools) := good_fresh gi
  obtain ⟨l', c1, c2, -, c4⟩ := C63_living_expenses ttv default g1 rfl hav' people hpaid hn x
  rw [h2] at c1; cases c1
  have gl : ∀ p, GoodPool (l.pools p) := by
    obtain ⟨y, hx, -⟩ := call_first g1 rfl available
    unfold livingCall at h2
    rw [hx] at h2
    simp only at h2
    cases hr : livingReqs available people (.ok x) with
    | error e => rw [hr] at h2; simp at h2
    | ok reqs =>
      rw [hr] at h2
      have := (legs_requests ttv default _ reqs).inv (good_begin g1 y)
      simp only at h2
      rw [h2] at this
      exact this.1.pools
  have g2 : Good (given l.pools) := good_fresh gl
  obtain ⟨ts, j1, gs⟩ : ∃ ts, saving l.pools = .ok ts ∧ ∀ p, GoodPool (sv.s.pools p) := by
    obtain ⟨y, hx, -⟩ := call_first g2 rfl available
    unfold savingCall at h3
    rw [hx] at h3
    simp only at h3
    cases hr : saving (given l.pools).pools with
    | error e => rw [hr] at h3; simp at h3
    | ok ts =>
      refine ⟨ts, hr, ?_⟩
      rw [hr] at h3
      simp only [Prod.mk.injEq] at h3
      obtain ⟨k1, k2⟩ := h3
      have hm : moveAll ttv default available
          { given l.pools with called := true, totalAvailable := y } ts = (sv.s, none) := by
        rw [← k1, ← k2]
      exact (moveAll_effect ttv default (hs _ _ hr).1 (hs _ _ hr).2 (good_begin g2 y) hm).2.2.2.1.pools
  obtain ⟨m1, m2, m3, m4, -⟩ := C64_saving ttv default
    (f := ⟨given l.pools, T', W'⟩) g2 rfl j1 (hs _ _ j1).1 (hs _ _ j1).2 h3
  have g3 : Good (given sv.s.pools) := good_fresh gs
  obtain ⟨tw, n1⟩ : ∃ tw, withdrawal sv.s.pools = .ok tw := by
    obtain ⟨y, hx, -⟩ := call_first g3 rfl available
    unfold withdrawalCall at h4
    rw [hx] at h4
    simp only at h4
    cases hr : withdrawal (given sv.s.pools).pools with
    | error e => rw [hr] at h4; simp at h4
    | ok tw => exact ⟨tw, hr⟩
  obtain ⟨o1, -, o3, -, -, o6, -⟩ := C65_withdrawal ttv default
    (f := ⟨given sv.s.pools, T, W⟩) g3 rfl n1 (hw _ _ n1).1
    (hw _ _ n1).2.1 (hw _ _ n1).2.2 h4
  unfold poolTotal at a2 c2 m2 m3 o3 o6
  simp only [given, fresh] at a2 a4 c2 c4 m2 m3 o3 o6
  refine ⟨?_, fun p hpa => ?_⟩
  · rw [o6, m3, c2, a2, o1, m4, m1]
  · rw [o3 p hpa, m2 p hpa, c4 p hpa, a4 p hpa, o1, m1]

section examples

/-- Two earners (80 at mid-year, 45 in two payments); the cash is pool `true` of
`exPools` (120), an account is pool `false`. -/
def exCouple : List (Earner Bool ℚ) :=
  [{ gross := 100, withheld := 20, net := 80, timing := [(1 / 2, 1)] },
   { gross := 50, withheld := 5, net := 45, timing := [(1 / 4, 1), (1, 2)] }]

/-- The hypotheses of `C62_income`, `C63_living_expenses`, `C63_shares` and `C67_year` on the
people are met. -/
example : PaidProperly exCouple := by
  intro e he
  simp only [exCouple, List.mem_cons, List.not_mem_nil, or_false] at he
  rcases he with rfl | rfl <;> refine ⟨?_, ?_⟩
  · unfold Dict.WF; decide +kernel
  · decide +kernel
  · unfold Dict.WF; decide +kernel
  · decide +kernel
example : (exCouple.map Earner.net).sum ≠ 0 := by decide +kernel
example : Good (fresh exPools) ∧ (fresh exPools).called = false ∧
    (fresh exPools).pools true = .dict true [(0, 50), (3 / 10, -30), (1 / 2, 100)] :=
  ⟨good_fresh exPools_good, rfl, rfl⟩

def exI := (incomeCall exTtv [(1 / 2, 1)] true exCouple (given exPools)).1
def exL := (livingCall exTtv [(1 / 2, 1)] true exCouple (.ok 25) (given exI.pools)).1
def exSaving : (Bool → Pool ℚ) → Except PyErr (Dict Bool (Dict ℚ ℚ)) :=
  fun _ => .ok [(false, [(1 / 2, 60), (1, 40)])]
def exS := (savingCall exTtv [(1 / 2, 1)] true exSaving ⟨given exL.pools, [], 0⟩).1
def exW := (withdrawalCall exTtv [(1 / 2, 1)] true (exStrategy 10) exTax [false]
  ⟨given exS.s.pools, [], 3⟩).1

/-- All the calls of `C67_year` succeed on it. -/
example : (incomeCall exTtv [(1 / 2, 1)] true exCouple (given exPools)).2 = none ∧
    (livingCall exTtv [(1 / 2, 1)] true exCouple (.ok 25) (given exI.pools)).2 = none ∧
    (savingCall exTtv [(1 / 2, 1)] true exSaving ⟨given exL.pools, [], 0⟩).2 = none ∧
    (withdrawalCall exTtv [(1 / 2, 1)] true (exStrategy 10) exTax [false]
      ⟨given exS.s.pools, [], 3⟩).2 = none := by decide +kernel
/-- 120 + 125 - 25 - 100 + 10 + (4 - 3). -/
example : Dict.total (exW.s.pools true).txns = 131 ∧ exW.withheld = 4 := by decide +kernel
example : carryover exI = .fin 120 ∧ (exI.pools true).txns
    = [(0, 50), (3 / 10, -30), (1 / 2, 180), (1 / 4, 15), (1, 30)] := by decide +kernel

/-- The hypothesis of `C63_no_income` is met by a retired couple. -/
example : let retired : List (Earner Bool ℚ) :=
      exCouple.map fun e => { e with gross := 0, withheld := 0, net := 0 }
    retired ≠ [] ∧ (retired.map Earner.net).sum = 0 ∧
    (livingCall exTtv [(1 / 2, 1)] true retired (.ok 25) (given exPools)).2
      = some .zeroDivisionError := by decide +kernel
example : firstRetirement [some 2040, some 2035, some 2050] = .ok 2035 := by decide +kernel

/-- The hypothesis of `C64_saving_succeeds` is met. -/
example : InYear (given exPools) true :=
  ⟨true, [(0, 50), (3 / 10, -30), (1 / 2, 100)], rfl, by decide +kernel⟩
example : ∀ e ∈ [(false, [((1 / 2 : ℚ), (60 : ℚ)), (1, 40)])], ∀ tv ∈ e.2,
    0 ≤ tv.2 ∧ 0 ≤ tv.1 ∧ tv.1 ≤ 1 := by decide +kernel
/-- The hypotheses of `C64_figures` are met. -/
example : ([false] ++ [true]).Nodup ∧ ∀ p ∈ Dict.keys exS.txs, p ∈ [false] ∨ p ∈ [true] := by
  decide +kernel
example : savingTotal exS = 100 := by decide +kernel

end examples

end Forecaster.CashFlow
