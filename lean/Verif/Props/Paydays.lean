import Verif.Props.Household

/-!
# C98: living expenses are paid on the paydays, whoever is listed first

`forecaster/forecast/{income,living_expenses,subforecast}.py`.
-/

set_option linter.unusedSectionVars false

namespace Forecaster.CashFlow

open Forecaster Forecaster.Timing Forecaster.Account Forecaster.SubForecast

variable {K : Type} [Field K] [LinearOrder K] [IsStrictOrderedRing K]
variable {P : Type} [DecidableEq P]
variable (ttv : Acct K → K → K → Except PyErr (Ext K)) (default : Dict K K)

/-- Specification: what a pool has received by time `t`, less what has been taken out. -/
def running (s : St P K) (p : P) (t : K) : K := Dict.cum (s.pools p).txns t

/-- Specification: people are paid on at least one date, in non-negative proportions, and nobody has
a negative income. -/
def Paid (people : List (Earner P K)) : Prop :=
  ∀ e ∈ people, Dict.WF e.timing ∧ (∀ kv ∈ e.timing, 0 ≤ kv.2) ∧ 0 < Dict.total e.timing ∧ 0 ≤ e.net

/-- Specification: what is paid out at time `t`, or (`by`) at or before time `t`, of an amount that
is divided in proportion to people's incomes and paid out on their paydays. -/
def shareAt (x : K) (people : List (Earner P K)) (t : K) : K :=
  (people.map fun e => x * (e.net / (people.map Earner.net).sum)
    * (Dict.val e.timing t / Dict.total e.timing)).sum

/-- The same, for everything up to time `t`. -/
def shareBy (x : K) (people : List (Earner P K)) (t : K) : K :=
  (people.map fun e => x * (e.net / (people.map Earner.net).sum)
    * (Dict.cum e.timing t / Dict.total e.timing)).sum

theorem running_step {s s' : St P K} (hs : Good s) (hs' : Good s') {p : P} {w c : K}
    (h : ∀ t, amount s' p t = amount s p t + if w = t then c else 0) (t : K) :
    running s' p t = running s p t + if w ≤ t then c else 0 := by
  have hd := (hs.pools p).wf
  have hd' := (hs'.pools p).wf
  have e : ∀ t, Dict.val (s'.pools p).txns t
      = Dict.val (Dict.set (s.pools p).txns w (Dict.val (s.pools p).txns w + c)) t := by
    intro t
    rw [Dict.val_set]
    have := h t
    unfold amount at this
    rw [this]
    by_cases hw : t = w
    · subst hw; simp
    · simp [hw, Ne.symm hw]
  unfold running
  rw [cum_congr_val hd' (Dict.wf_set hd _ _) e, Dict.cum_set hd]
  split <;> ring

/-- A payment that can be made on its date, now and ever after, is made on its date. -/
theorem add1_on_date {s s' : St P K} (hs : Good s) {p : P} {f : Bool} {d : Dict K K}
    (hd : s.pools p = .dict f d) {v w : K} (hv : ∀ r, w ≤ r → v ≤ running s p r)
    (h : addTransaction1 ttv s v w (some p) none false = (s', none)) :
    Good s' ∧ (∃ d', s'.pools p = .dict f d') ∧
    (∀ t, amount s' p t = amount s p t + if w = t then -v else 0) := by
  obtain ⟨w', e1, -, e2, -, -, -, e3, e4⟩ := add1_effect ttv hs h
  have hw : w' = w := by
    simp only [dateFor, Bool.false_eq_true, if_false, shiftWhen, hd, Except.ok.injEq] at e1
    have hwf : Dict.WF d := by have := (hs.pools p).wf; rw [hd] at this; exact this
    have hv' : ∀ r, w ≤ r → v ≤ Dict.cum d r := by
      intro r hr; have := hv r hr; unfold running at this; rw [hd] at this; exact this
    have := earliest_dict hwf v w
    simp only [e1] at this
    exact le_antisymm ((this.2.1 ⟨w, le_refl _, hv'⟩).2 w (le_refl _) hv') this.1
  subst hw
  refine ⟨e3, ?_, fun t => ?_⟩
  · have := e4 p
    rw [hd] at this
    cases hp : s'.pools p with
    | dict f' d' => rw [hp] at this; simp only [SameKind] at this; subst this; exact ⟨d', rfl⟩
    | acct L a => rw [hp] at this; simp [SameKind] at this
  · rw [e2]; simp [ind]

/-- A payment spread over dates, with enough money for it and for what is to come. -/
theorem spread_on_dates {p : P} {f : Bool} (v n : K) (hv : 0 ≤ v) (hn : 0 < n) {R : K → K}
    (hR : ∀ t, 0 ≤ R t) : ∀ (l : Dict K K), Dict.WF l → (∀ kv ∈ l, 0 ≤ kv.2) →
    ∀ {s s' : St P K}, Good s → (∃ d, s.pools p = .dict f d) →
    (∀ t, v * (Dict.cum l t / n) + R t ≤ running s p t) →
    forEach (fun s (kv : K × K) => addTransaction1 ttv s (v * (kv.2 / n)) kv.1 (some p) none false)
      s l = (s', none) →
    Good s' ∧ (∃ d, s'.pools p = .dict f d) ∧
    (∀ t, amount s' p t = amount s p t - v * (Dict.val l t / n)) ∧
    (∀ t, running s' p t = running s p t - v * (Dict.cum l t / n)) := by
  intro l
  induction l with
  | nil =>
    intro _ _ s s' hs hd _ h
    cases h
    exact ⟨hs, hd, fun t => by simp [Dict.val_nil], fun t => by simp⟩
  | cons kv l ih =>
    intro hl h0 s s' hs hd hle h
    obtain ⟨s1, h1, h2⟩ := forEach_cons_ok h
    obtain ⟨d, hd⟩ := hd
    rw [Dict.wf_cons] at hl
    have hkv := h0 kv List.mem_cons_self
    have hrest := fun e he => h0 e (List.mem_cons_of_mem _ he)
    have hcum : ∀ t, Dict.cum (kv :: l) t = (if kv.1 ≤ t then kv.2 else 0) + Dict.cum l t :=
      fun t => Dict.cum_cons kv l t
    obtain ⟨g1, d1, a1⟩ := add1_on_date ttv hs hd (v := v * (kv.2 / n)) (w := kv.1) (fun r hr => by
      refine le_trans ?_ (hle r)
      rw [hcum, if_pos hr]
      have h3 : v * (kv.2 / n) ≤ v * ((kv.2 + Dict.cum l r) / n) := by
        refine mul_le_mul_of_nonneg_left ?_ hv
        exact div_le_div_of_nonneg_right (by linarith [Dict.cum_nonneg hrest r]) hn.le
      linarith [hR r]) h1
    have r1 := running_step hs g1 a1
    obtain ⟨g2, d2, a2, r2⟩ := ih hl.2 hrest g1 d1 (fun t => by
      rw [r1]
      have := hle t
      rw [hcum] at this
      split at this
      · rename_i ht
        rw [if_pos ht]
        rw [add_div, mul_add] at this
        linarith
      · rename_i ht
        rw [if_neg ht]
        rw [zero_add] at this
        linarith) h2
    refine ⟨g2, d2, fun t => ?_, fun t => ?_⟩
    · rw [a2, a1]
      by_cases hk : kv.1 = t
      · subst hk
        have hv0 : Dict.val l kv.1 = 0 := Dict.val_of_not_mem hl.1
        have hv1 : Dict.val (kv :: l) kv.1 = kv.2 := by simp [Dict.val, Dict.get?_cons]
        rw [hv0, hv1]; simp; ring
      · have hv1 : Dict.val (kv :: l) t = Dict.val l t := by simp [Dict.val, Dict.get?_cons, hk]
        rw [hv1]; simp [hk]
    · rw [r2, r1, hcum]
      split <;> ring

/-- A list of such payments. -/
theorem requests_on_dates {p : P} {f : Bool} (v : Earner P K → K) :
    ∀ (people : List (Earner P K)), Paid people → (∀ e ∈ people, 0 ≤ v e) →
    ∀ {s s' : St P K}, Good s → (∃ d, s.pools p = .dict f d) →
    (∀ t, (people.map fun e => v e * (Dict.cum e.timing t / Dict.total e.timing)).sum
      ≤ running s p t) →
    forEach (addTransaction ttv default) s (people.map fun e =>
      ({ value := v e, timing := some (.timing e.timing), src := some p } : Req P K)) = (s', none) →
    ∀ t, amount s' p t = amount s p t
      - (people.map fun e => v e * (Dict.val e.timing t / Dict.total e.timing)).sum := by
  intro people
  induction people with
  | nil => intro _ _ s s' _ _ _ h t; cases h; simp
  | cons e l ih =>
    intro hp hv s s' hs hd hle h t
    rw [List.map_cons] at h
    obtain ⟨s1, h1, h2⟩ := forEach_cons_ok h
    obtain ⟨b1, b2, b3, -⟩ := hp e List.mem_cons_self
    have hve := hv e List.mem_cons_self
    have hl : Paid l := fun e' he' => hp e' (List.mem_cons_of_mem _ he')
    have hvl : ∀ e' ∈ l, 0 ≤ v e' := fun e' he' => hv e' (List.mem_cons_of_mem _ he')
    unfold SubForecast.addTransaction at h1
    have ho : orient ({ value := v e, timing := some (.timing e.timing), src := some p } : Req P K)
        = (v e, some p, none) := by
      unfold orient; rw [if_neg (not_lt.2 hve)]
    simp only [resolve, ho, b3.ne', if_false] at h1
    obtain ⟨g1, d1, a1, r1⟩ := spread_on_dates ttv (v e) (Dict.total e.timing) hve b3
      (R := fun t => (l.map fun e => v e * (Dict.cum e.timing t / Dict.total e.timing)).sum)
      (fun t => List.sum_nonneg (by
        intro x hx
        obtain ⟨e', he', rfl⟩ := List.mem_map.1 hx
        obtain ⟨-, c2, c3, -⟩ := hl e' he'
        exact mul_nonneg (hvl e' he') (div_nonneg (Dict.cum_nonneg c2 t) c3.le)))
      e.timing b1 b2 hs hd (fun t => by have := hle t; rwa [List.map_cons, List.sum_cons] at this) h1
    rw [ih hl hvl g1 d1 (fun t => by
      rw [r1]; have := hle t; rw [List.map_cons, List.sum_cons] at this; linarith) h2 t, a1,
      List.map_cons, List.sum_cons]
    ring

/-- **C98.** If the cash that has come in by each date covers the part of the year's living expenses
that is due by then, all expenses are paid exactly on people's paydays, in proportion to what they are
paid on them. -/
theorem C98_paid_on_paydays {s : St P K} (hs : Good s) (hc : s.called = false) {available : P}
    {f : Bool} {d : Dict K K} (hd : s.pools available = .dict f d)
    (people : List (Earner P K)) (hp : Paid people) (hn : 0 < (people.map Earner.net).sum) {x : K}
    (hx : 0 ≤ x) (hcover : ∀ t, shareBy x people t ≤ Dict.cum d t) :
    ∃ s', livingCall ttv default available people (.ok x) s = (s', none) ∧
      ∀ t, amount s' available t = amount s available t - shareAt x people t := by
  obtain ⟨s', h1, -⟩ := C63_living_expenses ttv default hs hc hd people
    (fun e he => ⟨(hp e he).1, (hp e he).2.2.1.ne'⟩) hn.ne' x
  refine ⟨s', h1, ?_⟩
  obtain ⟨y, hy, -⟩ := call_first hs hc available
  unfold livingCall at h1
  rw [hy] at h1
  have hl : livingReqs available people (.ok x) = .ok (people.map fun e =>
      ({ value := x * (e.net / (people.map Earner.net).sum), timing := some (.timing e.timing),
         src := some available } : Req P K)) := by
    unfold livingReqs
    cases people with
    | nil => simp at hn
    | cons e l => simp only [netIncome_eq, hn.ne', if_false, ok_bind]
  simp only [hl] at h1
  have hg := good_begin hs y
  intro t
  have := requests_on_dates ttv default (p := available) (f := f)
    (fun e => x * (e.net / (people.map Earner.net).sum)) people hp
    (fun e he => mul_nonneg hx (div_nonneg (hp e he).2.2.2 hn.le)) hg ⟨d, hd⟩ (fun t => by
      have := hcover t
      unfold shareBy at this
      unfold running
      simp only [hd]
      exact this) h1 t
  exact this

theorem share_perm (x : K) {people others : List (Earner P K)} (h : people.Perm others) (t : K) :
    shareAt x people t = shareAt x others t ∧ shareBy x people t = shareBy x others t := by
  unfold shareAt shareBy
  rw [(h.map Earner.net).sum_eq]
  exact ⟨(h.map _).sum_eq, (h.map _).sum_eq⟩

/-- **C98.** Then it makes no difference who is listed first (people are kept in a `set`, whose order
is arbitrary). -/
theorem C98_order_of_people {s : St P K} (hs : Good s) (hc : s.called = false) {available : P}
    {f : Bool} {d : Dict K K} (hd : s.pools available = .dict f d)
    (people others : List (Earner P K)) (hperm : people.Perm others) (hp : Paid people)
    (hn : 0 < (people.map Earner.net).sum) {x : K}
    (hx : 0 ≤ x) (hcover : ∀ t, shareBy x people t ≤ Dict.cum d t) :
    ∃ s1 s2, livingCall ttv default available people (.ok x) s = (s1, none) ∧
      livingCall ttv default available others (.ok x) s = (s2, none) ∧
      ∀ t, amount s1 available t = amount s2 available t := by
  obtain ⟨s1, h1, a1⟩ := C98_paid_on_paydays ttv default hs hc hd people hp hn hx hcover
  obtain ⟨s2, h2, a2⟩ := C98_paid_on_paydays ttv default hs hc hd others
    (fun e he => hp e (hperm.mem_iff.2 he)) (by rwa [← (hperm.map Earner.net).sum_eq]) hx
    (fun t => by rw [← (share_perm x hperm t).2]; exact hcover t)
  exact ⟨s1, s2, h1, h2, fun t => by rw [a1, a2, (share_perm x hperm t).1]⟩

/-- **C98.** A household that starts the year without debts in cash and lives on no more than its net
income has, after income and living expenses, what it had before and the same part of what it is paid
on each payday, whoever is listed first. -/
theorem C98_within_income {s : St P K} (hs : Good s) (hc : s.called = false) {available : P}
    {f : Bool} {d : Dict K K} (hd : s.pools available = .dict f d) (h0 : ∀ t, 0 ≤ Dict.cum d t)
    (hdef : Dict.total default ≠ 0) (people : List (Earner P K)) (hp : Paid people)
    (hn : 0 < (people.map Earner.net).sum) {x : K} (hx : 0 ≤ x)
    (hle : x ≤ (people.map Earner.net).sum) {others : List (Earner P K)}
    (hperm : people.Perm others) :
    ∃ s1 s2, incomeCall ttv default available people s = (s1, none) ∧
      livingCall ttv default available others (.ok x) (fresh s1.pools) = (s2, none) ∧
      ∀ t, amount s2 available t = amount s available t
        + (1 - x / (people.map Earner.net).sum)
          * (people.map fun e => e.net * (Dict.val e.timing t / Dict.total e.timing)).sum := by
  obtain ⟨s1, h1, -, -, -, a1⟩ := C62_income ttv default hs hc hd hdef people
    (fun e he => ⟨(hp e he).1, (hp e he).2.2.1.ne'⟩)
  have a1 := a1 (fun e he => (hp e he).2.2.2)
  set N := (people.map Earner.net).sum with hN
  -- the state after the income
  have hgood : Good s1 ∧ ∃ d', s1.pools available = .dict f d' := by
    unfold incomeCall callWith at h1
    obtain ⟨y, hy, -⟩ := call_first hs hc available
    rw [hy] at h1
    simp only at h1
    have hl := legs_requests ttv default { s with called := true, totalAvailable := y }
      (incomeReqs available people)
    rw [h1] at hl
    obtain ⟨hg, hk, -⟩ := hl.inv (good_begin hs y)
    refine ⟨hg, ?_⟩
    have := hk available
    simp only [hd] at this
    cases hp : s1.pools available with
    | dict f' d' => rw [hp] at this; simp only [SameKind] at this; subst this; exact ⟨d', rfl⟩
    | acct L a => rw [hp] at this; simp [SameKind] at this
  obtain ⟨hg1, d', hd'⟩ := hgood
  -- the running totals after the income
  have hrun : ∀ t, Dict.cum d' t = Dict.cum d t
      + (people.map fun e => e.net * (Dict.cum e.timing t / Dict.total e.timing)).sum := by
    have hwf : Dict.WF d := by have := (hs.pools available).wf; rw [hd] at this; exact this
    have hwf' : Dict.WF d' := by have := (hg1.pools available).wf; rw [hd'] at this; exact this
    intro t
    have gen : ∀ (l : List (Earner P K)), Paid l → ∀ (e : Dict K K), Dict.WF e →
        ∃ e' : Dict K K, Dict.WF e' ∧ (∀ t, Dict.val e' t = Dict.val e t
          + (l.map fun e => e.net * (Dict.val e.timing t / Dict.total e.timing)).sum) ∧
        (∀ t, Dict.cum e' t = Dict.cum e t
          + (l.map fun e => e.net * (Dict.cum e.timing t / Dict.total e.timing)).sum) := by
      intro l
      induction l with
      | nil => intro _ e he; exact ⟨e, he, fun t => by simp, fun t => by simp⟩
      | cons a l ih =>
        intro hl e he
        have inner : ∀ (T : Dict K K), Dict.WF T → ∀ (c : K) (e : Dict K K), Dict.WF e →
            ∃ e' : Dict K K, Dict.WF e' ∧ (∀ t, Dict.val e' t = Dict.val e t + c * Dict.val T t) ∧
            (∀ t, Dict.cum e' t = Dict.cum e t + c * Dict.cum T t) := by
          intro T
          induction T with
          | nil => intro _ c e he; exact ⟨e, he, fun t => by simp [Dict.val_nil], fun t => by simp⟩
          | cons kv T ih2 =>
            intro hT c e he
            rw [Dict.wf_cons] at hT
            obtain ⟨e', w1, w2, w3⟩ := ih2 hT.2 c
              (Dict.set e kv.1 (Dict.val e kv.1 + c * kv.2)) (Dict.wf_set he _ _)
            refine ⟨e', w1, fun t => ?_, fun t => ?_⟩
            · rw [w2, Dict.val_set]
              by_cases hk : t = kv.1
              · subst hk
                have hv0 : Dict.val T kv.1 = 0 := Dict.val_of_not_mem hT.1
                have hv1 : Dict.val (kv :: T) kv.1 = kv.2 := by simp [Dict.val, Dict.get?_cons]
                rw [hv0, hv1]; simp
              · have hv1 : Dict.val (kv :: T) t = Dict.val T t := by
                  simp [Dict.val, Dict.get?_cons, Ne.symm hk]
                rw [hv1]; simp [hk, Ne.symm hk]
            · rw [w3, Dict.cum_set he, Dict.cum_cons]
              split <;> ring
        obtain ⟨e1, u1, u2, u3⟩ := inner a.timing (hl a List.mem_cons_self).1
          (a.net / Dict.total a.timing) e he
        obtain ⟨e2, v1, v2, v3⟩ := ih (fun b hb => hl b (List.mem_cons_of_mem _ hb)) e1 u1
        refine ⟨e2, v1, fun t => ?_, fun t => ?_⟩
        · rw [v2, u2, List.map_cons, List.sum_cons]; ring
        · rw [v3, u3, List.map_cons, List.sum_cons]; ring
    obtain ⟨e', g1, g2, g3⟩ := gen people hp d hwf
    rw [← g3]
    refine cum_congr_val hwf' g1 (fun t => ?_) t
    have := a1 t
    unfold amount at this
    rw [hd, hd'] at this
    rw [g2]; exact this
  have hpo : Paid others := fun e he => hp e (hperm.mem_iff.2 he)
  have hshare : ∀ t, shareBy x people t = x / N
      * (people.map fun e => e.net * (Dict.cum e.timing t / Dict.total e.timing)).sum := by
    intro t
    unfold shareBy
    rw [← hN, ← List.sum_map_mul_left]
    congr 1
    apply List.map_congr_left
    intro e _
    ring
  have hshareAt : ∀ t, shareAt x people t = x / N
      * (people.map fun e => e.net * (Dict.val e.timing t / Dict.total e.timing)).sum := by
    intro t
    unfold shareAt
    rw [← hN, ← List.sum_map_mul_left]
    congr 1
    apply List.map_congr_left
    intro e _
    ring
  obtain ⟨s2, h2, a2⟩ := C98_paid_on_paydays ttv default (s := fresh s1.pools)
    (good_fresh hg1.pools) rfl (available := available) hd' others hpo
    (by rwa [← (hperm.map Earner.net).sum_eq]) hx (fun t => by
      rw [← (share_perm x hperm t).2, hshare, hrun]
      have hS : 0 ≤ (people.map fun e => e.net * (Dict.cum e.timing t / Dict.total e.timing)).sum :=
        List.sum_nonneg (by
          intro z hz
          obtain ⟨e, he, rfl⟩ := List.mem_map.1 hz
          obtain ⟨-, c2, c3, c4⟩ := hp e he
          exact mul_nonneg c4 (div_nonneg (Dict.cum_nonneg c2 t) c3.le))
      have : x / N ≤ 1 := (div_le_one hn).2 hle
      nlinarith [h0 t, mul_le_mul_of_nonneg_right this hS])
  refine ⟨s1, s2, h1, h2, fun t => ?_⟩
  rw [a2, ← (share_perm x hperm t).1, hshareAt]
  have : amount (fresh s1.pools) available t = amount s1 available t := rfl
  rw [this, a1]
  ring

end Forecaster.CashFlow

namespace Forecaster.Household

open Forecaster Forecaster.Timing Forecaster.Account Forecaster.SubForecast Forecaster.CashFlow

/-- Two people who are paid 100 a year each, `true` at its start and `false` at its end, and live on
400 a year. Each year they take from their account, at the date of each shortage, what is missing
then. -/
def exCouple (people : List Bool) : Env Bool Unit ℚ where
  people := people
  assets := [()]
  debts := []
  owner _ := none
  earner i _ := { gross := 100, withheld := 0, net := 100, timing := [(if i then 0 else 1, 1)] }
  limits _ _ := plainLimits
  default _ := [(1 / 2, 1)]
  ttv := exTtv
  expenses _ _ := .ok 400
  saving _ _ := .ok []
  withdrawal _ q := .ok [((), ((q none).txns.filter fun e => decide (e.2 < 0)))]
  accountTax _ _ := 0
  owing _ _ := .ok 0
  refund := [(1 / 2, 1)]
  payment := [(0, 1)]

/-- Its account: 1000, which earns nothing. -/
def exNest : Unit → Acct ℚ := fun _ => init 2020 1000 (fun _ _ => 1) []

/-- **C98, refuted**: "the order of the people does not matter", without enough cash. Of two
households that differ in nothing but who is listed first, one takes 300 from its account, at the end
of the year, and has 100 in cash left; the other takes 100 at the start and 100 at the end, and has
nothing left. (An expense that cannot be met on its date is put off to a later date if there will be
enough then, and otherwise is not: the first of two people to claim the money gets it.) -/
theorem C98_order_refuted :
    [true, false].Perm [false, true] ∧
    exCouple [false, true] = { exCouple [true, false] with people := [false, true] } ∧
    (∀ i y, (exCouple [true, false]).earner i y
      = { gross := 100, withheld := 0, net := 100, timing := [(if i then 0 else 1, 1)] }) ∧
    (forecast (exCouple [true, false]) 2020 (Forecast.scenarioYears 2020 1) exNest).map
      (fun s => ((s.w.accounts ()).txns, cash s)) = .ok ([(1, -300)], 100) ∧
    (forecast (exCouple [false, true]) 2020 (Forecast.scenarioYears 2020 1) exNest).map
      (fun s => ((s.w.accounts ()).txns, cash s)) = .ok ([(1, -100), (0, -100)], 0) := by
  refine ⟨by decide, rfl, fun _ _ => rfl, by decide +kernel, by decide +kernel⟩

end Forecaster.Household

namespace Forecaster.CashFlow

open Forecaster Forecaster.SubForecast

/-- The hypotheses of `C98_within_income`: two people, paid 80 in the middle of the year and 40 in two
parts, who live on 60; 5 in cash at the start. -/
example :
    let couple : List (Earner Unit ℚ) :=
      [Earner.mk 80 0 80 [(1 / 2, 1)] [], Earner.mk 48 8 40 [(1 / 4, 1), (1, 3)] []]
    Paid couple ∧ (couple.map Earner.net).sum = 120 ∧ (∀ t, 0 ≤ Dict.cum [((0 : ℚ), (5 : ℚ))] t) ∧
    shareAt 60 couple (1 / 4) = 5 ∧ shareAt 60 couple 1 = 15 ∧ shareBy 60 couple (1 / 2) = 45 := by
  refine ⟨?_, by decide +kernel, ?_, by decide +kernel, by decide +kernel, by decide +kernel⟩
  · intro e he
    simp only [List.mem_cons, List.not_mem_nil, or_false] at he
    rcases he with rfl | rfl <;>
      exact ⟨by unfold Dict.WF; decide +kernel, by decide +kernel, by decide +kernel,
        by decide +kernel⟩
  · intro t
    exact Dict.cum_nonneg (by decide +kernel) t

end Forecaster.CashFlow
