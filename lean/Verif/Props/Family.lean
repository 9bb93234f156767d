import Verif.Model.Family
import Verif.Props.Person
import Verif.Props.TaxPeople
import Verif.Props.Expenses
import Verif.Props.Household

/-!
# C120: the forecast of a family of Persons with a Tax and a living expenses strategy

Specification vocabulary: `Wages F` says that the people of the family have been made with the given
retirement dates, raises, withholding taxes and first incomes; `grossPay`, `withheldPay` and `netPay`
are what they earn, what is withheld and what they take home in the `k`-th year.
-/

set_option linter.unusedSectionVars false

namespace Forecaster.Family

open Forecaster Forecaster.Account Forecaster.Person

variable {K : Type} [Field K] [LinearOrder K] [IsStrictOrderedRing K]

/-! ### One person -/

/-- What is withheld from an income. -/
def withholding (w : Option (K → ℤ → K)) (g : K) (y : ℤ) : K :=
  match w with
  | some t => t g y
  | none => 0

/-- What is known of a person who has lived through `k` years. -/
structure At (r : ℤ → K) (ret : Date) (w : Option (K → ℤ → K)) (y0 : ℤ) (g0 : K) (k : ℕ)
    (p : Earner K) : Prop where
  year : p.year = y0 + k
  retirement : p.retirement = ret
  raise : ∀ y, p.raise y = .ok (some (r y))
  tax : p.tax = w.map fun t => fun g y => .ok (t g y)
  gross : Dict.get? p.gross p.year = some (incomeAfter r ret.year y0 g0 k) ∨
    (0 < k ∧ Dict.get? p.gross p.year = none ∧
      Dict.get? p.gross (p.year - 1) = some (incomeAfter r ret.year y0 g0 (k - 1)))
  net : ∀ x, Dict.get? p.net p.year = some x → x = incomeAfter r ret.year y0 g0 k -
    withholding w (incomeAfter r ret.year y0 g0 k) p.year
  rate : ∀ v, Dict.get? p.raises p.year = some v → v = some (r p.year)
  future : ∀ y, p.year < y → Dict.get? p.gross y = none ∧ Dict.get? p.net y = none ∧
    Dict.get? p.raises y = none

theorem raiseCallable_gives {ra : RaiseArg K} {r : ℤ → K} (h : ∀ y, ra.Gives y (r y)) (y : ℤ) :
    raiseCallable ra.orZero y = .ok (some (r y)) :=
  (raiseCallable_ok ra y _).2 ⟨r y, rfl, h y⟩

theorem at_init {ra : RaiseArg K} {r : ℤ → K} (hr : ∀ y, ra.Gives y (r y)) {ret : Date}
    {w : Option (K → ℤ → K)} {y0 : ℤ} {g0 : K} {p : Earner K}
    (h : Earner.init y0 ret ra (w.map fun t => fun g y => .ok (t g y)) g0 = .ok p) :
    At r ret w y0 g0 0 p := by
  unfold Earner.init taxWithheld grossIncome at h
  cases w with
  | none =>
    simp [bind, Except.bind, Dict.get?] at h
    subst h
    refine ⟨by simp, rfl, raiseCallable_gives hr, rfl, .inl (by simp [Dict.get?, incomeAfter]),
      ?_, by simp [Dict.get?], ?_⟩
    · intro x hx; simpa [Dict.get?, incomeAfter, withholding] using hx.symm
    · intro y hy
      have : ¬ y0 = y := by simp at hy; omega
      simp [Dict.get?, this]
  | some t =>
    simp [bind, Except.bind, Dict.get?] at h
    subst h
    refine ⟨by simp, rfl, raiseCallable_gives hr, rfl, .inl (by simp [Dict.get?, incomeAfter]),
      ?_, by simp [Dict.get?], ?_⟩
    · intro x hx; simpa [Dict.get?, incomeAfter, withholding] using hx.symm
    · intro y hy
      have : ¬ y0 = y := by simp at hy; omega
      simp [Dict.get?, this]

section reads

variable {r : ℤ → K} {ret : Date} {w : Option (K → ℤ → K)} {y0 : ℤ} {g0 : K} {k : ℕ}
  {p : Earner K}

theorem at_rate (h : At r ret w y0 g0 k p) :
    ∃ q, raiseRate p = .ok (some (r p.year), q) ∧ At r ret w y0 g0 k q ∧ q.year = p.year := by
  unfold raiseRate
  cases hg : Dict.get? p.raises p.year with
  | some v => exact ⟨p, by rw [h.rate v hg], h, rfl⟩
  | none =>
    simp only [h.raise, bind, Except.bind]
    refine ⟨_, rfl, ⟨h.year, h.retirement, h.raise, h.tax, h.gross, h.net, ?_, ?_⟩, rfl⟩
    · intro v hv
      simp only [Dict.get?_set, if_true, Option.some.injEq] at hv
      exact hv.symm
    · intro y hy
      obtain ⟨h1, h2, h3⟩ := h.future y hy
      refine ⟨h1, h2, ?_⟩
      simp only at hy
      rw [Dict.get?_set, if_neg (by omega)]
      exact h3

theorem at_gross (h : At r ret w y0 g0 k p) :
    ∃ q, grossIncome p = .ok (incomeAfter r ret.year y0 g0 k, q) ∧ At r ret w y0 g0 k q ∧
      q.year = p.year ∧ Dict.get? q.gross q.year = some (incomeAfter r ret.year y0 g0 k) := by
  unfold grossIncome
  rcases h.gross with hg | ⟨hk, hg, hp⟩
  · simp only [hg]
    exact ⟨p, rfl, h, rfl, hg⟩
  · simp only [hg]
    obtain ⟨m, rfl⟩ : ∃ m, k = m + 1 := ⟨k - 1, by omega⟩
    have hy : p.year = y0 + (m + 1 : ℕ) := h.year
    have hset : ∀ (d : Earner K) (x : K), At r ret w y0 g0 (m + 1) d → d.year = p.year →
        x = incomeAfter r ret.year y0 g0 (m + 1) →
        At r ret w y0 g0 (m + 1) { d with gross := Dict.set d.gross p.year x } := by
      intro d x hd hdy hx
      refine ⟨hd.year, hd.retirement, hd.raise, hd.tax, .inl ?_, hd.net, hd.rate, ?_⟩
      · simp only [hdy, Dict.get?_set, if_true, hx]
      · intro y hy'
        obtain ⟨h1, h2, h3⟩ := hd.future y hy'
        refine ⟨?_, h2, h3⟩
        simp only at hy'
        rw [Dict.get?_set, if_neg (by omega)]
        exact h1
    by_cases hr : p.retirement.year < p.year
    · rw [if_pos hr]
      rw [h.retirement] at hr
      have e : incomeAfter r ret.year y0 g0 (m + 1) = 0 := by
        rw [incomeAfter, if_pos (by rw [← hy]; exact hr)]
      refine ⟨_, by rw [e], hset p 0 h rfl e.symm, rfl, ?_⟩
      simp [Dict.get?_set, e]
    · rw [if_neg hr]
      rw [h.retirement] at hr
      have e : incomeAfter r ret.year y0 g0 (m + 1)
          = incomeAfter r ret.year y0 g0 m * (1 + r p.year) := by
        rw [incomeAfter, if_neg (by rw [← hy]; exact hr), hy]
      obtain ⟨q, h1, h2, h3⟩ := at_rate h
      simp only [look, hp, h1, bind, Except.bind, Nat.add_sub_cancel]
      refine ⟨_, by rw [e], hset q _ h2 h3 e.symm, h3, ?_⟩
      simp [Dict.get?_set, e, h3]

theorem at_withheld (h : At r ret w y0 g0 k p) :
    ∃ q, taxWithheld p = .ok (withholding w (incomeAfter r ret.year y0 g0 k) p.year, q) ∧
      At r ret w y0 g0 k q ∧ q.year = p.year ∧
      (∀ x, Dict.get? p.gross p.year = some x → q = p) := by
  unfold taxWithheld
  rw [h.tax]
  cases w with
  | none => exact ⟨p, rfl, h, rfl, fun _ _ => rfl⟩
  | some t =>
    obtain ⟨q, h1, h2, h3, -⟩ := at_gross h
    simp only [Option.map_some, h1, bind, Except.bind]
    refine ⟨q, rfl, h2, h3, fun x hx => ?_⟩
    unfold grossIncome at h1
    simp only [hx, Except.ok.injEq, Prod.mk.injEq] at h1
    exact h1.2.symm

theorem at_net (h : At r ret w y0 g0 k p) :
    ∃ q, netIncome p = .ok (incomeAfter r ret.year y0 g0 k -
        withholding w (incomeAfter r ret.year y0 g0 k) p.year, q) ∧
      At r ret w y0 g0 k q ∧ q.year = p.year ∧
      (∀ x, Dict.get? p.gross p.year = some x → q.gross = p.gross) := by
  unfold netIncome
  cases hn : Dict.get? p.net p.year with
  | some x => exact ⟨p, by rw [h.net x hn], h, rfl, fun _ _ => rfl⟩
  | none =>
    obtain ⟨q, h1, h2, h3, h3'⟩ := at_gross h
    obtain ⟨q', h4, h5, h6, h7⟩ := at_withheld h2
    have hqq : q' = q := h7 _ h3'
    subst hqq
    simp only [h1, h4, bind, Except.bind, h3]
    have hgr := h2.gross
    have hrt := h2.rate
    rw [h3] at hgr hrt
    refine ⟨_, rfl, ⟨h.year, h2.retirement, h2.raise, h2.tax, hgr, ?_, hrt, ?_⟩, rfl, ?_⟩
    · intro x hx
      simp only [Dict.get?_set, if_true, Option.some.injEq] at hx ⊢
      exact hx.symm
    · intro y hy
      simp only at hy
      obtain ⟨a1, a2, a3⟩ := h2.future y (by omega)
      refine ⟨a1, ?_, a3⟩
      rw [Dict.get?_set, if_neg (by omega)]
      exact a2
    · intro x hx
      unfold grossIncome at h1
      simp only [hx, Except.ok.injEq, Prod.mk.injEq] at h1
      rw [← h1.2]

theorem at_next (h : At r ret w y0 g0 k p) :
    ∃ q, p.nextYear = .ok q ∧ At r ret w y0 g0 (k + 1) q := by
  obtain ⟨q1, h1, h2, h3⟩ := at_rate h
  obtain ⟨q2, h4, h5, h6, h7⟩ := at_gross h2
  obtain ⟨q3, h8, h9, h10, h11⟩ := at_net h5
  unfold Earner.nextYear
  simp only [h1, h4, h8, bind, Except.bind]
  have hy : q3.year = p.year := by rw [h10, h6, h3]
  have hg : Dict.get? q3.gross p.year = some (incomeAfter r ret.year y0 g0 k) := by
    rw [h11 _ h7, ← h7, h6, h3]
  refine ⟨_, rfl, ⟨?_, h9.retirement, h9.raise, h9.tax, .inr ⟨by omega, ?_, ?_⟩, ?_, ?_, ?_⟩⟩
  · simp only [h.year]; push_cast; ring
  · exact (h9.future (p.year + 1) (by omega)).1
  · simp only [add_sub_cancel_right, Nat.add_sub_cancel]
    exact hg
  · intro x hx
    rw [(h9.future (p.year + 1) (by omega)).2.1] at hx
    cases hx
  · intro x hx
    rw [(h9.future (p.year + 1) (by omega)).2.2] at hx
    cases hx
  · intro y hy'
    simp only at hy'
    exact h9.future y (by omega)

end reads

theorem at_run {r : ℤ → K} {ret : Date} {w : Option (K → ℤ → K)} {y0 : ℤ} {g0 : K} {p : Earner K}
    (h : At r ret w y0 g0 0 p) (k : ℕ) :
    At r ret w y0 g0 k (Person.run p (List.replicate k .nextYear)) := by
  induction k with
  | zero => exact h
  | succ k ih =>
    obtain ⟨q, h1, h2⟩ := at_next ih
    have e : Person.run p (List.replicate (k + 1) .nextYear) =
        (match Person.step (Person.run p (List.replicate k .nextYear)) .nextYear with
          | .ok p' => p'
          | .error _ => Person.run p (List.replicate k .nextYear)) := by
      unfold Person.run
      rw [List.replicate_succ', List.foldl_append]
      rfl
    rw [e]
    simp only [Person.step, h1]
    exact h2

/-! ### The family -/

/-- Specification: what a person is made with: raises, retirement date, withholding tax and the first
year's income. -/
structure Contract (K : Type) where
  raise : ℤ → K
  retirement : Date
  tax : Option (K → ℤ → K)
  first : K

/-- Specification: what a person earns in the `k`-th year after the year `y0`. -/
def earns (c : Contract K) (y0 : ℤ) (k : ℕ) : K :=
  incomeAfter c.raise c.retirement.year y0 c.first k

/-- Specification: what is withheld from it. -/
def keptBack (c : Contract K) (y0 : ℤ) (k : ℕ) : K := withholding c.tax (earns c y0 k) (y0 + k)

/-- Specification: what the person takes home. -/
def takesHome (c : Contract K) (y0 : ℤ) (k : ℕ) : K := earns c y0 k - keptBack c y0 k

/-- Specification: the people of the family have been made with these contracts. -/
def Wages (F : Family K) (c : ℕ → Contract K) : Prop :=
  ∀ i < F.size, ∃ ra : RaiseArg K, (∀ y, ra.Gives y ((c i).raise y)) ∧
    Earner.init F.initial (c i).retirement ra ((c i).tax.map fun t => fun g y => .ok (t g y))
      (c i).first = .ok (F.member i).person

theorem Wages.at {F : Family K} {c : ℕ → Contract K} (h : Wages F c) {i : ℕ} (hi : i < F.size)
    (k : ℕ) : At (c i).raise (c i).retirement (c i).tax F.initial (c i).first k
      (personIn F i (F.initial + k)) := by
  obtain ⟨ra, h1, h2⟩ := h i hi
  have e : (F.initial + (k : ℤ) - F.initial).toNat = k := by omega
  unfold personIn
  rw [e]
  exact at_run (at_init h1 h2) k

theorem gross_eq {F : Family K} {c : ℕ → Contract K} (h : Wages F c) {i : ℕ} (hi : i < F.size)
    (k : ℕ) : gross F i (F.initial + k) = earns (c i) F.initial k := by
  obtain ⟨q, h1, -⟩ := at_gross (h.at hi k)
  unfold gross value
  rw [h1]
  rfl

theorem withheld_eq {F : Family K} {c : ℕ → Contract K} (h : Wages F c) {i : ℕ} (hi : i < F.size)
    (k : ℕ) : withheld F i (F.initial + k) = keptBack (c i) F.initial k := by
  obtain ⟨q, h1, -⟩ := at_withheld (h.at hi k)
  unfold withheld value
  rw [h1, (h.at hi k).year]
  rfl

theorem net_eq {F : Family K} {c : ℕ → Contract K} (h : Wages F c) {i : ℕ} (hi : i < F.size)
    (k : ℕ) : net F i (F.initial + k) = takesHome (c i) F.initial k := by
  obtain ⟨q, h1, -⟩ := at_net (h.at hi k)
  unfold net value
  rw [h1, (h.at hi k).year]
  rfl

/-- **C120.** The people the forecast is made with earn, in its `k`-th year, their first income grown
by the raises of all the years since (nothing once they have retired); what is withheld from it is what
their own tax says, and they take home the difference, paid as their payment timing says. -/
theorem C120_people {F : Family K} {c : ℕ → Contract K} (h : Wages F c) {i : ℕ} (hi : i < F.size)
    (k : ℕ) :
    ((household F).earner i (F.initial + k)).gross = earns (c i) F.initial k ∧
    ((household F).earner i (F.initial + k)).withheld = keptBack (c i) F.initial k ∧
    ((household F).earner i (F.initial + k)).net = takesHome (c i) F.initial k ∧
    ((household F).earner i (F.initial + k)).timing = (F.member i).timing :=
  ⟨gross_eq h hi k, withheld_eq h hi k, net_eq h hi k, rfl⟩

/-- Specification: the sum over the people of the family. -/
def everybody (F : Family K) (f : ℕ → K) : K := ((List.range F.size).map f).sum

/-- **C120.** The family's income in the `k`-th year is what its members take home. -/
theorem C120_income {F : Family K} {c : ℕ → Contract K} (h : Wages F c) (k : ℕ) :
    Household.incomeIn (household F) (F.initial + k)
      = everybody F fun i => takesHome (c i) F.initial k := by
  unfold Household.incomeIn everybody
  congr 1
  apply List.map_congr_left
  intro i hi
  exact net_eq h (List.mem_range.1 hi) k

/-! ### Living expenses -/

theorem get?_append {V : Type} (d e : Dict ℤ V) (y : ℤ) :
    Dict.get? (d ++ e) y = (Dict.get? d y).or (Dict.get? e y) := by
  induction d with
  | nil => rfl
  | cons a d ih =>
    rw [List.cons_append, Dict.get?_cons, Dict.get?_cons, ih]
    by_cases h : a.1 = y
    · simp [h]
    · simp [h]

theorem get?_years (f : ℤ → K) (y0 y : ℤ) (n : ℕ) :
    Dict.get? ((List.range n).map fun (k : ℕ) => (y0 + (k : ℤ), f (y0 + k))) y
      = if y0 ≤ y ∧ y < y0 + n then some (f y) else none := by
  induction n with
  | zero =>
    have : ¬ (y0 ≤ y ∧ y < y0 + (0 : ℕ)) := by push_cast; omega
    rw [if_neg this]; rfl
  | succ n ih =>
    rw [List.range_succ, List.map_append, get?_append, ih, List.map_cons, List.map_nil]
    by_cases h1 : y0 ≤ y ∧ y < y0 + (n : ℤ)
    · have h2 : y0 ≤ y ∧ y < y0 + ((n + 1 : ℕ) : ℤ) := by push_cast; omega
      rw [if_pos h1, if_pos h2]; rfl
    · rw [if_neg h1, Option.none_or, Dict.get?_cons]
      by_cases h2 : y0 + (n : ℤ) = y
      · have h3 : y0 ≤ y ∧ y < y0 + ((n + 1 : ℕ) : ℤ) := by push_cast; omega
        rw [if_pos h3, if_pos h2, h2]
      · have h3 : ¬ (y0 ≤ y ∧ y < y0 + ((n + 1 : ℕ) : ℤ)) := by push_cast; omega
        rw [if_neg h3]
        simp [h2, Dict.get?]

/-- Specification: the year in which the first member of the family retires. -/
def FirstRetirement (F : Family K) (c : ℕ → Contract K) (R : ℤ) : Prop :=
  (∃ i < F.size, (c i).retirement.year = R) ∧ ∀ i < F.size, R ≤ (c i).retirement.year

/-- Specification: the people a living expenses strategy is to be given in the `k`-th year: everyone,
with the income, the take-home pay and the accounts of that year, and with records of every year from
the first one up to this one, and of no other. -/
def Informed (F : Family K) (c : ℕ → Contract K) (k : ℕ) (ps : List (Expenses.Plannee K)) : Prop :=
  ps.length = F.size ∧ ∀ (i : ℕ) (p : Expenses.Plannee K), ps[i]? = some p →
    p.grossIncome = earns (c i) F.initial k ∧ p.netIncome = takesHome (c i) F.initial k ∧
    p.accounts = owned F i ∧
    (∀ j : ℕ, Dict.get? p.grossIncomeHistory (F.initial + j)
      = if j ≤ k then some (earns (c i) F.initial j) else none) ∧
    (∀ j : ℕ, Dict.get? p.netIncomeHistory (F.initial + j)
      = if j ≤ k then some (takesHome (c i) F.initial j) else none) ∧
    ∀ y < F.initial, Dict.get? p.grossIncomeHistory y = none ∧
      Dict.get? p.netIncomeHistory y = none

theorem records_get? (F : Family K) (f : ℤ → K) (k : ℕ) (y : ℤ) :
    Dict.get? (records F f (F.initial + k)) y
      = if F.initial ≤ y ∧ y < F.initial + (k + 1 : ℕ) then some (f y) else none := by
  have e : (F.initial + (k : ℤ) - F.initial).toNat = k := by omega
  unfold records
  rw [e]
  exact get?_years f F.initial y (k + 1)

theorem informed {F : Family K} {c : ℕ → Contract K} (h : Wages F c) (k : ℕ) :
    Informed F c k ((List.range F.size).map (plannee F (F.initial + k))) := by
  refine ⟨by simp, ?_⟩
  intro i p hp
  have hi : i < F.size := by
    have := (List.getElem?_eq_some_iff.1 hp).1
    simpa using this
  rw [List.getElem?_map, List.getElem?_range hi] at hp
  simp only [Option.map_some, Option.some.injEq] at hp
  subst hp
  have key : ∀ (f : ℤ → K) (g : ℕ → K), (∀ j : ℕ, f (F.initial + j) = g j) → ∀ j : ℕ,
      Dict.get? (records F f (F.initial + k)) (F.initial + j)
        = if j ≤ k then some (g j) else none := by
    intro f g hfg j
    rw [records_get?, hfg]
    by_cases hj : j ≤ k
    · rw [if_pos hj, if_pos (by push_cast; omega)]
    · rw [if_neg hj, if_neg (by push_cast; omega)]
  refine ⟨gross_eq h hi k, net_eq h hi k, rfl, key _ _ (gross_eq h hi), key _ _ (net_eq h hi), ?_⟩
  intro y hy
  constructor
  · show Dict.get? (records F _ _) y = none
    rw [records_get?, if_neg (by omega)]
  · show Dict.get? (records F _ _) y = none
    rw [records_get?, if_neg (by omega)]

theorem retirement_eq {F : Family K} {c : ℕ → Contract K} (h : Wages F c) {i : ℕ}
    (hi : i < F.size) : (F.member i).person.retirement = (c i).retirement := by
  obtain ⟨ra, h1, h2⟩ := h i hi
  exact (at_init h1 h2).retirement

/-- **C120.** In the `k`-th year the living expenses strategy is asked with that year, with the year in
which the first member of the family retires, and with everybody's incomes, records and accounts. -/
theorem C120_strategy_is_told {F : Family K} {c : ℕ → Contract K} (h : Wages F c) {R : ℤ}
    (hR : FirstRetirement F c R) (k : ℕ) (acc : ℕ → Acct K) :
    ∃ ps, Informed F c k ps ∧ (household F).expenses (F.initial + k) acc
      = F.plan.call (balances acc) (some ps) (some (F.initial + k)) (some R) := by
  refine ⟨_, informed h k, ?_⟩
  have e : ((List.range F.size).map fun i => (F.member i).person.retirement.year).min? = some R := by
    rw [List.min?_eq_some_iff]
    obtain ⟨⟨i, hi, h1⟩, h2⟩ := hR
    refine ⟨List.mem_map.2 ⟨i, List.mem_range.2 hi, by rw [retirement_eq h hi, h1]⟩, ?_⟩
    intro b hb
    obtain ⟨j, hj, rfl⟩ := List.mem_map.1 hb
    rw [retirement_eq h (List.mem_range.1 hj)]
    exact h2 j (List.mem_range.1 hj)
  show expenses F _ acc = _
  unfold expenses
  rw [e]

theorem informed_sum {F : Family K} {c : ℕ → Contract K} {k : ℕ} {ps : List (Expenses.Plannee K)}
    (h : Informed F c k ps) :
    (ps.map Expenses.Plannee.netIncome).sum = (everybody F fun i => takesHome (c i) F.initial k) ∧
    (ps.map Expenses.Plannee.grossIncome).sum = everybody F fun i => earns (c i) F.initial k := by
  obtain ⟨h1, h2⟩ := h
  have key : ∀ (f : Expenses.Plannee K → K) (g : ℕ → K),
      (∀ (i : ℕ) (p : Expenses.Plannee K), ps[i]? = some p → f p = g i) →
      (ps.map f).sum = everybody F g := by
    intro f g hfg
    unfold everybody
    congr 1
    apply List.ext_getElem?
    intro i
    rw [List.getElem?_map, List.getElem?_map]
    by_cases hi : i < F.size
    · rw [List.getElem?_range hi, List.getElem?_eq_getElem (by omega)]
      simp only [Option.map_some, Option.some.injEq]
      exact hfg i _ (List.getElem?_eq_getElem (by omega))
    · rw [List.getElem?_eq_none (by omega), List.getElem?_eq_none (by simp; omega)]
      rfl
  exact ⟨key _ _ fun i p hp => (h2 i p hp).2.1, key _ _ fun i p hp => (h2 i p hp).1⟩

/-- **C120.** What the family lives on in the `k`-th year: with constant living expenses, the base
amount adjusted to the year, whatever anybody earns; with a percentage of the net (gross) income, that
share of what the members take home (earn); with constant contributions, what they take home less the
adjusted amount; never less than nothing. -/
theorem C120_living_expenses {F : Family K} {c : ℕ → Contract K} (h : Wages F c) {R : ℤ}
    (hR : FirstRetirement F c R) {s : Expenses.Strat K} (hs : F.plan = .strategy s) (k : ℕ)
    (acc : ℕ → Acct K) :
    (s.kind = .netPercent → (household F).expenses (F.initial + k) acc
      = .ok (max (s.rate * everybody F fun i => takesHome (c i) F.initial k) 0)) ∧
    (s.kind = .grossPercent → (household F).expenses (F.initial + k) acc
      = .ok (max (s.rate * everybody F fun i => earns (c i) F.initial k) 0)) ∧
    (∀ a, s.kind = .constLivingExpenses → s.adjust (some (F.initial + k)) none = .ok a →
      (household F).expenses (F.initial + k) acc = .ok (max (s.baseAmount * a) 0)) ∧
    (∀ a, s.kind = .constContribution → s.adjust (some (F.initial + k)) none = .ok a →
      (household F).expenses (F.initial + k) acc
        = .ok (max ((everybody F fun i => takesHome (c i) F.initial k) - s.baseAmount * a) 0)) := by
  obtain ⟨ps, h1, h2⟩ := C120_strategy_is_told h hR k acc
  obtain ⟨e1, e2⟩ := informed_sum h1
  have hne : ps ≠ [] := by
    obtain ⟨⟨i, hi, -⟩, -⟩ := hR
    intro e
    have := h1.1
    rw [e] at this
    simp at this
    omega
  rw [h2, hs]
  show (_ → Expenses.call s _ _ _ _ = _) ∧ (_ → Expenses.call s _ _ _ _ = _) ∧
    (∀ a, _ → _ → Expenses.call s _ _ _ _ = _) ∧ (∀ a, _ → _ → Expenses.call s _ _ _ _ = _)
  rw [Expenses.call_eq s _ hne]
  refine ⟨fun hk => ?_, fun hk => ?_, fun a hk ha => ?_, fun a hk ha => ?_⟩
  · simp [Expenses.formula, hk, Expenses.each, Except.map, e1]
  · simp [Expenses.formula, hk, Expenses.each, Except.map, e2]
  · simp [Expenses.formula, hk, ha, Except.map]
  · simp [Expenses.formula, hk, ha, Expenses.each, Except.map, e1]

/-! ### Taxes -/

/-- Specification: a sum over the accounts of a person. -/
def overAccounts (F : Family K) (i : ℕ) (f : ℕ → K) : K := ((owned F i).map f).sum

/-- Specification: the tax of one person: the brackets `B` applied to what the person earns and what
the accounts count as income, less the personal deduction `pd` and twice the deductions of the accounts
(C49: the code counts them twice), less the credits of the accounts (twice) at the credit rate. -/
def assessed (F : Family K) (c : ℕ → Contract K) (k : ℕ) (B : Dict K K) (pd cr : K)
    (inc ded cred : ℕ → K) (i : ℕ) : K :=
  max (Tax.bracketTax (Tax.ascending B) (earns (c i) F.initial k + overAccounts F i inc
    - (pd + 2 * overAccounts F i ded)) - 2 * overAccounts F i cred * cr) 0

/-- **C120.** The accounts of a person are the family's assets and debts with that person as their owner, each
of them once. -/
theorem C120_accounts (F : Family K) (i : ℕ) :
    (∀ a, a ∈ owned F i ↔ (a ∈ F.assets ∨ a ∈ F.debts) ∧ (F.holding a).owner = i) ∧
    (owned F i).Nodup := by
  refine ⟨fun a => ?_, (List.nodup_dedup _).filter _⟩
  simp [owned]

theorem sumOwned_ok (F : Family K) {f : ℕ → Except PyErr K} {g : ℕ → K} {i : ℕ}
    (h : ∀ a ∈ owned F i, f a = .ok (g a)) : sumOwned F f i = .ok (overAccounts F i g) := by
  unfold sumOwned overAccounts
  revert h
  generalize owned F i = l
  intro h
  induction l with
  | nil => rfl
  | cons a l ih =>
    unfold Expenses.sumM
    rw [h a (by simp), ih fun b hb => h b (by simp [hb])]
    rfl

theorem mapM_total {α β : Type} {f : α → Except PyErr β} {g : α → β} {l : List α}
    (h : ∀ a ∈ l, f a = .ok (g a)) : l.mapM f = .ok (l.map g) := by
  induction l with
  | nil => rfl
  | cons a l ih =>
    rw [List.mapM_cons, h a (by simp), ih fun b hb => h b (by simp [hb])]
    rfl

/-- What the family owes in any year, in terms of what the people say they earn in it. -/
theorem owing_eq {F : Family K} {t t' : Tax.Tax K} (ht : F.tax = Tax.base t) (hr : Tax.Reachable t)
    (y : ℤ) {B : Dict K K} {pd cr : K} (hB : Tax.taxBrackets t y = .ok (B, t'))
    (hpd : Tax.personalDeduction t y = .ok pd)
    (hcr : Tax.creditRate t y = .ok cr) (hrates : ∀ kv ∈ B, 0 ≤ kv.2) (hcr0 : 0 ≤ cr)
    (acc : ℕ → Acct K) {inc ded cred : ℕ → K}
    (hinc : ∀ i < F.size, ∀ a ∈ owned F i, (F.holding a).taxableIncome (acc a) = .ok (inc a))
    (hded : ∀ i < F.size, ∀ a ∈ owned F i, (F.holding a).deduction (acc a) = .ok (ded a))
    (hcred : ∀ i < F.size, ∀ a ∈ owned F i, (F.holding a).credit (acc a) = .ok (cred a))
    (hc0 : ∀ i < F.size, 0 ≤ overAccounts F i cred) :
    owing F y acc = .ok (everybody F fun i =>
      max (Tax.bracketTax (Tax.ascending B) (gross F i y + overAccounts F i inc
        - (pd + 2 * overAccounts F i ded)) - 2 * overAccounts F i cred * cr) 0) := by
  let pr : ℕ → Tax.Payer K := fun i =>
    { id := i
      spouse := (F.member i).spouse
      taxableIncome := fun z => if z = y then some (gross F i y + overAccounts F i inc) else none
      taxDeduction := fun z => if z = y then some (overAccounts F i ded) else none
      taxCredit := fun z => if z = y then some (overAccounts F i cred) else none }
  have e1 : (List.range F.size).mapM (payer F y acc) = .ok ((List.range F.size).map pr) := by
    apply mapM_total
    intro i hi
    have hi' := List.mem_range.1 hi
    unfold payer
    rw [sumOwned_ok F (hinc i hi'), sumOwned_ok F (hded i hi'), sumOwned_ok F (hcred i hi')]
    rfl
  let v : Tax.Payer K → K := fun p =>
    max (Tax.bracketTax (Tax.ascending B) (gross F p.id y + overAccounts F p.id inc
      - (pd + 2 * overAccounts F p.id ded)) - 2 * overAccounts F p.id cred * cr) 0
  obtain ⟨j', h2⟩ := Tax.C31_calling (Tax.base t) hr (Tax.base_pure t) ((List.range F.size).map pr)
    (by
      rw [List.map_map]
      have : (Tax.Payer.id ∘ pr) = id := rfl
      rw [this, List.map_id]
      exact List.nodup_range) y none none v (by
      intro p hp
      obtain ⟨i, hi, rfl⟩ := List.mem_map.1 hp
      have hi' := List.mem_range.1 hi
      have h3 := Tax.C49_person_tax t (pr i) y 0 0 (gross F i y + overAccounts F i inc)
        (overAccounts F i ded) (overAccounts F i cred) pd (by simp [pr]) (by simp [pr])
        (by simp [pr]) hpd
      have h4 := Tax.C28_tax_is_bracket_sum' hr hB hcr (gross F i y + overAccounts F i inc)
        (pd + 2 * overAccounts F i ded + 0) (2 * overAccounts F i cred + 0) hrates
        (by have := hc0 i hi'; linarith) hcr0
      rw [h4] at h3
      have e : Dict.val ((none : Option (Dict ℕ K)).getD []) (pr i).id = 0 := rfl
      rw [e]
      cases h5 : Tax.taxPerson (Tax.base t) (pr i) y 0 0 with
      | error e => rw [h5] at h3; cases h3
      | ok r =>
        rw [h5] at h3
        simp only [Except.map, Except.ok.injEq] at h3
        refine ⟨r.2, ?_⟩
        have : r.1 = v (pr i) := by
          rw [h3, add_zero, add_zero]
        rw [← this])
  unfold owing
  rw [e1]
  simp only [bind, Except.bind]
  have h2' : Tax.call F.tax (.people ((List.range F.size).map pr)) y none none
      = .ok ((((List.range F.size).map pr).map v).sum, j') := by rw [ht]; exact h2
  rw [h2']
  simp only [Except.ok.injEq]
  unfold everybody
  rw [List.map_map]
  rfl

/-- **C120.** The tax the family owes for the `k`-th year is the sum of what each member owes: the
brackets of that year applied to the member's own income and the income of the member's accounts. -/
theorem C120_tax {F : Family K} {c : ℕ → Contract K} (h : Wages F c) {t t' : Tax.Tax K}
    (ht : F.tax = Tax.base t) (hr : Tax.Reachable t) (k : ℕ) {B : Dict K K} {pd cr : K}
    (hB : Tax.taxBrackets t (F.initial + k) = .ok (B, t'))
    (hpd : Tax.personalDeduction t (F.initial + k) = .ok pd)
    (hcr : Tax.creditRate t (F.initial + k) = .ok cr) (hrates : ∀ kv ∈ B, 0 ≤ kv.2) (hcr0 : 0 ≤ cr)
    (acc : ℕ → Acct K) {inc ded cred : ℕ → K}
    (hinc : ∀ i < F.size, ∀ a ∈ owned F i, (F.holding a).taxableIncome (acc a) = .ok (inc a))
    (hded : ∀ i < F.size, ∀ a ∈ owned F i, (F.holding a).deduction (acc a) = .ok (ded a))
    (hcred : ∀ i < F.size, ∀ a ∈ owned F i, (F.holding a).credit (acc a) = .ok (cred a))
    (hc0 : ∀ i < F.size, 0 ≤ overAccounts F i cred) :
    (household F).owing (F.initial + k) acc
      = .ok (everybody F (assessed F c k B pd cr inc ded cred)) := by
  refine (owing_eq ht hr _ hB hpd hcr hrates hcr0 acc hinc hded hcred hc0).trans ?_
  unfold everybody assessed
  congr 2
  apply List.map_congr_left
  intro i hi
  rw [gross_eq h (List.mem_range.1 hi) k]

/-! ### The whole forecast -/

open Forecaster.Household (Home Run Sound forecast cash moved opening holdings)
open Forecaster.Forecast (FS scenarioYears)

/-- **C120.** The family's forecast is one of the forecasts C79 is about: there is somebody in it, everybody is
paid at some time, and the strategies answer with plans that can be carried out. -/
theorem C120_sound {F : Family K} (hsize : F.size ≠ 0)
    (hpaid : ∀ i, Dict.WF (F.member i).timing ∧ Dict.total (F.member i).timing ≠ 0)
    (htiming : Dict.total (F.default .income) ≠ 0)
    (hsaving : ∀ y q p, F.saving y q = .ok p → Dict.WF p)
    (hwithdrawal : ∀ y q p, F.withdrawal y q = .ok p → Dict.WF p ∧
      ∀ e ∈ p, CashFlow.Rescalable e.2)
    (hrefund : Dict.WF F.refund ∧ Dict.total F.refund ≠ 0)
    (hpayment : Dict.WF F.payment ∧ Dict.total F.payment ≠ 0) : Sound (household F) where
  people := by
    show List.range F.size ≠ []
    simpa using hsize
  paid i _ := hpaid i
  timing := htiming
  saving := hsaving
  withdrawal := hwithdrawal
  refund := hrefund
  payment := hpayment

/-- Specification: the tables of the tax object in the `k`-th year of the forecast: brackets with rates
that are not negative, the personal deduction, and a credit rate that is not negative. -/
structure Tables (t : Tax.Tax K) (y0 : ℤ) (B : ℕ → Dict K K) (pd : ℕ → K) (k : ℕ) : Prop where
  brackets : ∃ t', Tax.taxBrackets t (y0 + k) = .ok (B k, t')
  deduction : Tax.personalDeduction t (y0 + k) = .ok (pd k)
  credits : ∃ cr, Tax.creditRate t (y0 + k) = .ok cr ∧ 0 ≤ cr
  rates : ∀ kv ∈ B k, 0 ≤ kv.2

/-- Specification: what an account has earned in the year it is in, a loss counting as nothing. -/
def Gain (x : Acct K) (g : K) : Prop := ∃ r, returns x = .ok r ∧ g = max r 0

/-- The report in terms of a run of the forecast. -/
theorem report_of_run {F : Family K} (hE : Sound (household F)) {c : ℕ → Contract K} (hw : Wages F c)
    {R : ℤ} (hR : FirstRetirement F c R) (hplain : ∀ a, ∃ o, F.holding a = plainHolding o)
    {t : Tax.Tax K} (ht : F.tax = Tax.base t) (htr : Tax.Reachable t) {n : ℕ} {B : ℕ → Dict K K}
    {pd : ℕ → K} (hT : ∀ k < n, Tables t F.initial B pd k) {accounts : ℕ → Acct K}
    (hacc : ∀ a, Account.Reachable (accounts a))
    {s : FS K (Home ℕ ℕ K)} {start fin : ℕ → FS K (Home ℕ ℕ K)}
    (hr : Run (household F) F.initial n accounts s start fin) :
    ∃ (living : ℕ → K) (gain : ℕ → ℕ → K),
      (∀ k < n, ∃ ps, Informed F c k ps ∧ F.plan.call (balances (start k).w.accounts) (some ps)
        (some (F.initial + k)) (some R) = .ok (living k)) ∧
      (∀ k a, k < n → Gain ((fin k).w.accounts a) (gain k a)) ∧
      s.w.report = (List.range n).map fun (k : ℕ) =>
        { income := everybody F fun i => takesHome (c i) F.initial k
          livingExpenses := living k
          savings := max ((everybody F fun i => takesHome (c i) F.initial k) - living k) 0
          principal := (F.assets.map fun a => opening ((start k).w.accounts a)).sum
          withdrawals := .fin (-(cash (start k) + (everybody F fun i => takesHome (c i) F.initial k)
            - living k - moved ((fin k).w.sub .saving).txs))
          tax := everybody F fun i => max (Tax.bracketTax (Tax.ascending (B k))
            (earns (c i) F.initial k + overAccounts F i (gain k) - pd k)) 0 } := by
  obtain ⟨owing, h1, h2⟩ := Household.C79_report hE hacc hr
  obtain ⟨_, h3, -⟩ := Household.C79_cash hE hacc hr
  have hg : ∀ k a, ∃ g, k < n → Gain ((fin k).w.accounts a) g := by
    intro k a
    by_cases hk : k < n
    · obtain ⟨b, r, -, hret, -⟩ := Account.returns_reconcile ((hr.books hE hacc k hk.le).acct a)
      exact ⟨max r 0, fun _ => ⟨r, hret, rfl⟩⟩
    · exact ⟨0, fun h => absurd h hk⟩
  choose gain hgain using hg
  refine ⟨fun k => (fin k).w.living, gain, ?_, fun k a hk => hgain k a hk, ?_⟩
  · intro k hk
    obtain ⟨ps, h4, h5⟩ := C120_strategy_is_told hw hR k (start k).w.accounts
    exact ⟨ps, h4, by rw [← h5]; exact h3 k hk.le⟩
  · rw [h2]
    apply List.map_congr_left
    intro k hk
    have hk' := List.mem_range.1 hk
    rw [C120_income hw k]
    have ho : owing k = everybody F fun i => max (Tax.bracketTax (Tax.ascending (B k))
        (earns (c i) F.initial k + overAccounts F i (gain k) - pd k)) 0 := by
      obtain ⟨⟨t', g1⟩, g2, ⟨cr, g3, g4⟩, g5⟩ := hT k hk'
      have zero : ∀ i, overAccounts F i (fun _ => (0 : K)) = 0 := by
        intro i; simp [overAccounts]
      have g6 := C120_tax hw ht htr k g1 g2 g3 g5 g4 (fin k).w.accounts (inc := gain k)
        (ded := fun _ => 0) (cred := fun _ => 0)
        (fun i _ a _ => by
          obtain ⟨o, e⟩ := hplain a
          obtain ⟨r, e1, e2⟩ := hgain k a hk'
          rw [e, e2]
          show Account.taxableIncome _ = _
          unfold Account.taxableIncome
          rw [e1]; rfl)
        (fun i _ a _ => by obtain ⟨o, e⟩ := hplain a; rw [e]; rfl)
        (fun i _ a _ => by obtain ⟨o, e⟩ := hplain a; rw [e]; rfl)
        (fun i _ => (zero i).ge)
      rw [h1 k hk'] at g6
      simp only [Except.ok.injEq] at g6
      rw [g6]
      unfold everybody assessed
      congr 1
      apply List.map_congr_left
      intro i _
      rw [zero]
      simp
    rw [ho]
    rfl

/-- **C120.** The report of a family with plain accounts, people, a tax and a living expenses strategy:
in the `k`-th year, the income is what the members take home, the living expenses are what the strategy
answers when it is told that year, the year of the first retirement and everybody's incomes and
accounts, and the tax is the sum over the members of the brackets applied to what each of them has
earned, at work and on their accounts, less the personal deduction. -/
theorem C120_report {F : Family K} (hE : Sound (household F)) {c : ℕ → Contract K} (hw : Wages F c)
    {R : ℤ} (hR : FirstRetirement F c R) (hplain : ∀ a, ∃ o, F.holding a = plainHolding o)
    {t : Tax.Tax K} (ht : F.tax = Tax.base t) (htr : Tax.Reachable t) {n : ℕ} {B : ℕ → Dict K K}
    {pd : ℕ → K} (hT : ∀ k < n, Tables t F.initial B pd k) {accounts : ℕ → Acct K}
    (hacc : ∀ a, Account.Reachable (accounts a))
    (hyear : ∀ a ∈ holdings (household F), (accounts a).year = F.initial) {s : FS K (Home ℕ ℕ K)}
    (h : forecast (household F) F.initial (scenarioYears F.initial (n + 1)) accounts = .ok s) :
    ∃ (start fin : ℕ → FS K (Home ℕ ℕ K)) (living : ℕ → K) (gain : ℕ → ℕ → K),
      Run (household F) F.initial n accounts s start fin ∧
      (∀ k < n, ∃ ps, Informed F c k ps ∧ F.plan.call (balances (start k).w.accounts) (some ps)
        (some (F.initial + k)) (some R) = .ok (living k)) ∧
      (∀ k a, k < n → Gain ((fin k).w.accounts a) (gain k a)) ∧
      s.w.report = (List.range n).map fun (k : ℕ) =>
        { income := everybody F fun i => takesHome (c i) F.initial k
          livingExpenses := living k
          savings := max ((everybody F fun i => takesHome (c i) F.initial k) - living k) 0
          principal := (F.assets.map fun a => opening ((start k).w.accounts a)).sum
          withdrawals := .fin (-(cash (start k) + (everybody F fun i => takesHome (c i) F.initial k)
            - living k - moved ((fin k).w.sub .saving).txs))
          tax := everybody F fun i => max (Tax.bracketTax (Tax.ascending (B k))
            (earns (c i) F.initial k + overAccounts F i (gain k) - pd k)) 0 } := by
  obtain ⟨start, fin, hr⟩ := Household.C79_run (E := household F) hyear h
  obtain ⟨living, gain, h1, h2, h3⟩ := report_of_run hE hw hR hplain ht htr hT hacc hr
  exact ⟨start, fin, living, gain, hr, h1, h2, h3⟩

/-! ### A family of two -/

section examples

/-- A fifth is withheld from what the first one earns; the second one has no raises and no tax. -/
def exContract : ℕ → Contract ℚ := fun i =>
  if i = 0 then ⟨fun _ => 1 / 10, ⟨2001, 7, 1, 0⟩, some fun g _ => g / 5, 1000⟩
  else ⟨fun _ => 0, ⟨2040, 1, 1, 0⟩, none, 200⟩

/-- `Person(initial_year=2000, ...)` twice. -/
def exPerson (i : ℕ) : Earner ℚ :=
  let c := exContract i
  match Earner.init 2000 c.retirement (if i = 0 then .scalar (1 / 10) else .none)
    (c.tax.map fun t => fun g y => .ok (t g y)) c.first with
  | .ok p => p
  | .error _ => ⟨0, ⟨0, 0, 0, 0⟩, fun _ => .ok none, none, [], [], []⟩

/-- They own an account each (the first one's grows by 10% a year) and live on half of what they take
home; what is left goes to the first one's account. -/
def exFamily : Family ℚ where
  initial := 2000
  size := 2
  member i := { person := exPerson i
                timing := [(1 / 2, 1)]
                spouse := some (1 - i) }
  assets := [0, 1]
  debts := []
  holding a := plainHolding a
  plan := .strategy ⟨.netPercent, 0, 1 / 2, fun _ _ => .ok 1⟩
  tax := Tax.base Tax.sampleTax
  refund := [(1 / 2, 1)]
  payment := [(0, 1)]
  default _ := [(1 / 2, 1)]
  ttv := fun _ _ _ => .ok .posInf
  saving _ _ := .ok [(0, [(1 / 2, 100)])]
  withdrawal _ _ := .ok []

/-- Their accounts in 2000. -/
def exAccounts : ℕ → Acct ℚ := fun a =>
  if a = 0 then Account.init 2000 500 (fun _ t => 1 + t / 10) [] else Account.init 2000 60 (fun _ _ => 1) []

theorem exFamily_wages : Wages exFamily exContract := by
  intro i hi
  by_cases h : i = 0
  · subst h
    refine ⟨.scalar (1 / 10), fun y => rfl, ?_⟩
    show _ = Except.ok (exPerson 0)
    unfold exPerson
    rfl
  · refine ⟨.none, fun y => ?_, ?_⟩
    · show (exContract i).raise y = 0
      unfold exContract; rw [if_neg h]
    · show _ = Except.ok (exPerson i)
      unfold exPerson exContract
      rw [if_neg h, if_neg h]
      rfl

theorem exFamily_retirement : FirstRetirement exFamily exContract 2001 := by
  refine ⟨⟨0, by decide, rfl⟩, fun i hi => ?_⟩
  unfold exContract
  by_cases h : i = 0
  · rw [if_pos h]
  · rw [if_neg h]; decide

theorem exFamily_sound : Sound (household exFamily) := by
  have w : ∀ t : ℚ, Dict.WF [(t, (1 : ℚ))] := fun t => by unfold Dict.WF; simp [Dict.keys]
  have z : ∀ t : ℚ, Dict.total [(t, (1 : ℚ))] ≠ 0 := fun t => by simp [Dict.total, Dict.vals]
  refine C120_sound (by decide) (fun _ => ⟨w _, z _⟩) (z _) ?_ ?_ ⟨w _, z _⟩ ⟨w _, z _⟩
  · intro y q p h; cases h; unfold Dict.WF; decide +kernel
  · intro y q p h; cases h; exact ⟨Dict.wf_nil, fun e he => by cases he⟩

theorem exFamily_tables : ∀ k < 3, Tables Tax.sampleTax 2000
    (fun _ => [(0, 1 / 10), (1000, 3 / 10), (100, 1 / 5)]) (fun _ => 50) k := by
  have rates : ∀ kv ∈ ([(0, 1 / 10), (1000, 3 / 10), (100, 1 / 5)] : Dict ℚ ℚ), 0 ≤ kv.2 := by
    decide +kernel
  have yes : ∀ (y : ℤ), (Tax.taxBrackets Tax.sampleTax y).map Prod.fst
      = .ok [(0, 1 / 10), (1000, 3 / 10), (100, 1 / 5)] →
      ∃ t', Tax.taxBrackets Tax.sampleTax y
        = .ok ([(0, 1 / 10), (1000, 3 / 10), (100, 1 / 5)], t') := by
    intro y h
    cases e : Tax.taxBrackets Tax.sampleTax y with
    | error e' => rw [e] at h; cases h
    | ok r =>
      rw [e] at h
      simp only [Except.map, Except.ok.injEq] at h
      exact ⟨r.2, by rw [← h]⟩
  intro k hk
  have hk' : k = 0 ∨ k = 1 ∨ k = 2 := by omega
  rcases hk' with rfl | rfl | rfl
  · exact ⟨yes _ (by decide +kernel), by decide +kernel, ⟨1 / 2, by decide +kernel, by decide +kernel⟩, rates⟩
  · exact ⟨yes _ (by decide +kernel), by decide +kernel, ⟨1 / 2, by decide +kernel, by decide +kernel⟩, rates⟩
  · exact ⟨yes _ (by decide +kernel), by decide +kernel, ⟨1 / 2, by decide +kernel, by decide +kernel⟩, rates⟩

/-- The report of four years: the first one retires in 2001, and earns nothing from 2002 on. -/
theorem exFamily_report : (forecast (household exFamily) 2000 (scenarioYears 2000 4) exAccounts).map
      (fun s => s.w.report.map fun r => (r.income, r.livingExpenses, r.savings, r.principal, r.tax))
    = .ok [(1000, 500, 500, 560, 423 / 2), (1080, 540, 540, 715, 4923 / 20),
      (200, 100, 100, 1771 / 2, 4751 / 200)] := by decide +kernel

/-- The hypotheses of C120 are met. -/
example : ∃ s, forecast (household exFamily) 2000 (scenarioYears 2000 4) exAccounts = .ok s ∧
    Sound (household exFamily) ∧ Wages exFamily exContract ∧
    FirstRetirement exFamily exContract 2001 ∧ (∀ a, ∃ o, exFamily.holding a = plainHolding o) ∧
    exFamily.tax = Tax.base Tax.sampleTax ∧ Tax.Reachable Tax.sampleTax ∧
    (∀ a, Account.Reachable (exAccounts a)) ∧ (∀ a, (exAccounts a).year = exFamily.initial) := by
  cases e : forecast (household exFamily) 2000 (scenarioYears 2000 4) exAccounts with
  | error e' =>
    have h := exFamily_report
    rw [e] at h
    cases h
  | ok s =>
    refine ⟨s, rfl, exFamily_sound, exFamily_wages, exFamily_retirement, fun a => ⟨a, rfl⟩, rfl,
      Tax.sample_reachable [], ?_, ?_⟩
    · intro a
      unfold exAccounts
      split
      · exact ⟨_, _, _, _, [], rfl⟩
      · exact ⟨_, _, _, _, [], rfl⟩
    · intro a
      unfold exAccounts
      split <;> rfl

end examples

end Forecaster.Family
