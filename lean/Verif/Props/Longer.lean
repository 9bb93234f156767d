import Verif.Props.Household
import Verif.Props.Inflation
import Mathlib.Data.List.Range

/-!
# C97: a longer forecast begins like a shorter one

`forecaster/forecast/base.py`, `forecaster/scenario.py`.
-/

set_option linter.unusedSectionVars false

namespace Forecaster.Forecast

open Forecaster Forecaster.Timing

variable {K : Type} [Field K] [LinearOrder K] [IsStrictOrderedRing K]
variable {W C : Type}

/-- Specification: a forecast that has been made goes on for one more year. -/
def anotherYear (V : World K W C) (s : FS K W) : Except PyErr (FS K W) := do
  let t ← nextYear V s
  callSubforecasts V t

/-- Specification: and for `m` more years. -/
def moreYears (V : World K W C) : ℕ → FS K W → Except PyErr (FS K W)
  | 0, s => .ok s
  | m + 1, s => do
    let t ← anotherYear V s
    moreYears V m t

theorem nextYear_year {V : World K W C} {s s' : FS K W} (h : nextYear V s = .ok s') :
    s'.year = s.year + 1 := by
  obtain ⟨_, _, _, _, _, _, _, _, h5, _⟩ := nextYear_parts h
  exact h5

theorem runYears_more (V : World K W C) (n : ℕ) : ∀ (s : FS K W) (last : ℤ), last = s.year + n →
    (do let t ← runYears V last n s
        callSubforecasts V t) = (do
      let t ← callSubforecasts V s
      moreYears V n t) := by
  induction n with
  | zero =>
    intro s last hl
    rw [runYears_eq, if_neg (by rw [hl]; simp), ok_bind]
    cases callSubforecasts V s <;> rfl
  | succ n ih =>
    intro s last hl
    rw [runYears_eq, if_pos (by rw [hl]; push_cast; omega)]
    simp only [bind_assoc]
    cases h1 : callSubforecasts V s with
    | error e => rfl
    | ok s1 =>
      simp only [ok_bind, moreYears, anotherYear, bind_assoc]
      cases h2 : nextYear V s1 with
      | error e => rfl
      | ok s2 =>
        simp only [ok_bind]
        refine ih s2 last ?_
        rw [nextYear_year h2, callSubforecasts_year h1, hl]
        push_cast
        ring

theorem init_more (V : World K W C) (initial : ℤ) (n : ℕ) (w : W) :
    init V initial (scenarioYears initial (n + 1)) w = (do
      let t ← callSubforecasts V ⟨initial, [], w⟩
      moreYears V n t) := by
  unfold init
  rw [years_max]
  simp only [add_sub_cancel_left, Int.toNat_natCast]
  exact runYears_more V n ⟨initial, [], w⟩ _ rfl

theorem moreYears_add (V : World K W C) (n m : ℕ) : ∀ s : FS K W,
    moreYears V (n + m) s = (do
      let t ← moreYears V n s
      moreYears V m t) := by
  induction n with
  | zero => intro s; rw [Nat.zero_add]; rfl
  | succ n ih =>
    intro s
    rw [Nat.succ_add]
    simp only [moreYears, bind_assoc]
    cases anotherYear V s with
    | error e => rfl
    | ok t => simp only [ok_bind]; exact ih t

/-- **C97.** A forecast of `n + 1 + m` years is the forecast of the first `n + 1` of them, continued
for `m` more: the additional years change nothing in the earlier ones, including whether, and how,
these raise an exception. -/
theorem C97_longer_forecast (V : World K W C) (initial : ℤ) (n m : ℕ) (w : W) :
    init V initial (scenarioYears initial (n + 1 + m)) w = (do
      let s ← init V initial (scenarioYears initial (n + 1)) w
      moreYears V m s) := by
  rw [show n + 1 + m = n + m + 1 by omega, init_more, init_more]
  simp only [bind_assoc, moreYears_add]

/-- **C97.** Hence a forecast that can be made for more years can be made for fewer; and one that
raises an exception raises it with more years too. -/
theorem C97_longer_or_not_at_all (V : World K W C) (initial : ℤ) (n m : ℕ) (w : W) :
    (∀ s', init V initial (scenarioYears initial (n + 1 + m)) w = .ok s' →
      ∃ s, init V initial (scenarioYears initial (n + 1)) w = .ok s ∧ moreYears V m s = .ok s') ∧
    (∀ e, init V initial (scenarioYears initial (n + 1)) w = .error e →
      init V initial (scenarioYears initial (n + 1 + m)) w = .error e) := by
  rw [C97_longer_forecast]
  cases h : init V initial (scenarioYears initial (n + 1)) w with
  | error e =>
    exact ⟨(fun s' h' => by cases h'), (fun e' h' => by cases h'; rfl)⟩
  | ok s => exact ⟨fun s' h' => ⟨s, rfl, h'⟩, (fun e' h' => by cases h')⟩

end Forecaster.Forecast

namespace Forecaster.Household

open Forecaster Forecaster.Timing Forecaster.Account Forecaster.SubForecast Forecaster.CashFlow

variable {K : Type} [Field K] [LinearOrder K] [IsStrictOrderedRing K]
variable {N A : Type} [DecidableEq N] [DecidableEq A]

theorem finish_report {w : Home N A K} {k : Kind} {r : Alloc (Option A) K × Option PyErr}
    {x : Home N A K × Dict K K} (h : finish w k r = .ok x) : x.1.report = w.report := by
  unfold finish at h
  split at h
  · cases h
  · cases h; rfl

theorem call_report {E : Env N A K} {k : Kind} {w : Home N A K} {av : Dict K K}
    {x : Home N A K × Dict K K} (h : call E k w av = .ok x) : x.1.report = w.report := by
  cases k with
  | income => exact finish_report h
  | saving => exact finish_report h
  | withdrawal => exact finish_report h
  | tax => exact finish_report h
  | living =>
    simp only [call] at h
    cases hf : finishPlain w .living
      (livingCall E.ttv (E.default .living) none (earners E w)
        (E.expenses (w.sub .living).year w.accounts) (enter E w .living av)) with
    | error e => rw [hf] at h; cases h
    | ok y =>
      rw [hf] at h
      cases h
      have := finish_report hf
      unfold noteLiving
      split <;> exact this

theorem calls_report {E : Env N A K} {s s' : Forecast.FS K (Home N A K)}
    (h : Forecast.callSubforecasts (world E) s = .ok s') : s'.w.report = s.w.report := by
  have gen : ∀ (l : List Kind) (s : Forecast.FS K (Home N A K)),
      (l.map Comp.sub).foldlM (fun (s : Forecast.FS K (Home N A K)) (c : Comp N A) => do
        let r ← (world E).call c s.w s.available
        Except.ok { s with w := r.1, available := r.2 }) s = .ok s' →
      s'.w.report = s.w.report := by
    intro l
    induction l with
    | nil => intro s h; cases h; rfl
    | cons k l ih =>
      intro s h
      rw [List.map_cons, List.foldlM_cons] at h
      cases hc : (world E).call (.sub k) s.w s.available with
      | error e => rw [hc] at h; cases h
      | ok r =>
        rw [hc] at h
        simp only [ok_bind] at h
        exact (ih _ h).trans (call_report hc)
  exact gen [.income, .living, .saving, .withdrawal, .tax] s h

theorem advance_report {E : Env N A K} {c : Comp N A} {w w' : Home N A K}
    (h : advance E c w = .ok w') : w'.report = w.report := by
  cases c with
  | sub k => cases h; rfl
  | person i => cases h; rfl
  | account a =>
    simp only [advance] at h
    cases hn : Account.nextYear (w.accounts a) with
    | error e => rw [hn] at h; cases h
    | ok x => rw [hn] at h; cases h; rfl

theorem catchUp_report {E : Env N A K} {y : ℤ} {c : Comp N A} : ∀ (n : ℕ) {w w' : Home N A K},
    Forecast.catchUp (world E) y c n w = .ok w' → w'.report = w.report := by
  intro n
  induction n with
  | zero =>
    intro w w' h
    rw [Forecast.catchUp_eq] at h
    split at h
    · cases h
    · cases h; rfl
  | succ n ih =>
    intro w w' h
    rw [Forecast.catchUp_eq] at h
    split at h
    · simp only at h
      cases ha : (world E).advance c w with
      | error e => rw [ha] at h; cases h
      | ok w1 =>
        rw [ha, ok_bind] at h
        exact (ih h).trans (advance_report ha)
    · cases h; rfl

theorem nextYear_report {E : Env N A K} {s s' : Forecast.FS K (Home N A K)}
    (h : Forecast.nextYear (world E) s = .ok s') :
    ∃ r, row E s.w = .ok r ∧ s'.w.report = s.w.report ++ [r] := by
  unfold Forecast.nextYear at h
  have ht : ∀ x, (world E).taxAdjustment s.w = .ok x → x.2 = s.w := by
    intro x hx
    simp only [world, taxAdjustment] at hx
    cases ha : adjustment E s.w with
    | error e => rw [ha] at hx; cases hx
    | ok y => rw [ha] at hx; cases hx; rfl
  cases h1 : (world E).taxAdjustment s.w with
  | error e => rw [h1] at h; cases h
  | ok x =>
    have hx := ht x h1
    rw [h1, ok_bind] at h
    rw [hx] at h
    cases h2 : row E s.w with
    | error e =>
      have : (world E).record s.w s.available = .error e := by
        show record E s.w s.available = _
        simp only [record, h2]; rfl
      rw [this] at h; cases h
    | ok r =>
      have : (world E).record s.w s.available = .ok { s.w with report := s.w.report ++ [r] } := by
        show record E s.w s.available = _
        simp only [record, h2]; rfl
      rw [this, ok_bind] at h
      refine ⟨r, rfl, ?_⟩
      have fold : ∀ (l : List (Comp N A)) (w w' : Home N A K),
          l.foldlM (Forecast.bring (world E) (s.year + 1)) w = .ok w' → w'.report = w.report := by
        intro l
        induction l with
        | nil => intro w w' h; cases h; rfl
        | cons c l ih =>
          intro w w' h
          rw [List.foldlM_cons] at h
          cases hb : Forecast.bring (world E) (s.year + 1) w c with
          | error e => rw [hb] at h; cases h
          | ok w1 =>
            rw [hb, ok_bind] at h
            exact (ih _ _ h).trans (catchUp_report _ hb)
      cases hm : ((world E).forecasts ++ (world E).people ++ (world E).accounts).foldlM
          (Forecast.bring (world E) (s.year + 1)) { s.w with report := s.w.report ++ [r] } with
      | error e => rw [hm] at h; cases h
      | ok w2 =>
        rw [hm, ok_bind] at h
        cases hc : Forecast.carryoverTax (world E) w2 [(0, 0 + Dict.total s.available)] x.1 with
        | error e => rw [hc] at h; cases h
        | ok av =>
          rw [hc] at h
          cases h
          exact fold _ _ _ hm

/-- **C97** (a household). The report of a forecast of `n + 1 + m` years begins with the whole report
of the forecast of the first `n + 1` of them, followed by the last of these years and `m - 1` further
ones. -/
theorem C97_longer_report (E : Env N A K) (initial : ℤ) (n m : ℕ) (accounts : A → Acct K)
    {s' : Forecast.FS K (Home N A K)}
    (h : forecast E initial (Forecast.scenarioYears initial (n + 1 + m)) accounts = .ok s') :
    ∃ s rows, forecast E initial (Forecast.scenarioYears initial (n + 1)) accounts = .ok s ∧
      s.w.report.length = n ∧ rows.length = m ∧ s'.w.report = s.w.report ++ rows ∧
      (∀ r, rows.head? = some r → row E s.w = .ok r) := by
  have more : ∀ (m : ℕ) (s s' : Forecast.FS K (Home N A K)),
      Forecast.moreYears (world E) m s = .ok s' → ∃ rows, rows.length = m ∧
        s'.w.report = s.w.report ++ rows ∧ (∀ r, rows.head? = some r → row E s.w = .ok r) := by
    intro m
    induction m with
    | zero =>
      intro s s' h
      cases h
      exact ⟨[], rfl, by simp, by simp⟩
    | succ m ih =>
      intro s s' h
      simp only [Forecast.moreYears, Forecast.anotherYear, bind_assoc] at h
      cases h1 : Forecast.nextYear (world E) s with
      | error e => rw [h1] at h; cases h
      | ok t =>
        rw [h1, ok_bind] at h
        cases h2 : Forecast.callSubforecasts (world E) t with
        | error e => rw [h2] at h; cases h
        | ok u =>
          rw [h2, ok_bind] at h
          obtain ⟨r, hr, e1⟩ := nextYear_report h1
          obtain ⟨rows, hl, e2, -⟩ := ih u s' h
          refine ⟨r :: rows, by simp [hl], ?_, ?_⟩
          · rw [e2, calls_report h2, e1]; simp
          · intro r' hr'; cases hr'; exact hr
  obtain ⟨s, hs, hm⟩ := (Forecast.C97_longer_or_not_at_all (world E) initial n m
    (Home.new initial accounts)).1 s' h
  obtain ⟨rows, h1, h2, h3⟩ := more m s s' hm
  refine ⟨s, rows, hs, ?_, h1, h2, h3⟩
  have hi := Forecast.init_more (world E) initial n (Home.new initial accounts)
  rw [hs] at hi
  cases hc : Forecast.callSubforecasts (world E) ⟨initial, [], Home.new initial accounts⟩ with
  | error e => rw [hc] at hi; cases hi
  | ok t =>
    rw [hc, ok_bind] at hi
    obtain ⟨rows', g1, g2, -⟩ := more n t s hi.symm
    rw [g2, calls_report hc]
    simp [Home.new, g1]

/-- The couple's forecast for three years and for five. -/
example :
    (forecast exHome 2020 (Forecast.scenarioYears 2020 (2 + 1)) exAccounts).map
      (fun s => s.w.report.map fun r => (r.income, r.livingExpenses, r.principal))
      = .ok [(120, 60, 100), (122, 61, 231 / 2)] ∧
    ((forecast exHome 2020 (Forecast.scenarioYears 2020 (2 + 1 + 2)) exAccounts).map
      (fun s => (s.w.report.map fun r => (r.income, r.livingExpenses, r.principal)).take 2))
      = .ok [(120, 60, 100), (122, 61, 231 / 2)] := by
  constructor <;> decide +kernel

end Forecaster.Household

namespace Forecaster.Inflation

open Forecaster

variable {K : Type} [Field K] [LinearOrder K] [IsStrictOrderedRing K]

/-- Specification: the rates of a longer scenario. -/
inductive Longer : RateArg K → RateArg K → Prop
  | scalar (x : K) : Longer (.scalar x) (.scalar x)
  | list (l more : List K) : Longer (.list l) (.list (l ++ more))
  | dict (d d' : Dict ℤ K) (h : ∀ y v, Dict.get? d y = some v → Dict.get? d' y = some v) :
      Longer (.dict d) (.dict d')

theorem get_longer {a b : RateArg K} (h : Longer a b) (y0 : ℤ) {r r' : Rates K}
    (hr : buildDict y0 a = .ok r) (hr' : buildDict y0 b = .ok r') (y : ℤ) (x : K)
    (hx : r.get y = .ok x) : r'.get y = .ok x := by
  cases h with
  | scalar x' => rw [hr] at hr'; cases hr'; exact hx
  | list l more =>
    obtain ⟨q, h1, h2⟩ := (C11_scenario_years y0 1 (.scalar 0 : RateArg K) (.scalar 0) (.scalar 0)
      (.scalar 0) (.scalar 0)).2.2.1 l
    obtain ⟨q', h1', h2'⟩ := (C11_scenario_years y0 1 (.scalar 0 : RateArg K) (.scalar 0) (.scalar 0)
      (.scalar 0) (.scalar 0)).2.2.1 (l ++ more)
    rw [h1] at hr; cases hr
    rw [h1'] at hr'; cases hr'
    rw [h2] at hx
    rw [h2']
    split at hx
    · cases hx
    · rename_i hy
      rw [if_neg hy]
      cases hl : l[(y - y0).toNat]? with
      | none => rw [hl] at hx; cases hx
      | some v =>
        rw [hl] at hx
        rw [List.getElem?_append_left (by
          by_contra hc
          rw [List.getElem?_eq_none (not_lt.1 hc)] at hl
          cases hl), hl]
        exact hx
  | dict d d' hd =>
    cases hr; cases hr'
    unfold Rates.get at hx ⊢
    cases hg : Dict.get? d y with
    | none => simp only [hg] at hx; cases hx
    | some v =>
      simp only [hg] at hx
      simp only [hd y v hg]
      exact hx

/-- **C97** (the scenario). A scenario with more years, whose rates are the same as far as the shorter
one has them, has the same years to begin with, the same rate in every year for which the shorter one
has one, and the same factor of inflation between any two years for which the shorter one has one. -/
theorem C97_longer_scenario {y0 n n' : ℤ} (hn : n ≤ n') {i s b o m i' s' b' o' m' : RateArg K}
    (hi : Longer i i') (hs : Longer s s') (hb : Longer b b') (ho : Longer o o') (hm : Longer m m')
    {sc sc' : Scenario K} (h : Scenario.init y0 n i s b o m = .ok sc)
    (h' : Scenario.init y0 n' i' s' b' o' m' = .ok sc') :
    sc.years <+: sc'.years ∧
    (∀ y x, sc.inflation.get y = .ok x → sc'.inflation.get y = .ok x) ∧
    (∀ y x, sc.stockReturn.get y = .ok x → sc'.stockReturn.get y = .ok x) ∧
    (∀ y x, sc.bondReturn.get y = .ok x → sc'.bondReturn.get y = .ok x) ∧
    (∀ y x, sc.otherReturn.get y = .ok x → sc'.otherReturn.get y = .ok x) ∧
    (∀ y x, sc.managementFees.get y = .ok x → sc'.managementFees.get y = .ok x) ∧
    (∀ target base x, sc.inflationAdjust target base = .ok x →
      sc'.inflationAdjust target base = .ok x) := by
  obtain ⟨a1, -, -, -, a5, a6, a7, a8, a9⟩ := (C11_scenario_years y0 n i s b o m).2.1 sc h
  obtain ⟨b1, -, -, -, b5, b6, b7, b8, b9⟩ := (C11_scenario_years y0 n' i' s' b' o' m').2.1 sc' h'
  have num : ∀ {n : ℤ} {i s b o m : RateArg K} {sc : Scenario K},
      Scenario.init y0 n i s b o m = .ok sc → sc.numYears = n := by
    intro n i s b o m sc h
    unfold Scenario.init at h
    split at h
    · cases h
    · cases h1 : buildDict y0 i <;> rw [h1] at h <;> try cases h
      cases h2 : buildDict y0 s <;> rw [h2] at h <;> try cases h
      cases h3 : buildDict y0 b <;> rw [h3] at h <;> try cases h
      cases h4 : buildDict y0 o <;> rw [h4] at h <;> try cases h
      cases h5 : buildDict y0 m <;> rw [h5] at h <;> try cases h
      rfl
  have hinf := fun y x => get_longer hi y0 a5 b5 y x
  have loop : ∀ a c x, accumLoop sc.inflation a c = .ok x → accumLoop sc'.inflation a c = .ok x := by
    intro a c
    unfold accumLoop
    suffices g : ∀ (l : List ℤ) (z x : K),
        l.foldlM (fun accum year => do
          let rate ← sc.inflation.get year
          Except.ok (accum * (1 + rate))) z = .ok x →
        l.foldlM (fun accum year => do
          let rate ← sc'.inflation.get year
          Except.ok (accum * (1 + rate))) z = .ok x from g _ 1
    intro l
    induction l with
    | nil => intro z x hx; exact hx
    | cons y l ih =>
      intro z x hx
      rw [List.foldlM_cons] at hx ⊢
      cases hg : sc.inflation.get y with
      | error e => rw [hg] at hx; cases hx
      | ok v =>
        rw [hg] at hx
        rw [hinf y v hg]
        exact ih _ _ hx
  refine ⟨?_, hinf, fun y x => get_longer hs y0 a6 b6 y x, fun y x => get_longer hb y0 a7 b7 y x,
    fun y x => get_longer ho y0 a8 b8 y x, fun y x => get_longer hm y0 a9 b9 y x, ?_⟩
  · unfold Scenario.years pyRange
    rw [a1, b1, num h, num h']
    refine List.IsPrefix.map _ ?_
    rw [add_sub_cancel_left, add_sub_cancel_left]
    have hle : n.toNat ≤ n'.toNat := by omega
    rw [← Nat.add_sub_of_le hle, List.range_add]
    exact List.prefix_append _ _
  · intro target base x hx
    unfold Scenario.inflationAdjust accumulationFunction at hx ⊢
    rw [a1] at hx
    rw [b1]
    split at hx
    · rename_i hle
      rw [if_pos hle]
      exact loop _ _ _ hx
    · rename_i hle
      rw [if_neg hle]
      cases hl : accumLoop sc.inflation target (base.getD y0) with
      | error e => rw [hl] at hx; cases hx
      | ok v =>
        rw [hl] at hx
        rw [loop _ _ _ hl]
        exact hx

/-- Two scenarios, of two and of three years. -/
example : ∃ sc sc', Scenario.init 2000 2 (.list [1 / 10, 1 / 5]) (.scalar (1 / 20 : ℚ)) (.scalar 0)
      (.dict [(2000, 1 / 50)]) (.scalar 0) = .ok sc ∧
    Scenario.init 2000 3 (.list ([1 / 10, 1 / 5] ++ [1 / 4])) (.scalar (1 / 20 : ℚ)) (.scalar 0)
      (.dict [(2000, 1 / 50), (2001, 0)]) (.scalar 0) = .ok sc' ∧
    Longer (.dict [(2000, 1 / 50)] : RateArg ℚ) (.dict [(2000, 1 / 50), (2001, 0)]) ∧
    sc.inflationAdjust 2002 none = .ok (33 / 25) ∧ sc'.inflationAdjust 2002 none = .ok (33 / 25) := by
  refine ⟨_, _, rfl, rfl, ?_, by decide +kernel, by decide +kernel⟩
  refine .dict _ _ fun y v h => ?_
  unfold Dict.get? at h ⊢
  split at h
  · rename_i e; simp only [e, if_true]; exact h
  · cases h

end Forecaster.Inflation
