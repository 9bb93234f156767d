import Verif.Lemmas.Household
import Verif.Props.Account

/-!
# C79: a household's forecast from beginning to end

Specification vocabulary: `Sound E` says what a user may assume of a household (somebody to
forecast for, proper timings, plans that are dicts of transactions); `incomeIn E y` is what
everybody takes home in year `y`; `moved txs` is the net of all the transactions of a plan;
`cash s` is the money at hand; `opening`, `closing` and `earned` are an account's balance at the
start and at the end of its year and its returns; `wealth s` is the money at hand together with
the closing balance of every account.
-/

set_option linter.unusedSectionVars false

namespace Forecaster.Household

open Forecaster Forecaster.Timing Forecaster.Account Forecaster.SubForecast Forecaster.CashFlow
open Forecaster.Forecast (FS scenarioYears Clockwork Timed components)

variable {K : Type} [Field K] [LinearOrder K] [IsStrictOrderedRing K]
variable {N A : Type} [DecidableEq N] [DecidableEq A]

/-- Specification: a household that can be forecast. -/
structure Sound (E : Env N A K) : Prop where
  people : E.people ≠ []
  paid : ∀ i y, Dict.WF (E.earner i y).timing ∧ Dict.total (E.earner i y).timing ≠ 0
  timing : Dict.total (E.default .income) ≠ 0
  saving : ∀ y q p, E.saving y q = .ok p → Dict.WF p
  withdrawal : ∀ y q p, E.withdrawal y q = .ok p → Dict.WF p ∧ ∀ e ∈ p, Rescalable e.2
  refund : Dict.WF E.refund ∧ Dict.total E.refund ≠ 0
  payment : Dict.WF E.payment ∧ Dict.total E.payment ≠ 0

/-- Specification: everybody's net income in year `y`. -/
def incomeIn (E : Env N A K) (y : ℤ) : K := (E.people.map fun i => (E.earner i y).net).sum

/-- Specification: the tax withheld at source from everybody's income in year `y`. -/
def withheldIn (E : Env N A K) (y : ℤ) : K := (E.people.map fun i => (E.earner i y).withheld).sum

/-- Specification: the net of all the transactions of a plan. -/
def moved {X : Type} (txs : Dict X (Dict K K)) : K := (txs.map fun e => Dict.total e.2).sum

/-- Specification: the money at hand. -/
def cash (s : FS K (Home N A K)) : K := Dict.total s.available

/-- Specification: the value of a figure that can be read (0 otherwise). -/
def figure (x : Except PyErr K) : K :=
  match x with
  | .ok v => v
  | .error _ => 0

/-- Specification: an account's balance at the start of its year. -/
def opening (a : Acct K) : K := figure (balance a)
/-- Specification: an account's balance at the end of its year. -/
def closing (a : Acct K) : K := figure (balanceAtTime a (.str "end") none)
/-- Specification: an account's returns for its year. -/
def earned (a : Acct K) : K := figure (returns a)

/-- Specification: all the accounts of the forecast, each once. -/
def holdings (E : Env N A K) : List A := (E.assets ++ E.debts).dedup

/-- Specification: everything the household owns (debts are negative) at the end of the year. -/
def wealth (E : Env N A K) (s : FS K (Home N A K)) : K :=
  cash s + ((holdings E).map fun a => closing (s.w.accounts a)).sum

/-! ### Keeping time -/

/-- C79 (time): the sub-forecasts, people and accounts of every household keep time: advancing
one moves it on by exactly one year (an account may pull its owner along, never beyond itself),
and calling a sub-forecast, reading the tax or recording the year moves nothing. -/
theorem C79_keeps_time (E : Env N A K) : Clockwork (world E) where
  step c w w' h := by
    cases c with
    | sub k =>
      simp only [world, advance, Except.ok.injEq] at h ⊢
      subst h
      simp [yearOf, put, Sub.next]
    | person i =>
      simp only [world, advance, Except.ok.injEq] at h ⊢
      subst h
      simp [yearOf, put]
    | account a =>
      simp only [world, advance] at h ⊢
      cases hn : Account.nextYear (w.accounts a) with
      | error e => rw [hn] at h; simp at h
      | ok x =>
        rw [hn] at h
        simp only [ok_bind, Except.ok.injEq] at h
        subst h
        simp only [yearOf, put, if_true]
        unfold Account.nextYear at hn
        cases hb : balance (w.accounts a) with
        | error e => rw [hb] at hn; simp at hn
        | ok b => rw [hb] at hn; simp only [ok_bind, Except.ok.injEq] at hn; subst hn; rfl
  others c w w' h c' := by
    cases c with
    | sub k =>
      simp only [world, advance, Except.ok.injEq] at h ⊢
      subst h
      cases c' with
      | sub k' =>
        simp only [yearOf]
        by_cases hk : k' = k
        · subst hk
          simp only [put_same, Sub.next]
          exact ⟨by omega, le_max_right _ _⟩
        · rw [put_other _ hk]; exact ⟨le_refl _, le_max_left _ _⟩
      | person i => exact ⟨le_refl _, le_max_left _ _⟩
      | account a => exact ⟨le_refl _, le_max_left _ _⟩
    | person i =>
      simp only [world, advance, Except.ok.injEq] at h ⊢
      subst h
      cases c' with
      | sub k' => exact ⟨le_refl _, le_max_left _ _⟩
      | person j =>
        simp only [yearOf]
        by_cases hk : j = i
        · subst hk
          simp only [put_same]
          exact ⟨by omega, le_max_right _ _⟩
        · rw [put_other _ hk]; exact ⟨le_refl _, le_max_left _ _⟩
      | account a => exact ⟨le_refl _, le_max_left _ _⟩
    | account a =>
      simp only [world, advance] at h ⊢
      cases hn : Account.nextYear (w.accounts a) with
      | error e => rw [hn] at h; simp at h
      | ok x =>
        have hx : x.year = (w.accounts a).year + 1 := by
          unfold Account.nextYear at hn
          cases hb : balance (w.accounts a) with
          | error e => rw [hb] at hn; simp at hn
          | ok b => rw [hb] at hn; simp only [ok_bind, Except.ok.injEq] at hn; subst hn; rfl
        rw [hn] at h
        simp only [ok_bind, Except.ok.injEq] at h
        subst h
        cases c' with
        | sub k' => exact ⟨le_refl _, le_max_left _ _⟩
        | person j =>
          simp only [yearOf, put_same, hx]
          unfold bringOwner
          cases ho : E.owner a with
          | none => exact ⟨le_refl _, le_max_left _ _⟩
          | some i =>
            simp only
            by_cases hk : j = i
            · subst hk
              rw [put_same]
              exact ⟨le_max_left _ _, max_le_max (le_refl _) (by omega)⟩
            · rw [put_other _ hk]; exact ⟨le_refl _, le_max_left _ _⟩
        | account b =>
          simp only [yearOf, put_same, hx]
          by_cases hk : b = a
          · subst hk
            rw [put_same, hx]
            exact ⟨by omega, le_max_right _ _⟩
          · rw [put_other _ hk]; exact ⟨le_refl _, le_max_left _ _⟩
  called c w a r h c' := by
    cases c with
    | sub k => exact call_years h c'
    | person i => simp [world] at h
    | account b => simp [world] at h
  taxed w r h c' := by
    simp only [world, taxAdjustment] at h ⊢
    cases ha : adjustment E w with
    | error e => rw [ha] at h; simp at h
    | ok x => rw [ha] at h; simp only [ok_bind, Except.ok.injEq] at h; subst h; rfl
  recorded w a w' h c' := by
    simp only [world, record] at h ⊢
    cases ha : row E w with
    | error e => rw [ha] at h; simp at h
    | ok x =>
      rw [ha] at h; simp only [ok_bind, Except.ok.injEq] at h; subst h
      cases c' <;> rfl

theorem timed (E : Env N A K) (hE : Sound E) : Timed (world E) where
  refund w d h := by cases h; exact hE.refund
  payment w d h := by cases h; exact hE.payment

/-! ### One year -/

/-- A household at the start of a year. -/
structure Ready (w : Home N A K) (available : Dict K K) : Prop where
  books : Books w available
  idle : ∀ k, Idle (w.sub k)

theorem paid_earners {E : Env N A K} (hE : Sound E) (w : Home N A K) :
    PaidProperly (earners E w) := by
  intro e he
  simp only [earners, List.mem_map] at he
  obtain ⟨i, -, rfl⟩ := he
  exact hE.paid i _

theorem Idle.of_only {w w' : Home N A K} {k k' : Kind} (h : OnlySub w w' k) (hk : k' ≠ k)
    (hi : Idle (w.sub k')) : Idle (w'.sub k') := by rw [h.others k' hk]; exact hi

theorem earners_only {E : Env N A K} {w w' : Home N A K} {k : Kind} (h : OnlySub w w' k) :
    earners E w' = earners E w := by unfold earners; rw [h.people]

theorem moved_plan (p : Dict A (Dict K K)) : moved (plan p) = moved p := by
  simp [moved, plan, List.map_map, Function.comp_def]

theorem SameAccounts.trans {w w' w'' : Home N A K} (h : SameAccounts w w')
    (h' : SameAccounts w' w'') : SameAccounts w w'' := fun a => (h' a).trans (h a)

/-- C79 (one year): in a year of a household's forecast the money at hand grows by everybody's
net income and by what is withdrawn (plus the change of the tax withheld from withdrawals), and
shrinks by the living expenses and the savings. The living expenses are the strategy's answer for
this year; the saving strategy is asked with what is left after them, the withdrawal strategy with
what is left after saving, and only assets are drawn on; every account receives exactly what the
two plans say, and is otherwise unchanged. -/
theorem C79_year {E : Env N A K} (hE : Sound E) {s s' : FS K (Home N A K)}
    (hr : Ready s.w s.available) (h : Forecast.callSubforecasts (world E) s = .ok s') :
    ∃ (P Q : Dict A (Dict K K)) (seenP seenQ : Option A → Pool K),
      E.expenses (s.w.sub .living).year s.w.accounts = .ok s'.w.living ∧
      E.saving (s.w.sub .saving).year seenP = .ok P ∧
      Dict.total (seenP none).txns
        = cash s + ((earners E s.w).map Earner.net).sum - s'.w.living ∧
      E.withdrawal (s.w.sub .withdrawal).year seenQ = .ok Q ∧
      Dict.total (seenQ none).txns
        = cash s + ((earners E s.w).map Earner.net).sum - s'.w.living - moved P ∧
      (∀ a ∈ Dict.keys Q, a ∈ E.assets) ∧
      (s'.w.sub .saving).txs = plan P ∧ (s'.w.sub .withdrawal).txs = plan Q ∧
      (s'.w.sub .withdrawal).total = .fin (Dict.total (seenQ none).txns) ∧
      cash s' = cash s + ((earners E s.w).map Earner.net).sum - s'.w.living - moved P - moved Q
        + ((s'.w.sub .withdrawal).withheld - (s.w.sub .withdrawal).withheld) ∧
      (∀ a, Dict.total (s'.w.accounts a).txns
        = Dict.total (s.w.accounts a).txns + due P a + due Q a) ∧
      SameAccounts s.w s'.w ∧
      (∀ a, a ∉ Dict.keys P → a ∉ Dict.keys Q → s'.w.accounts a = s.w.accounts a) ∧
      Books s'.w s'.available ∧ s'.w.report = s.w.report ∧ s'.w.personYear = s.w.personYear ∧
      Dict.WF P ∧ Dict.WF Q := by
  obtain ⟨w1, v1, w2, v2, w3, v3, w4, v4, h1, h2, h3, h4, h5, -⟩ := calls_parts h
  obtain ⟨a1, a2, a3, a4, a5⟩ := call_income hr.books (hr.idle _) hE.timing (paid_earners hE _) h1
  have i2 : Idle (w1.sub .living) := (hr.idle .living).of_only a1 (by decide)
  obtain ⟨b1, b2, b3, b4, b5, b6⟩ := call_living a2 i2 hE.people (paid_earners hE _) h2
  have i3 : Idle (w2.sub .saving) :=
    Idle.of_only b1 (by decide) (Idle.of_only a1 (by decide) (hr.idle .saving))
  obtain ⟨c1, c2, c3, c4, P, c5, c6, c7, c8, c9⟩ := call_saving b2 i3 (fun p => hE.saving _ _ p) h3
  have i4 : Idle (w3.sub .withdrawal) := Idle.of_only c1 (by decide)
    (Idle.of_only b1 (by decide) (Idle.of_only a1 (by decide) (hr.idle .withdrawal)))
  obtain ⟨d1, d2, d3, d4, d5, Q, d6, d7, d8, d9, d10, d11, d12⟩ :=
    call_withdrawal c2 i4 (fun p => hE.withdrawal _ _ p) h4
  have i5 : Idle (w4.sub .tax) := Idle.of_only d1 (by decide) (Idle.of_only c1 (by decide)
    (Idle.of_only b1 (by decide) (Idle.of_only a1 (by decide) (hr.idle .tax))))
  obtain ⟨e1, e2, e3, e4⟩ := call_tax d2 i5 h5
  have hwP := hE.saving _ _ _ c5
  have hwQ := (hE.withdrawal _ _ _ d6).1
  have mP : ((Dict.keys P).map (due P)).sum = moved P := sum_due_keys hwP
  have mQ : ((Dict.keys Q).map (due Q)).sum = moved Q := sum_due_keys hwQ
  have yS : (w2.sub .saving).year = (s.w.sub .saving).year := by
    rw [b1.others _ (by decide), a1.others _ (by decide)]
  have yW : (w3.sub .withdrawal) = (s.w.sub .withdrawal) := by
    rw [c1.others _ (by decide), b1.others _ (by decide), a1.others _ (by decide)]
  have hl : s'.w.living = w2.living := by rw [e4, d4, c4]
  refine ⟨P, Q, pools E w2 v2, pools E w3 v3, ?_, ?_, ?_, ?_, ?_, d8, ?_, ?_, ?_, ?_, ?_, ?_, ?_, ?_,
    ?_, ?_, hwP, hwQ⟩
  · rw [hl, ← b4, a1.others _ (by decide), a3]
  · rw [← yS]; exact c5
  · show Dict.total v2 = _
    rw [b6, a5, hl]; rfl
  · rw [← yW]; exact d6
  · show Dict.total v3 = _
    rw [c9, b6, a5, hl, mP]; rfl
  · rw [e1.others _ (by decide), d1.others _ (by decide)]; exact c6
  · rw [e1.others _ (by decide)]; exact d7
  · rw [e1.others _ (by decide), d5]; rfl
  · show Dict.total s'.available = _
    rw [e3, d12, c9, b6, a5, hl, mP, mQ, e1.others _ (by decide), yW]; rfl
  · intro a
    rw [e2, d9, c7, b3, a3]
  · intro a
    rw [e2, d3 a, c3 a, b3, a3]
  · intro a hP hQ
    rw [e2, d10 a hQ, c8 a hP, b3, a3]
  · rw [e3]
    exact ⟨d2.cash, by rw [e2]; exact d2.acct⟩
  · rw [e1.report, d1.report, c1.report, b1.report, a1.report]
  · rw [e1.people, d1.people, c1.people, b1.people, a1.people]

/-! ### The new year -/

theorem bring_behind {W C : Type} {V : Forecast.World K W C} (hV : Clockwork V) {Y : ℤ} {c : C}
    {w : W} (hy : V.year c w = Y) : Forecast.bring V (Y + 1) w c = V.advance c w := by
  unfold Forecast.bring
  rw [Forecast.catchUp_eq, if_pos (by omega), show (Y + 1 - V.year c w).toNat = 1 by omega]
  simp only
  cases ha : V.advance c w with
  | error e => simp
  | ok w' =>
    rw [ok_bind, Forecast.catchUp_eq, if_neg (by rw [hV.step c w w' ha]; omega)]

theorem bring_there {W C : Type} {V : Forecast.World K W C} {Y : ℤ} {c : C} {w : W}
    (hy : Y ≤ V.year c w) : Forecast.bring V Y w c = .ok w := by
  unfold Forecast.bring
  rw [Forecast.catchUp_eq, if_neg (by omega)]

/-- Advancing the sub-forecasts. -/
theorem bring_subs {E : Env N A K} {Y : ℤ} {w : Home N A K} (hy : ∀ k, (w.sub k).year = Y) :
    (world E).forecasts.foldlM (Forecast.bring (world E) (Y + 1)) w
      = .ok { w with sub := fun k => (w.sub k).next } := by
  have hb : ∀ (k : Kind) (v : Home N A K), (v.sub k).year = Y →
      Forecast.bring (world E) (Y + 1) v (.sub k)
        = .ok { v with sub := put v.sub k (v.sub k).next } := by
    intro k v hv
    rw [bring_behind (C79_keeps_time E) (c := .sub k) (by exact hv)]
    rfl
  simp only [world, List.foldlM_cons, List.foldlM_nil, except_pure]
  change Forecast.bring (world E) (Y + 1) w (.sub .income) >>= _ = _
  rw [hb _ _ (hy _), ok_bind]
  change Forecast.bring (world E) (Y + 1) _ (.sub .living) >>= _ = _
  rw [hb _ _ (by simpa [put] using hy _), ok_bind]
  change Forecast.bring (world E) (Y + 1) _ (.sub .saving) >>= _ = _
  rw [hb _ _ (by simpa [put] using hy _), ok_bind]
  change Forecast.bring (world E) (Y + 1) _ (.sub .withdrawal) >>= _ = _
  rw [hb _ _ (by simpa [put] using hy _), ok_bind]
  change Forecast.bring (world E) (Y + 1) _ (.sub .tax) >>= _ = _
  rw [hb _ _ (by simpa [put] using hy _), ok_bind]
  congr 2
  funext k
  cases k <;> simp [put]

/-- Advancing people touches nothing else. -/
theorem bring_people {E : Env N A K} {Y : ℤ} (l : List N) {w w' : Home N A K}
    (h : (l.map Comp.person).foldlM (Forecast.bring (world E) Y) w = .ok w') :
    w'.accounts = w.accounts ∧ w'.sub = w.sub ∧ w'.living = w.living ∧ w'.report = w.report := by
  have hc : ∀ (i : N) (n : ℕ) (v v' : Home N A K),
      Forecast.catchUp (world E) Y (.person i) n v = .ok v' →
      v'.accounts = v.accounts ∧ v'.sub = v.sub ∧ v'.living = v.living ∧ v'.report = v.report := by
    intro i n
    induction n with
    | zero =>
      intro v v' hv
      rw [Forecast.catchUp_eq] at hv
      split_ifs at hv
      cases hv; exact ⟨rfl, rfl, rfl, rfl⟩
    | succ n ih =>
      intro v v' hv
      rw [Forecast.catchUp_eq] at hv
      split_ifs at hv
      · obtain ⟨a, b, c, d⟩ := ih _ _ hv
        exact ⟨a, b, c, d⟩
      · cases hv; exact ⟨rfl, rfl, rfl, rfl⟩
  induction l generalizing w with
  | nil => cases h; exact ⟨rfl, rfl, rfl, rfl⟩
  | cons i l ih =>
    rw [List.map_cons, List.foldlM_cons] at h
    cases hb : Forecast.bring (world E) Y w (.person i) with
    | error e => rw [hb] at h; simp at h
    | ok w1 =>
      rw [hb, ok_bind] at h
      obtain ⟨a1, a2, a3, a4⟩ := hc i _ _ _ hb
      obtain ⟨b1, b2, b3, b4⟩ := ih h
      exact ⟨b1.trans a1, b2.trans a2, b3.trans a3, b4.trans a4⟩

/-- Advancing accounts. -/
theorem bring_accounts {E : Env N A K} {Y : ℤ} (l : List A) (hl : l.Nodup) {w w' : Home N A K}
    (hy : ∀ a ∈ l, (w.accounts a).year = Y)
    (h : (l.map Comp.account).foldlM (Forecast.bring (world E) (Y + 1)) w = .ok w') :
    w'.sub = w.sub ∧ w'.living = w.living ∧ w'.report = w.report ∧
      (∀ a ∈ l, Account.nextYear (w.accounts a) = .ok (w'.accounts a)) ∧
      ∀ a, a ∉ l → w'.accounts a = w.accounts a := by
  induction l generalizing w with
  | nil => cases h; exact ⟨rfl, rfl, rfl, by simp, fun _ _ => rfl⟩
  | cons b l ih =>
    rw [List.map_cons, List.foldlM_cons] at h
    rw [List.nodup_cons] at hl
    cases hb : Forecast.bring (world E) (Y + 1) w (.account b) with
    | error e => rw [hb] at h; simp at h
    | ok w1 =>
      rw [hb, ok_bind] at h
      rw [bring_behind (C79_keeps_time E) (c := .account b) (by exact hy b (by simp))] at hb
      simp only [world, advance] at hb
      cases hn : Account.nextYear (w.accounts b) with
      | error e => rw [hn] at hb; simp at hb
      | ok x =>
        rw [hn] at hb
        simp only [ok_bind, Except.ok.injEq] at hb
        subst hb
        have hne : ∀ a ∈ l, a ≠ b := fun a ha e => hl.1 (e ▸ ha)
        obtain ⟨i1, i2, i3, i4, i5⟩ := ih hl.2 (fun a ha => by
          simp only; rw [put_other _ (hne a ha)]; exact hy a (by simp [ha])) h
        refine ⟨i1, i2, i3, fun a ha => ?_, fun a ha => ?_⟩
        · rcases List.mem_cons.1 ha with rfl | ha
          · rw [hn, i5 a hl.1]
            simp only [put_same]
          · have := i4 a ha
            simp only at this
            rwa [put_other _ (hne a ha)] at this
        · rw [List.mem_cons, not_or] at ha
          rw [i5 a ha.2]
          simp only [put_other _ ha.1]

theorem holdings_nodup (E : Env N A K) : (holdings E).Nodup := List.nodup_dedup _

theorem new_year {E : Env N A K} (hT : Timed (world E)) {s s' : FS K (Home N A K)}
    (hb : Books s.w s.available)
    (hstep : ∀ c ∈ components (world E), yearOf s.w c = s.year)
    (h : Forecast.nextYear (world E) s = .ok s') :
    Ready s'.w s'.available ∧
    (∃ x, adjustment E s.w = .ok x ∧ cash s' = cash s + x ∧
      let dates := if x > 0 then E.refund else E.payment
      ∀ t, Dict.val s'.available t
        = (if t = 0 then cash s else 0) + x * Dict.val dates t / Dict.total dates) ∧
    (∃ r, row E s.w = .ok r ∧ s'.w.report = s.w.report ++ [r]) ∧
    (s'.w.sub .withdrawal).withheld = (s.w.sub .withdrawal).withheld ∧
    (∀ a ∈ holdings E, Account.nextYear (s.w.accounts a) = .ok (s'.w.accounts a)) ∧
    (∀ a, a ∉ holdings E → s'.w.accounts a = s.w.accounts a) := by
  obtain ⟨adj, w0, w1, w2, h1, h2, h3, h4, h5, h6⟩ := Forecast.nextYear_parts h
  have h1' := h1
  simp only [world, taxAdjustment] at h1
  cases ha : adjustment E s.w with
  | error e => rw [ha] at h1; simp at h1
  | ok x =>
    rw [ha] at h1
    simp only [ok_bind, Except.ok.injEq, Prod.mk.injEq] at h1
    obtain ⟨rfl, rfl⟩ := h1
    obtain ⟨k1, k2, k3⟩ := Forecast.C45_carryover hT h1' h
    simp only [world, record] at h2
    cases hr : row E s.w with
    | error e => rw [hr] at h2; simp at h2
    | ok r =>
      rw [hr] at h2
      simp only [ok_bind, Except.ok.injEq] at h2
      have hc1 : ∀ k, (w1.sub k).year = s.year := by
        intro k
        rw [← h2]
        refine hstep (.sub k) ?_
        unfold components world
        cases k <;> simp
      have hca : ∀ a ∈ holdings E, (w1.accounts a).year = s.year := by
        intro a hm
        rw [← h2]
        refine hstep (.account a) ?_
        unfold components world
        simp only [List.mem_append, List.mem_map]
        exact .inr ⟨a, hm, rfl⟩
      unfold components at h3
      rw [List.foldlM_append, List.foldlM_append, bring_subs hc1, ok_bind] at h3
      cases hp : (world E).people.foldlM (Forecast.bring (world E) (s.year + 1))
          { w1 with sub := fun k => (w1.sub k).next } with
      | error e => rw [hp] at h3; simp at h3
      | ok w3 =>
        rw [hp, ok_bind] at h3
        obtain ⟨p1, p2, p3, p4⟩ := bring_people E.people hp
        obtain ⟨q1, q2, q3, q4, q5⟩ := bring_accounts (holdings E) (holdings_nodup E)
          (fun a hm => by rw [p1]; exact hca a hm) h3
        rw [p1] at q4 q5
        simp only at q4 q5
        have e1 : w1.accounts = s.w.accounts := by rw [← h2]
        have e2 : w1.sub = s.w.sub := by rw [← h2]
        have e3 : s'.w.sub = fun k => (s.w.sub k).next := by rw [h6, q1, p2, ← e2]
        rw [e1] at q4 q5
        rw [← h6] at q4 q5
        refine ⟨⟨⟨k1, fun a => ?_⟩, fun k => ?_⟩, ⟨x, rfl, ?_, ?_⟩, ⟨r, rfl, ?_⟩, ?_, q4, q5⟩
        · by_cases hm : a ∈ holdings E
          · exact inv_nextYear (hb.acct a) (q4 a hm)
          · rw [q5 a hm]; exact hb.acct a
        · rw [e3]; exact ⟨rfl, rfl⟩
        · exact k2
        · intro dates t
          have hd : Forecast.taxTiming (world E) s'.w ((some x).getD 0) = dates := by
            simp only [Forecast.taxTiming, world, Option.getD_some, dates]
          have := k3 t
          rw [hd] at this
          exact this
        · rw [h6, q3, p4, ← h2]
        · rw [e3]; rfl

/-- C79 (the new year): moving a household's forecast on to the next year makes the money at hand
available at the start of the year, adds the year's tax adjustment only, spread over the dates of
refunds if it is one and over those of payments if it is not, opens every account's new year, resets the sub-forecasts
(but not the tax withheld so far), and adds one row to the report. -/
theorem C79_new_year {E : Env N A K} (hE : Sound E) {s s' : FS K (Home N A K)}
    (hb : Books s.w s.available)
    (hstep : ∀ c ∈ components (world E), yearOf s.w c = s.year)
    (h : Forecast.nextYear (world E) s = .ok s') :
    Ready s'.w s'.available ∧
    (∃ x, adjustment E s.w = .ok x ∧ cash s' = cash s + x ∧
      let dates := if x > 0 then E.refund else E.payment
      ∀ t, Dict.val s'.available t
        = (if t = 0 then cash s else 0) + x * Dict.val dates t / Dict.total dates) ∧
    (∃ r, row E s.w = .ok r ∧ s'.w.report = s.w.report ++ [r]) ∧
    (s'.w.sub .withdrawal).withheld = (s.w.sub .withdrawal).withheld ∧
    (∀ a ∈ holdings E, Account.nextYear (s.w.accounts a) = .ok (s'.w.accounts a)) ∧
    (∀ a, a ∉ holdings E → s'.w.accounts a = s.w.accounts a) :=
  new_year (timed E hE) hb hstep h

/-! ### The whole run -/

/-- Specification: the run of a household's forecast over `n + 1` years that ends in `s`:
`start k` and `fin k` are the forecast before and after the calls of year `k`. -/
structure Run (E : Env N A K) (initial : ℤ) (n : ℕ) (accounts : A → Acct K)
    (s : FS K (Home N A K)) (start fin : ℕ → FS K (Home N A K)) : Prop where
  first : start 0 = ⟨initial, [], Home.new initial accounts⟩
  last : fin n = s
  year : ∀ k ≤ n, Forecast.callSubforecasts (world E) (start k) = .ok (fin k)
  next : ∀ k < n, Forecast.nextYear (world E) (fin k) = .ok (start (k + 1))
  dates : ∀ k ≤ n, (start k).year = initial + k ∧ (fin k).year = initial + k ∧
    (∀ i ∈ E.people, (start k).w.personYear i = initial + k ∧ (fin k).w.personYear i = initial + k) ∧
    (∀ a ∈ holdings E, ((start k).w.accounts a).year = initial + k ∧
      ((fin k).w.accounts a).year = initial + k) ∧
    ∀ j, ((start k).w.sub j).year = initial + k ∧ ((fin k).w.sub j).year = initial + k

/-- C79 (the run): a household's forecast that completes is such a run: in year `k` of the
scenario every sub-forecast, person and account is in that year, before and after the calls. -/
theorem C79_run {E : Env N A K} {initial : ℤ} {n : ℕ} {accounts : A → Acct K}
    (hy : ∀ a ∈ holdings E, (accounts a).year = initial) {s : FS K (Home N A K)}
    (h : forecast E initial (scenarioYears initial (n + 1)) accounts = .ok s) :
    ∃ start fin, Run E initial n accounts s start fin := by
  obtain ⟨start, fin, h0, hn, -, hc, hx, hk⟩ := Forecast.C45_run (C79_keeps_time E) initial n
    (Home.new initial accounts) (fun c hc => by
      unfold components world at hc
      cases c with
      | sub k => rfl
      | person i => rfl
      | account a =>
        simp only [List.mem_append, List.mem_map, List.mem_cons, reduceCtorEq, or_self, and_false,
          exists_false, false_or, List.not_mem_nil, Comp.account.injEq, exists_eq_right] at hc
        exact hy a hc) h
  refine ⟨start, fin, h0, hn, hc, hx, fun k hkn => ?_⟩
  obtain ⟨k1, k2, k3⟩ := hk k hkn
  refine ⟨k1, k2, fun i hi => k3 (.person i) ?_, fun a ha => k3 (.account a) ?_,
    fun j => k3 (.sub j) ?_⟩
  · unfold components world
    simp only [List.mem_append, List.mem_map]
    exact .inl (.inr ⟨i, hi, rfl⟩)
  · unfold components world
    simp only [List.mem_append, List.mem_map]
    exact .inr ⟨a, ha, rfl⟩
  · unfold components world
    cases j <;> simp

theorem Run.step {E : Env N A K} {initial : ℤ} {n : ℕ} {accounts : A → Acct K}
    {s : FS K (Home N A K)} {start fin : ℕ → FS K (Home N A K)}
    (hr : Run E initial n accounts s start fin) {k : ℕ} (hk : k ≤ n) :
    ∀ c ∈ components (world E), yearOf (fin k).w c = (fin k).year := by
  obtain ⟨-, d2, d3, d4, d5⟩ := hr.dates k hk
  intro c hc
  rw [d2]
  unfold components world at hc
  cases c with
  | sub k => exact (d5 _).2
  | person i =>
    simp only [List.mem_append, List.mem_map, List.mem_cons, reduceCtorEq, or_self, and_false,
      exists_false, false_or, List.not_mem_nil, Comp.person.injEq, exists_eq_right, or_false] at hc
    exact (d3 i hc).2
  | account a =>
    simp only [List.mem_append, List.mem_map, List.mem_cons, reduceCtorEq, or_self, and_false,
      exists_false, false_or, List.not_mem_nil, Comp.account.injEq, exists_eq_right] at hc
    exact (d4 a hc).2

theorem Run.ready {E : Env N A K} (hE : Sound E) {initial : ℤ} {n : ℕ} {accounts : A → Acct K}
    (hacc : ∀ a, Reachable (accounts a)) {s : FS K (Home N A K)}
    {start fin : ℕ → FS K (Home N A K)} (hr : Run E initial n accounts s start fin) :
    ∀ k ≤ n, Ready (start k).w (start k).available := by
  intro k
  induction k with
  | zero =>
    intro _
    rw [hr.first]
    exact ⟨⟨Dict.wf_nil, fun a => (hacc a).inv⟩, fun k => ⟨rfl, rfl⟩⟩
  | succ k ih =>
    intro hk
    obtain ⟨_, _, _, _, -, -, -, -, -, -, -, -, -, -, -, -, -, hb, -⟩ :=
      C79_year hE (ih (by omega)) (hr.year k (by omega))
    exact (C79_new_year hE hb (hr.step (by omega)) (hr.next k (by omega))).1

theorem Run.books {E : Env N A K} (hE : Sound E) {initial : ℤ} {n : ℕ} {accounts : A → Acct K}
    (hacc : ∀ a, Reachable (accounts a)) {s : FS K (Home N A K)}
    {start fin : ℕ → FS K (Home N A K)} (hr : Run E initial n accounts s start fin) :
    ∀ k ≤ n, Books (fin k).w (fin k).available := by
  intro k hk
  obtain ⟨_, _, _, _, -, -, -, -, -, -, -, -, -, -, -, -, -, hb, -⟩ :=
    C79_year hE (hr.ready hE hacc k hk) (hr.year k hk)
  exact hb

theorem Run.income {E : Env N A K} {initial : ℤ} {n : ℕ} {accounts : A → Acct K}
    {s : FS K (Home N A K)} {start fin : ℕ → FS K (Home N A K)}
    (hr : Run E initial n accounts s start fin) {k : ℕ} (hk : k ≤ n) :
    ((earners E (start k).w).map Earner.net).sum = incomeIn E (initial + k) ∧
    earners E (fin k).w = earners E (start k).w ∧
    earners E (fin k).w = E.people.map fun i => E.earner i (initial + k) := by
  obtain ⟨-, -, d3, -⟩ := hr.dates k hk
  have h1 : earners E (start k).w = E.people.map fun i => E.earner i (initial + k) := by
    unfold earners
    apply List.map_congr_left
    intro i hi
    rw [(d3 i hi).1]
  have h2 : earners E (fin k).w = E.people.map fun i => E.earner i (initial + k) := by
    unfold earners
    apply List.map_congr_left
    intro i hi
    rw [(d3 i hi).2]
  refine ⟨?_, by rw [h1, h2], h2⟩
  rw [h1, List.map_map]
  rfl

/-- Specification: the tax adjustment of year `k`: the tax withheld from everybody's income and
from every account somebody has, less the tax owing. -/
def adjusted (E : Env N A K) (y : ℤ) (w : Home N A K) (owing : K) : K :=
  withheldIn E y
    + ∑ p ∈ (E.people.flatMap fun i => (E.earner i y).accounts).toFinset, taxOf E w p
    - owing

theorem Run.adjusted {E : Env N A K} (hE : Sound E) {initial : ℤ} {n : ℕ}
    {accounts : A → Acct K} {s : FS K (Home N A K)} {start fin : ℕ → FS K (Home N A K)}
    (hr : Run E initial n accounts s start fin) {k : ℕ} (hk : k ≤ n) {x : K}
    (h : adjustment E (fin k).w = .ok x) :
    ∃ o, E.owing (initial + k) (fin k).w.accounts = .ok o ∧
      x = adjusted E (initial + k) (fin k).w o := by
  obtain ⟨-, -, -, -, d5⟩ := hr.dates k hk
  obtain ⟨-, -, h3⟩ := hr.income hk
  unfold adjustment at h
  rw [h3, (d5 .tax).2] at h
  have hne : (E.people.map fun i => E.earner i (initial + k)) ≠ [] := by simpa using hE.people
  obtain ⟨c1, -⟩ := C66_tax_withheld (E.people.map fun i => E.earner i (initial + k))
    (taxOf E (fin k).w)
  unfold CashFlow.taxAdjustment at h
  rw [c1 hne, ok_bind] at h
  cases ho : E.owing (initial + k) (fin k).w.accounts with
  | error e => rw [ho] at h; simp at h
  | ok o =>
    rw [ho] at h
    simp only [ok_bind, Except.ok.injEq] at h
    refine ⟨o, rfl, ?_⟩
    rw [← h]
    unfold Household.adjusted withheldIn
    rw [List.map_map, List.flatMap_map]
    rfl

/-- C79 (every dollar of cash): the money at hand at the end of the last year is, over all the
years, everybody's net income less the living expenses (what the strategy said for that year),
less what was put into accounts, plus what was taken out of them, plus the tax withheld from
withdrawals, plus the tax adjustments of all years but the last. -/
theorem C79_cash {E : Env N A K} (hE : Sound E) {initial : ℤ} {n : ℕ} {accounts : A → Acct K}
    (hacc : ∀ a, Reachable (accounts a)) {s : FS K (Home N A K)}
    {start fin : ℕ → FS K (Home N A K)} (hr : Run E initial n accounts s start fin) :
    ∃ owing : ℕ → K,
      (∀ k ≤ n, E.expenses (initial + k) (start k).w.accounts = .ok (fin k).w.living) ∧
      (∀ k < n, E.owing (initial + k) (fin k).w.accounts = .ok (owing k)) ∧
      cash s = ∑ k ∈ Finset.range (n + 1), (incomeIn E (initial + k) - (fin k).w.living
            - moved ((fin k).w.sub .saving).txs - moved ((fin k).w.sub .withdrawal).txs)
          + (s.w.sub .withdrawal).withheld
          + ∑ k ∈ Finset.range n, adjusted E (initial + k) (fin k).w (owing k) := by
  have hadj : ∀ k, ∃ o, k < n → E.owing (initial + k) (fin k).w.accounts = .ok o ∧
      cash (start (k + 1)) = cash (fin k) + adjusted E (initial + k) (fin k).w o ∧
      ((start (k + 1)).w.sub .withdrawal).withheld = ((fin k).w.sub .withdrawal).withheld := by
    intro k
    by_cases hk : k < n
    · obtain ⟨-, ⟨x, h1, h2, -⟩, -, h3, -⟩ := C79_new_year hE (hr.books hE hacc k hk.le)
        (hr.step hk.le) (hr.next k hk)
      obtain ⟨o, h4, h5⟩ := hr.adjusted hE hk.le h1
      exact ⟨o, fun _ => ⟨h4, by rw [h2, h5], h3⟩⟩
    · exact ⟨0, fun h => absurd h hk⟩
  choose owing howing using hadj
  have hyear : ∀ k ≤ n, E.expenses (initial + k) (start k).w.accounts = .ok (fin k).w.living ∧
      cash (fin k) = cash (start k) + incomeIn E (initial + k) - (fin k).w.living
        - moved ((fin k).w.sub .saving).txs - moved ((fin k).w.sub .withdrawal).txs
        + (((fin k).w.sub .withdrawal).withheld - ((start k).w.sub .withdrawal).withheld) := by
    intro k hk
    obtain ⟨P, Q, _, _, y1, -, -, -, -, -, y7, y8, -, y10, -⟩ :=
      C79_year hE (hr.ready hE hacc k hk) (hr.year k hk)
    obtain ⟨-, -, -, -, d5⟩ := hr.dates k hk
    refine ⟨by rw [← y1, (d5 .living).1], ?_⟩
    rw [y10, y7, y8, moved_plan, moved_plan, (hr.income hk).1]
  refine ⟨owing, fun k hk => (hyear k hk).1, fun k hk => (howing k hk).1, ?_⟩
  have key : ∀ m ≤ n, cash (fin m)
      = ∑ k ∈ Finset.range (m + 1), (incomeIn E (initial + k) - (fin k).w.living
            - moved ((fin k).w.sub .saving).txs - moved ((fin k).w.sub .withdrawal).txs)
          + ((fin m).w.sub .withdrawal).withheld
          + ∑ k ∈ Finset.range m, adjusted E (initial + k) (fin k).w (owing k) := by
    intro m
    induction m with
    | zero =>
      intro hm
      rw [(hyear 0 hm).2, hr.first]
      simp [cash, Home.new, Sub.new]
    | succ m ih =>
      intro hm
      obtain ⟨-, h2, h3⟩ := howing m (by omega)
      rw [(hyear (m + 1) hm).2, h2, h3, ih (by omega), Finset.sum_range_succ _ (m + 1),
        Finset.sum_range_succ (fun k : ℕ => adjusted E (initial + k) (fin k).w (owing k)) m]
      ring
  rw [← hr.last]
  exact key n (le_refl _)

/-! ### Accounts through the run -/

theorem balance_same {a b : Acct K} (h : { a with txns := [] } = { b with txns := [] }) :
    balance a = balance b := by
  rw [← balance_txns_irrel a [], h, balance_txns_irrel]

theorem growth_same {a b : Acct K} (h : { a with txns := [] } = { b with txns := [] }) :
    a.growth = b.growth := by
  have := congrArg (fun x : Acct K => x.growth) h
  exact this

theorem growth_nextYear {a b : Acct K} (h : Account.nextYear a = .ok b) :
    b.growth = a.growth ∧ b.txns = [] := by
  unfold Account.nextYear at h
  cases hb : balance a with
  | error e => rw [hb] at h; simp at h
  | ok x => rw [hb] at h; simp only [ok_bind, Except.ok.injEq] at h; subst h; exact ⟨rfl, rfl⟩

theorem closing_eq {a : Acct K} (ha : Inv a) :
    closing a = opening a + earned a + Dict.total a.txns := by
  obtain ⟨b, r, h1, h2, h3⟩ := returns_reconcile ha
  unfold closing opening earned
  rw [h1, h2, h3]
  simp only [figure, inflows, outflows, zero_add]
  rw [← pos_add_neg a.txns]
  ring

theorem opening_next {a b : Acct K} (ha : Inv a)
    (hg : a.growth (a.year + 1) = a.growth a.year) (h : Account.nextYear a = .ok b) :
    opening b = closing a := by
  obtain ⟨a', x, h1, -, h3, h4⟩ := closing_carries_over ha hg
  rw [h] at h1
  cases h1
  unfold opening closing
  rw [h3, h4]

theorem sum_due_holdings {P : Dict A (Dict K K)} (hP : Dict.WF P) {l : List A} (hl : l.Nodup)
    (hk : ∀ a ∈ Dict.keys P, a ∈ l) : (l.map (due P)).sum = moved P := by
  unfold moved
  rw [← sum_due_keys hP, ← List.sum_toFinset _ hl, ← List.sum_toFinset _ hP]
  symm
  apply Finset.sum_subset
  · intro a ha
    simp only [List.mem_toFinset] at *
    exact hk a ha
  · intro a _ ha
    simp only [List.mem_toFinset] at ha
    exact due_not_mem ha

/-- C79 (wealth): if the rates of return do not change from year to year and the plans only
mention the household's own accounts, then what the household owns at the end is what it had, plus
over all the years: everybody's net income, less living expenses, plus the returns on every
account; plus the tax adjustments of all years but the last; plus (a defect, see
`C79_withholding_refuted`) the tax withheld from withdrawals. Moving money between cash and
accounts, and from one year into the next, makes no difference. -/
theorem C79_wealth {E : Env N A K} (hE : Sound E) {initial : ℤ} {n : ℕ} {accounts : A → Acct K}
    (hacc : ∀ a, Reachable (accounts a)) {s : FS K (Home N A K)}
    {start fin : ℕ → FS K (Home N A K)} (hr : Run E initial n accounts s start fin)
    (hrate : ∀ a ∈ holdings E, ∀ y, (accounts a).growth y = (accounts a).growth initial)
    (hplan : ∀ y q p, E.saving y q = .ok p → ∀ a ∈ Dict.keys p, a ∈ holdings E) :
    ∃ owing : ℕ → K,
      (∀ k < n, E.owing (initial + k) (fin k).w.accounts = .ok (owing k)) ∧
      wealth E s
        = ((holdings E).map fun a => opening (accounts a) + Dict.total (accounts a).txns).sum
          + ∑ k ∈ Finset.range (n + 1), (incomeIn E (initial + k) - (fin k).w.living
              + ((holdings E).map fun a => earned ((fin k).w.accounts a)).sum)
          + ∑ k ∈ Finset.range n, adjusted E (initial + k) (fin k).w (owing k)
          + (s.w.sub .withdrawal).withheld := by
  obtain ⟨owing, -, ho, hcash⟩ := C79_cash hE hacc hr
  have hnew : ∀ k < n, (∀ a ∈ holdings E,
      Account.nextYear ((fin k).w.accounts a) = .ok ((start (k + 1)).w.accounts a)) := by
    intro k hk
    obtain ⟨-, -, -, -, h5, -⟩ := C79_new_year hE (hr.books hE hacc k hk.le)
        (hr.step hk.le) (hr.next k hk)
    exact h5
  have hyear : ∀ k ≤ n, SameAccounts (start k).w (fin k).w ∧
      ((holdings E).map fun a => Dict.total ((fin k).w.accounts a).txns).sum
        = ((holdings E).map fun a => Dict.total ((start k).w.accounts a).txns).sum
          + moved ((fin k).w.sub .saving).txs + moved ((fin k).w.sub .withdrawal).txs := by
    intro k hk
    obtain ⟨P, Q, _, _, -, y2, -, -, -, y6, y7, y8, -, -, y11, y12, -, -, -, -, hP, hQ⟩ :=
      C79_year hE (hr.ready hE hacc k hk) (hr.year k hk)
    refine ⟨y12, ?_⟩
    rw [y7, y8, moved_plan, moved_plan, ← sum_due_holdings hP (holdings_nodup E) (hplan _ _ _ y2),
      ← sum_due_holdings hQ (holdings_nodup E) (fun a ha => by
        unfold holdings; simp [y6 a ha])]
    rw [← List.sum_map_add, ← List.sum_map_add]
    congr 1
    apply List.map_congr_left
    intro a _
    rw [y11 a]
  have hgrow : ∀ k ≤ n, ∀ a ∈ holdings E,
      ((fin k).w.accounts a).growth = (accounts a).growth := by
    intro k
    induction k with
    | zero =>
      intro hk a ha
      rw [growth_same ((hyear 0 hk).1 a), hr.first]
      rfl
    | succ k ih =>
      intro hk a ha
      rw [growth_same ((hyear (k + 1) hk).1 a), (growth_nextYear (hnew k (by omega) a ha)).1]
      exact ih (by omega) a ha
  have hopen : ∀ k ≤ n, ∀ a, opening ((fin k).w.accounts a) = opening ((start k).w.accounts a) := by
    intro k hk a
    unfold opening
    rw [balance_same ((hyear k hk).1 a)]
  have hstep : ∀ k < n, ∀ a ∈ holdings E,
      opening ((start (k + 1)).w.accounts a) = closing ((fin k).w.accounts a) := by
    intro k hk a ha
    refine opening_next ((hr.books hE hacc k hk.le).acct a) ?_ (hnew k hk a ha)
    rw [hgrow k hk.le a ha, hrate a ha, hrate a ha ((fin k).w.accounts a).year]
  have key : ∀ m ≤ n, ((holdings E).map fun a => closing ((fin m).w.accounts a)).sum
      = ((holdings E).map fun a => opening (accounts a) + Dict.total (accounts a).txns).sum
        + ∑ k ∈ Finset.range (m + 1), (moved ((fin k).w.sub .saving).txs
            + moved ((fin k).w.sub .withdrawal).txs
            + ((holdings E).map fun a => earned ((fin k).w.accounts a)).sum) := by
    intro m
    have split : ∀ m ≤ n, ((holdings E).map fun a => closing ((fin m).w.accounts a)).sum
        = ((holdings E).map fun a => opening ((start m).w.accounts a)).sum
          + ((holdings E).map fun a => earned ((fin m).w.accounts a)).sum
          + (((holdings E).map fun a => Dict.total ((start m).w.accounts a).txns).sum
          + moved ((fin m).w.sub .saving).txs + moved ((fin m).w.sub .withdrawal).txs) := by
      intro m hm
      rw [← (hyear m hm).2, ← List.sum_map_add, ← List.sum_map_add]
      congr 1
      apply List.map_congr_left
      intro a _
      rw [closing_eq ((hr.books hE hacc m hm).acct a), hopen m hm a]
    induction m with
    | zero =>
      intro hm
      rw [split 0 hm, hr.first, List.sum_map_add]
      simp [Home.new]
      ring
    | succ m ih =>
      intro hm
      rw [split (m + 1) hm, Finset.sum_range_succ]
      have e1 : ((holdings E).map fun a => opening ((start (m + 1)).w.accounts a)).sum
          = ((holdings E).map fun a => closing ((fin m).w.accounts a)).sum := by
        congr 1
        apply List.map_congr_left
        intro a ha
        exact hstep m (by omega) a ha
      have e2 : ((holdings E).map fun a => Dict.total ((start (m + 1)).w.accounts a).txns).sum
          = 0 := by
        apply List.sum_eq_zero
        intro x hx
        obtain ⟨a, ha, rfl⟩ := List.mem_map.1 hx
        rw [(growth_nextYear (hnew m (by omega) a ha)).2]
        rfl
      rw [e1, e2, ih (by omega)]
      ring
  refine ⟨owing, ho, ?_⟩
  unfold wealth
  rw [hcash]
  have := key n (le_refl _)
  rw [hr.last] at this
  rw [this]
  simp only [Finset.sum_add_distrib, Finset.sum_sub_distrib]
  ring

/-! ### The report -/

theorem mapM_opening {w : Home N A K} (h : ∀ a, Inv (w.accounts a)) (l : List A) :
    l.mapM (fun a => balance (w.accounts a))
      = (.ok (l.map fun a => opening (w.accounts a)) : Except PyErr (List K)) := by
  induction l with
  | nil => rfl
  | cons a l ih =>
    obtain ⟨b, hb⟩ := (h a).balance_ok
    rw [List.mapM_cons, hb, ok_bind, ih, ok_bind]
    simp [opening, figure, hb]

/-- C79 (the report): the forecast's history has one row for every year but the last, in order.
The row of a year holds everybody's net income, the living expenses, the opening balances of all
assets, the tax owing; its "savings" are income less living expenses, if positive, whatever was
saved (see `C79_reported_savings_refuted`), and its "withdrawals" are the shortfall of cash before
withdrawing, whatever was withdrawn. -/
theorem C79_report {E : Env N A K} (hE : Sound E) {initial : ℤ} {n : ℕ} {accounts : A → Acct K}
    (hacc : ∀ a, Reachable (accounts a)) {s : FS K (Home N A K)}
    {start fin : ℕ → FS K (Home N A K)} (hr : Run E initial n accounts s start fin) :
    ∃ owing : ℕ → K,
      (∀ k < n, E.owing (initial + k) (fin k).w.accounts = .ok (owing k)) ∧
      s.w.report = (List.range n).map fun (k : ℕ) =>
        { income := incomeIn E (initial + k)
          livingExpenses := (fin k).w.living
          savings := max (incomeIn E (initial + k) - (fin k).w.living) 0
          principal := (E.assets.map fun a => opening ((start k).w.accounts a)).sum
          withdrawals := .fin (-(cash (start k) + incomeIn E (initial + k) - (fin k).w.living
            - moved ((fin k).w.sub .saving).txs))
          tax := owing k } := by
  obtain ⟨owing, -, ho, -⟩ := C79_cash hE hacc hr
  refine ⟨owing, ho, ?_⟩
  have hlast : s.w.report = (start n).w.report := by
    obtain ⟨_, _, _, _, -, -, -, -, -, -, -, -, -, -, -, -, -, -, hrep, -⟩ :=
      C79_year hE (hr.ready hE hacc n (le_refl _)) (hr.year n (le_refl _))
    rw [← hr.last, hrep]
  rw [hlast]
  have key : ∀ m ≤ n, (start m).w.report = (List.range m).map fun (k : ℕ) =>
        ({ income := incomeIn E (initial + k)
           livingExpenses := (fin k).w.living
           savings := max (incomeIn E (initial + k) - (fin k).w.living) 0
           principal := (E.assets.map fun a => opening ((start k).w.accounts a)).sum
           withdrawals := .fin (-(cash (start k) + incomeIn E (initial + k) - (fin k).w.living
             - moved ((fin k).w.sub .saving).txs))
           tax := owing k } : Row K) := by
    intro m
    induction m with
    | zero => intro _; rw [hr.first]; rfl
    | succ m ih =>
      intro hm
      obtain ⟨P, Q, _, seenQ, -, -, -, -, y5, -, y7, -, y9, -, -, y12, -, hb, hrep, -⟩ :=
        C79_year hE (hr.ready hE hacc m (by omega)) (hr.year m (by omega))
      obtain ⟨-, -, ⟨r, h1, h2⟩, -⟩ := C79_new_year hE (hr.books hE hacc m (by omega))
        (hr.step (by omega)) (hr.next m (by omega))
      obtain ⟨-, -, -, -, d5⟩ := hr.dates m (by omega)
      rw [h2, hrep, ih (by omega), List.range_succ, List.map_append]
      congr 1
      unfold row at h1
      rw [mapM_opening hb.acct, ok_bind, (d5 .tax).2, ho m (by omega), ok_bind] at h1
      simp only [Except.ok.injEq] at h1
      have hinc : netIncome (earners E (fin m).w) = incomeIn E (initial + m) := by
        rw [netIncome_eq, (hr.income (by omega)).2.1, (hr.income (by omega)).1]
      rw [← h1, hinc, y9, y5, (hr.income (by omega)).1]
      simp only [List.map_cons, List.map_nil]
      rw [y7, moved_plan]
      simp only [List.cons.injEq, and_true, Row.mk.injEq, true_and]
      refine ⟨?_, ?_, ?_⟩
      · rfl
      · unfold Forecast.principal
        rw [foldl_add (fun x : K => x), zero_add, List.map_id']
        congr 1
        apply List.map_congr_left
        intro a _
        unfold opening
        rw [balance_same (y12 a)]
      · rfl
  exact key n (le_refl _)

/-! ### Households -/

section examples

/-- Two earners (80, and 40 in two payments, 5 % more each year), a savings account (`true`, 100
at 10 %) and a loan (`false`, -50 at 20 %); they live on 60 a year, pay 10 into the savings and
15 towards the loan, and take out 5, of which a tenth is withheld; the tax owing is 30. -/
def exHome : Env Bool Bool ℚ where
  people := [true, false]
  assets := [true]
  debts := [false]
  owner a := some a
  earner i y :=
    if i then { gross := 100, withheld := 20, net := 80, timing := [(1 / 2, 1)],
                accounts := [some true] }
    else { gross := 48 + 2 * (y - 2020), withheld := 8, net := 40 + 2 * (y - 2020),
           timing := [(1 / 4, 1), (1, 1)], accounts := [some false, some true] }
  limits _ _ := plainLimits
  default _ := [(1 / 2, 1)]
  ttv := exTtv
  expenses y _ := .ok (60 + (y - 2020))
  saving _ _ := .ok [(true, [(1 / 2, 10)]), (false, [(1 / 4, 10), (1, 5)])]
  withdrawal _ _ := .ok [(true, [(1, -5)])]
  accountTax _ x := -(x.txns.map fun e => min e.2 0).sum / 10
  owing _ _ := .ok 30
  refund := [(1 / 2, 1)]
  payment := [(0, 1)]

/-- Their accounts in 2020. -/
def exAccounts : Bool → Acct ℚ := fun a =>
  if a then init 2020 100 (fun _ t => 1 + t / 10) [] else init 2020 (-50) (fun _ t => 1 + t / 5) []

/-- The hypotheses of all the theorems of C79 are met. -/
example : Sound exHome where
  people := by decide
  paid i y := by
    cases i
    · exact ⟨show Dict.WF [((1 / 4 : ℚ), (1 : ℚ)), (1, 1)] by unfold Dict.WF; decide +kernel,
        show Dict.total [((1 / 4 : ℚ), (1 : ℚ)), (1, 1)] ≠ 0 by decide +kernel⟩
    · exact ⟨show Dict.WF [((1 / 2 : ℚ), (1 : ℚ))] by unfold Dict.WF; decide +kernel,
        show Dict.total [((1 / 2 : ℚ), (1 : ℚ))] ≠ 0 by decide +kernel⟩
  timing := by decide +kernel
  saving y q p h := by cases h; unfold Dict.WF; decide +kernel
  withdrawal y q p h := by
    cases h
    refine ⟨by unfold Dict.WF; decide +kernel, ?_⟩
    intro e he
    simp only [List.mem_cons, List.not_mem_nil, or_false] at he
    subst he
    exact ⟨by unfold Dict.WF; decide +kernel, fun _ => by decide +kernel⟩
  refund := ⟨by unfold Dict.WF; decide +kernel, by decide +kernel⟩
  payment := ⟨by unfold Dict.WF; decide +kernel, by decide +kernel⟩

example : ∀ a, Reachable (exAccounts a) := by
  intro a
  cases a <;> exact ⟨_, _, _, _, [], rfl⟩
example : ∀ a ∈ holdings exHome, (exAccounts a).year = 2020 ∧
    ∀ y, (exAccounts a).growth y = (exAccounts a).growth 2020 := by
  intro a _
  cases a <;> exact ⟨rfl, fun _ => rfl⟩
example : ∀ y q p, exHome.saving y q = .ok p → ∀ a ∈ Dict.keys p, a ∈ holdings exHome := by
  intro y q p h
  cases h
  decide +kernel

/-- Somebody who lives on all of a net income of 40, and moves 100 a year from an account that
earns nothing, with a tenth of it withheld, into cash; no tax is owing. -/
def exRetired : Env Unit Unit ℚ where
  people := [()]
  assets := [()]
  debts := []
  owner _ := some ()
  earner _ _ := { gross := 40, withheld := 0, net := 40, timing := [(1 / 2, 1)],
                  accounts := [some ()] }
  limits _ _ := plainLimits
  default _ := [(1 / 2, 1)]
  ttv := exTtv
  expenses _ _ := .ok 40
  saving _ _ := .ok []
  withdrawal _ _ := .ok [((), [(1 / 2, -100)])]
  accountTax _ x := -(x.txns.map fun e => min e.2 0).sum / 10
  owing _ _ := .ok 0
  refund := [(1 / 2, 1)]
  payment := [(0, 1)]

theorem exRetired_sound : Sound exRetired where
  people := by decide
  paid _ _ := ⟨show Dict.WF [((1 / 2 : ℚ), (1 : ℚ))] by unfold Dict.WF; decide +kernel,
    show Dict.total [((1 / 2 : ℚ), (1 : ℚ))] ≠ 0 by decide +kernel⟩
  timing := by decide +kernel
  saving y q p h := by cases h; exact Dict.wf_nil
  withdrawal y q p h := by
    cases h
    refine ⟨by unfold Dict.WF; decide +kernel, ?_⟩
    intro e he
    simp only [List.mem_cons, List.not_mem_nil, or_false] at he
    subst he
    exact ⟨by unfold Dict.WF; decide +kernel, fun _ => by decide +kernel⟩
  refund := ⟨by unfold Dict.WF; decide +kernel, by decide +kernel⟩
  payment := ⟨by unfold Dict.WF; decide +kernel, by decide +kernel⟩

/-- C79 (withholding, refuted): a household that spends exactly what it takes home, pays no tax
and has an account of 1000 that earns nothing does not keep its 1000: moving 100 a year into cash
with a tenth withheld, it has 1050 after three years. (The withheld tax is added to the cash
instead of being taken from it, and given back when the tax is settled.) -/
theorem C79_withholding_refuted :
    ∃ (E : Env Unit Unit ℚ) (accounts : Unit → Acct ℚ), Sound E ∧
      (∀ a, Reachable (accounts a)) ∧ (∀ a y t, (accounts a).growth y t = 1) ∧
      (∀ y, incomeIn E y = 40 ∧ withheldIn E y = 0) ∧ (∀ y q, E.expenses y q = .ok 40) ∧
      (∀ y q, E.owing y q = .ok 0) ∧ ((holdings E).map fun a => opening (accounts a)).sum = 1000 ∧
      (forecast E 2020 (scenarioYears 2020 3) accounts).map (wealth E) = .ok 1050 :=
  ⟨exRetired, fun _ => init 2020 1000 (fun _ _ => 1) [], exRetired_sound,
    fun _ => ⟨_, _, _, _, [], rfl⟩, fun _ _ _ => rfl,
    fun _ => ⟨show (40 : ℚ) + 0 = 40 by norm_num, show (0 : ℚ) + 0 = 0 by norm_num⟩,
    fun _ _ => rfl, fun _ _ => rfl, by decide +kernel, by decide +kernel⟩

/-- C79 (reported savings, refuted): the report's savings and withdrawals are not what was paid
into and taken out of the accounts. A household that saves nothing has savings of 20 on record,
and one that takes 100 out of an account every year has withdrawals of -20, then of -160. -/
theorem C79_reported_savings_refuted :
    ∃ E : Env Unit Unit ℚ, Sound E ∧ (∀ y q, E.saving y q = .ok []) ∧
      (∀ y q, E.withdrawal y q = .ok [((), [(1 / 2, -100)])]) ∧
      (forecast E 2020 (scenarioYears 2020 3) fun _ => init 2020 1000 (fun _ _ => 1) []).map
        (fun s => s.w.report.map fun r => (r.savings, r.withdrawals))
        = .ok [(20, .fin (-20)), (20, .fin (-160))] :=
  ⟨{ exRetired with expenses := fun _ _ => .ok 20 },
    { exRetired_sound with }, fun _ _ => rfl, fun _ _ => rfl, by decide +kernel⟩

/-- Three years of the couple: 243/2 in cash at the end, and the report of the first two years. -/
example : (forecast exHome 2020 (scenarioYears 2020 3) exAccounts).map
      (fun s => (s.year, cash s, wealth exHome s)) = .ok (2022, 243 / 2, 49293 / 200) ∧
    (forecast exHome 2020 (scenarioYears 2020 3) exAccounts).map
      (fun s => s.w.report.map fun r => (r.income, r.livingExpenses, r.savings, r.principal, r.tax))
      = .ok [(120, 60, 60, 100, 30), (122, 61, 61, 231 / 2, 30)] := by
  constructor <;> decide +kernel

end examples

end Forecaster.Household
