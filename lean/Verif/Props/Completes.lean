import Verif.Lemmas.Answers
import Verif.Props.Solvency

/-!
# C96: a household's forecast completes

Specification vocabulary: a strategy is decisive (`Decisive`) if it answers whatever it gets to see
in a forecast, about accounts it may use and with dates within the year; a household is able
(`Able`) if its strategies are decisive and its living expenses, its taxes and the time an account
takes to reach a balance can be worked out.
-/

set_option linter.unusedSectionVars false

namespace Forecaster.Household

open Forecaster Forecaster.Timing Forecaster.Account Forecaster.SubForecast Forecaster.CashFlow
open Forecaster.Forecast (FS scenarioYears Clockwork Timed components)

variable {K : Type} [Field K] [LinearOrder K] [IsStrictOrderedRing K]
variable {N A : Type} [DecidableEq N] [DecidableEq A]

/-- Specification: a strategy that always answers, about the accounts `reach`, and with dates within
the year. -/
structure Decisive (limits : A → Acct K → Limits K) (reach : List A)
    (strategy : ℤ → (Option A → Pool K) → Except PyErr (Dict A (Dict K K))) : Prop where
  answers : ∀ y q, Real limits q → ∃ d, strategy y q = .ok d
  dates : ∀ y q d, Real limits q → strategy y q = .ok d →
    ∀ e ∈ d, e.1 ∈ reach ∧ ∀ k ∈ Dict.keys e.2, 0 ≤ k ∧ k ≤ 1

/-- Specification: nothing that a household asks its strategies, taxes and accounts goes
unanswered. `time_to_value` need only answer about positive amounts. -/
structure Able (E : Env N A K) : Prop where
  saving : Decisive E.limits (holdings E) E.saving
  withdrawal : Decisive E.limits E.assets E.withdrawal
  expenses : ∀ y (acc : A → Acct K), (∀ a, Inv (acc a) ∧ IsGrowth (acc a).A) →
    ∃ x, E.expenses y acc = .ok x
  owing : ∀ y (acc : A → Acct K), (∀ a, Inv (acc a) ∧ IsGrowth (acc a).A) →
    ∃ x, E.owing y acc = .ok x
  tells : ∀ (a : Acct K) b v, IsGrowth a.A → 0 < b → 0 < v → ∃ r, E.ttv a b v = .ok r

/-- Specification: as `Able`, but the taxes need only be known if the accounts are `Good`. -/
structure AbleIf (Good : (A → Acct K) → Prop) (E : Env N A K) : Prop where
  saving : Decisive E.limits (holdings E) E.saving
  withdrawal : Decisive E.limits E.assets E.withdrawal
  expenses : ∀ y (acc : A → Acct K), (∀ a, Inv (acc a) ∧ IsGrowth (acc a).A) →
    ∃ x, E.expenses y acc = .ok x
  owing : ∀ y (acc : A → Acct K), (∀ a, Inv (acc a) ∧ IsGrowth (acc a).A) → Good acc →
    ∃ x, E.owing y acc = .ok x
  tells : ∀ (a : Acct K) b v, IsGrowth a.A → 0 < b → 0 < v → ∃ r, E.ttv a b v = .ok r

theorem Able.always {E : Env N A K} (h : Able E) : AbleIf (fun _ => True) E :=
  ⟨h.saving, h.withdrawal, h.expenses, fun y acc ha _ => h.owing y acc ha, h.tells⟩

/-! ### One year -/

/-- Money can be taken out of an account as planned by a strategy that covers what it takes. -/
theorem payable_drain {L : Limits K} {x : Acct K} {p : Dict K K} (hi : Inv x) (hA : IsGrowth x.A)
    (hrate : Monotone x.A ∨ Antitone x.A) (hs : Signed (-1) x.txns) (hp : ∀ e ∈ p, e.2 ≤ 0)
    (hw : Within p) (h : opening x ≤ 0 ∨ (0 ≤ opening x ∧ ∀ x', applyAll x p = .ok x' →
      0 ≤ closing x')) : Payable L x p := by
  refine .inr ⟨hp, .inr ⟨hs, opening x, opening_eq hi, ?_⟩⟩
  rcases h with h | ⟨h0, h⟩
  · exact .inl h
  · refine .inr ⟨?_, ?_⟩
    · rcases hrate with h1 | h1
      · exact .inl h1
      · exact .inr ⟨h1, one_pos, _, opening_eq hi, h0⟩
    · have h3 := h _ (applyAll_eq x hw)
      have hi' : Inv { x with txns := Timing.addTransactions x.txns p } :=
        ⟨⟨Timing.wf_add hi.tx.wf _, within_add hi.tx.rng hw⟩, hi.future, hi.opening⟩
      rw [closing_grown hi'] at h3
      have e1 : opening { x with txns := Timing.addTransactions x.txns p } = opening x := by
        unfold opening; rw [balance_txns_irrel]
      have e2 : Acct.A { x with txns := Timing.addTransactions x.txns p } = x.A := rfl
      rw [e1, e2, grown_add x.A hi.tx.wf] at h3
      rw [sum_grown x.A hw]
      linarith

/-- A year of an able household goes through, unless nobody earns anything. -/
theorem able_year {E : Env N A K} {Good : (A → Acct K) → Prop}
    (hE : Careful (fun _ => false) E) (hB : AbleIf Good E)
    {s : FS K (Home N A K)} (hr : Ready s.w s.available) (hw : Within s.available)
    (hA : ∀ a, IsGrowth (s.w.accounts a).A)
    (hfresh : ∀ a ∈ holdings E, (s.w.accounts a).txns = [])
    (hrate : ∀ a ∈ holdings E, Monotone (s.w.accounts a).A ∨ Antitone (s.w.accounts a).A) :
    (((earners E s.w).map Earner.net).sum ≠ 0 →
      ∃ s', Forecast.callSubforecasts (world E) s = .ok s') ∧
    (((earners E s.w).map Earner.net).sum = 0 →
      Forecast.callSubforecasts (world E) s = .error .zeroDivisionError) := by
  have hD := hE.dates
  have hpaid : ∀ w : Home N A K, PaidProperly (earners E w) := by
    intro w e he
    simp only [earners, List.mem_map] at he
    obtain ⟨i, -, rfl⟩ := he
    exact ⟨(hE.paid i _).1.wf, (hE.paid i _).2⟩
  have parts : Forecast.callSubforecasts (world E) s = (do
      let r1 ← call E .income s.w s.available
      let r2 ← call E .living r1.1 r1.2
      let r3 ← call E .saving r2.1 r2.2
      let r4 ← call E .withdrawal r3.1 r3.2
      let r5 ← call E .tax r4.1 r4.2
      .ok { s with w := r5.1, available := r5.2 }) := by
    simp only [Forecast.callSubforecasts, world, List.foldlM_cons, List.foldlM_nil, except_pure]
    cases h1 : call E .income s.w s.available with
    | error e => rfl
    | ok r1 =>
      simp only [ok_bind]
      cases h2 : call E .living r1.1 r1.2 with
      | error e => rfl
      | ok r2 =>
        simp only [ok_bind]
        cases h3 : call E .saving r2.1 r2.2 with
        | error e => rfl
        | ok r3 =>
          simp only [ok_bind]
          cases h4 : call E .withdrawal r3.1 r3.2 with
          | error e => rfl
          | ok r4 =>
            simp only [ok_bind]
            cases h5 : call E .tax r4.1 r4.2 with
            | error e => rfl
            | ok r5 => rfl
  rw [parts]
  obtain ⟨⟨w1, v1⟩, h1⟩ := call_income_ok hr.books (hr.idle _) hE.timing.2 (hpaid _)
  obtain ⟨a1, a2, a3, -, -⟩ := call_income hr.books (hr.idle _) hE.timing.2 (hpaid _) h1
  have t1 := call_within hD hr.books (hr.idle _) hw h1
  have i2 : Idle (w1.sub .living) := (hr.idle .living).of_only a1 (by decide)
  have ee : earners E w1 = earners E s.w := earners_only a1
  rw [h1, ok_bind]
  refine ⟨fun hn => ?_, fun hn => ?_⟩
  swap
  · simp only
    rw [call_living_error a2 i2 hE.people (by rw [ee]; exact hn)]
    rfl
  obtain ⟨⟨w2, v2⟩, h2⟩ := call_living_ok a2 i2 (hpaid _) (by rw [ee]; exact hn)
    (hB.expenses _ _ fun a => ⟨a2.acct a, by rw [a3]; exact hA a⟩)
  simp only
  rw [h2, ok_bind]
  obtain ⟨b1, b2, b3, -, -, -⟩ := call_living a2 i2 hE.people (hpaid _) h2
  have t2 := call_within hD a2 i2 t1 h2
  have i3 : Idle (w2.sub .saving) :=
    Idle.of_only b1 (by decide) (Idle.of_only a1 (by decide) (hr.idle .saving))
  have acc2 : w2.accounts = s.w.accounts := b3.trans a3
  have hA2 : ∀ a, IsGrowth (w2.accounts a).A := by rw [acc2]; exact hA
  have real2 : Real E.limits (pools E w2 v2) := real_pools b2 t2 hA2
  obtain ⟨P, hP0⟩ := hB.saving.answers (w2.sub .saving).year _ real2
  obtain ⟨wfP, wfP'⟩ := hE.saving.shape _ _ P real2 hP0
  have hP := fun hT => hE.saving.pays _ _ P real2 hP0 hT
  have hP' := fun hT => hE.saving.draws _ _ P real2 hP0 hT
  have hPd := hB.saving.dates _ _ P real2 hP0
  have fresh2 : ∀ a ∈ holdings E, (w2.accounts a).txns = [] := by rw [acc2]; exact hfresh
  have rate2 : ∀ a ∈ holdings E, Monotone (w2.accounts a).A ∨ Antitone (w2.accounts a).A := by
    rw [acc2]; exact hrate
  have nil2 : ∀ a ∈ holdings E, ∀ σ : K, Signed σ (w2.accounts a).txns := by
    intro a ha σ; rw [fresh2 a ha]; exact signed_nil σ
  have close2 : ∀ a ∈ holdings E, closing (w2.accounts a)
      = opening (w2.accounts a) * (w2.accounts a).A 1 := by
    intro a ha
    rw [closing_grown (b2.acct a), fresh2 a ha, grown_nil, add_zero]
  have good2 : ∀ a ∈ holdings E, 0 ≤ opening (w2.accounts a) → 0 ≤ closing (w2.accounts a) := by
    intro a ha h0
    rw [close2 a ha]
    exact mul_nonneg h0 ((hA2 a).pos 1).le
  have cover2 : ∀ a ∈ holdings E, 0 ≤ opening (w2.accounts a) → ∀ x',
      applyAll (w2.accounts a) ((Dict.get? P a).getD []) = .ok x' → 0 ≤ closing x' := by
    intro a ha h0 x' hx
    cases hg : Dict.get? P a with
    | none => rw [hg] at hx; cases hx; exact good2 a ha h0
    | some p =>
      rw [hg] at hx
      have := hE.saving.affords _ _ P real2 hP0 a p _ _ x' hg rfl
        (by simpa [onSide] using good2 a ha h0) hx
      simpa [onSide] using this
  obtain ⟨⟨w3, v3⟩, h3⟩ := call_saving_ok (E := E) b2 i3 t2 hB.tells hP0 wfP (by
    intro e he
    obtain ⟨he1, he2⟩ := hPd e he
    refine ⟨he2, hA2 _, ?_⟩
    rcases le_total 0 (Dict.total v2) with hT | hT
    · exact .inl ((hP hT).1 e he)
    · refine payable_drain (b2.acct _) (hA2 _) (rate2 _ he1) (nil2 _ he1 _) ((hP' hT).1 e he) he2 ?_
      rcases le_total (opening (w2.accounts e.1)) 0 with h0 | h0
      · exact .inl h0
      · have := cover2 e.1 he1 h0
        rw [Dict.get?_of_mem wfP he] at this
        exact .inr ⟨h0, this⟩)
  simp only
  rw [h3, ok_bind]
  obtain ⟨c1, c2, c3, -, P', c5, -, -, -, c9⟩ :=
    call_saving b2 i3 (fun p hp => (hE.saving.shape _ _ p real2 hp).1) h3
  obtain rfl : P = P' := by rw [hP0] at c5; exact Except.ok.inj c5
  have t3 := call_within hD b2 i3 t2 h3
  have i4 : Idle (w3.sub .withdrawal) := Idle.of_only c1 (by decide)
    (Idle.of_only b1 (by decide) (Idle.of_only a1 (by decide) (hr.idle .withdrawal)))
  have hA3 : ∀ a, IsGrowth (w3.accounts a).A := by
    intro a
    rw [(same_A (c3 a)).1]; exact hA2 a
  have real3 : Real E.limits (pools E w3 v3) := real_pools c2 t3 hA3
  have mP : ((Dict.keys P).map (due P)).sum = moved P := sum_due_keys wfP
  have T3 : Dict.total v3 = Dict.total v2 - moved P := by rw [c9, mP]
  obtain ⟨Q, hQ0⟩ := hB.withdrawal.answers (w3.sub .withdrawal).year _ real3
  obtain ⟨wfQ, wfQ'⟩ := hE.withdrawal.shape _ _ Q real3 hQ0
  have hQd := hB.withdrawal.dates _ _ Q real3 hQ0
  have asset : ∀ a ∈ E.assets, a ∈ holdings E := by
    intro a ha
    simp [holdings, ha]
  obtain ⟨⟨w4, v4⟩, h4⟩ := call_withdrawal_ok (E := E) c2 i4 t3 hB.tells hQ0 wfQ wfQ'
    (fun e he => (hQd e he).1) (by
    intro e he
    obtain ⟨he1, he2⟩ := hQd e he
    have he1' := asset _ he1
    refine ⟨he2, hA3 _, ?_⟩
    rcases le_total 0 (Dict.total v2) with hT | hT
    · refine .inl ((hE.withdrawal.pays _ _ Q real3 hQ0 ?_).1 e he)
      have h6 : moved P ≤ Dict.total v2 := (hP hT).2
      show 0 ≤ Dict.total v3
      rw [T3]; linarith
    · have hneg := (hE.withdrawal.draws _ _ Q real3 hQ0 (by
        have h6 : Dict.total v2 ≤ moved P := (hP' hT).2
        show Dict.total v3 ≤ 0
        rw [T3]; linarith)).1 e he
      have rate3 : Monotone (w3.accounts e.1).A ∨ Antitone (w3.accounts e.1).A := by
        rw [(same_A (c3 e.1)).1]; exact rate2 _ he1'
      have op3 := opening_same (c3 e.1)
      refine payable_drain (c2.acct _) (hA3 _) rate3
        (call_saving_moved b2 i3 hP0 (hP' hT).1 h3 (nil2 _ he1' _)) hneg he2 ?_
      rcases le_total (opening (w3.accounts e.1)) 0 with h0 | h0
      · exact .inl h0
      · refine .inr ⟨h0, fun x' hx => ?_⟩
        rw [op3] at h0
        have hk : Kindly (side false : K) (w2.accounts e.1) := by
          rcases rate2 _ he1' with h1 | h1
          · exact .inl h1
          · exact .inr ⟨h1, by simp [side], _, opening_eq (b2.acct _), h0⟩
        have k1 := call_saving_took (σ := (side false : K)) b2 i3 hP0 wfP h3 (a := e.1) (hA2 _)
        obtain ⟨-, d2⟩ := drained (owed := false) (b2.acct e.1) k1 hk (nil2 _ he1' _)
          (fun f hf => by
            obtain ⟨p, hp, hfp⟩ := mem_plan_of_get? hf
            simpa [side] using (hP' hT).1 p hp f hfp)
          (by simpa [onSide] using good2 _ he1' h0)
          (fun x'' hx => by simpa [onSide] using cover2 _ he1' h0 x'' hx)
        have := hE.withdrawal.affords _ _ Q real3 hQ0 e.1 e.2 _ _ x' (Dict.get?_of_mem wfQ he) rfl
          d2 hx
        simpa [onSide] using this)
  simp only
  rw [h4, ok_bind]
  have d1 : OnlySub w3 w4 .withdrawal := by
    simp only [call] at h4
    obtain ⟨-, h5⟩ := finish_ok h4
    have := leave_only w3 .withdrawal (withdrawalCall E.ttv (E.default .withdrawal) none
        (fun q => planOf (E.withdrawal (w3.sub .withdrawal).year q)) (poolTax E)
        (E.assets.map some) (enterAlloc E w3 .withdrawal v3)).1
    rw [← h5] at this; exact this
  have i5 : Idle (w4.sub .tax) := Idle.of_only d1 (by decide) (Idle.of_only c1 (by decide)
    (Idle.of_only b1 (by decide) (Idle.of_only a1 (by decide) (hr.idle .tax))))
  have signQ : (∀ e ∈ Q, ∀ f ∈ e.2, 0 ≤ f.2) ∨ ∀ e ∈ Q, ∀ f ∈ e.2, f.2 ≤ 0 := by
    rcases le_total 0 (Dict.total v3) with hT | hT
    · exact .inl (hE.withdrawal.pays _ _ Q real3 hQ0 hT).1
    · exact .inr (hE.withdrawal.draws _ _ Q real3 hQ0 hT).1
  obtain ⟨-, d2, -⟩ := call_withdrawal c2 i4 (fun Q' hQ' => by
    rw [hQ0] at hQ'
    cases hQ'
    exact ⟨wfQ, fun e he => rescalable_of_signs (wfQ' e he)
      (signQ.imp (fun h => h e he) fun h => h e he)⟩) h4
  obtain ⟨r5, h5⟩ := call_tax_ok (E := E) d2 i5
  simp only
  rw [h5, ok_bind]
  exact ⟨_, rfl⟩

/-! ### The new year -/

theorem bring_people_ok {E : Env N A K} {Y : ℤ} (l : List N) (w : Home N A K) :
    ∃ w', (l.map Comp.person).foldlM (Forecast.bring (world E) Y) w = .ok w' := by
  have hc : ∀ (i : N) (n : ℕ) (v : Home N A K), (Y - v.personYear i).toNat ≤ n →
      ∃ v', Forecast.catchUp (world E) Y (.person i) n v = .ok v' := by
    intro i n
    induction n with
    | zero =>
      intro v hv
      rw [Forecast.catchUp_eq, if_neg (by simp only [world, yearOf]; omega)]
      exact ⟨_, rfl⟩
    | succ n ih =>
      intro v hv
      rw [Forecast.catchUp_eq]
      split_ifs
      · simp only [world, advance, ok_bind]
        exact ih _ (by simp only [put_same]; omega)
      · exact ⟨_, rfl⟩
  induction l generalizing w with
  | nil => exact ⟨w, rfl⟩
  | cons i l ih =>
    obtain ⟨w1, h1⟩ := hc i _ w (le_refl _)
    obtain ⟨w2, h2⟩ := ih w1
    exact ⟨w2, by
      rw [List.map_cons, List.foldlM_cons,
        show Forecast.bring (world E) Y w (.person i) = .ok w1 from h1, ok_bind, h2]⟩

theorem bring_accounts_ok {E : Env N A K} {Y : ℤ} (l : List A) (hl : l.Nodup) {w : Home N A K}
    (hy : ∀ a ∈ l, (w.accounts a).year = Y) (hi : ∀ a ∈ l, Inv (w.accounts a)) :
    ∃ w', (l.map Comp.account).foldlM (Forecast.bring (world E) (Y + 1)) w = .ok w' := by
  induction l generalizing w with
  | nil => exact ⟨w, rfl⟩
  | cons b l ih =>
    rw [List.nodup_cons] at hl
    have hn := nextYear_eq (opening_eq (hi b (by simp)))
    have hb : ∃ w1, Forecast.bring (world E) (Y + 1) w (.account b) = .ok w1 ∧
        ∀ a, a ≠ b → w1.accounts a = w.accounts a := by
      rw [bring_behind (C79_keeps_time E) (c := .account b) (by exact hy b (by simp))]
      simp only [world, advance, hn, ok_bind]
      exact ⟨_, rfl, fun a ha => put_other _ ha _⟩
    obtain ⟨w1, h1, h2⟩ := hb
    have hne : ∀ a ∈ l, a ≠ b := fun a ha e => hl.1 (e ▸ ha)
    obtain ⟨w2, h3⟩ := ih hl.2 (w := w1)
      (fun a ha => by rw [h2 a (hne a ha)]; exact hy a (by simp [ha]))
      (fun a ha => by rw [h2 a (hne a ha)]; exact hi a (by simp [ha]))
    exact ⟨w2, by rw [List.map_cons, List.foldlM_cons, h1, ok_bind, h3]⟩

/-- The new year of an able household comes. -/
theorem able_next {E : Env N A K} {Good : (A → Acct K) → Prop}
    (hE : Careful (fun _ => false) E) (hB : AbleIf Good E)
    {s : FS K (Home N A K)} (hb : Books s.w s.available)
    (hA : ∀ a, IsGrowth (s.w.accounts a).A)
    (hstep : ∀ c ∈ components (world E), yearOf s.w c = s.year) (hgood : Good s.w.accounts) :
    ∃ s', Forecast.nextYear (world E) s = .ok s' := by
  obtain ⟨o, ho⟩ := hB.owing (s.w.sub .tax).year s.w.accounts (fun a => ⟨hb.acct a, hA a⟩) hgood
  have hadj : ∃ x, adjustment E s.w = .ok x := by
    have hne : earners E s.w ≠ [] := by simpa [earners] using hE.people
    unfold adjustment CashFlow.taxAdjustment CashFlow.taxWithheld
    split
    · next h => exact absurd h hne
    · simp only [ok_bind, ho]; exact ⟨_, rfl⟩
  obtain ⟨x, hx⟩ := hadj
  have hrow : ∃ r, row E s.w = .ok r := by
    unfold row
    rw [mapM_opening hb.acct, ok_bind, ho, ok_bind]
    exact ⟨_, rfl⟩
  obtain ⟨r, hr⟩ := hrow
  have e1 : (world E).taxAdjustment s.w = .ok (some x, s.w) := by
    simp only [world, taxAdjustment, hx, ok_bind]
  have e2 : (world E).record s.w s.available
      = .ok { s.w with report := s.w.report ++ [r] } := by
    simp only [world, record, hr, ok_bind]
  have e3 : ∃ w2, ((world E).forecasts ++ (world E).people ++ (world E).accounts).foldlM
      (Forecast.bring (world E) (s.year + 1)) { s.w with report := s.w.report ++ [r] } = .ok w2 := by
    rw [List.foldlM_append, List.foldlM_append, bring_subs (Y := s.year), ok_bind]
    · obtain ⟨w3, h3⟩ := bring_people_ok (E := E) (Y := s.year + 1) E.people
        { { s.w with report := s.w.report ++ [r] } with sub := fun k => (s.w.sub k).next }
      rw [show (world E).people = E.people.map Comp.person from rfl, h3, ok_bind]
      obtain ⟨p1, -⟩ := bring_people E.people h3
      refine bring_accounts_ok (holdings E) (holdings_nodup E) (fun a ha => ?_) fun a ha => ?_
      · rw [p1]
        refine hstep (.account a) ?_
        unfold components world
        simp only [List.mem_append, List.mem_map]
        exact .inr ⟨a, ha, rfl⟩
      · rw [p1]; exact hb.acct a
    · intro k
      refine hstep (.sub k) ?_
      unfold components world
      cases k <;> simp
  obtain ⟨w2, e3⟩ := e3
  obtain ⟨a, e4, -⟩ := Forecast.carry_spec hE.timed w2 (0 + Dict.total s.available) (some x)
  unfold Forecast.nextYear
  rw [e1, ok_bind]
  simp only
  rw [e2, ok_bind, e3, ok_bind, e4, ok_bind]
  exact ⟨_, rfl⟩

/-! ### The whole run -/

/-- Where a household stands at the start of a year. -/
structure Underway (E : Env N A K) (accounts : A → Acct K) (s : FS K (Home N A K)) : Prop where
  ready : Ready s.w s.available
  dates : Within s.available
  growth : ∀ a, (s.w.accounts a).growth = (accounts a).growth
  fresh : ∀ a ∈ holdings E, (s.w.accounts a).txns = []
  step : ∀ c ∈ components (world E), yearOf s.w c = s.year

theorem Underway.income {E : Env N A K} {accounts : A → Acct K} {s : FS K (Home N A K)}
    (h : Underway E accounts s) : ((earners E s.w).map Earner.net).sum = incomeIn E s.year := by
  unfold earners incomeIn
  rw [List.map_map]
  congr 1
  apply List.map_congr_left
  intro i hi
  have : s.w.personYear i = s.year := h.step (.person i) (by
    unfold components world
    simp only [List.mem_append, List.mem_map]
    exact .inl (.inr ⟨i, hi, rfl⟩))
  simp only [Function.comp_apply, this]

/-- One year of the run. -/
theorem Underway.next {E : Env N A K} {Good : (A → Acct K) → Prop}
    (hE : Careful (fun _ => false) E) (hB : AbleIf Good E)
    {accounts : A → Acct K} (hg : ∀ a y, IsGrowth ((accounts a).growth y))
    {s s1 s2 : FS K (Home N A K)} (h : Underway E accounts s)
    (h1 : Forecast.callSubforecasts (world E) s = .ok s1)
    (h2 : Forecast.nextYear (world E) s1 = .ok s2) :
    Underway E accounts s2 ∧ s2.year = s.year + 1 := by
  have hA : ∀ a, IsGrowth (s.w.accounts a).A := fun a => by
    unfold Acct.A; rw [h.growth]; exact hg a _
  obtain ⟨y1, -, y3, -⟩ := careful_year hE h.ready h.dates hA h1
  obtain ⟨e1, e2⟩ := Forecast.calls_inv (C79_keeps_time E) h1
  have step1 : ∀ c ∈ components (world E), yearOf s1.w c = s1.year := fun c hc =>
    (e2 c).trans ((h.step c hc).trans e1.symm)
  obtain ⟨n1, -, -, -, n5, n6⟩ := new_year hE.timed y1 step1 h2
  obtain ⟨z1, z2, z3, z4, -⟩ := Forecast.C45_next_year (C79_keeps_time E) h2
  refine ⟨⟨n1, next_within hE.dates hE.timed h2, fun a => ?_, fun a ha => ?_, fun c hc => ?_⟩,
    by rw [z1, e1]⟩
  · by_cases ha : a ∈ holdings E
    · have hn := n5 a ha
      rw [nextYear_eq (opening_eq (y1.acct a))] at hn
      rw [← Except.ok.inj hn]
      exact (same_A (y3 a)).2.2.1.trans (h.growth a)
    · rw [n6 a ha]; exact (same_A (y3 a)).2.2.1.trans (h.growth a)
  · have hn := n5 a ha
    rw [nextYear_eq (opening_eq (y1.acct a))] at hn
    rw [← Except.ok.inj hn]
  · have hy : yearOf s2.w c = max (yearOf s1.w c) s2.year := by
      simp only [components, List.mem_append] at hc
      rcases hc with (hm | hm) | hm
      · exact z2 c hm
      · exact z3 c hm
      · exact z4 c hm
    rw [hy, step1 c hc, z1]
    exact max_eq_right (by omega)

/-- What is known (`J`) about the accounts at the beginning of a year makes them `Good` when it is over, and
is so again at the beginning of the next one. -/
structure Carries (E : Env N A K) (accounts : A → Acct K) (Good J : (A → Acct K) → Prop) : Prop where
  ends : ∀ s s1 : FS K (Home N A K), Underway E accounts s → J s.w.accounts →
    Forecast.callSubforecasts (world E) s = .ok s1 → Good s1.w.accounts
  next : ∀ s s1 s2 : FS K (Home N A K), Underway E accounts s → J s.w.accounts →
    Forecast.callSubforecasts (world E) s = .ok s1 → Forecast.nextYear (world E) s1 = .ok s2 →
    J s2.w.accounts

/-- The rest of the run. -/
theorem able_run {E : Env N A K} {Good : (A → Acct K) → Prop}
    (hE : Careful (fun _ => false) E) (hB : AbleIf Good E)
    {accounts : A → Acct K} (hg : ∀ a y, IsGrowth ((accounts a).growth y))
    (hrate : ∀ a ∈ holdings E, ∀ y, Monotone ((accounts a).growth y) ∨
      Antitone ((accounts a).growth y)) (n : ℕ) {s : FS K (Home N A K)}
    {J : (A → Acct K) → Prop} (hJ : Carries E accounts Good J)
    (h : Underway E accounts s) (hj : J s.w.accounts) :
    ((∀ k : ℕ, k ≤ n → incomeIn E (s.year + k) ≠ 0) →
      ∃ s', (do let s1 ← Forecast.runYears (world E) (s.year + n) n s
                Forecast.callSubforecasts (world E) s1) = .ok s') ∧
    ((∃ k : ℕ, k ≤ n ∧ incomeIn E (s.year + k) = 0) →
      (do let s1 ← Forecast.runYears (world E) (s.year + n) n s
          Forecast.callSubforecasts (world E) s1) = .error .zeroDivisionError) := by
  induction n generalizing s with
  | zero =>
    rw [Forecast.runYears_eq, if_neg (by simp), ok_bind]
    have hA : ∀ a, IsGrowth (s.w.accounts a).A := fun a => by
      unfold Acct.A; rw [h.growth]; exact hg a _
    obtain ⟨y1, y2⟩ := able_year hE hB h.ready h.dates hA h.fresh fun a ha => by
      unfold Acct.A; rw [h.growth]; exact hrate a ha _
    rw [h.income] at y1 y2
    refine ⟨fun hk => y1 (by simpa using hk 0 (le_refl _)), ?_⟩
    rintro ⟨k, hk, h0⟩
    obtain rfl : k = 0 := by omega
    exact y2 (by simpa using h0)
  | succ n ih =>
    rw [Forecast.runYears_eq, if_pos (by push_cast; omega)]
    simp only [bind_assoc]
    have hA : ∀ a, IsGrowth (s.w.accounts a).A := fun a => by
      unfold Acct.A; rw [h.growth]; exact hg a _
    obtain ⟨y1, y2⟩ := able_year hE hB h.ready h.dates hA h.fresh fun a ha => by
      unfold Acct.A; rw [h.growth]; exact hrate a ha _
    rw [h.income] at y1 y2
    by_cases h0 : incomeIn E s.year = 0
    · rw [y2 h0]
      refine ⟨fun hk => absurd h0 (by simpa using hk 0 (Nat.zero_le _)), fun _ => rfl⟩
    · obtain ⟨s1, h1⟩ := y1 h0
      rw [h1, ok_bind]
      obtain ⟨x1, -, x3, -⟩ := careful_year hE h.ready h.dates hA h1
      obtain ⟨e1, e2⟩ := Forecast.calls_inv (C79_keeps_time E) h1
      obtain ⟨s2, h2⟩ := able_next hE hB x1 (fun a => by rw [(same_A (x3 a)).1]; exact hA a)
        (fun c hc => (e2 c).trans ((h.step c hc).trans e1.symm)) (hJ.ends _ _ h hj h1)
      rw [h2, ok_bind]
      obtain ⟨u1, u2⟩ := h.next hE hB hg h1 h2
      have hyr : s.year + ((n + 1 : ℕ) : ℤ) = s2.year + n := by rw [u2]; push_cast; ring
      rw [hyr]
      obtain ⟨r1, r2⟩ := ih u1 (hJ.next _ _ _ h hj h1 h2)
      refine ⟨fun hk => r1 fun k hkn => ?_, ?_⟩
      · have := hk (k + 1) (by omega)
        rw [u2]
        rw [show s.year + 1 + (k : ℤ) = s.year + ((k + 1 : ℕ) : ℤ) by push_cast; ring]
        exact this
      · rintro ⟨k, hkn, hk0⟩
        refine r2 ?_
        cases k with
        | zero => exact absurd (by simpa using hk0) h0
        | succ k =>
          refine ⟨k, by omega, ?_⟩
          rw [u2, show s.year + 1 + (k : ℤ) = s.year + ((k + 1 : ℕ) : ℤ) by push_cast; ring]
          exact hk0

/-- `C96_completes` for households whose taxes are known as long as their accounts are `Good`. -/
theorem completes_if {E : Env N A K} {Good J : (A → Acct K) → Prop}
    (hE : Careful (fun _ => false) E) (hB : AbleIf Good E) {initial : ℤ}
    {n : ℕ} {accounts : A → Acct K} (hacc : ∀ a, Reachable (accounts a))
    (hyear : ∀ a ∈ holdings E, (accounts a).year = initial)
    (hfresh : ∀ a ∈ holdings E, (accounts a).txns = [])
    (hg : ∀ a y, IsGrowth ((accounts a).growth y))
    (hrate : ∀ a ∈ holdings E, ∀ y, Monotone ((accounts a).growth y) ∨
      Antitone ((accounts a).growth y))
    (hJ : Carries E accounts Good J) (hj : J accounts) :
    ((∃ s, forecast E initial (scenarioYears initial (n + 1)) accounts = .ok s) ↔
      ∀ k : ℕ, k ≤ n → incomeIn E (initial + k) ≠ 0) ∧
    ((∃ k : ℕ, k ≤ n ∧ incomeIn E (initial + k) = 0) →
      forecast E initial (scenarioYears initial (n + 1)) accounts = .error .zeroDivisionError) := by
  have h0 : Underway E accounts ⟨initial, [], Home.new initial accounts⟩ := by
    refine ⟨⟨⟨Dict.wf_nil, fun a => (hacc a).inv⟩, fun k => ⟨rfl, rfl⟩⟩, within_nil, fun _ => rfl,
      hfresh, fun c hc => ?_⟩
    cases c with
    | sub k => rfl
    | person i => rfl
    | account a =>
      unfold components world at hc
      simp only [List.mem_append, List.mem_map, List.mem_cons, reduceCtorEq, or_self, and_false,
        exists_false, false_or, List.not_mem_nil, Comp.account.injEq, exists_eq_right] at hc
      exact hyear a hc
  have hf : forecast E initial (scenarioYears initial (n + 1)) accounts
      = (do let s1 ← Forecast.runYears (world E) (initial + n) n
              ⟨initial, [], Home.new initial accounts⟩
            Forecast.callSubforecasts (world E) s1) := by
    unfold forecast Forecast.init
    rw [Forecast.years_max]
    simp only [add_sub_cancel_left, Int.toNat_natCast]
  obtain ⟨r1, r2⟩ := able_run hE hB hg hrate n hJ h0 hj
  rw [hf]
  refine ⟨⟨?_, r1⟩, r2⟩
  rintro ⟨s, hs⟩ k hk hk0
  rw [r2 ⟨k, hk, hk0⟩] at hs
  cases hs

/-- **C96.** The forecast of a household completes, if its strategies are prudent (they take no more
from an account than there is) and always answer, and if its taxes and expenses can be worked out,
exactly if somebody earns something, net, in every year: no transfer is ever refused, no account is
asked for something it cannot answer. In the first year without any income the division of the
living expenses among the earners raises `ZeroDivisionError`. -/
theorem C96_completes {E : Env N A K} (hE : Careful (fun _ => false) E) (hB : Able E) {initial : ℤ}
    {n : ℕ} {accounts : A → Acct K} (hacc : ∀ a, Reachable (accounts a))
    (hyear : ∀ a ∈ holdings E, (accounts a).year = initial)
    (hfresh : ∀ a ∈ holdings E, (accounts a).txns = [])
    (hg : ∀ a y, IsGrowth ((accounts a).growth y))
    (hrate : ∀ a ∈ holdings E, ∀ y, Monotone ((accounts a).growth y) ∨
      Antitone ((accounts a).growth y)) :
    ((∃ s, forecast E initial (scenarioYears initial (n + 1)) accounts = .ok s) ↔
      ∀ k : ℕ, k ≤ n → incomeIn E (initial + k) ≠ 0) ∧
    ((∃ k : ℕ, k ≤ n ∧ incomeIn E (initial + k) = 0) →
      forecast E initial (scenarioYears initial (n + 1)) accounts = .error .zeroDivisionError) :=
  completes_if hE hB.always hacc hyear hfresh hg hrate (J := fun _ => True)
    ⟨fun _ _ _ _ _ => trivial, fun _ _ _ _ _ _ _ => trivial⟩ trivial

end Forecaster.Household
