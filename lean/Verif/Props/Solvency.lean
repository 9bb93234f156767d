import Verif.Lemmas.Solvency
import Verif.Lemmas.OnTime
import Verif.Props.Household
import Verif.Props.TraversalOrder
import Mathlib.Algebra.Order.Ring.Rat

/-!
# C95: a forecast never overdraws an account

Specification vocabulary: accounts are owned or owed (`owed`), and a balance is on the right side
(`onSide`) if it is not negative for an account that is owned and not positive for a debt. Rates
that do not fall are expressed by the growth of money in a year being at least that of the year
before.
-/

set_option linter.unusedSectionVars false

namespace Forecaster.Household

open Forecaster Forecaster.Timing Forecaster.Account Forecaster.SubForecast Forecaster.CashFlow
open Forecaster.Forecast (FS scenarioYears Clockwork Timed components)

variable {K : Type} [Field K] [LinearOrder K] [IsStrictOrderedRing K]
variable {N A : Type} [DecidableEq N] [DecidableEq A]

/-- Specification: not overdrawn; or, for a debt, not overpaid. -/
def onSide (owed : Bool) (x : K) : Prop := if owed then x ≤ 0 else 0 ≤ x

/-- Specification: what a strategy gets to see in a forecast: cash with dates within the year, and
accounts that are not corrupt and grow sensibly, with their limits. -/
structure Real (limits : A → Acct K → Limits K) (q : Option A → Pool K) : Prop where
  cash : ∃ d, q none = .dict true d ∧ Dated d
  acct : ∀ a, ∃ x, q (some a) = .acct (limits a x) x ∧ Inv x ∧ IsGrowth x.A

/-- Specification: a prudent strategy. With money to spend it only pays in, and no more than that;
with money missing it only takes out, and no more than that; and it neither overdraws nor overpays
an account that is all right. -/
structure Prudent (owed : A → Bool) (limits : A → Acct K → Limits K)
    (strategy : ℤ → (Option A → Pool K) → Except PyErr (Dict A (Dict K K))) : Prop where
  shape : ∀ y q d, Real limits q → strategy y q = .ok d → Dict.WF d ∧ ∀ e ∈ d, Dict.WF e.2
  pays : ∀ y q d, Real limits q → strategy y q = .ok d → 0 ≤ Dict.total (q none).txns →
    (∀ e ∈ d, ∀ f ∈ e.2, 0 ≤ f.2) ∧ moved d ≤ Dict.total (q none).txns
  draws : ∀ y q d, Real limits q → strategy y q = .ok d → Dict.total (q none).txns ≤ 0 →
    (∀ e ∈ d, ∀ f ∈ e.2, f.2 ≤ 0) ∧ Dict.total (q none).txns ≤ moved d
  affords : ∀ y q d, Real limits q → strategy y q = .ok d → ∀ a p L x x',
    Dict.get? d a = some p → q (some a) = .acct L x → onSide (owed a) (closing x) →
    applyAll x p = .ok x' → onSide (owed a) (closing x')

/-- Specification: a household with prudent strategies, somebody to forecast for and dates within
the year. -/
structure Careful (owed : A → Bool) (E : Env N A K) : Prop where
  people : E.people ≠ []
  paid : ∀ i y, Dated (E.earner i y).timing ∧ Dict.total (E.earner i y).timing ≠ 0
  timing : Dated (E.default .income) ∧ Dict.total (E.default .income) ≠ 0
  refund : Dated E.refund ∧ Dict.total E.refund ≠ 0
  payment : Dated E.payment ∧ Dict.total E.payment ≠ 0
  saving : Prudent owed E.limits E.saving
  withdrawal : Prudent owed E.limits E.withdrawal

/-! ### Balances -/

/-- The sign of the right side. -/
def side (owed : Bool) : K := if owed then -1 else 1

theorem onSide_iff {owed : Bool} {x : K} : onSide owed x ↔ 0 ≤ (side owed : K) * x := by
  cases owed <;> simp [onSide, side]

theorem opening_eq {x : Acct K} (hi : Inv x) : balance x = .ok (opening x) := by
  obtain ⟨b, hb⟩ := hi.balance_ok
  rw [opening, hb]; rfl

theorem balance_at {x : Acct K} (hi : Inv x) {t : K} (ht : 0 ≤ t ∧ t ≤ 1) :
    balanceAtTime x (.num t) none = .ok (opening x * x.A t + grown x.A x.txns t) := by
  rw [balanceAtTime_eq hi (opening_eq hi) ht none (by simp)]
  simp

theorem closing_grown {x : Acct K} (hi : Inv x) :
    closing x = opening x * x.A 1 + grown x.A x.txns 1 := by
  unfold closing
  rw [balanceAtTime_end, balance_at hi ⟨zero_le_one, le_refl _⟩]
  rfl

theorem sum_grown (A : K → K) {d : Dict K K} (hd : ∀ k ∈ Dict.keys d, 0 ≤ k ∧ k ≤ 1) :
    (d.map fun e => e.2 * A (1 - e.1)).sum = grown A d 1 := by
  induction d with
  | nil => rfl
  | cons e d ih =>
    rw [List.map_cons, List.sum_cons, grown_cons, if_pos (hd e.1 (by simp [Dict.keys])).2,
      ih fun k hk => hd k (by
        simp only [Dict.keys, List.map_cons, List.mem_cons]; exact .inr hk)]

theorem opening_same {x x' : Acct K} (h : { x' with txns := [] } = { x with txns := [] }) :
    opening x' = opening x := by
  unfold opening; rw [(same_A h).2.2.2.2.2.1]

/-- A plan that can be afforded leaves the account on the right side. -/
theorem drained {owed : Bool} {x x' : Acct K} {p : Dict K K} (hi : Inv x)
    (htk : Took (side owed : K) x x' p)
    (hk : Kindly (side owed : K) x) (hs : Signed (-(side owed : K)) x.txns)
    (hp : ∀ e ∈ p, (side owed : K) * e.2 ≤ 0) (hc : onSide owed (closing x))
    (haf : ∀ x'', applyAll x p = .ok x'' → onSide owed (closing x'')) :
    Signed (-(side owed : K)) x'.txns ∧ onSide owed (closing x') := by
  obtain ⟨h1, h2⟩ := htk.drain hk hs hp
  refine ⟨h1, ?_⟩
  have h3 := haf _ (applyAll_eq x htk.dates)
  have hi' : Inv { x with txns := Timing.addTransactions x.txns p } := by
    refine ⟨⟨Timing.wf_add hi.tx.wf _, within_add hi.tx.rng htk.dates⟩, hi.future, hi.opening⟩
  rw [closing_grown hi', onSide_iff] at h3
  rw [closing_grown htk.inv, onSide_iff, opening_same htk.same, (same_A htk.same).1]
  have e1 : opening { x with txns := Timing.addTransactions x.txns p } = opening x := by
    unfold opening; rw [balance_txns_irrel]
  have e2 : Acct.A { x with txns := Timing.addTransactions x.txns p } = x.A := rfl
  rw [e1, e2, grown_add x.A hi.tx.wf] at h3
  rw [sum_grown x.A htk.dates] at h2
  linarith

/-- What a year may leave of an account: only paid in on the right side, or drained but still on
the right side. -/
def Sane (owed : Bool) (x : Acct K) : Prop :=
  Signed (side owed : K) x.txns ∨
    (Signed (-(side owed : K)) x.txns ∧ onSide owed (closing x))

theorem Sane.all_year {owed : Bool} {x : Acct K} (hi : Inv x) (hA : IsGrowth x.A)
    (h : Sane owed x) (ho : onSide owed (opening x)) {t : K} (ht : 0 ≤ t ∧ t ≤ 1) :
    onSide owed (opening x * x.A t + grown x.A x.txns t) := by
  rw [onSide_iff] at ho ⊢
  rcases h with h | ⟨h, hc⟩
  · have h1 := grown_signed (σ := (side owed : K)) hA (fun e he => h.mem hi.tx.wf he) t
    have h2 := mul_nonneg ho (hA.pos t).le
    rw [mul_add, ← mul_assoc]
    linarith
  · rw [closing_grown hi, onSide_iff] at hc
    exact never_crossed hA (fun e he => by have := h.mem hi.tx.wf he; linarith) hc ht.2

/-- The next year opens on the right side. -/
theorem Sane.next {owed : Bool} {x x' : Acct K} (hi : Inv x) (hA : IsGrowth x.A)
    (hB : IsGrowth (x.growth (x.year + 1)))
    (hAB : ∀ t, 0 ≤ t → t ≤ 1 → x.A t ≤ x.growth (x.year + 1) t)
    (h : Sane owed x) (ho : onSide owed (opening x)) (hn : Account.nextYear x = .ok x') :
    onSide owed (opening x') ∧ x'.txns = [] ∧ x'.growth = x.growth ∧ x'.year = x.year + 1 ∧
      Inv x' := by
  have hix := inv_nextYear hi hn
  rw [nextYear_eq (opening_eq hi)] at hn
  have hx := Except.ok.inj hn
  refine ⟨?_, by rw [← hx], by rw [← hx], by rw [← hx], hix⟩
  have hb : balance x' = .ok (opening x * x.growth (x.year + 1) 1
      + grown (x.growth (x.year + 1)) x.txns 1) := by
    rw [balance_of_prev (b := opening x) (tx := x.txns) _ _ _ hi.tx]
    · rw [← hx]; rfl
    · rw [← hx]
      simp only
      rw [Dict.get?_set_ne _ _ (by omega)]
      exact hi.future _ (by omega)
    · rw [← hx]; simp
    · rw [← hx]; simp
  have : opening x' = opening x * x.growth (x.year + 1) 1
      + grown (x.growth (x.year + 1)) x.txns 1 := by
    unfold opening at hb ⊢
    rw [hb]; rfl
  rw [this, onSide_iff]
  rw [onSide_iff] at ho
  rcases h with h | ⟨h, hc⟩
  · have h1 := grown_signed (σ := (side owed : K)) hB (fun e he => h.mem hi.tx.wf he) 1
    have h2 := mul_nonneg ho (hB.pos 1).le
    rw [mul_add, ← mul_assoc]
    linarith
  · rw [closing_grown hi, onSide_iff] at hc
    exact carried hA hB hAB hi.tx (fun e he => by have := h.mem hi.tx.wf he; linarith) hc

/-! ### One year -/

theorem Careful.dates {owed : A → Bool} {E : Env N A K} (h : Careful owed E) : Dates E :=
  ⟨fun i y => (h.paid i y).1.rng, h.timing.1.rng, h.refund.1.rng, h.payment.1.rng⟩

theorem Careful.timed {owed : A → Bool} {E : Env N A K} (h : Careful owed E) :
    Timed (world E) where
  refund w d hd := by cases hd; exact ⟨h.refund.1.wf, h.refund.2⟩
  payment w d hd := by cases hd; exact ⟨h.payment.1.wf, h.payment.2⟩

theorem real_pools {E : Env N A K} {w : Home N A K} {av : Dict K K} (hb : Books w av)
    (hw : Within av) (hA : ∀ a, IsGrowth (w.accounts a).A) : Real E.limits (pools E w av) :=
  ⟨⟨av, rfl, ⟨hb.cash, hw⟩⟩, fun a => ⟨w.accounts a, rfl, hb.acct a, hA a⟩⟩

theorem rescalable_of_signs {d : Dict K K} (hd : Dict.WF d)
    (h : (∀ f ∈ d, 0 ≤ f.2) ∨ ∀ f ∈ d, f.2 ≤ 0) : Rescalable d := by
  refine ⟨hd, fun ⟨⟨a, ha, h1⟩, b, hb, h2⟩ => ?_⟩
  rcases h with h | h
  · exact absurd (h b hb) (not_le.2 h2)
  · exact absurd (h a ha) (not_le.2 h1)

theorem mem_plan_of_get? {d : Dict A (Dict K K)} {a : A} {e : K × K}
    (h : e ∈ (Dict.get? d a).getD []) : ∃ p ∈ d, e ∈ p.2 := by
  cases hg : Dict.get? d a with
  | none => rw [hg] at h; simp at h
  | some p =>
    rw [hg] at h
    exact ⟨(a, p), Dict.mem_of_get? hg, h⟩

/-- A year of a careful household. -/
theorem careful_year {owed : A → Bool} {E : Env N A K} (hE : Careful owed E)
    {s s' : FS K (Home N A K)} (hr : Ready s.w s.available) (hw : Within s.available)
    (hA : ∀ a, IsGrowth (s.w.accounts a).A)
    (h : Forecast.callSubforecasts (world E) s = .ok s') :
    Books s'.w s'.available ∧ Within s'.available ∧ SameAccounts s.w s'.w ∧
      ∀ a, (s.w.accounts a).txns = [] → Kindly (side (owed a) : K) (s.w.accounts a) →
        onSide (owed a) (opening (s.w.accounts a)) → Sane (owed a) (s'.w.accounts a) := by
  have hD := hE.dates
  have hpaid : ∀ w : Home N A K, PaidProperly (earners E w) := by
    intro w e he
    simp only [earners, List.mem_map] at he
    obtain ⟨i, -, rfl⟩ := he
    exact ⟨(hE.paid i _).1.wf, (hE.paid i _).2⟩
  obtain ⟨w1, v1, w2, v2, w3, v3, w4, v4, h1, h2, h3, h4, h5, -⟩ := calls_parts h
  obtain ⟨a1, a2, a3, -, -⟩ := call_income hr.books (hr.idle _) hE.timing.2 (hpaid _) h1
  have t1 := call_within hD hr.books (hr.idle _) hw h1
  have i2 : Idle (w1.sub .living) := (hr.idle .living).of_only a1 (by decide)
  obtain ⟨b1, b2, b3, -, -, -⟩ := call_living a2 i2 hE.people (hpaid _) h2
  have t2 := call_within hD a2 i2 t1 h2
  have i3 : Idle (w2.sub .saving) :=
    Idle.of_only b1 (by decide) (Idle.of_only a1 (by decide) (hr.idle .saving))
  have acc2 : w2.accounts = s.w.accounts := b3.trans a3
  have real2 : Real E.limits (pools E w2 v2) := real_pools b2 t2 (by rw [acc2]; exact hA)
  obtain ⟨c1, c2, c3, -, P, c5, -, -, -, c9⟩ :=
    call_saving b2 i3 (fun p hp => (hE.saving.shape _ _ p real2 hp).1) h3
  have t3 := call_within hD b2 i3 t2 h3
  have i4 : Idle (w3.sub .withdrawal) := Idle.of_only c1 (by decide)
    (Idle.of_only b1 (by decide) (Idle.of_only a1 (by decide) (hr.idle .withdrawal)))
  have growth3 : ∀ a, IsGrowth (w3.accounts a).A := by
    intro a
    rw [(same_A (c3 a)).1, acc2]; exact hA a
  have real3 : Real E.limits (pools E w3 v3) := real_pools c2 t3 growth3
  obtain ⟨wfP, wfP'⟩ := hE.saving.shape _ _ P real2 c5
  have mP : ((Dict.keys P).map (due P)).sum = moved P := sum_due_keys wfP
  have T3 : Dict.total v3 = Dict.total v2 - moved P := by rw [c9, mP]
  -- the two plans go the same way
  have hP := fun hT => hE.saving.pays _ _ P real2 c5 hT
  have hP' := fun hT => hE.saving.draws _ _ P real2 c5 hT
  have signQ : ∀ Q, E.withdrawal (w3.sub .withdrawal).year (pools E w3 v3) = .ok Q →
      (0 ≤ Dict.total v2 → ∀ e ∈ Q, ∀ f ∈ e.2, 0 ≤ f.2) ∧
      (Dict.total v2 ≤ 0 → ∀ e ∈ Q, ∀ f ∈ e.2, f.2 ≤ 0) := by
    intro Q hQ
    refine ⟨fun hT => ?_, fun hT => ?_⟩
    · refine (hE.withdrawal.pays _ _ Q real3 hQ ?_).1
      have h6 : moved P ≤ Dict.total v2 := (hP hT).2
      show 0 ≤ Dict.total v3
      rw [T3]; linarith
    · refine (hE.withdrawal.draws _ _ Q real3 hQ ?_).1
      have h6 : Dict.total v2 ≤ moved P := (hP' hT).2
      show Dict.total v3 ≤ 0
      rw [T3]; linarith
  have resQ : ∀ Q, E.withdrawal (w3.sub .withdrawal).year (pools E w3 v3) = .ok Q →
      Dict.WF Q ∧ ∀ e ∈ Q, Rescalable e.2 := by
    intro Q hQ
    obtain ⟨wfQ, wfQ'⟩ := hE.withdrawal.shape _ _ Q real3 hQ
    refine ⟨wfQ, fun e he => rescalable_of_signs (wfQ' e he) ?_⟩
    rcases le_total 0 (Dict.total v2) with hT | hT
    · exact .inl ((signQ Q hQ).1 hT e he)
    · exact .inr ((signQ Q hQ).2 hT e he)
  obtain ⟨d1, d2, d3, -, -, Q, d6, -⟩ := call_withdrawal c2 i4 resQ h4
  have t4 := call_within hD c2 i4 t3 h4
  obtain ⟨wfQ, -⟩ := hE.withdrawal.shape _ _ Q real3 d6
  have i5 : Idle (w4.sub .tax) := Idle.of_only d1 (by decide) (Idle.of_only c1 (by decide)
    (Idle.of_only b1 (by decide) (Idle.of_only a1 (by decide) (hr.idle .tax))))
  obtain ⟨-, e2, e3, -⟩ := call_tax d2 i5 h5
  refine ⟨?_, by rw [e3]; exact t4, fun a => ?_, fun a hn hk ho => ?_⟩
  · rw [e3]
    exact ⟨d2.cash, by rw [e2]; exact d2.acct⟩
  · rw [e2, d3 a, c3 a, acc2]
  · rw [e2]
    have hi0 := hr.books.acct a
    rw [← acc2] at hn hk ho hi0
    have k1 := call_saving_took (σ := (side (owed a) : K)) b2 i3 c5 wfP h3 (a := a)
      (by rw [acc2]; exact hA a)
    have k2 := call_withdrawal_took (σ := (side (owed a) : K)) c2 i4 d6 wfQ h4 (a := a)
      (growth3 a)
    have nil : ∀ σ : K, Signed σ (w2.accounts a).txns := by
      intro σ; rw [hn]; exact signed_nil σ
    have hc0 : onSide (owed a) (closing (w2.accounts a)) := by
      rw [closing_grown hi0, hn, grown_nil, add_zero, onSide_iff, ← mul_assoc]
      rw [onSide_iff] at ho
      exact mul_nonneg ho (by rw [acc2]; exact (hA a).pos 1 |>.le)
    have af1 : ∀ x'', applyAll (w2.accounts a) ((Dict.get? P a).getD []) = .ok x'' →
        onSide (owed a) (closing x'') := by
      intro x'' hx
      cases hg : Dict.get? P a with
      | none => rw [hg] at hx; cases hx; exact hc0
      | some p =>
        rw [hg] at hx
        exact hE.saving.affords _ _ P real2 c5 a p _ _ x'' hg rfl hc0 hx
    have af2 : onSide (owed a) (closing (w3.accounts a)) →
        ∀ x'', applyAll (w3.accounts a) ((Dict.get? Q a).getD []) = .ok x'' →
        onSide (owed a) (closing x'') := by
      intro hc x'' hx
      cases hg : Dict.get? Q a with
      | none => rw [hg] at hx; cases hx; exact hc
      | some p =>
        rw [hg] at hx
        exact hE.withdrawal.affords _ _ Q real3 d6 a p _ _ x'' hg rfl hc hx
    have drain : (∀ e ∈ (Dict.get? P a).getD [], (side (owed a) : K) * e.2 ≤ 0) →
        (∀ e ∈ (Dict.get? Q a).getD [], (side (owed a) : K) * e.2 ≤ 0) →
        Sane (owed a) (w4.accounts a) := by
      intro s1 s2
      obtain ⟨f1, f2⟩ := drained hi0 k1 hk (nil _) s1 hc0 af1
      obtain ⟨g1, g2⟩ := drained k1.inv k2 (hk.congr k1.same) f1 s2 f2 (af2 f2)
      exact .inr ⟨g1, g2⟩
    have toward : (∀ e ∈ (Dict.get? P a).getD [], 0 ≤ (side (owed a) : K) * e.2) →
        (∀ e ∈ (Dict.get? Q a).getD [], 0 ≤ (side (owed a) : K) * e.2) →
        Sane (owed a) (w4.accounts a) :=
      fun s1 s2 => .inl (k2.toward (k1.toward (nil _) s1) s2)
    rcases le_total 0 (Dict.total v2) with hT | hT
    · have pP : ∀ e ∈ (Dict.get? P a).getD [], 0 ≤ e.2 := fun e he => by
        obtain ⟨p, hp, hep⟩ := mem_plan_of_get? he
        exact (hP hT).1 p hp e hep
      have pQ : ∀ e ∈ (Dict.get? Q a).getD [], 0 ≤ e.2 := fun e he => by
        obtain ⟨p, hp, hep⟩ := mem_plan_of_get? he
        exact (signQ Q d6).1 hT p hp e hep
      cases ho' : owed a with
      | false =>
        rw [ho'] at toward
        exact toward (fun e he => by simpa [side] using pP e he)
          fun e he => by simpa [side] using pQ e he
      | true =>
        rw [ho'] at drain
        exact drain (fun e he => by simpa [side] using pP e he)
          fun e he => by simpa [side] using pQ e he
    · have pP : ∀ e ∈ (Dict.get? P a).getD [], e.2 ≤ 0 := fun e he => by
        obtain ⟨p, hp, hep⟩ := mem_plan_of_get? he
        exact (hP' hT).1 p hp e hep
      have pQ : ∀ e ∈ (Dict.get? Q a).getD [], e.2 ≤ 0 := fun e he => by
        obtain ⟨p, hp, hep⟩ := mem_plan_of_get? he
        exact (signQ Q d6).2 hT p hp e hep
      cases ho' : owed a with
      | true =>
        rw [ho'] at toward
        exact toward (fun e he => by simpa [side] using pP e he)
          fun e he => by simpa [side] using pQ e he
      | false =>
        rw [ho'] at drain
        exact drain (fun e he => by simpa [side] using pP e he)
          fun e he => by simpa [side] using pQ e he

/-! ### The whole run -/

/-- C95 (solvency): in the forecast of a careful household, none of whose rates ever falls, no
account is overdrawn and no debt overpaid, at any time of any year. -/
theorem C95_solvent {owed : A → Bool} {E : Env N A K} (hE : Careful owed E) {initial : ℤ} {n : ℕ}
    {accounts : A → Acct K} (hacc : ∀ a, Reachable (accounts a))
    (hg : ∀ a y, IsGrowth ((accounts a).growth y))
    (hfresh : ∀ a ∈ holdings E, (accounts a).txns = [])
    (hopen : ∀ a ∈ holdings E, onSide (owed a) (opening (accounts a)))
    (hrate : ∀ a ∈ holdings E, ∀ y, Monotone ((accounts a).growth y) ∨
      owed a = false ∧ Antitone ((accounts a).growth y))
    (hrise : ∀ a ∈ holdings E, ∀ y t, 0 ≤ t → t ≤ 1 →
      (accounts a).growth y t ≤ (accounts a).growth (y + 1) t)
    {s : FS K (Home N A K)} {start fin : ℕ → FS K (Home N A K)}
    (hr : Run E initial n accounts s start fin) :
    ∀ k ≤ n, ∀ a ∈ holdings E, ∀ t, 0 ≤ t → t ≤ 1 →
      ∃ b, balanceAtTime ((fin k).w.accounts a) (.num t) none = .ok b ∧ onSide (owed a) b := by
  have hT := hE.timed
  have key : ∀ k ≤ n, Ready (start k).w (start k).available ∧ Within (start k).available ∧
      (∀ a, ((start k).w.accounts a).growth = (accounts a).growth) ∧
      ∀ a ∈ holdings E, ((start k).w.accounts a).txns = [] ∧
        onSide (owed a) (opening ((start k).w.accounts a)) := by
    intro k
    induction k with
    | zero =>
      intro _
      rw [hr.first]
      exact ⟨⟨⟨Dict.wf_nil, fun a => (hacc a).inv⟩, fun k => ⟨rfl, rfl⟩⟩, within_nil,
        fun _ => rfl, fun a ha => ⟨hfresh a ha, hopen a ha⟩⟩
    | succ k ih =>
      intro hk
      obtain ⟨i1, i2, i3, i4⟩ := ih (by omega)
      have hA : ∀ a, IsGrowth ((start k).w.accounts a).A := fun a => by
        unfold Acct.A; rw [i3]; exact hg a _
      obtain ⟨y1, -, y3, y4⟩ := careful_year hE i1 i2 hA (hr.year k (by omega))
      obtain ⟨n1, -, -, -, n5, n6⟩ := new_year hT y1 (hr.step (by omega)) (hr.next k (by omega))
      refine ⟨n1, next_within hE.dates hT (hr.next k (by omega)), fun a => ?_, fun a ha => ?_⟩
      · by_cases ha : a ∈ holdings E
        · have hn := n5 a ha
          rw [nextYear_eq (opening_eq (y1.acct a))] at hn
          rw [← Except.ok.inj hn]
          exact (same_A (y3 a)).2.2.1.trans (i3 a)
        · rw [n6 a ha]; exact (same_A (y3 a)).2.2.1.trans (i3 a)
      · obtain ⟨j1, j2⟩ := i4 a ha
        obtain ⟨s1, s2, s3, -⟩ := same_A (y3 a)
        have hkind : Kindly (side (owed a) : K) ((start k).w.accounts a) := by
          unfold Kindly Acct.A
          rw [i3]
          rcases hrate a ha ((start k).w.accounts a).year with h | ⟨h1, h2⟩
          · exact .inl h
          · refine .inr ⟨h2, by rw [h1]; simp [side], _, opening_eq (i1.books.acct a), ?_⟩
            rw [h1] at j2
            simpa [onSide] using j2
        have hsane := y4 a j1 hkind j2
        have hg' : ((fin k).w.accounts a).growth = (accounts a).growth := s3.trans (i3 a)
        obtain ⟨z1, z2, -⟩ := hsane.next (y1.acct a) (by rw [s1]; exact hA a)
          (by rw [hg']; exact hg a _)
          (by unfold Acct.A; rw [hg']; exact fun t h0 h1 => hrise a ha _ t h0 h1)
          (by rw [opening_same (y3 a)]; exact j2) (n5 a ha)
        exact ⟨z2, z1⟩
  intro k hk a ha t h0 h1
  obtain ⟨i1, i2, i3, i4⟩ := key k hk
  have hA : ∀ a, IsGrowth ((start k).w.accounts a).A := fun a => by
    unfold Acct.A; rw [i3]; exact hg a _
  obtain ⟨y1, -, y3, y4⟩ := careful_year hE i1 i2 hA (hr.year k hk)
  obtain ⟨j1, j2⟩ := i4 a ha
  have hkind : Kindly (side (owed a) : K) ((start k).w.accounts a) := by
    unfold Kindly Acct.A
    rw [i3]
    rcases hrate a ha ((start k).w.accounts a).year with h | ⟨h1, h2⟩
    · exact .inl h
    · refine .inr ⟨h2, by rw [h1]; simp [side], _, opening_eq (i1.books.acct a), ?_⟩
      rw [h1] at j2
      simpa [onSide] using j2
  refine ⟨_, balance_at (y1.acct a) ⟨h0, h1⟩, ?_⟩
  exact (y4 a j1 hkind j2).all_year (y1.acct a) (by rw [(same_A (y3 a)).1]; exact hA a)
    (by rw [opening_same (y3 a)]; exact j2) ⟨h0, h1⟩

end Forecaster.Household
