import Verif.Props.Solvency

/-!
# C79, continued: the books of households with prudent strategies

C79 is about strategies that answer with plans that can be carried out, whatever they are asked. A
strategy of the program does so when it is asked about accounts that are not corrupt, which is what
it is asked about in a forecast. `checked R E` is the household `E` with strategies that fail instead
of answering with a plan that cannot be carried out (or is not `R`, for saving); they never do.
-/

set_option linter.unusedSectionVars false

namespace Forecaster.Household

open Forecaster Forecaster.Timing Forecaster.Account Forecaster.SubForecast Forecaster.CashFlow
open Forecaster.Forecast (FS scenarioYears Clockwork Timed components)

variable {K : Type} [Field K] [LinearOrder K] [IsStrictOrderedRing K]
variable {N A : Type} [DecidableEq N] [DecidableEq A]

open Classical in
/-- An answer, if it is one that can be used. -/
noncomputable def only (ok : Dict A (Dict K K) → Prop) (r : Except PyErr (Dict A (Dict K K))) :
    Except PyErr (Dict A (Dict K K)) :=
  match r with
  | .error e => .error e
  | .ok p => if ok p then .ok p else .error .valueError

theorem only_ok {ok : Dict A (Dict K K) → Prop} {r : Except PyErr (Dict A (Dict K K))}
    {p : Dict A (Dict K K)} (h : only ok r = .ok p) : r = .ok p ∧ ok p := by
  cases r with
  | error e => cases h
  | ok q =>
    unfold only at h
    by_cases hq : ok q
    · simp only [if_pos hq] at h
      cases h
      exact ⟨rfl, hq⟩
    · simp only [if_neg hq] at h
      cases h

theorem only_same {ok : Dict A (Dict K K) → Prop} {r : Except PyErr (Dict A (Dict K K))}
    (h : ∀ p, r = .ok p → ok p) : only ok r = r := by
  cases r with
  | error e => rfl
  | ok q =>
    unfold only
    simp only [if_pos (h q rfl)]

/-- A plan whose withdrawals can be rescaled. -/
def Usable (p : Dict A (Dict K K)) : Prop := Dict.WF p ∧ ∀ e ∈ p, Rescalable e.2

/-- The household with strategies that never answer with a plan that cannot be carried out. -/
noncomputable def checked (R : Dict A (Dict K K) → Prop) (E : Env N A K) : Env N A K :=
  { E with
    saving := fun y q => only (fun p => Dict.WF p ∧ R p) (E.saving y q)
    withdrawal := fun y q => only Usable (E.withdrawal y q) }

theorem checked_sound {owed : A → Bool} {E : Env N A K} (h : Careful owed E)
    (R : Dict A (Dict K K) → Prop) : Sound (checked R E) where
  people := h.people
  paid i y := ⟨(h.paid i y).1.wf, (h.paid i y).2⟩
  timing := h.timing.2
  saving _ _ _ hp := (only_ok hp).2.1
  withdrawal _ _ _ hp := (only_ok hp).2
  refund := ⟨h.refund.1.wf, h.refund.2⟩
  payment := ⟨h.payment.1.wf, h.payment.2⟩

theorem savingCall_congr {P : Type} [DecidableEq P] (ttv : Acct K → K → K → Except PyErr (Ext K))
    (default : Dict K K) {f : Alloc P K} (hs : Good f.s) (hc : f.s.called = false) (available : P)
    {S S' : (P → Pool K) → Except PyErr (Dict P (Dict K K))} (h : S' f.s.pools = S f.s.pools) :
    savingCall ttv default available S' f = savingCall ttv default available S f := by
  obtain ⟨y, hx, -⟩ := call_first hs hc available
  unfold savingCall
  rw [hx]
  simp only [h]

theorem withdrawalCall_congr {P : Type} [DecidableEq P]
    (ttv : Acct K → K → K → Except PyErr (Ext K))
    (default : Dict K K) {f : Alloc P K} (hs : Good f.s) (hc : f.s.called = false) (available : P)
    {S S' : (P → Pool K) → Except PyErr (Dict P (Dict K K))} (h : S' f.s.pools = S f.s.pools)
    (tax : P → Pool K → Except PyErr K) (accounts : List P) :
    withdrawalCall ttv default available S' tax accounts f
      = withdrawalCall ttv default available S tax accounts f := by
  obtain ⟨y, hx, -⟩ := call_first hs hc available
  unfold withdrawalCall
  rw [hx]
  simp only [h]

theorem checked_saving {R : Dict A (Dict K K) → Prop} {E : Env N A K} {w : Home N A K} {av : Dict K K} (hb : Books w av)
    (hi : Idle (w.sub .saving))
    (h : ∀ p, E.saving (w.sub .saving).year (pools E w av) = .ok p → Dict.WF p ∧ R p) :
    call (checked R E) .saving w av = call E .saving w av := by
  show finish w .saving (savingCall E.ttv (E.default .saving) none
      (fun q => planOf (only (fun p => Dict.WF p ∧ R p) (E.saving (w.sub .saving).year q))) (enterAlloc E w .saving av))
    = finish w .saving (savingCall E.ttv (E.default .saving) none
      (fun q => planOf (E.saving (w.sub .saving).year q)) (enterAlloc E w .saving av))
  rw [savingCall_congr (S := fun q => planOf (E.saving (w.sub .saving).year q)) E.ttv
    (E.default .saving) (good_enter hb hi) hi.2 none]
  show planOf _ = planOf _
  exact congrArg planOf (only_same h)

theorem checked_withdrawal {R : Dict A (Dict K K) → Prop} {E : Env N A K} {w : Home N A K} {av : Dict K K} (hb : Books w av)
    (hi : Idle (w.sub .withdrawal))
    (h : ∀ p, E.withdrawal (w.sub .withdrawal).year (pools E w av) = .ok p → Usable p) :
    call (checked R E) .withdrawal w av = call E .withdrawal w av := by
  show finish w .withdrawal (withdrawalCall E.ttv (E.default .withdrawal) none
      (fun q => planOf (only Usable (E.withdrawal (w.sub .withdrawal).year q))) (poolTax E)
      (E.assets.map some) (enterAlloc E w .withdrawal av))
    = finish w .withdrawal (withdrawalCall E.ttv (E.default .withdrawal) none
      (fun q => planOf (E.withdrawal (w.sub .withdrawal).year q)) (poolTax E)
      (E.assets.map some) (enterAlloc E w .withdrawal av))
  rw [withdrawalCall_congr (S := fun q => planOf (E.withdrawal (w.sub .withdrawal).year q)) E.ttv
    (E.default .withdrawal) (good_enter hb hi) hi.2 none]
  show planOf _ = planOf _
  exact congrArg planOf (only_same h)

/-- The plans that are made in a year of a careful household can be carried out. -/
theorem checked_year {owed : A → Bool} {E : Env N A K} (hE : Careful owed E)
    {R : Dict A (Dict K K) → Prop}
    (hR : ∀ y q p, Real E.limits q → E.saving y q = .ok p → R p)
    {s s' : FS K (Home N A K)} (hr : Ready s.w s.available) (hw : Within s.available)
    (hA : ∀ a, IsGrowth (s.w.accounts a).A)
    (h : Forecast.callSubforecasts (world E) s = .ok s') :
    Forecast.callSubforecasts (world (checked R E)) s = .ok s' := by
  have hD := hE.dates
  have hpaid : ∀ w : Home N A K, PaidProperly (earners E w) := by
    intro w e he
    simp only [earners, List.mem_map] at he
    obtain ⟨i, -, rfl⟩ := he
    exact ⟨(hE.paid i _).1.wf, (hE.paid i _).2⟩
  obtain ⟨w1, v1, w2, v2, w3, v3, w4, v4, h1, h2, h3, h4, h5, hy⟩ := calls_parts h
  obtain ⟨a1, a2, a3, -, -⟩ := call_income hr.books (hr.idle _) hE.timing.2 (hpaid _) h1
  have t1 := call_within hD hr.books (hr.idle _) hw h1
  have i2 : Idle (w1.sub .living) := (hr.idle .living).of_only a1 (by decide)
  obtain ⟨b1, b2, b3, -, -, -⟩ := call_living a2 i2 hE.people (hpaid _) h2
  have t2 := call_within hD a2 i2 t1 h2
  have i3 : Idle (w2.sub .saving) :=
    Idle.of_only b1 (by decide) (Idle.of_only a1 (by decide) (hr.idle .saving))
  have acc2 : w2.accounts = s.w.accounts := b3.trans a3
  have real2 : Real E.limits (pools E w2 v2) := real_pools b2 t2 (by rw [acc2]; exact hA)
  have okP : ∀ p, E.saving (w2.sub .saving).year (pools E w2 v2) = .ok p →
      Dict.WF p ∧ R p := fun p hp => ⟨(hE.saving.shape _ _ p real2 hp).1, hR _ _ p real2 hp⟩
  obtain ⟨c1, c2, c3, -, P, c5, -, -, -, c9⟩ := call_saving b2 i3 (fun p hp => (okP p hp).1) h3
  have t3 := call_within hD b2 i3 t2 h3
  have i4 : Idle (w3.sub .withdrawal) := Idle.of_only c1 (by decide)
    (Idle.of_only b1 (by decide) (Idle.of_only a1 (by decide) (hr.idle .withdrawal)))
  have growth3 : ∀ a, IsGrowth (w3.accounts a).A := by
    intro a
    rw [(same_A (c3 a)).1, acc2]; exact hA a
  have real3 : Real E.limits (pools E w3 v3) := real_pools c2 t3 growth3
  have resQ : ∀ Q, E.withdrawal (w3.sub .withdrawal).year (pools E w3 v3) = .ok Q → Usable Q := by
    intro Q hQ
    obtain ⟨wfQ, wfQ'⟩ := hE.withdrawal.shape _ _ Q real3 hQ
    refine ⟨wfQ, fun e he => rescalable_of_signs (wfQ' e he) ?_⟩
    rcases le_total 0 (Dict.total v3) with hT | hT
    · exact .inl ((hE.withdrawal.pays _ _ Q real3 hQ hT).1 e he)
    · exact .inr ((hE.withdrawal.draws _ _ Q real3 hQ hT).1 e he)
  have g1 : call (checked R E) .income s.w s.available = .ok (w1, v1) := h1
  have g2 : call (checked R E) .living w1 v1 = .ok (w2, v2) := h2
  have g3 : call (checked R E) .saving w2 v2 = .ok (w3, v3) := (checked_saving b2 i3 okP).trans h3
  have g4 : call (checked R E) .withdrawal w3 v3 = .ok (w4, v4) :=
    (checked_withdrawal c2 i4 resQ).trans h4
  have g5 : call (checked R E) .tax w4 v4 = .ok (s'.w, s'.available) := h5
  simp only [Forecast.callSubforecasts, world, List.foldlM_cons, List.foldlM_nil, except_pure]
  rw [g1]
  simp only [ok_bind]
  rw [g2]
  simp only [ok_bind]
  rw [g3]
  simp only [ok_bind]
  rw [g4]
  simp only [ok_bind]
  rw [g5]
  simp only [ok_bind, Except.ok.injEq]
  cases s'
  simp only at hy
  rw [hy]

theorem catchUp_call {W C : Type} (V : Forecast.World K W C)
    (f : C → W → Dict K K → Except PyErr (W × Dict K K)) (y : ℤ) (c : C) (n : ℕ) (w : W) :
    Forecast.catchUp { V with call := f } y c n w = Forecast.catchUp V y c n w := by
  induction n generalizing w with
  | zero => rfl
  | succ n ih =>
    unfold Forecast.catchUp
    simp only [ih]

theorem nextYear_call {W C : Type} (V : Forecast.World K W C)
    (f : C → W → Dict K K → Except PyErr (W × Dict K K)) (s : FS K W) :
    Forecast.nextYear { V with call := f } s = Forecast.nextYear V s := by
  have h : Forecast.bring { V with call := f } = Forecast.bring V := by
    funext y w c
    unfold Forecast.bring
    simp only [catchUp_call]
  unfold Forecast.nextYear
  simp only [h]
  rfl

theorem checked_world (R : Dict A (Dict K K) → Prop) (E : Env N A K) :
    world (checked R E) = { world E with call := (world (checked R E)).call } := by
  have h : advance (checked R E) = advance E := by
    funext c w
    cases c <;> rfl
  unfold world
  rw [h]
  rfl

/-- The run of a careful household is that of the household with checked strategies. -/
theorem Run.checked {owed : A → Bool} {E : Env N A K} (hE : Careful owed E)
    {R : Dict A (Dict K K) → Prop}
    (hR : ∀ y q p, Real E.limits q → E.saving y q = .ok p → R p) {initial : ℤ} {n : ℕ}
    {accounts : A → Acct K} (hacc : ∀ a, Reachable (accounts a))
    (hg : ∀ a y, IsGrowth ((accounts a).growth y))
    {s : FS K (Home N A K)} {start fin : ℕ → FS K (Home N A K)}
    (hr : Run E initial n accounts s start fin) :
    Run (checked R E) initial n accounts s start fin := by
  have hT := hE.timed
  have key : ∀ k ≤ n, Ready (start k).w (start k).available ∧ Within (start k).available ∧
      (∀ a, ((start k).w.accounts a).growth = (accounts a).growth) := by
    intro k
    induction k with
    | zero =>
      intro _
      rw [hr.first]
      exact ⟨⟨⟨Dict.wf_nil, fun a => (hacc a).inv⟩, fun k => ⟨rfl, rfl⟩⟩, within_nil,
        fun _ => rfl⟩
    | succ k ih =>
      intro hk
      obtain ⟨i1, i2, i3⟩ := ih (by omega)
      have hA : ∀ a, IsGrowth ((start k).w.accounts a).A := fun a => by
        unfold Acct.A; rw [i3]; exact hg a _
      obtain ⟨y1, -, y3, -⟩ := careful_year hE i1 i2 hA (hr.year k (by omega))
      obtain ⟨n1, -, -, -, n5, n6⟩ := new_year hT y1 (hr.step (by omega)) (hr.next k (by omega))
      refine ⟨n1, next_within hE.dates hT (hr.next k (by omega)), fun a => ?_⟩
      by_cases ha : a ∈ holdings E
      · have hn := n5 a ha
        rw [nextYear_eq (opening_eq (y1.acct a))] at hn
        rw [← Except.ok.inj hn]
        exact (same_A (y3 a)).2.2.1.trans (i3 a)
      · rw [n6 a ha]; exact (same_A (y3 a)).2.2.1.trans (i3 a)
  refine ⟨hr.first, hr.last, fun k hk => ?_, fun k hk => ?_, hr.dates⟩
  swap
  · rw [checked_world, nextYear_call]; exact hr.next k hk
  obtain ⟨i1, i2, i3⟩ := key k hk
  exact checked_year hE hR i1 i2 (fun a => by unfold Acct.A; rw [i3]; exact hg a _) (hr.year k hk)

/-! ### C79 for prudent strategies -/

/-- C79 (cash, for prudent strategies): the money at hand at the end is what everybody has earned, less
what they have lived on and saved, plus what was withdrawn, the tax withheld from withdrawals and the
yearly tax adjustments. -/
theorem C79_prudent_cash {owed : A → Bool} {E : Env N A K} (hE : Careful owed E) {initial : ℤ}
    {n : ℕ} {accounts : A → Acct K} (hacc : ∀ a, Reachable (accounts a))
    (hg : ∀ a y, IsGrowth ((accounts a).growth y)) {s : FS K (Home N A K)}
    {start fin : ℕ → FS K (Home N A K)} (hr : Run E initial n accounts s start fin) :
    ∃ owing : ℕ → K,
      (∀ k ≤ n, E.expenses (initial + k) (start k).w.accounts = .ok (fin k).w.living) ∧
      (∀ k < n, E.owing (initial + k) (fin k).w.accounts = .ok (owing k)) ∧
      cash s = ∑ k ∈ Finset.range (n + 1), (incomeIn E (initial + k) - (fin k).w.living
            - moved ((fin k).w.sub .saving).txs - moved ((fin k).w.sub .withdrawal).txs)
          + (s.w.sub .withdrawal).withheld
          + ∑ k ∈ Finset.range n, adjusted E (initial + k) (fin k).w (owing k) :=
  C79_cash (checked_sound hE _) hacc
    (hr.checked hE (R := fun _ => True) (fun _ _ _ _ _ => trivial) hacc hg)

/-- C79 (report, for prudent strategies): the report of the years before the last one. -/
theorem C79_prudent_report {owed : A → Bool} {E : Env N A K} (hE : Careful owed E) {initial : ℤ}
    {n : ℕ} {accounts : A → Acct K} (hacc : ∀ a, Reachable (accounts a))
    (hg : ∀ a y, IsGrowth ((accounts a).growth y)) {s : FS K (Home N A K)}
    {start fin : ℕ → FS K (Home N A K)} (hr : Run E initial n accounts s start fin) :
    ∃ owing : ℕ → K,
      (∀ k < n, E.owing (initial + k) (fin k).w.accounts = .ok (owing k)) ∧
      s.w.report = (List.range n).map fun (k : ℕ) =>
        { income := incomeIn E (initial + k)
          livingExpenses := (fin k).w.living
          savings := max (incomeIn E (initial + k) - (fin k).w.living) 0
          principal := (E.assets.map fun a => opening ((start k).w.accounts a)).sum
          withdrawals := .fin (-(cash (start k) + incomeIn E (initial + k) - (fin k).w.living
            - moved ((fin k).w.sub .saving).txs))
          tax := owing k } :=
  C79_report (checked_sound hE _) hacc
    (hr.checked hE (R := fun _ => True) (fun _ _ _ _ _ => trivial) hacc hg)

/-- C79 (wealth, for prudent strategies): everything the household has at the end is what it had, what it
has earned at work and on its accounts, less what it has lived on, plus the tax adjustments and the tax
withheld from withdrawals. -/
theorem C79_prudent_wealth {owed : A → Bool} {E : Env N A K} (hE : Careful owed E) {initial : ℤ}
    {n : ℕ} {accounts : A → Acct K} (hacc : ∀ a, Reachable (accounts a))
    (hg : ∀ a y, IsGrowth ((accounts a).growth y)) {s : FS K (Home N A K)}
    {start fin : ℕ → FS K (Home N A K)} (hr : Run E initial n accounts s start fin)
    (hrate : ∀ a ∈ holdings E, ∀ y, (accounts a).growth y = (accounts a).growth initial)
    (hplan : ∀ y q p, Real E.limits q → E.saving y q = .ok p → ∀ a ∈ Dict.keys p, a ∈ holdings E) :
    ∃ owing : ℕ → K,
      (∀ k < n, E.owing (initial + k) (fin k).w.accounts = .ok (owing k)) ∧
      wealth E s
        = ((holdings E).map fun a => opening (accounts a) + Dict.total (accounts a).txns).sum
          + ∑ k ∈ Finset.range (n + 1), (incomeIn E (initial + k) - (fin k).w.living
              + ((holdings E).map fun a => earned ((fin k).w.accounts a)).sum)
          + ∑ k ∈ Finset.range n, adjusted E (initial + k) (fin k).w (owing k)
          + (s.w.sub .withdrawal).withheld :=
  C79_wealth (checked_sound hE _) hacc
    (hr.checked hE (R := fun p => ∀ a ∈ Dict.keys p, a ∈ holdings E) hplan hacc hg) hrate
    fun _ _ _ hp => (only_ok hp).2.2

end Forecaster.Household
