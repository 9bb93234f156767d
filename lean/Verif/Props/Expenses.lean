import Verif.Model.Expenses
import Verif.Lemmas.Dict
import Mathlib.Algebra.BigOperators.Group.Finset.Basic
import Mathlib.Data.Finset.Union
import Mathlib.Tactic.Linarith
import Mathlib.Tactic.NormNum

/-!
# Properties of living expenses strategies (C40, C56) and of debt priorities (C41)
-/

set_option linter.unusedSectionVars false

namespace Forecaster.Expenses

open Forecaster Forecaster.Allocation

variable {K : Type} [Field K] [LinearOrder K] [IsStrictOrderedRing K]

/-! ## Helpers -/

theorem call_cons (s : Strat K) (bal : ℕ → Dict ℤ K) (p : Plannee K) (l : List (Plannee K))
    (year ret : Option ℤ) :
    call s bal (some (p :: l)) year ret =
      (formula s bal (some (p :: l)) (some ((p :: l).flatMap Plannee.accounts).dedup) year ret).map
        (fun x => max x 0) := by
  simp only [call, allAccounts, ok_bind]
  cases formula s bal (some (p :: l)) (some ((p :: l).flatMap Plannee.accounts).dedup) year ret <;> rfl

theorem call_eq (s : Strat K) (bal : ℕ → Dict ℤ K) {l : List (Plannee K)} (hl : l ≠ [])
    (year ret : Option ℤ) :
    call s bal (some l) year ret =
      (formula s bal (some l) (some (l.flatMap Plannee.accounts).dedup) year ret).map
        (fun x => max x 0) := by
  cases l with
  | nil => exact absurd rfl hl
  | cons p l => exact call_cons s bal p l year ret

theorem sumM_ok {α : Type} (f : α → Except PyErr K) (g : α → K) (l : List α)
    (h : ∀ a ∈ l, f a = .ok (g a)) : sumM f l = .ok (l.map g).sum := by
  induction l with
  | nil => rfl
  | cons a l ih =>
    simp only [sumM, h a (by simp), ih (fun b hb => h b (by simp [hb])), ok_bind, List.map_cons,
      List.sum_cons]

theorem sumM_congr {α : Type} (f g : α → Except PyErr K) (l : List α)
    (h : ∀ a ∈ l, f a = g a) : sumM f l = sumM g l := by
  induction l with
  | nil => rfl
  | cons a l ih =>
    simp only [sumM, h a (by simp), ih (fun b hb => h b (by simp [hb]))]

theorem sumM_error {α : Type} (f : α → Except PyErr K) (l : List α)
    (he : ∀ a ∈ l, ∀ e, f a = .error e → e = .keyError) (a : α) (ha : a ∈ l)
    (hf : f a = .error .keyError) : sumM f l = .error .keyError := by
  induction l with
  | nil => simp at ha
  | cons b l ih =>
    simp only [sumM]
    cases hb : f b with
    | error e => rw [he b (by simp) e hb]; rfl
    | ok v =>
      rcases List.mem_cons.mp ha with rfl | h
      · rw [hf] at hb; cases hb
      · rw [ih (fun c hc => he c (by simp [hc])) h]; rfl

theorem atYear_error (h : Dict ℤ K) (y : Option ℤ) (e : PyErr) (he : atYear h y = .error e) :
    e = .keyError := by
  cases y with
  | none => simp [atYear] at he; exact he.symm
  | some y =>
    simp only [atYear] at he
    split at he
    · cases he
    · cases he; rfl

theorem sumM_nonneg {α : Type} (f : α → Except PyErr K) (l : List α) {x : K} (h : sumM f l = .ok x)
    (hf : ∀ a ∈ l, ∀ v, f a = .ok v → 0 ≤ v) : 0 ≤ x := by
  induction l generalizing x with
  | nil => cases h; exact le_rfl
  | cons a l ih =>
    simp only [sumM] at h
    cases ha : f a with
    | error e => rw [ha] at h; cases h
    | ok v =>
      rw [ha] at h
      simp only [ok_bind] at h
      cases hl : sumM f l with
      | error e => rw [hl] at h; cases h
      | ok w =>
        rw [hl] at h
        cases h
        exact add_nonneg (hf a (by simp) v ha) (ih hl fun b hb => hf b (by simp [hb]))

/-! ## C40 -/

/-- **C40.** Living expenses are never negative, for every strategy and every nesting of schedules
and minimums, whatever the people, years and inflation. -/
theorem C40_never_negative (p : Plan K) (bal : ℕ → Dict ℤ K) (people : Option (List (Plannee K)))
    (year ret : Option ℤ) {x : K} (h : p.call bal people year ret = .ok x) : 0 ≤ x := by
  induction p generalizing x with
  | strategy s =>
    simp only [Plan.call, call] at h
    cases ha : allAccounts people with
    | error e => rw [ha] at h; cases h
    | ok accs =>
      rw [ha] at h
      simp only [ok_bind] at h
      cases hf : formula s bal people accs year ret with
      | error e => rw [hf] at h; cases h
      | ok v => rw [hf] at h; cases h; exact le_max_right _ _
  | schedule w r ihw ihr =>
    simp only [Plan.call] at h
    split at h
    · exact ihr h
    · exact ihw h
  | scheduleMin w r m ihw ihr ihm =>
    simp only [Plan.call] at h
    split at h
    · cases hx : r.call bal people year ret with
      | error e => rw [hx] at h; cases h
      | ok v =>
        rw [hx] at h
        simp only [ok_bind] at h
        cases hy : m.call bal people year ret with
        | error e => rw [hy] at h; cases h
        | ok y => rw [hy] at h; cases h; exact le_max_of_le_left (ihr hx)
    · cases hx : w.call bal people year ret with
      | error e => rw [hx] at h; cases h
      | ok v =>
        rw [hx] at h
        simp only [ok_bind] at h
        cases hy : m.call bal people year ret with
        | error e => rw [hy] at h; cases h
        | ok y => rw [hy] at h; cases h; exact le_max_of_le_left (ihw hx)

/-- **C40.** "Constant contribution": the family saves exactly the (inflation-adjusted) base amount
and lives off the rest; if it does not earn that much, it spends nothing. -/
theorem C40_constant_contribution (s : Strat K) (hk : s.kind = .constContribution)
    (bal : ℕ → Dict ℤ K) {l : List (Plannee K)} (hl : l ≠ []) (year ret : Option ℤ) {c x : K}
    (hc : s.adjust year none = .ok c) (h : call s bal (some l) year ret = .ok x) :
    let income := (l.map Plannee.netIncome).sum
    (s.baseAmount * c ≤ income → x + s.baseAmount * c = income) ∧
    (income ≤ s.baseAmount * c → x = 0) := by
  rw [call_eq s bal hl] at h
  simp only [formula, hk, each, ok_bind, hc, Except.map, Except.ok.injEq] at h
  subst h
  refine ⟨fun hle => ?_, fun hle => ?_⟩
  · rw [max_eq_left (by linarith)]; ring
  · rw [max_eq_right (by linarith)]

/-- **C40.** "Constant living expenses" do not depend on the people's incomes, and are constant in
real terms: between two years they change by the ratio of the inflation adjustments. -/
theorem C40_constant_in_real_terms (s : Strat K) (hk : s.kind = .constLivingExpenses)
    (bal bal' : ℕ → Dict ℤ K) {l l' : List (Plannee K)} (hl : l ≠ []) (hl' : l' ≠ [])
    (year year' ret ret' : Option ℤ) {c c' x x' : K} (hc : s.adjust year none = .ok c)
    (hc' : s.adjust year' none = .ok c') (hpos : 0 < c) (hpos' : 0 < c')
    (h : call s bal (some l) year ret = .ok x) (h' : call s bal' (some l') year' ret' = .ok x') :
    x' * c = x * c' ∧ (0 ≤ s.baseAmount → x = s.baseAmount * c) := by
  rw [call_eq s bal hl] at h
  rw [call_eq s bal' hl'] at h'
  simp only [formula, hk, ok_bind, hc, Except.map, Except.ok.injEq] at h
  simp only [formula, hk, ok_bind, hc', Except.map, Except.ok.injEq] at h'
  subst h h'
  refine ⟨?_, fun hb => max_eq_left (mul_nonneg hb hpos.le)⟩
  rcases le_total 0 s.baseAmount with hb | hb
  · rw [max_eq_left (mul_nonneg hb hpos.le), max_eq_left (mul_nonneg hb hpos'.le)]; ring
  · rw [max_eq_right (mul_nonpos_of_nonpos_of_nonneg hb hpos.le),
      max_eq_right (mul_nonpos_of_nonpos_of_nonneg hb hpos'.le)]; ring

/-- **C40.** The percentage-of-income strategies: the rate times the family's total net (gross)
income of the year, and never negative. -/
theorem C40_percentage_of_income (s : Strat K) (bal : ℕ → Dict ℤ K) {l : List (Plannee K)}
    (hl : l ≠ []) (year ret : Option ℤ) :
    (s.kind = .netPercent →
      call s bal (some l) year ret = .ok (max (s.rate * (l.map Plannee.netIncome).sum) 0)) ∧
    (s.kind = .grossPercent →
      call s bal (some l) year ret = .ok (max (s.rate * (l.map Plannee.grossIncome).sum) 0)) := by
  rw [call_eq s bal hl]
  constructor <;> intro hk <;> simp [formula, hk, each, Except.map]

/-- A strategy that is a percentage of some income or principal. -/
def Percentage (k : Kind) : Prop :=
  k = .netPercent ∨ k = .grossPercent ∨ k = .principalPercentRet ∨ k = .netPercentRet ∨
    k = .grossPercentRet

/-- **C40.** A higher rate never means lower expenses, for every percentage strategy, if incomes,
balances and inflation adjustments are not negative. -/
theorem C40_monotone_in_the_rate {s s' : Strat K} (hp : Percentage s.kind) (hk : s'.kind = s.kind)
    (had : s'.adjust = s.adjust) (hr : s.rate ≤ s'.rate) (bal : ℕ → Dict ℤ K)
    {l : List (Plannee K)} (hl : l ≠ []) (year ret : Option ℤ)
    (hnet : ∀ p ∈ l, 0 ≤ p.netIncome ∧ 0 ≤ p.grossIncome ∧
      (∀ v, atYear p.netIncomeHistory ret = .ok v → 0 ≤ v) ∧
      (∀ v, atYear p.grossIncomeHistory ret = .ok v → 0 ≤ v))
    (hbal : ∀ a v, atYear (bal a) ret = .ok v → 0 ≤ v)
    (hadj : ∀ c, s.adjust year ret = .ok c → 0 ≤ c) {x x' : K}
    (h : call s bal (some l) year ret = .ok x) (h' : call s' bal (some l) year ret = .ok x') :
    x ≤ x' := by
  have fin : ∀ {b c : K}, 0 ≤ b → 0 ≤ c → max (s.rate * b * c) 0 ≤ max (s'.rate * b * c) 0 := by
    intro b c hb hc
    exact max_le_max (mul_le_mul_of_nonneg_right (mul_le_mul_of_nonneg_right hr hb) hc) le_rfl
  have hist : ∀ {α : Type} (f : α → Except PyErr K) (m : List α) (x x' : K),
      (∀ a ∈ m, ∀ v, f a = .ok v → 0 ≤ v) →
      ((sumM f m >>= fun b => s.adjust year ret >>= fun c => Except.ok (s.rate * b * c)).map
        (fun x => max x 0)) = .ok x →
      ((sumM f m >>= fun b => s.adjust year ret >>= fun c => Except.ok (s'.rate * b * c)).map
        (fun x => max x 0)) = .ok x' → x ≤ x' := by
    intro α f m x x' hf h h'
    cases hb : sumM f m with
    | error e => rw [hb] at h; cases h
    | ok b =>
      rw [hb] at h h'
      simp only [ok_bind] at h h'
      cases hc : s.adjust year ret with
      | error e => rw [hc] at h; cases h
      | ok c =>
        rw [hc] at h h'
        simp only [ok_bind, Except.map, Except.ok.injEq] at h h'
        rw [← h, ← h']
        exact fin (sumM_nonneg f m hb hf) (hadj c hc)
  rw [call_eq s bal hl] at h
  rw [call_eq s' bal hl] at h'
  rcases hp with hp | hp | hp | hp | hp
  · simp only [formula, hk, hp, each, ok_bind, Except.map, Except.ok.injEq] at h h'
    rw [← h, ← h']
    refine max_le_max (mul_le_mul_of_nonneg_right hr (List.sum_nonneg ?_)) le_rfl
    intro v hv
    obtain ⟨p, hp, rfl⟩ := List.mem_map.mp hv
    exact (hnet p hp).1
  · simp only [formula, hk, hp, each, ok_bind, Except.map, Except.ok.injEq] at h h'
    rw [← h, ← h']
    refine max_le_max (mul_le_mul_of_nonneg_right hr (List.sum_nonneg ?_)) le_rfl
    intro v hv
    obtain ⟨p, hp, rfl⟩ := List.mem_map.mp hv
    exact (hnet p hp).2.1
  · simp only [formula, hk, hp, had] at h h'
    exact hist _ _ x x' (fun a _ v hv => hbal a v hv) h h'
  · simp only [formula, hk, hp, had, each, ok_bind] at h h'
    exact hist _ _ x x' (fun p hp v hv => (hnet p hp).2.2.1 v hv) h h'
  · simp only [formula, hk, hp, had, each, ok_bind] at h h'
    exact hist _ _ x x' (fun p hp v hv => (hnet p hp).2.2.2 v hv) h h'

/-- **C40.** "Percentage of earnings growth" with a rate between 0 and 1 lies between the base
amount and the income (where these are not negative). -/
theorem C40_earnings_growth_in_between (s : Strat K) (hk : s.kind = .percentOverBase)
    (h0 : 0 ≤ s.rate) (h1 : s.rate ≤ 1) (bal : ℕ → Dict ℤ K) {l : List (Plannee K)} (hl : l ≠ [])
    (year ret : Option ℤ) {c x : K} (hc : s.adjust year none = .ok c)
    (h : call s bal (some l) year ret = .ok x) :
    let income := (l.map Plannee.netIncome).sum
    let base := s.baseAmount * c
    min base income ≤ x ∧ x ≤ max (max base income) 0 ∧
      (0 ≤ base → base ≤ income → x - base = s.rate * (income - base)) := by
  rw [call_eq s bal hl] at h
  simp only [formula, hk, each, ok_bind, hc, Except.map, Except.ok.injEq] at h
  subst h
  intro income base
  have hv : min base income ≤ base + (income - base) * s.rate ∧
      base + (income - base) * s.rate ≤ max base income := by
    rcases le_total base income with hle | hle
    · rw [min_eq_left hle, max_eq_right hle]
      constructor <;> nlinarith
    · rw [min_eq_right hle, max_eq_left hle]
      constructor <;> nlinarith
  refine ⟨le_max_of_le_left hv.1, max_le_max hv.2 le_rfl, fun hb hle => ?_⟩
  rw [max_eq_left (by nlinarith)]
  ring

/-- **C40.** "Percentage of principal at retirement" counts each account's balance at retirement
once, however many of the people own it. -/
theorem C40_joint_accounts_count_once (s : Strat K) (hk : s.kind = .principalPercentRet)
    (bal : ℕ → Dict ℤ K) {l : List (Plannee K)} (hl : l ≠ []) (year : Option ℤ) (ret : ℤ)
    (owned : Finset ℕ) (howned : ∀ a, a ∈ owned ↔ ∃ p ∈ l, a ∈ p.accounts)
    (hrec : ∀ a ∈ owned, (Dict.get? (bal a) ret).isSome) {c : K}
    (hc : s.adjust year (some ret) = .ok c) :
    call s bal (some l) year (some ret) =
      .ok (max (s.rate * (∑ a ∈ owned, Dict.val (bal a) ret) * c) 0) := by
  rw [call_eq s bal hl]
  have hset : owned = (l.flatMap Plannee.accounts).toFinset := by
    ext a
    simp [howned]
  have hmem : ∀ a ∈ (l.flatMap Plannee.accounts).dedup, a ∈ owned := by
    intro a ha
    rw [hset]
    simpa using ha
  have hsum : sumM (fun a => atYear (bal a) (some ret)) (l.flatMap Plannee.accounts).dedup =
      .ok (∑ a ∈ owned, Dict.val (bal a) ret) := by
    rw [sumM_ok _ (fun a => Dict.val (bal a) ret)]
    · have : owned = (l.flatMap Plannee.accounts).dedup.toFinset := by
        rw [hset]; ext a; simp
      rw [this, List.sum_toFinset _ (List.nodup_dedup _)]
    · intro a ha
      have := hrec a (hmem a ha)
      obtain ⟨v, hv⟩ := Option.isSome_iff_exists.mp this
      simp [atYear, hv, Dict.val]
  simp only [formula, hk, hsum, ok_bind, hc, Except.map]

/-- **C40.** The retirement strategies look only at the year of retirement: incomes and balances of
other years do not matter, and expenses follow inflation from then on. -/
theorem C40_fixed_at_retirement (s : Strat K)
    (hk : s.kind = .principalPercentRet ∨ s.kind = .netPercentRet ∨ s.kind = .grossPercentRet)
    (bal bal' : ℕ → Dict ℤ K) {l l' : List (Plannee K)} (hl : l ≠ []) (year year' : Option ℤ) (ret : ℤ)
    (hsame : List.Forall₂ (fun p p' : Plannee K => p'.accounts = p.accounts ∧
      (∀ a ∈ p.accounts, Dict.get? (bal' a) ret = Dict.get? (bal a) ret) ∧
      Dict.get? p'.netIncomeHistory ret = Dict.get? p.netIncomeHistory ret ∧
      Dict.get? p'.grossIncomeHistory ret = Dict.get? p.grossIncomeHistory ret) l l')
    {c c' x x' : K} (hc : s.adjust year (some ret) = .ok c)
    (hc' : s.adjust year' (some ret) = .ok c') (hpos : 0 < c) (hpos' : 0 < c')
    (h : call s bal (some l) year (some ret) = .ok x)
    (h' : call s bal' (some l') year' (some ret) = .ok x') : x' * c = x * c' := by
  have hl' : l' ≠ [] := by
    rintro rfl
    cases hsame
    exact hl rfl
  have fin : ∀ {b : K}, max (s.rate * b * c') 0 * c = max (s.rate * b * c) 0 * c' := by
    intro b
    rcases le_total 0 (s.rate * b) with hb | hb
    · rw [max_eq_left (mul_nonneg hb hpos.le), max_eq_left (mul_nonneg hb hpos'.le)]; ring
    · rw [max_eq_right (mul_nonpos_of_nonpos_of_nonneg hb hpos.le),
        max_eq_right (mul_nonpos_of_nonpos_of_nonneg hb hpos'.le)]; ring
  have hist : ∀ (b : Except PyErr K) (x x' : K),
      ((b >>= fun b => s.adjust year (some ret) >>= fun c => Except.ok (s.rate * b * c)).map
        (fun x => max x 0)) = .ok x →
      ((b >>= fun b => s.adjust year' (some ret) >>= fun c => Except.ok (s.rate * b * c)).map
        (fun x => max x 0)) = .ok x' → x' * c = x * c' := by
    intro b x x' h h'
    cases b with
    | error e => cases h
    | ok b =>
      simp only [ok_bind, hc, hc', Except.map, Except.ok.injEq] at h h'
      rw [← h, ← h']
      exact fin
  rw [call_eq s bal hl] at h
  rw [call_eq s bal' hl'] at h'
  have hat : ∀ d d' : Dict ℤ K, Dict.get? d' ret = Dict.get? d ret →
      atYear d' (some ret) = atYear d (some ret) := by
    intro d d' e; simp [atYear, e]
  rcases hk with hk | hk | hk
  · simp only [formula, hk] at h h'
    have hfm : l'.flatMap Plannee.accounts = l.flatMap Plannee.accounts := by
      clear h h' hl hl'
      induction hsame with
      | nil => rfl
      | cons hp _ ih => simp only [List.flatMap_cons, hp.1, ih]
    have hb : ∀ a ∈ l.flatMap Plannee.accounts, Dict.get? (bal' a) ret = Dict.get? (bal a) ret := by
      clear h h' hl hl' hfm
      induction hsame with
      | nil => simp
      | cons hp _ ih =>
        intro a ha
        rcases List.mem_append.mp (by simpa only [List.flatMap_cons] using ha) with ha | ha
        · exact hp.2.1 a ha
        · exact ih a ha
    rw [hfm, sumM_congr _ (fun a => atYear (bal a) (some ret)) _
      fun a ha => hat _ _ (hb a (List.mem_dedup.mp ha))] at h'
    exact hist _ x x' h h'
  · simp only [formula, hk, each, ok_bind] at h h'
    have e : sumM (fun p : Plannee K => atYear p.netIncomeHistory (some ret)) l' =
        sumM (fun p : Plannee K => atYear p.netIncomeHistory (some ret)) l := by
      clear h h' hl hl'
      induction hsame with
      | nil => rfl
      | cons hp _ ih => simp only [sumM, ih, hat _ _ hp.2.2.1]
    rw [e] at h'
    exact hist _ x x' h h'
  · simp only [formula, hk, each, ok_bind] at h h'
    have e : sumM (fun p : Plannee K => atYear p.grossIncomeHistory (some ret)) l' =
        sumM (fun p : Plannee K => atYear p.grossIncomeHistory (some ret)) l := by
      clear h h' hl hl'
      induction hsame with
      | nil => rfl
      | cons hp _ ih => simp only [sumM, ih, hat _ _ hp.2.2.2]
    rw [e] at h'
    exact hist _ x x' h h'

/-- **C40.** A schedule uses the working strategy up to and including the year of retirement (or as
long as no year or no retirement year is given) and the retirement strategy afterwards. -/
theorem C40_schedule_switches_after_retirement (w r : Plan K) (bal : ℕ → Dict ℤ K)
    (people : Option (List (Plannee K))) :
    (∀ ret, (Plan.schedule w r).call bal people none ret = w.call bal people none ret) ∧
    (∀ year, (Plan.schedule w r).call bal people year none = w.call bal people year none) ∧
    (∀ y t : ℤ, y ≤ t → (Plan.schedule w r).call bal people (some y) (some t) =
      w.call bal people (some y) (some t)) ∧
    (∀ y t : ℤ, t < y → (Plan.schedule w r).call bal people (some y) (some t) =
      r.call bal people (some y) (some t)) := by
  refine ⟨fun ret => ?_, fun year => ?_, fun y t h => ?_, fun y t h => ?_⟩
  · simp [Plan.call, retired]
  · cases year <;> simp [Plan.call, retired]
  · simp [Plan.call, retired, not_lt.mpr h]
  · simp [Plan.call, retired, h]

/-- **C40.** With a minimum, the result is the larger of what the schedule without it and the
minimum itself ask for: never less than the minimum, and never more than one of the two. -/
theorem C40_schedule_minimum (w r m : Plan K) (bal : ℕ → Dict ℤ K)
    (people : Option (List (Plannee K))) (year ret : Option ℤ) {x : K}
    (h : (Plan.scheduleMin w r m).call bal people year ret = .ok x) :
    ∃ a b, (Plan.schedule w r).call bal people year ret = .ok a ∧ m.call bal people year ret = .ok b ∧
      a ≤ x ∧ b ≤ x ∧ (x = a ∨ x = b) := by
  simp only [Plan.call] at h ⊢
  split at h
  · rename_i hr
    simp only [hr, if_true]
    cases hx : r.call bal people year ret with
    | error e => rw [hx] at h; cases h
    | ok a =>
      rw [hx] at h
      simp only [ok_bind] at h
      cases hy : m.call bal people year ret with
      | error e => rw [hy] at h; cases h
      | ok b =>
        rw [hy] at h; cases h
        exact ⟨a, b, rfl, rfl, le_max_left _ _, le_max_right _ _, max_choice a b⟩
  · rename_i hr
    simp only [hr]
    cases hx : w.call bal people year ret with
    | error e => rw [hx] at h; cases h
    | ok a =>
      rw [hx] at h
      simp only [ok_bind] at h
      cases hy : m.call bal people year ret with
      | error e => rw [hy] at h; cases h
      | ok b =>
        rw [hy] at h; cases h
        exact ⟨a, b, by simp, rfl, le_max_left _ _, le_max_right _ _, max_choice a b⟩

/-! ## C56: when a living expenses strategy cannot be evaluated -/

/-- **C56.** (The defects.) An empty set of people is always a `TypeError`, even for strategies that
do not look at people, and an account that has no balance recorded for the retirement year (e.g.
one opened later) makes the principal strategy fail with `KeyError`. -/
theorem C56_empty_family_fails (s : Strat K) (bal : ℕ → Dict ℤ K) (year ret : Option ℤ) :
    call s bal (some []) year ret = .error .typeError := rfl

theorem C56_account_opened_after_retirement (s : Strat K) (hk : s.kind = .principalPercentRet)
    (bal : ℕ → Dict ℤ K) (l : List (Plannee K)) (year : Option ℤ) (ret : ℤ) (p : Plannee K)
    (hp : p ∈ l) (a : ℕ) (ha : a ∈ p.accounts) (hnone : Dict.get? (bal a) ret = none) :
    call s bal (some l) year (some ret) = .error .keyError := by
  have hl : l ≠ [] := List.ne_nil_of_mem hp
  rw [call_eq s bal hl]
  simp only [formula, hk]
  rw [sumM_error _ _ (fun b _ e he => atYear_error _ _ e he) a
    (by simpa using ⟨p, hp, ha⟩) (by simp [atYear, hnone])]
  rfl

/-- **C56.** With at least one person, records of the retirement year for every person and account,
and a working inflation adjustment, every strategy returns a value. -/
theorem C56_otherwise_defined (s : Strat K) (bal : ℕ → Dict ℤ K) {l : List (Plannee K)}
    (hl : l ≠ []) (year : Option ℤ) (ret : ℤ) (hadj : ∀ b, ∃ c, s.adjust year b = .ok c)
    (hrec : ∀ p ∈ l, (Dict.get? p.netIncomeHistory ret).isSome ∧
      (Dict.get? p.grossIncomeHistory ret).isSome ∧
      ∀ a ∈ p.accounts, (Dict.get? (bal a) ret).isSome) :
    ∃ x, call s bal (some l) year (some ret) = .ok x := by
  have at_ok : ∀ d : Dict ℤ K, (Dict.get? d ret).isSome → atYear d (some ret) = .ok (Dict.val d ret) := by
    intro d hd
    obtain ⟨v, hv⟩ := Option.isSome_iff_exists.mp hd
    simp [atYear, hv, Dict.val]
  obtain ⟨c0, hc0⟩ := hadj none
  obtain ⟨c1, hc1⟩ := hadj (some ret)
  have h1 := sumM_ok (fun p : Plannee K => atYear p.netIncomeHistory (some ret)) _ l
    fun p hp => at_ok _ (hrec p hp).1
  have h2 := sumM_ok (fun p : Plannee K => atYear p.grossIncomeHistory (some ret)) _ l
    fun p hp => at_ok _ (hrec p hp).2.1
  have h3 := sumM_ok (fun a => atYear (bal a) (some ret)) _ (l.flatMap Plannee.accounts).dedup
    fun a ha => at_ok _ (by
      obtain ⟨p, hp, hap⟩ := List.mem_flatMap.mp (List.mem_dedup.mp ha)
      exact (hrec p hp).2.2 a hap)
  rw [call_eq s bal hl]
  cases hk : s.kind <;> simp [formula, hk, each, hc0, hc1, h1, h2, h3, Except.map]

/-- **C56.** A constructor accepts exactly the eight documented strategies, by key or by method. -/
theorem C56_constructor (arg : StrategyArg) (b r : K)
    (adj : Option (Option ℤ → Option ℤ → Except PyErr K)) :
    (∀ s, init arg b r adj = .ok s → arg = .str s.kind.key ∨ arg = .method s.kind.key) ∧
    (∀ k : Kind, ∃ s, init (.str k.key) b r adj = .ok s ∧ s.kind = k ∧ s.baseAmount = b ∧ s.rate = r) ∧
    init .other b r adj = .error .typeError := by
  refine ⟨fun s h => ?_, fun k => ?_, rfl⟩
  · have aux : ∀ key, (match Kind.all.find? (fun k => k.key == key) with
        | some k => (Except.ok ⟨k, b, r, adj.getD fun _ _ => .ok 1⟩ : Except PyErr (Strat K))
        | none => .error .valueError) = .ok s → s.kind.key = key := by
      intro key h
      split at h
      · rename_i k hk
        cases h
        simpa using List.find?_some hk
      · cases h
    cases arg with
    | other => cases h
    | str key =>
      left
      simp only [init, strategyInit] at h
      split at h
      · rw [aux key h]
      · cases h
    | method key =>
      right
      simp only [init, strategyInit] at h
      split at h
      · rw [aux key h]
      · cases h
  · cases k <;> exact ⟨_, rfl, rfl, rfl, rfl⟩

/-- **C56.** The documented names of the strategies. -/
theorem C56_names (b r : K) (adj : Option (Option ℤ → Option ℤ → Except PyErr K)) (name : String) :
    (∃ s, init (.str name) b r adj = .ok s) ↔ name ∈ ["Constant contribution",
      "Constant living expenses", "Percentage of net income", "Percentage of gross income",
      "Percentage of earnings growth", "Percentage of principal at retirement",
      "Percentage of net income at retirement", "Percentage of gross income at retirement"] := by
  constructor
  · rintro ⟨s, h⟩
    rcases (C56_constructor (.str name) b r adj).1 s h with h | h
    · cases h; cases s.kind <;> decide
    · cases h
  · intro h
    have key : ∀ k : Kind, ∃ s, init (.str k.key) b r adj = .ok s := fun k => by
      obtain ⟨s, hs, -⟩ := (C56_constructor (.str name) b r adj).2.1 k
      exact ⟨s, hs⟩
    simp only [List.mem_cons, List.not_mem_nil, or_false] at h
    rcases h with rfl | rfl | rfl | rfl | rfl | rfl | rfl | rfl
    · exact key .constContribution
    · exact key .constLivingExpenses
    · exact key .netPercent
    · exact key .grossPercent
    · exact key .percentOverBase
    · exact key .principalPercentRet
    · exact key .netPercentRet
    · exact key .grossPercentRet

/-! ## C41: debt priorities -/

section Priority

variable {D : Type}

/-- Specification: `out` is `l` put in order: every element exactly as often as before, any two in
the order `le` requires, and elements that are equally ranked stay in their original order. -/
structure Ordered (key : D → K) (le : K → K → Prop) (l out : List D) : Prop where
  perm : out.Perm l
  sorted : out.Pairwise fun a b => le (key a) (key b)
  stable : ∀ k, out.filter (fun d => decide (key d = k)) = l.filter (fun d => decide (key d = k))

theorem sortedBy_ordered (key : D → K) (l : List D) : Ordered key (· ≤ ·) l (sortedBy key l) := by
  have : Std.Total (fun a b : D => key a ≤ key b) := ⟨fun a b => le_total (key a) (key b)⟩
  have : IsTrans D (fun a b : D => key a ≤ key b) := ⟨fun a b c h1 h2 => le_trans h1 h2⟩
  have hp : (sortedBy key l).Perm l := List.perm_insertionSort _ l
  refine ⟨hp, List.pairwise_insertionSort _ l, fun k => ?_⟩
  have hpw : (l.filter fun d => decide (key d = k)).Pairwise (fun a b => key a ≤ key b) := by
    rw [List.pairwise_iff_forall_sublist]
    intro a b hab
    have ha := hab.subset (show a ∈ [a, b] by simp)
    have hb := hab.subset (show b ∈ [a, b] by simp)
    simp only [List.mem_filter, decide_eq_true_eq] at ha hb
    simp [ha.2, hb.2]
  have hsub := List.sublist_insertionSort hpw List.filter_sublist
  have hsub2 := hsub.filter (fun d => decide (key d = k))
  rw [List.filter_filter] at hsub2
  simp only [Bool.and_self] at hsub2
  symm
  refine hsub2.eq_of_length ?_
  exact (hp.filter _).length_eq.symm

theorem sortedByDesc_ordered (key : D → K) (l : List D) :
    Ordered key (· ≥ ·) l (sortedByDesc key l) := by
  have h := sortedBy_ordered key l.reverse
  refine ⟨?_, ?_, fun k => ?_⟩
  · exact (List.reverse_perm _).trans (h.perm.trans (List.reverse_perm l))
  · simp only [sortedByDesc, List.pairwise_reverse]
    exact h.sorted
  · simp only [sortedByDesc, List.filter_reverse]
    rw [h.stable k, List.filter_reverse, List.reverse_reverse]

/-- **C41.** The avalanche order contains every debt exactly once, highest rate first; debts with
the same rate stay in the order they were given. -/
theorem C41_avalanche (rate : D → K) (debts : List D) :
    Ordered rate (· ≥ ·) debts (avalanchePriority rate debts) := sortedByDesc_ordered rate debts

/-- **C41.** The snowball order contains every debt exactly once, smallest amount owed first
(balances of debts are negative, their size counts); equal ones stay in the order given. -/
theorem C41_snowball (balance : D → K) (debts : List D) :
    Ordered (fun d => |balance d|) (· ≤ ·) debts (snowballPriority balance debts) :=
  sortedBy_ordered _ debts

/-- **C41.** That description determines the result: there is only one list in that order. -/
theorem C41_the_order_is_unique (key : D → K) (le : K → K → Prop) [Std.Antisymm le] (l out out' : List D)
    (h : Ordered key le l out) (h' : Ordered key le l out') : out = out' := by
  have hp : out.Perm out' := h.perm.trans h'.perm.symm
  have hs : ∀ k, out.filter (fun d => decide (key d = k)) = out'.filter (fun d => decide (key d = k)) :=
    fun k => (h.stable k).trans (h'.stable k).symm
  have h1 := h.sorted
  have h2 := h'.sorted
  clear h h'
  induction out generalizing out' with
  | nil => exact hp.nil_eq
  | cons a out ih =>
    cases out' with
    | nil => exact absurd hp.symm.nil_eq (by simp)
    | cons b out' =>
      have hk : key a = key b := by
        have ha : a ∈ b :: out' := hp.subset (by simp)
        have hb : b ∈ a :: out := hp.symm.subset (by simp)
        rcases List.mem_cons.mp ha with rfl | ha
        · rfl
        · rcases List.mem_cons.mp hb with rfl | hb
          · rfl
          · exact Std.Antisymm.antisymm _ _ ((List.pairwise_cons.mp h1).1 b hb) ((List.pairwise_cons.mp h2).1 a ha)
      have := hs (key a)
      simp only [hk, List.filter_cons, decide_true, if_true] at this
      injection this with e1 _
      subst e1
      congr 1
      refine ih out' hp.cons_inv (fun k => ?_) (List.pairwise_cons.mp h1).2 (List.pairwise_cons.mp h2).2
      have := hs k
      simp only [List.filter_cons] at this
      split at this
      · injection this
      · exact this

end Priority

/-! ## Examples -/

/-- Two people with a joint account 0. -/
def exPeople : List (Plannee ℚ) :=
  [⟨50, 70, [(2020, 40)], [(2020, 60)], [0, 1]⟩, ⟨30, 35, [(2020, 20)], [(2020, 25)], [0]⟩]
def exBalances : ℕ → Dict ℤ ℚ := fun a => if a = 0 then [(2020, 1000), (2021, 900)] else [(2020, 500)]
/-- 10% inflation from 2020 on. -/
def exAdjust : Option ℤ → Option ℤ → Except PyErr ℚ := fun y _ => .ok (if y = some 2021 then 11/10 else 1)

example : call ⟨.constContribution, 20, 0, exAdjust⟩ exBalances (some exPeople) (some 2021) none = .ok 58 := by
  decide +kernel
example : call ⟨.constContribution, 200, 0, exAdjust⟩ exBalances (some exPeople) (some 2021) none = .ok 0 := by
  decide +kernel
example : call ⟨.constLivingExpenses, 20, 0, exAdjust⟩ exBalances (some exPeople) (some 2021) none = .ok 22 := by
  decide +kernel
example : call ⟨.netPercent, 0, 1/2, exAdjust⟩ exBalances (some exPeople) (some 2021) none = .ok 40 := by
  decide +kernel
example : call ⟨.percentOverBase, 50, 1/5, exAdjust⟩ exBalances (some exPeople) (some 2021) none = .ok 60 := by
  decide +kernel
-- 4% of 1500, with inflation: the joint account counts once
example : call ⟨.principalPercentRet, 0, 1/25, exAdjust⟩ exBalances (some exPeople) (some 2021) (some 2020) =
    .ok 66 := by decide +kernel
-- account 1 has no balance in 2021
example : call ⟨.principalPercentRet, 0, 1/25, exAdjust⟩ exBalances (some exPeople) (some 2022) (some 2021) =
    .error .keyError := by decide +kernel
example : (Plan.scheduleMin (.strategy ⟨.netPercent, 0, 1/2, exAdjust⟩)
    (.strategy ⟨.principalPercentRet, 0, 1/25, exAdjust⟩) (.strategy ⟨.constLivingExpenses, 70, 0, exAdjust⟩)).call
      exBalances (some exPeople) (some 2021) (some 2020) = .ok 77 := by decide +kernel
example : (Plan.schedule (.strategy ⟨.netPercent, 0, 1/2, exAdjust⟩)
    (.strategy ⟨.principalPercentRet, 0, 1/25, exAdjust⟩)).call
      exBalances (some exPeople) (some 2020) (some 2020) = .ok 40 := by decide +kernel
example : Percentage Kind.netPercentRet := by simp [Percentage]
-- stability: debts 1 and 3 have the same rate
example : avalanchePriority (fun d : ℕ => if d = 2 then (1/10 : ℚ) else 1/20) [1, 2, 3] = [2, 1, 3] := by
  decide +kernel
example : snowballPriority (fun d : ℕ => (-(d : ℚ))) [3, 1, 2] = [1, 2, 3] := by decide +kernel

end Forecaster.Expenses
